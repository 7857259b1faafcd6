import Verif.Props.TemplateErrors
import Verif.Props.FixModeExamples
/- C99: a template without its variable, and the expression `a` in `f(*a)`. -/
namespace Refex
set_option autoImplicit false

theorem mdWords : WordTokens mdPy := by
  intro s toks h u hu hv
  have h : mdTokens s = some toks := h
  unfold mdTokens at h
  have key : ∀ l : List PTok, (l.all fun u => !isVariable u.string || decide (u.kind = .other)) = true → u ∈ l → u.kind = .other := by
    intro l hl hul
    have := List.all_eq_true.1 hl u hul
    rw [hv] at this
    simpa using this
  split at h
  · cases h; exact key (mdPat ++ [mdEnd]) (by decide +kernel) hu
  · split at h
    · cases h; exact key (mdTpl ++ [mdEnd]) (by decide +kernel) hu
    · cases h

/-- `f($x)` without a match `x`: a KeyError. -/
theorem mdUnbound : mdTemplate.substituteMatch mdPy.depth mdPy.env none .bare [] = .error .keyError := by
  have h : (match mdTemplate.substituteMatch mdPy.depth mdPy.env none .bare [] with
    | .error .keyError => true
    | _ => false) = true := by decide +kernel
  generalize mdTemplate.substituteMatch mdPy.depth mdPy.env none .bare [] = o at h ⊢
  split at h
  · rfl
  · cases h

example : Raises mdPy mdTemplate none [] .bare [] .keyError :=
  C99_raises mdFits mdWords mdPyTemplate (by decide) (fun _ _ _ h => by cases h) (by simp [Dict.WF, Dict.keys]) (fun x _ _ _ _ h => by cases h) mdUnbound

/-- `f(*a)` -/
def stFile : Ctx := { exCtx with
  text := str "f(*a)"
  tree := mdModule (mdCall 10 (.node 20 (str "Starred") [str "value", str "ctx"] [exNameAt 30 (str "a"), .node 40 (str "Load") [] []]))
  tok := fun i => if i = 3 then some (0, 5) else if i = 10 then some (0, 5) else if i = 11 then some (0, 1) else if i = 20 then some (2, 4) else if i = 30 then some (3, 4) else none }

/-- Just enough of Python: `a` and `b` are names, `(*gensym_current_expr)` does not parse. -/
def stPy : Python := {
  mdPy with
  tokens := fxTokens
  parse := fun s => if s = str "a" then some (mdModule (exNameAt 20 (str "a"))) else if s = str "b" then some (mdModule (exNameAt 20 (str "b"))) else none
  file := fun s => if s = str "f(*a)" then some stFile else if s = str "b" then some { exCtx with text := s, tree := mdModule (exNameAt 20 (str "b")), tok := fun _ => none } else none
  isExpr := fun v => v.isNode && decide (v.ty ∈ [str "BinOp", str "Call", str "Name", str "Starred"]) }

/-- The template `b`. -/
def stTemplate : PyTemplate := match stPy.pyTemplate .expr (str "b") with | .ok t => t | .error _ => mdTemplate
/-- The pattern `a`. -/
def stMatcher : Matcher := match stPy.pattern .expr (str "a") with | .ok m => m | .error _ => .anything

theorem stMade : stPy.pyTemplate .expr (str "b") = .ok stTemplate := rfl
theorem stPattern : stPy.pattern .expr (str "a") = .ok stMatcher := rfl

theorem stFits : FitsInto stPy.env stFile [0, 0, 0, 1, 0, 0] (.node 20 (str "Starred") [str "value", str "ctx"] [exNameAt 30 (str "a"), .node 40 (str "Load") [] []]) (2, 4) := by
  refine ⟨5, by decide, rfl, ⟨.inl rfl, _, .node (sp := (2, 4)) rfl (by decide) (by decide), .lexical ..⟩, fun h => ?_, fun j h1 h2 => ?_⟩
  · have := (hasBody_iff ..).2 h
    cases this
  · simp at h2; omega

/-- No template can replace `a` in `f(*a)`: the search of the file ends with a ValueError. -/
example : (∀ r, stTemplate.substituteMatch stPy.depth stPy.env (some stFile) (.lexical (exNameAt 30 (str "a")) (3, 4)) [] ≠ .ok r) ∧
    (∀ r, stTemplate.substituteMatch stPy.depth stPy.env none (.lexical (exNameAt 30 (str "a")) (3, 4)) [] = .ok r →
      stTemplate.substituteMatch stPy.depth stPy.env (some stFile) (.lexical (exNameAt 30 (str "a")) (3, 4)) [] = .error .valueError) := by
  refine C99_surroundings (p := [0, 0, 0, 1, 0, 0]) (unshared_of_check (tree := stFile.tree) (by decide +kernel)) rfl (by intro i c h; cases h) rfl ?_ stFits ?_
  · rintro ⟨v, _, h1, h2⟩
    have h1 : stFile.tree.at? [0, 0, 0, 1, 0] = some v := h1
    have : v = .node 20 (str "Starred") [str "value", str "ctx"] [exNameAt 30 (str "a"), .node 40 (str "Load") [] []] := (Option.some.inj h1).symm
    subst this
    exact absurd h2 (by decide)
  · intro pre post h t ht
    have hpre : pre ++ str "$current_expr" ++ post = str "(*$current_expr)" := by
      cases h with
      | expr _ => decide +kernel
      | other h => cases h
    rw [hpre] at ht
    have : (match stPy.pyTemplate .module (str "(*$current_expr)") with | .ok _ => false | .error _ => true) = true := by decide +kernel
    rw [ht] at this
    cases this

/-- **C99** (a finding): `refex --mode=py.expr a --sub=b` on the file `f(*a)` does not skip the match, and does not rewrite it either: the search of the
whole file ends with a ValueError. -/
theorem C99_starred_false : ∃ r, stTemplate.substituteMatch stPy.depth stPy.env none (.lexical (exNameAt 30 (str "a")) (3, 4)) [] = .ok r ∧
    (stPy.searcher stMatcher [(str "__root", stTemplate.code stPy)]).find ⟨str "f(*a)", [], []⟩ = .error .valueError := by
  refine ⟨str "b", ?_, ?_⟩
  · have h : (match stTemplate.substituteMatch stPy.depth stPy.env none (.lexical (exNameAt 30 (str "a")) (3, 4)) [] with
      | .ok r => decide (r = str "b")
      | _ => false) = true := by decide +kernel
    generalize stTemplate.substituteMatch stPy.depth stPy.env none (.lexical (exNameAt 30 (str "a")) (3, 4)) [] = o at h ⊢
    split at h
    · exact congrArg Except.ok (of_decide_eq_true h)
    · cases h
  · have h : (match (stPy.searcher stMatcher [(str "__root", stTemplate.code stPy)]).find ⟨str "f(*a)", [], []⟩ with
      | .error .valueError => true
      | _ => false) = true := by decide +kernel
    generalize (stPy.searcher stMatcher [(str "__root", stTemplate.code stPy)]).find ⟨str "f(*a)", [], []⟩ = o at h ⊢
    split at h
    · rfl
    · cases h

end Refex
