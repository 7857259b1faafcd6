import Verif.Props.FixErrors
import Verif.Props.FixModeExamples
import Verif.Props.TemplateErrorsExamples
/- C97: `refex --mode=fix idiom` on the file `f(*[a for a in b])` ends with a ValueError. -/
namespace Refex
set_option autoImplicit false

/-! ### A grammar with `*` -/

/-- The types of the grammar, with those of starred expressions and of variables that are assigned to. -/
def xsTypes : List (Str × List (Str × Bool)) := codeTypes ++ [(str "Starred", [(str "value", false), (str "ctx", false)]), (str "Store", [])]

/-- The grammar. -/
def xsGrammar : Grammar where
  nodeType ty := ty ∈ xsTypes.map Prod.fst
  fields ty := match xsTypes.find? (fun e => decide (e.1 = ty)) with
    | some e => e.2
    | none => []

theorem xsGrammar_ok : PythonGrammar xsGrammar := by
  constructor
  · show ∀ e ∈ codeTypes, e.1 ∈ xsTypes.map Prod.fst ∧ xsGrammar.fields e.1 = e.2
    decide
  · show ∀ t ∈ [str "str", str "int", str "NoneType", str "list"], ¬ t ∈ xsTypes.map Prod.fst
    decide

theorem xsModules : HasModules xsGrammar where
  list := by show ¬ str "list" ∈ xsTypes.map Prod.fst; decide
  module := by show str "Module" ∈ xsTypes.map Prod.fst; decide
  moduleFields := by decide
  expr := by show str "Expr" ∈ xsTypes.map Prod.fst; decide
  exprFields := by decide

mutual
/-- A check of the grammar. -/
def xsCheck : Bool → Val → Bool
  | b, .const i c => !b && decide ((Val.const i c).ty ∉ xsTypes.map Prod.fst)
  | b, .list _ vs => b && xsChecks (vs.map fun _ => false) vs
  | b, .node _ t ns vs => !b && decide (t ∈ xsTypes.map Prod.fst) && decide (ns = (xsGrammar.fields t).map Prod.fst) && decide ns.Nodup &&
      decide (vs.length = ns.length) && xsChecks ((xsGrammar.fields t).map Prod.snd) vs
/-- One after the other. -/
def xsChecks : List Bool → List Val → Bool
  | [], _ => true
  | _, [] => true
  | b :: bs, v :: vs => xsCheck b v && xsChecks bs vs
end

mutual
theorem xs_of_check : ∀ (b : Bool) (v : Val), xsCheck b v = true → Parsed xsGrammar b v
  | b, .const i c, h => by
    rw [xsCheck] at h
    simp only [Bool.and_eq_true, Bool.not_eq_true', decide_eq_true_eq] at h
    rw [h.1]
    exact .const h.2
  | b, .list i vs, h => by
    rw [xsCheck] at h
    simp only [Bool.and_eq_true] at h
    rw [h.1]
    refine .list fun v hv => ?_
    obtain ⟨k, hk⟩ := List.mem_iff_getElem?.1 hv
    exact xs_of_checks _ vs h.2 k false v (by rw [List.getElem?_map, hk]; rfl) hk
  | b, .node i t ns vs, h => by
    rw [xsCheck] at h
    simp only [Bool.and_eq_true, Bool.not_eq_true', decide_eq_true_eq] at h
    obtain ⟨⟨⟨⟨⟨h1, h2⟩, h3⟩, h4⟩, h5⟩, h6⟩ := h
    rw [h1]
    exact .node h2 h3 h4 h5 fun k f v hf hv => xs_of_checks _ vs h6 k f.2 v (by rw [List.getElem?_map, hf]; rfl) hv
theorem xs_of_checks : ∀ (bs : List Bool) (vs : List Val), xsChecks bs vs = true → ∀ (k : Nat) b v, bs[k]? = some b → vs[k]? = some v → Parsed xsGrammar b v
  | [], _, _, k, b, v, hb, _ => by simp at hb
  | _ :: _, [], _, k, b, v, _, hv => by simp at hv
  | b' :: bs, v' :: vs, h, k, b, v, hb, hv => by
    rw [xsChecks, Bool.and_eq_true] at h
    match k with
    | 0 => simp at hb hv; subst hb hv; exact xs_of_check _ _ h.1
    | k + 1 => exact xs_of_checks bs vs h.2 k b v (by simpa using hb) (by simpa using hv)
end

/-! ### A bit of Python -/

/-- `[a for a in b]` -/
def xsComp : Val := .node 30 (str "ListComp") [str "elt", str "generators"]
  [exNameAt 40 (str "a"), .list 50 [.node 51 (str "comprehension") [str "target", str "iter", str "ifs", str "is_async"]
    [.node 60 (str "Name") [str "id", str "ctx"] [.const 61 (.str (str "a")), .node 62 (str "Store") [] []], exNameAt 70 (str "b"), .list 80 [], .const 81 (.int 0)]]]

/-- `f(*[a for a in b])` -/
def xsTree : Val := mdModule (mdCall 10 (.node 20 (str "Starred") [str "value", str "ctx"] [xsComp, .node 21 (str "Load") [] []]))

/-- The file. -/
def xsFile : Ctx := { brCtx (str "f(*[a for a in b])") xsTree with
  tok := fun i => if i = 3 then some (0, 18) else if i = 10 then some (0, 18) else if i = 11 then some (0, 1) else if i = 20 then some (2, 17)
    else if i = 30 then some (3, 17) else if i = 40 then some (4, 5) else if i = 60 then some (10, 11) else if i = 70 then some (15, 16) else none }

/-- `list(b)` -/
def xsList (x : Val) : Val := mdModule (.node 20 (str "Call") [str "func", str "args", str "keywords"] [exNameAt 21 (str "list"), .list 25 [x], .list 26 []])

/-- A tuple of the words in a text. -/
def xsWords (s : Str) : Val := mdModule (.node 10 (str "Tuple") [str "elts", str "ctx"] [.list 11 ((fxScan 0 [] s).map fun p => exNameAt (10 * p.1 + 20) p.2), .node 12 (str "Load") [] []])

/-- A parser: it knows `list(gensym_b)`, and that `(*gensym_current_expr)` is no Python, and reads everything else as a tuple of the words in it. -/
def xsParse (s : Str) : Option Val :=
  if s = str "(*gensym_current_expr)" then none
  else if s = str "list(gensym_b)" then some (xsList (exNameAt 30 (str "gensym_b")))
  else some (xsWords s)

/-- Just enough of Python. -/
def xsPy : Python := Python.withFixers {
  mdPy with
  tokens := fxTokens
  parse := xsParse
  file := fun s => if s = str "f(*[a for a in b])" then some xsFile
    else if s = str "list(b)" ∨ s = str "list((b))" then some { brCtx s (xsList (exNameAt 30 (str "b"))) with tok := fun _ => none }
    else none
  isExpr := fun v => v.isNode && decide (v.ty ∈ [str "BinOp", str "Call", str "Name", str "Starred", str "ListComp"])
  depth := 58 } exMangle (fun _ => [])

theorem xsFixer : xsPy.fixer = xsPy.builtinFixer exMangle (fun _ => []) := withFixers_fixer _ _ _

/-- What the searcher of a group does with a text. -/
def fixFind (py : Python) (group text : Str) : Except Exc (List Substitution) :=
  match py.factory (str "fix") (some group) [] with
  | .error _ => .ok []
  | .ok s => s.find ⟨text, [], py.pragmas text⟩

theorem xsRaises : (match fixFind xsPy (str "idiom") (str "f(*[a for a in b])") with
  | .error .valueError => true
  | _ => false) = true := by decide +kernel

theorem xsTokensFit : TokensFit xsPy := ⟨fxTokensFit.ends, fxTokensFit.rules, fxTokensFit.logging⟩

theorem fxWords {toks : List PTok} {s : Str} (h : fxTokens s = some toks) : ∀ u ∈ toks, isVariable u.string = true → u.kind = .other := by
  intro u hu hv
  unfold fxTokens at h
  cases h
  rw [List.mem_append, List.mem_map, List.mem_singleton] at hu
  rcases hu with ⟨p, _, rfl⟩ | rfl
  · simp only at hv ⊢
    split
    · rename_i h
      rw [h] at hv
      revert hv; decide
    · rfl
  · revert hv; decide

theorem xsWordTokens : WordTokens xsPy := fun s _ h => fxWords (s := s) h

theorem xsName_parsed (i : Nat) (s : Str) : Parsed xsGrammar false (exNameAt i s) := by
  refine .node (by show str "Name" ∈ xsTypes.map Prod.fst; decide) (by decide) (by decide) rfl fun k f v hf hv => ?_
  have hfields : xsGrammar.fields (str "Name") = [(str "id", false), (str "ctx", false)] := by decide
  rw [hfields] at hf
  match k with
  | 0 => cases hf; cases hv; exact .const (by show ¬ str "str" ∈ xsTypes.map Prod.fst; decide)
  | 1 => cases hf; cases hv; exact xs_of_check false (.node (i + 2) (str "Load") [] []) (by show (_ : Bool) = true; simp only [xsCheck]; decide)
  | k + 2 => cases hf

theorem xsExpr_parsed {e : Val} (h : Parsed xsGrammar false e) : Parsed xsGrammar false (.node 3 (str "Expr") [str "value"] [e]) := by
  refine .node (by show str "Expr" ∈ xsTypes.map Prod.fst; decide) (by decide) (by decide) rfl fun k f v hf hv => ?_
  have hfields : xsGrammar.fields (str "Expr") = [(str "value", false)] := by decide
  rw [hfields] at hf
  match k with
  | 0 => cases hf; cases hv; exact h
  | k + 1 => cases hf

theorem xsModule_parsed {e : Val} (h : Parsed xsGrammar false e) : Parsed xsGrammar false (mdModule e) := by
  refine .node (by show str "Module" ∈ xsTypes.map Prod.fst; decide) (by decide) (by decide) rfl fun k f v hf hv => ?_
  have hfields : xsGrammar.fields (str "Module") = [(str "body", true), (str "type_ignores", true)] := by decide
  rw [hfields] at hf
  match k with
  | 0 => cases hf; cases hv; exact .list fun v hv => by rw [List.mem_singleton.1 hv]; exact xsExpr_parsed h
  | 1 => cases hf; cases hv; exact .list fun v hv => by cases hv
  | k + 2 => cases hf

theorem xsTuple_parsed (l : List (Nat × Str)) :
    Parsed xsGrammar false (.node 10 (str "Tuple") [str "elts", str "ctx"] [.list 11 (l.map fun p => exNameAt (10 * p.1 + 20) p.2), .node 12 (str "Load") [] []]) := by
  refine .node (by show str "Tuple" ∈ xsTypes.map Prod.fst; decide) (by decide) (by decide) rfl fun k f v hf hv => ?_
  have hfields : xsGrammar.fields (str "Tuple") = [(str "elts", true), (str "ctx", false)] := by decide
  rw [hfields] at hf
  match k with
  | 0 =>
    cases hf; cases hv
    refine .list fun v hv => ?_
    obtain ⟨p, _, rfl⟩ := List.mem_map.1 hv
    exact xsName_parsed ..
  | 1 => cases hf; cases hv; exact xs_of_check false _ (by decide +kernel)
  | k + 2 => cases hf

theorem xsTuple_syntactic (l : List (Nat × Str)) :
    Syntactic (.node 10 (str "Tuple") [str "elts", str "ctx"] [.list 11 (l.map fun p => exNameAt (10 * p.1 + 20) p.2), .node 12 (str "Load") [] []]) := by
  refine syntactic_of (fun w hw => ?_) (by intro i vs e; cases e) (fun _ h => absurd h (by show ¬ str "Tuple" = str "Name"; decide))
  simp only [Val.children, List.mem_cons, List.not_mem_nil, or_false] at hw
  rcases hw with rfl | rfl
  · refine syntactic_of (fun w hw => ?_) (fun i vs e w hw => ?_) (by intro h; cases h)
    · obtain ⟨p, _, rfl⟩ := List.mem_map.1 hw
      exact mdName_syntactic ..
    · cases e
      obtain ⟨p, _, rfl⟩ := List.mem_map.1 hw
      rfl
  · exact syntactic_leaf rfl rfl

theorem xsListCall_syntactic (i : Nat) (s : Str) :
    Syntactic (.node 20 (str "Call") [str "func", str "args", str "keywords"] [exNameAt 21 (str "list"), .list 25 [exNameAt i s], .list 26 []]) := by
  refine syntactic_of (fun w hw => ?_) (by intro i vs e; cases e) (fun _ h => absurd h (by show ¬ str "Call" = str "Name"; decide))
  simp only [Val.children, List.mem_cons, List.not_mem_nil, or_false] at hw
  rcases hw with rfl | rfl | rfl
  · exact mdName_syntactic ..
  · refine syntactic_of (fun w hw => ?_) (fun i vs e w hw => ?_) (by intro h; cases h)
    · rw [List.mem_singleton.1 hw]; exact mdName_syntactic ..
    · cases e; rw [List.mem_singleton.1 hw]; rfl
  · exact syntactic_of (fun w hw => (by cases hw)) (fun i vs e w hw => (by cases e; cases hw)) (by intro h; cases h)

theorem xsFile_cases {s : Str} {c : Ctx} (h : xsPy.file s = some c) :
    c.text = s ∧ c.tree = xsTree ∧ c = xsFile ∨ ∃ tok, c = { brCtx s (xsList (exNameAt 30 (str "b"))) with tok := tok } := by
  have h : (if s = str "f(*[a for a in b])" then some xsFile
    else if s = str "list(b)" ∨ s = str "list((b))" then some { brCtx s (xsList (exNameAt 30 (str "b"))) with tok := fun _ => none }
    else none) = some c := h
  split at h
  · rename_i hs; cases h; exact .inl ⟨hs.symm, rfl, rfl⟩
  split at h
  · cases h; exact .inr ⟨_, rfl⟩
  · cases h

theorem xsFits : PythonFits xsGrammar xsPy where
  modules := xsModules
  tokens := fxTokensFit.ends
  parse := by
    intro s tree h
    have h : xsParse s = some tree := h
    unfold xsParse at h
    split at h
    · cases h
    split at h
    · cases h; exact mdModule_parser (xsListCall_syntactic ..)
    · cases h; exact mdModule_parser (xsTuple_syntactic _)
  grammar := by
    intro s tree t kind h hi
    have h : xsParse s = some tree := h
    have hsub : ∃ e, tree = mdModule e ∧ Parsed xsGrammar false e := by
      unfold xsParse at h
      split at h
      · cases h
      split at h
      · cases h; exact ⟨_, rfl, xs_of_check _ _ (by decide +kernel)⟩
      · cases h; exact ⟨_, rfl, xsTuple_parsed _⟩
    obtain ⟨e, rfl, h1⟩ := hsub
    cases hi with
    | module => exact xsModule_parsed h1
    | expr _ hb _ hv =>
      obtain ⟨_, _, _, _, hx, hl⟩ := hb
      cases hx; cases hl
      obtain ⟨_, _, _, _, hx, hl⟩ := hv
      cases hx; cases hl
      exact h1
    | stmt _ hb =>
      obtain ⟨_, _, _, _, hx, hl⟩ := hb
      cases hx; cases hl
      exact xsExpr_parsed h1
  iter := fun l => .refl l
  file := by
    intro s c h
    rcases xsFile_cases h with ⟨h1, h2, rfl⟩ | ⟨tok, rfl⟩
    · exact ⟨h1, xs_of_check false xsTree (by decide +kernel), rfl⟩
    · exact ⟨rfl, xs_of_check false (xsList (exNameAt 30 (str "b"))) (by decide +kernel), rfl⟩
  expr := by
    intro v h
    have h : (v.isNode && decide (v.ty ∈ [str "BinOp", str "Call", str "Name", str "Starred", str "ListComp"])) = true := h
    rw [Bool.and_eq_true] at h
    exact h.1

theorem xsFile_python : ∀ s c, xsPy.file s = some c → ∃ ss, PythonFile exMangle (fun ch => ch.isDigit = true) xsGrammar ss c := by
  intro s c h
  rcases xsFile_cases h with ⟨h1, h2, rfl⟩ | ⟨tok, rfl⟩
  · exact ⟨[.other], {
      grammar := xsGrammar_ok
      parsed := xs_of_check false xsTree (by decide +kernel)
      file := .mk (.cons (.other (by decide) (by decide)) .nil)
      unshared := unshared_of_check (tree := xsTree) (by decide +kernel)
      names := pythonNames_of_check (tree := xsTree) (by decide +kernel)
      regex := ⟨(brCtx_regex _ bsModule).1, (brCtx_regex _ bsModule).2, ⟨rfl, rfl⟩⟩
      mangles := fun r hr => (exMangle_rules r hr).1
      argument := by decide }⟩
  · exact ⟨[.other], {
      grammar := xsGrammar_ok
      parsed := xs_of_check false (xsList (exNameAt 30 (str "b"))) (by decide +kernel)
      file := .mk (.cons (.other (by decide) (by decide)) .nil)
      unshared := unshared_of_check (tree := xsList (exNameAt 30 (str "b"))) (by decide +kernel)
      names := pythonNames_of_check (tree := xsList (exNameAt 30 (str "b"))) (by decide +kernel)
      regex := ⟨(brCtx_regex s bsModule).1, (brCtx_regex s bsModule).2, ⟨rfl, rfl⟩⟩
      mangles := fun r hr => (exMangle_rules r hr).1
      argument := by decide }⟩

/-- Whether the nodes that fixers look for have places. -/
def locatedCheck (c : Ctx) : Bool := (allPos c.tree).all fun a => match a.2 with
  | .node i t _ _ => !decide (t ∈ fixerTypes) || (c.tok i).isSome
  | _ => true

theorem located_of_check {c : Ctx} (h : locatedCheck c = true) : NodesLocated c := by
  intro p i t ns vs hp ht
  have := List.all_eq_true.1 h _ (mem_allPos _ _ _ hp)
  simp only [ht, decide_true, Bool.not_true, Bool.false_or] at this
  exact Option.isSome_iff_exists.1 this

/-- **C97** (a finding): `refex --mode=fix idiom` on the file `f(*[a for a in b])`, where `[a for a in b]` is to become `list(b)`: the search ends with a
ValueError, and it is because `(*$current_expr)` cannot be made a template that it does. All that C97_exceptions assumes holds. -/
theorem C97_starred_false : ∃ s fs e ss p v F mi ms, xsPy.factory (str "fix") (some (str "idiom")) [] = .ok s ∧ FixGroup exMangle (str "idiom") fs ∧
    s.find ⟨str "f(*[a for a in b])", [], []⟩ = .error .valueError ∧ e = .valueError ∧ Site exMangle (fun ch => ch.isDigit = true) xsFile ss fs p ∧
    FirstApplies exMangle (fun ch => ch.isDigit = true) xsFile ss fs p v F ∧ FixRaises xsPy exMangle xsFile p F mi ms e := by
  have hraise := xsRaises
  unfold fixFind at hraise
  cases hs : xsPy.factory (str "fix") (some (str "idiom")) [] with
  | error e => rw [hs] at hraise; cases hraise
  | ok s =>
    rw [hs] at hraise
    simp only at hraise
    obtain ⟨name, fs, h1, h2, h3⟩ := C97_exceptions xsFits xsWordTokens xsFixer xsTokensFit xsFile_python (by decide) hs
    cases h1
    rcases h3 (str "f(*[a for a in b])") [] xsFile rfl (located_of_check (by decide +kernel)) with ⟨subs, hok⟩ | ⟨e, ss, p, v, F, mi, ms, he, _, k1, _, k2, _, _, k3⟩
    · rw [hok] at hraise; cases hraise
    · have : e = .valueError := by
        rw [he] at hraise
        generalize e = e' at hraise
        cases e' <;> first | rfl | cases hraise
      subst this
      exact ⟨s, fs, _, ss, p, v, F, mi, ms, rfl, h2, he, rfl, k1, k2, k3⟩

end Refex
