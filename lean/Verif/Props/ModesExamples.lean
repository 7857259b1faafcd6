import Verif.Props.ModesTemplate
import Verif.Props.BuiltinSearchExamples
/- C93: a search for `$x % $x`, to be replaced by `f($x)`, in the file `a % a`. -/
namespace Refex
set_option autoImplicit false

/-! ### A bit of Python -/

/-- `l % r` -/
def mdMod (i : Nat) (l r : Val) : Val := .node i (str "BinOp") [str "left", str "op", str "right"] [l, .node (i + 1) (str "Mod") [] [], r]
/-- `f(x)` -/
def mdCall (i : Nat) (x : Val) : Val :=
  .node i (str "Call") [str "func", str "args", str "keywords"] [exNameAt (i + 1) (str "f"), .list (i + 5) [x], .list (i + 6) []]
/-- The file with this expression. -/
def mdModule (e : Val) : Val := .node 1 (str "Module") [str "body", str "type_ignores"]
  [.list 2 [.node 3 (str "Expr") [str "value"] [e]], .list 4 []]

theorem mdName_syntactic (i : Nat) (s : Str) : Syntactic (exNameAt i s) := by
  refine syntactic_of (fun w hw => ?_) (by intro i vs e; cases e) (fun _ _ w hw p u hu => ?_)
  · simp only [exNameAt, Val.children, List.mem_cons, List.not_mem_nil, or_false] at hw
    rcases hw with rfl | rfl <;> exact syntactic_leaf rfl rfl
  · simp only [exNameAt, Val.children, List.mem_cons, List.not_mem_nil, or_false] at hw
    rcases hw with rfl | rfl
    · rw [at?_leaf rfl hu]; exact (by decide : str "str" ≠ str "Name")
    · rw [at?_leaf rfl hu]; exact (by decide : str "Load" ≠ str "Name")

theorem mdModule_parser {e : Val} (he : Syntactic e) : ParserTree (mdModule e) := by
  refine ⟨?_, rfl, ⟨2, _, ⟨1, _, _, _, rfl, rfl⟩, fun s hs => ?_⟩, fun n hn => ?_⟩
  · refine syntactic_of (fun w hw => ?_) (by intro i vs e; cases e) (fun _ h => absurd h (by show ¬ str "Module" = str "Name"; decide))
    simp only [mdModule, Val.children, List.mem_cons, List.not_mem_nil, or_false] at hw
    rcases hw with rfl | rfl
    · refine syntactic_of (fun w hw => ?_) (fun i vs e w hw => ?_) (by intro h; cases h)
      · rw [List.mem_singleton.1 hw]
        refine syntactic_of (fun w hw => ?_) (by intro i vs e; cases e) (fun _ h => absurd h (by show ¬ str "Expr" = str "Name"; decide))
        rw [List.mem_singleton.1 hw]
        exact he
      · cases e
        rw [List.mem_singleton.1 hw]; rfl
    · exact syntactic_of (fun w hw => (by cases hw)) (fun i vs e w hw => (by cases e; cases hw)) (by intro h; cases h)
  · rw [List.mem_singleton.1 hs]
    exact ⟨rfl, fun _ => ⟨_, 3, _, _, _, rfl, rfl⟩⟩
  · have hsub : ∀ {v w : Val}, v.children = [w] → v.ty ≠ str "Name" → NameIn v n → NameIn w n := by
      intro v w h1 h2 h3
      rw [nameIn_cases, h1] at h3
      rcases h3 with ⟨h, _⟩ | ⟨u, hu, h⟩
      · exact absurd h h2
      · rw [List.mem_singleton.1 hu] at h; exact h
    have h1 : NameIn (.list 2 [.node 3 (str "Expr") [str "value"] [e]]) n := by
      rw [nameIn_cases] at hn
      rcases hn with ⟨h, _⟩ | ⟨u, hu, h⟩
      · exact absurd h (by show ¬ str "Module" = str "Name"; decide)
      · simp only [mdModule, Val.children, List.mem_cons, List.not_mem_nil, or_false] at hu
        rcases hu with rfl | rfl
        · exact h
        · rw [nameIn_cases] at h
          rcases h with ⟨h, _⟩ | ⟨u, hu, h⟩
          · exact absurd h (by show ¬ str "list" = str "Name"; decide)
          · cases hu
    have h2 := hsub (w := .node 3 _ _ _) rfl (by show ¬ str "list" = str "Name"; decide) h1
    refine ⟨2, _, _, ⟨1, _, _, _, rfl, rfl⟩, List.mem_singleton.2 rfl, h2, fun e' _ he' => ?_⟩
    have h3 := hsub (w := e) rfl (by show ¬ str "Expr" = str "Name"; decide) h2
    have := he'.getattr
    subst this
    exact h3

/-- The last token. -/
def mdEnd : PTok := ⟨.endmarker, [], (2, 0), (2, 0)⟩
/-- The tokens of `$x % $x`, with a newline. -/
def mdPat : List PTok := [⟨.other, str "$", (1, 0), (1, 1)⟩, ⟨.other, str "x", (1, 1), (1, 2)⟩, ⟨.other, str "%", (1, 3), (1, 4)⟩,
    ⟨.other, str "$", (1, 5), (1, 6)⟩, ⟨.other, str "x", (1, 6), (1, 7)⟩, ⟨.newline, str "\n", (1, 7), (1, 8)⟩]
/-- The tokens of `f($x)`, with a newline. -/
def mdTpl : List PTok := [⟨.other, str "f", (1, 0), (1, 1)⟩, ⟨.other, str "(", (1, 1), (1, 2)⟩, ⟨.other, str "$", (1, 2), (1, 3)⟩,
    ⟨.other, str "x", (1, 3), (1, 4)⟩, ⟨.other, str ")", (1, 4), (1, 5)⟩, ⟨.newline, str "\n", (1, 5), (1, 6)⟩]
/-- The tokens of these two. -/
def mdTokens (s : Str) : Option (List PTok) :=
  if s = str "$x % $x\n" then some (mdPat ++ [mdEnd]) else if s = str "f($x)\n" then some (mdTpl ++ [mdEnd]) else none

/-- The trees of the two patterns. -/
def mdParse (s : Str) : Option Val :=
  if s = str "gensym_x % gensym_x" then some (mdModule (mdMod 10 (exNameAt 20 (str "gensym_x")) (exNameAt 30 (str "gensym_x"))))
  else if s = str "f(gensym_x)" then some (mdModule (mdCall 10 (exNameAt 20 (str "gensym_x"))))
  else none

/-- The files: `a % a`, and `f(a)` with and without parentheses. -/
def mdFile (s : Str) : Option Ctx :=
  if s = str "a % a" then some { exCtx with
    text := s
    tree := mdModule (mdMod 10 (exNameAt 20 (str "a")) (exNameAt 30 (str "a")))
    tok := fun i => if i = 3 then some (0, 5) else if i = 10 then some (0, 5) else if i = 20 then some (0, 1) else if i = 30 then some (4, 5) else none }
  else if s = str "f((a))" ∨ s = str "f(a)" then some { exCtx with
    text := s
    tree := mdModule (mdCall 10 (exNameAt 20 (str "a")))
    tok := fun _ => none }
  else none

/-- Just enough of Python. -/
def mdPy : Python where
  tokens := mdTokens
  parse := mdParse
  iter := id
  file := mdFile
  tokInfo := fun _ => exTokInfo
  pragmas := fun _ => []
  isExpr := fun v => v.isNode && decide (v.ty ∈ [str "BinOp", str "Call", str "Name"])
  isStmt := fun v => decide (v.ty = str "Expr")
  depth := 40
  regex := fun _ => none
  finditer := fun _ _ => []
  reItems := fun _ => none
  matcher := fun _ => .error .valueError
  fixer := fun _ => .error .valueError

theorem mdModules : HasModules exPython where
  list := by show ¬ str "list" ∈ codeTypes.map Prod.fst; decide
  module := by show str "Module" ∈ codeTypes.map Prod.fst; decide
  moduleFields := by decide
  expr := by show str "Expr" ∈ codeTypes.map Prod.fst; decide
  exprFields := by decide

theorem mdMod_syntactic (i : Nat) {l r : Val} (hl : Syntactic l) (hr : Syntactic r) : Syntactic (mdMod i l r) := by
  refine syntactic_of (fun w hw => ?_) (by intro i vs e; cases e) (fun _ h => absurd h (by show ¬ str "BinOp" = str "Name"; decide))
  simp only [mdMod, Val.children, List.mem_cons, List.not_mem_nil, or_false] at hw
  rcases hw with rfl | rfl | rfl
  · exact hl
  · exact syntactic_leaf rfl rfl
  · exact hr

theorem mdCall_syntactic (i : Nat) (s : Str) : Syntactic (mdCall 10 (exNameAt i s)) := by
  refine syntactic_of (fun w hw => ?_) (by intro i vs e; cases e) (fun _ h => absurd h (by show ¬ str "Call" = str "Name"; decide))
  simp only [mdCall, Val.children, List.mem_cons, List.not_mem_nil, or_false] at hw
  rcases hw with rfl | rfl | rfl
  · exact mdName_syntactic ..
  · refine syntactic_of (fun w hw => ?_) (fun i vs e w hw => ?_) (by intro h; cases h)
    · rw [List.mem_singleton.1 hw]; exact mdName_syntactic ..
    · cases e; rw [List.mem_singleton.1 hw]; rfl
  · exact syntactic_of (fun w hw => (by cases hw)) (fun i vs e w hw => (by cases e; cases hw)) (by intro h; cases h)

theorem mdFits : PythonFits exPython mdPy where
  modules := mdModules
  tokens := by
    intro s toks h
    have h : mdTokens s = some toks := h
    unfold mdTokens at h
    split at h
    · cases h; exact ⟨_, _, rfl, rfl⟩
    · split at h
      · cases h; exact ⟨_, _, rfl, rfl⟩
      · cases h
  parse := by
    intro s tree h
    have h : mdParse s = some tree := h
    unfold mdParse at h
    split at h
    · cases h; exact mdModule_parser (mdMod_syntactic _ (mdName_syntactic ..) (mdName_syntactic ..))
    · split at h
      · cases h; exact mdModule_parser (mdCall_syntactic ..)
      · cases h
  grammar := by
    intro s tree t kind h hi
    have h : mdParse s = some tree := h
    have hm : Parsed exPython false tree := by
      unfold mdParse at h
      split at h
      · cases h; exact parsed_of_check _ _ (by decide +kernel)
      · split at h
        · cases h; exact parsed_of_check _ _ (by decide +kernel)
        · cases h
    have hsub : ∃ e, tree = mdModule e ∧ Parsed exPython false e ∧ Parsed exPython false (.node 3 (str "Expr") [str "value"] [e]) := by
      unfold mdParse at h
      split at h
      · cases h; exact ⟨_, rfl, parsed_of_check _ _ (by decide +kernel), parsed_of_check _ _ (by decide +kernel)⟩
      · split at h
        · cases h; exact ⟨_, rfl, parsed_of_check _ _ (by decide +kernel), parsed_of_check _ _ (by decide +kernel)⟩
        · cases h
    obtain ⟨e, rfl, h1, h2⟩ := hsub
    cases hi with
    | module => exact hm
    | expr _ hb _ hv =>
      obtain ⟨_, _, _, _, hx, hl⟩ := hb
      cases hx; cases hl
      obtain ⟨_, _, _, _, hx, hl⟩ := hv
      cases hx; cases hl
      exact h1
    | stmt _ hb =>
      obtain ⟨_, _, _, _, hx, hl⟩ := hb
      cases hx; cases hl
      exact h2
  iter := fun l => .refl l
  file := by
    intro s c h
    have h : mdFile s = some c := h
    unfold mdFile at h
    split at h
    · cases h; exact ⟨rfl, parsed_of_check false (mdModule (mdMod 10 (exNameAt 20 (str "a")) (exNameAt 30 (str "a")))) (by decide +kernel), rfl⟩
    · split at h
      · cases h; exact ⟨rfl, parsed_of_check false (mdModule (mdCall 10 (exNameAt 20 (str "a")))) (by decide +kernel), rfl⟩
      · cases h
  expr := by
    intro v h
    have h : (v.isNode && decide (v.ty ∈ [str "BinOp", str "Call", str "Name"])) = true := h
    rw [Bool.and_eq_true] at h
    exact h.1

/-- The pattern. -/
def mdMatcher : Matcher := match mdPy.pattern .expr (str "$x % $x") with | .ok m => m | .error _ => .anything
/-- The template. -/
def mdTemplate : PyTemplate := match mdPy.pyTemplate .expr (str "f($x)") with | .ok t => t | .error _ => { template := [], toks := [], metas := [], astMatcher := .anything }
/-- What the options say. -/
def mdTemplates : Dict Str CodeTemplate := [(str "__root", mdTemplate.code mdPy)]
/-- The file. -/
def mdCtx : Ctx := { exCtx with
    text := str "a % a"
    tree := mdModule (mdMod 10 (exNameAt 20 (str "a")) (exNameAt 30 (str "a")))
    tok := fun i => if i = 3 then some (0, 5) else if i = 10 then some (0, 5) else if i = 20 then some (0, 1) else if i = 30 then some (4, 5) else none }
/-- The report. -/
def mdSub : Substitution where
  matchedSpans := [(str "x", (4, 5)), (str "__root", (0, 5))]
  primaryLabel := str "__root"
  replacements := some [(str "__root", str "f(a)")]
  significant := false
  keySpan := some (0, 5)

theorem mdPattern : mdPy.pattern .expr (str "$x % $x") = .ok mdMatcher := rfl
theorem mdPyTemplate : mdPy.pyTemplate .expr (str "f($x)") = .ok mdTemplate := rfl

/-- The attempt at the expression. -/
def mdTry : MOut := attempt mdCtx mdPy.depth (fromMatcher mdMatcher (mdTemplates.map fun e => (e.1, e.1))) []
  (mdMod 10 (exNameAt 20 (str "a")) (exNameAt 30 (str "a")))
/-- The match. -/
def mdMi : MatchInfo := match mdTry with | .ok (some mi, _) => mi | _ => ⟨.bare, [], []⟩
/-- What it remembers. -/
def mdKeys : List Key := match mdTry with | .ok (some _, ks) => ks | _ => []

theorem mdTried : mdTry = .ok (some mdMi, mdKeys) := by
  have h : (match mdTry with | .ok (some _, _) => true | _ => false) = true := by decide +kernel
  unfold mdMi mdKeys
  generalize mdTry = o at h ⊢
  split at h
  · rfl
  · cases h

theorem mdReported : (match (match pyReports mdCtx (mdPy.tokInfo (str "a % a")) (mdPy.templates mdCtx mdTemplates) [mdMi] {}, none with
    | Except.error e, _ => Except.error e
    | Except.ok fs, none => Except.ok fs
    | Except.ok _, some (e : MExc) => Except.error e.toExc) with
  | Except.error e => Except.error e
  | Except.ok fs => Except.ok (List.map Found.substitution fs)) = Except.ok [mdSub] := by
  have h : (match pyReports mdCtx (mdPy.tokInfo (str "a % a")) (mdPy.templates mdCtx mdTemplates) [mdMi] {} with
    | Except.ok fs => decide (fs.map Found.substitution = [mdSub])
    | Except.error _ => false) = true := by decide +kernel
  generalize pyReports mdCtx (mdPy.tokInfo (str "a % a")) (mdPy.templates mdCtx mdTemplates) [mdMi] {} = o at h ⊢
  cases o with
  | error e => cases h
  | ok fs => exact congrArg Except.ok (of_decide_eq_true h)

theorem mdFind : (mdPy.searcher mdMatcher mdTemplates).find ⟨str "a % a", [], []⟩ = .ok [mdSub] := by
  have hf : mdPy.file (str "a % a") = some mdCtx := rfl
  unfold Python.searcher
  simp only
  rw [hf]
  simp only
  unfold pySearch treeFind
  have ed : mdCtx.done = [] := rfl
  have et : mdCtx.tree = mdModule (mdMod 10 (exNameAt 20 (str "a")) (exNameAt 30 (str "a"))) := rfl
  rw [ed, et, findLoop_miss (ks := []) rfl]
  simp only [mdModule, Val.children, List.append_nil]
  rw [findLoop_miss (ks := []) rfl]
  simp only [Val.children, List.cons_append, List.nil_append]
  rw [findLoop_miss (ks := []) rfl]
  simp only [Val.children, List.cons_append, List.nil_append]
  rw [findLoop_hit (mi := mdMi) (ks := mdKeys) mdTried]
  rw [findLoop_miss (ks := []) rfl]
  simp only [Val.children, List.append_nil]
  simp only [findLoop]
  exact mdReported

theorem mdPatPlain : ∃ ps, PlainTokens (mdPat ++ [mdEnd]) ps :=
  ⟨_, ⟨mdPat, mdEnd, rfl, rfl, rfl, by unfold Sized mdPat; decide⟩, .token 0 rfl rfl (by decide) (by decide) (.token 0 rfl rfl (by decide) (by decide)
    (.token 1 rfl rfl (by decide) (by decide) (.token 1 rfl rfl (by decide) (by decide) (.token 0 rfl rfl (by decide) (by decide)
    (.line 0 (.inl rfl) (by decide) rfl rfl (.stop rfl rfl))))))⟩

theorem mdTplPlain : ∃ ps, PlainTokens (mdTpl ++ [mdEnd]) ps :=
  ⟨_, ⟨mdTpl, mdEnd, rfl, rfl, rfl, by unfold Sized mdTpl; decide⟩, .token 0 rfl rfl (by decide) (by decide) (.token 0 rfl rfl (by decide) (by decide)
    (.token 0 rfl rfl (by decide) (by decide) (.token 0 rfl rfl (by decide) (by decide) (.token 0 rfl rfl (by decide) (by decide)
    (.line 0 (.inl rfl) (by decide) rfl rfl (.stop rfl rfl))))))⟩

/-- The patterns are small. -/
theorem mdSmall {s : Str} {tree t : Val} (h : mdParse s = some tree) (hi : Intended .expr tree t) : 2 * t.size + 7 ≤ 40 := by
  have hsub : ∃ e, tree = mdModule e ∧ 2 * e.size + 7 ≤ 40 := by
    unfold mdParse at h
    split at h
    · cases h; exact ⟨_, rfl, by decide +kernel⟩
    · split at h
      · cases h; exact ⟨_, rfl, by decide +kernel⟩
      · cases h
  obtain ⟨e, rfl, h1⟩ := hsub
  cases hi with
  | expr _ hb _ hv =>
    obtain ⟨_, _, _, _, hx, hl⟩ := hb
    cases hx; cases hl
    obtain ⟨_, _, _, _, hx, hl⟩ := hv
    cases hx; cases hl
    exact h1

/-- The hypotheses of C93_search are met: `[mdSub]` is the result of searching `a % a` for `$x % $x`. -/
theorem mdResult : ∃ what t, PatternMeans mdPy .expr (str "$x % $x") what t ∧ SearchResult mdPy what t mdTemplates (str "a % a") [mdSub] := by
  obtain ⟨ps, hps⟩ := mdPatPlain
  obtain ⟨what, t, h1, h2⟩ := C93_search mdFits (text := str "$x % $x") rfl hps mdPattern (ts := mdTemplates) (by decide +kernel)
  refine ⟨what, t, h1, h2 ?_ (str "a % a") [] _ _ rfl mdFind⟩
  obtain ⟨_, _, _, _, _, _, _, _, _, hp, _, hi, _⟩ := h1
  exact mdSmall hp hi

/-- Then those of C93_edits are met, and its conclusion says something of the text `f(a)`. -/
example : ∃ (hit : PatternHit) (new : Str), (str "f(a)" = new ∨ str "f(a)" = str "(" ++ new ++ str ")") ∧
    TextFilled mdPy (str "f($x)") (fun x => (hit.label mdCtx x).map (matchVOf mdCtx.text)) new ∧
    TreeFilled mdPy .expr (str "f($x)") (fun x => (hit.label mdCtx x).map (matchVOf mdCtx.text)) new := by
  obtain ⟨ps, hps⟩ := mdTplPlain
  obtain ⟨what, t, hm, c, hits, os, hc, hh, hos, hall⟩ := mdResult
  have hc' : c = mdCtx := by have h : mdPy.file (str "a % a") = some mdCtx := rfl; rw [h] at hc; cases hc; rfl
  subst hc'
  have hmem : some mdSub ∈ os := by
    have : mdSub ∈ os.filterMap id := by rw [← hos]; exact List.mem_singleton.2 rfl
    obtain ⟨a, ha, hb⟩ := List.mem_filterMap.1 this
    cases a with
    | none => cases hb
    | some a => cases hb; exact ha
  obtain ⟨hit, hhit, hrep⟩ := forall2_mem_right hall hmem
  obtain ⟨new, h1, h2, h3⟩ := C93_edits mdFits mdPyTemplate (by decide) rfl hps (content := str "a % a") rfl hh hhit
    (ts := mdTemplates) (fun l u h => by
      unfold mdTemplates at h
      unfold Dict.get? at h
      split at h
      case isFalse => cases h
      cases h; show str "f($x)" ≠ []; decide) (l := str "__root") rfl hrep rfl (r := str "f(a)") rfl
  exact ⟨hit, new, h1, h2, h3⟩

end Refex
