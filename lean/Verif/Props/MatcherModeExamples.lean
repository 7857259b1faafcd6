import Verif.Props.MatcherModeMain
import Verif.Props.PlacesExamples
/- C96: `refex --mode=py 'ExprPattern("$x % $x", {"x": AnyOf(Num(n=5), Name(id="a"))})' --sub='f($x)' -i a.py`. -/
namespace Refex
set_option autoImplicit false

/-- The matcher expression, with empty lines and indented. -/
def mmText : Str := str "\n  ExprPattern(\"$x % $x\", {\"x\": AnyOf(Num(n=5), Name(id=\"a\"))})\n"
/-- Without these. -/
def mmLine : Str := str "ExprPattern(\"$x % $x\", {\"x\": AnyOf(Num(n=5), Name(id=\"a\"))})"

/-- Its expression. -/
def mmExpr : EExpr := .call (.name (str "ExprPattern")) [.const (.str (str "$x % $x")), .dict [.const (.str (str "x")),
  .call (.name (str "AnyOf")) [.call (.name (str "Num")) [] [some (str "n")] [.const (.int 5)],
    .call (.name (str "Name")) [] [some (str "id")] [.const (.str (str "a"))]] [] []]] [] []

/-- A compiler. -/
def mmCompiler : Compiler where
  syn := { parse := fun s => if s = mmLine then .ok mmExpr else .error ⟨some (str "invalid syntax"), some s, some 1⟩, raised := fun s _ => ⟨none, some s, some 1⟩ }
  callables := [str "ExprPattern", str "AnyOf", str "Num", str "Name"]
  minus := fun t r => .other t (str "-" ++ r) none
  fields := fun ty => if ty = str "Name" then some [str "id", str "ctx"] else none
  word := fun c => c.isAlphanum
  key := fun _ => 0

/-- Python with it. -/
def mmPy : Python := mdPy.withCompiler mmCompiler

theorem mmFields : ∀ ty fs, mmCompiler.fields ty = some fs → fs.Nodup := by
  intro ty fs h
  simp only [mmCompiler] at h
  split at h
  · cases h; decide
  · cases h

/-- The matcher. -/
def mmMatcher : Matcher := match mmPy.compile mmCompiler (some mmText) with | .ok m => m | .error _ => .anything

theorem mmCompiled : mmPy.compile mmCompiler (some mmText) = .ok mmMatcher := by
  have h : (match mmPy.compile mmCompiler (some mmText) with | .ok _ => true | .error _ => false) = true := by decide +kernel
  unfold mmMatcher
  generalize mmPy.compile mmCompiler (some mmText) = o at h ⊢
  cases o with
  | error => cases h
  | ok => rfl

/-- What C96_compiles says of it. -/
theorem mmStandsFor : StandsFor mmPy mmCompiler mmText mmMatcher := (C96_compiles mmFields).1 mmCompiled

/-- The hypotheses of C96_syntax are met: `f(` is no expression. -/
example : ReadsAs (str " f(\n") (str "f(") ∧ mmCompiler.syn.parse (str "f(") = .error ⟨some (str "invalid syntax"), some (str "f("), some 1⟩ :=
  ⟨by have := readsAs (str " f(\n"); exact (by decide +kernel : stripNl (dedent (str " f(\n")) = str "f(") ▸ this,
    if_neg (t := Except.ok mmExpr) (by decide +kernel : ¬ str "f(" = mmLine)⟩

/-- The attempt at the expression. -/
def mmTry : MOut := attempt mdCtx mmPy.depth (fromMatcher mmMatcher (mdTemplates.map fun e => (e.1, e.1))) []
  (mdMod 10 (exNameAt 20 (str "a")) (exNameAt 30 (str "a")))
/-- The match. -/
def mmMi : MatchInfo := match mmTry with | .ok (some mi, _) => mi | _ => ⟨.bare, [], []⟩
/-- What it remembers. -/
def mmKeys : List Key := match mmTry with | .ok (some _, ks) => ks | _ => []

theorem mmTried : mmTry = .ok (some mmMi, mmKeys) := by
  have h : (match mmTry with | .ok (some _, _) => true | _ => false) = true := by decide +kernel
  unfold mmMi mmKeys
  generalize mmTry = o at h ⊢
  split at h
  · rfl
  · cases h

/-- An attempt without a match. -/
def missed : MOut → Bool
  | .ok (none, []) => true
  | _ => false

theorem mm_miss {v : Val} (h : missed (attempt mdCtx mmPy.depth (fromMatcher mmMatcher (mdTemplates.map fun e => (e.1, e.1))) [] v) = true) :
    attempt mdCtx mmPy.depth (fromMatcher mmMatcher (mdTemplates.map fun e => (e.1, e.1))) [] v = .ok (none, []) := by
  generalize attempt mdCtx mmPy.depth (fromMatcher mmMatcher (mdTemplates.map fun e => (e.1, e.1))) [] v = o at h ⊢
  unfold missed at h
  split at h
  · rfl
  · cases h

theorem mmFind : (mmPy.searcher mmMatcher mdTemplates).find ⟨str "a % a", [], []⟩ = .ok [mdSub] := by
  have hf : mmPy.file (str "a % a") = some mdCtx := rfl
  unfold Python.searcher
  simp only
  rw [hf]
  simp only
  unfold pySearch treeFind
  have ed : mdCtx.done = [] := rfl
  have et : mdCtx.tree = mdModule (mdMod 10 (exNameAt 20 (str "a")) (exNameAt 30 (str "a"))) := rfl
  rw [ed, et, findLoop_miss (ks := []) (mm_miss (by decide +kernel))]
  simp only [mdModule, Val.children, List.append_nil]
  rw [findLoop_miss (ks := []) (mm_miss (by decide +kernel))]
  simp only [Val.children, List.cons_append, List.nil_append]
  rw [findLoop_miss (ks := []) (mm_miss (by decide +kernel))]
  simp only [Val.children, List.cons_append, List.nil_append]
  rw [findLoop_hit (mi := mmMi) (ks := mmKeys) mmTried]
  have hk : mmKeys = [] := by decide +kernel
  rw [hk, List.append_nil, findLoop_miss (ks := []) (mm_miss (by decide +kernel))]
  simp only [Val.children, List.append_nil]
  simp only [findLoop]
  have h : (match pyReports mdCtx (mmPy.tokInfo (str "a % a")) (mmPy.templates mdCtx mdTemplates) [mmMi] {} with
    | Except.ok fs => decide (fs.map Found.substitution = [mdSub])
    | Except.error _ => false) = true := by decide +kernel
  generalize pyReports mdCtx (mmPy.tokInfo (str "a % a")) (mmPy.templates mdCtx mdTemplates) [mmMi] {} = o at h ⊢
  cases o with
  | error e => cases h
  | ok fs => exact congrArg Except.ok (of_decide_eq_true h)

/-- The options. -/
def mmOptions : Options where
  mode := str "py"
  subMode := str "py.expr"
  searchReplace := [⟨some mmText, [(str "__root", str "f($x)")]⟩]
  inPlace := true
  files := [exFile]

theorem mmSearchers : Searchers mmPy.modes mmOptions.mode (str "py.expr") mmOptions.searchReplace [mmPy.searcher mmMatcher mdTemplates] := by
  refine .cons (ts := mdTemplates) (.cons rfl .nil) ?_ .nil
  show (mmPy.compile mmCompiler (some mmText)).map (fun m => mmPy.searcher m mdTemplates) = _
  rw [mmCompiled]; rfl

/-- Just this file. -/
theorem mmFiles : ∀ s c, mmPy.file s = some c → c.text = s ∧ FileFits c := by
  intro s c h
  have h : mdFile s = some c := h
  unfold mdFile at h
  split at h
  · rename_i hs; cases h; subst hs; exact ⟨rfl, mdFileFits⟩
  · split at h
    · cases h
      exact ⟨rfl, fun i sp h => (by cases h), fun rx a b g l sp _ h _ => (by cases h), fun rx g l sp h _ => (by cases h)⟩
    · cases h

/-- The hypotheses of C96_command and C96_rewritten are met, and `a % a` becomes `f(a)`. -/
example : ∃ r, runnerFromOptions exWorld mmPy.modes mmOptions = .ok r ∧ mmPy.matcher = mmPy.compile mmCompiler ∧
    SyntaxInEffect mmOptions.mode mmOptions.subMode (str "py.expr") ∧ iterationCount mmOptions.mode mmOptions.iterate ≤ 1 ∧ 2 ≤ mmPy.depth ∧
    (∀ s x, r.enc.encode s = some x → r.enc.decode x = some s) ∧
    Forall2 (MatcherQueryOf mmPy mmCompiler (str "py.expr")) mmOptions.searchReplace [(mmMatcher, mdTemplates)] ∧
    (∀ s c, mmPy.file s = some c → GroupsUnreserved c mmMatcher) ∧
    r.find (str "a % a") (r.shorten exFile) = .ok [mdSub] ∧ Rewritten r exNoFaults (exFs "a % a") exFile (exBytes "f(a)") := by
  have hsm : SyntaxInEffect mmOptions.mode mmOptions.subMode (str "py.expr") := .asked _ _ (by decide)
  obtain ⟨r, hr⟩ := (C69_runner exWorld mmPy.modes mmOptions _ hsm (by decide)).1.2 ⟨_, mmSearchers⟩
  have hfind : r.find (str "a % a") (r.shorten exFile) = .ok [mdSub] := by
    obtain ⟨_, _, h⟩ := C69_results exWorld mmPy.modes mmOptions _ hsm _ _ mmSearchers (.one _) r hr (str "a % a") (r.shorten exFile)
      ⟨str "a % a", r.shorten exFile, []⟩ [mdSub] (.inl (by decide)) rfl rfl mmFind
    obtain ⟨out, h1, h2, h3⟩ := h ⟨(by intro r h; cases h), (by intro r h; cases h)⟩ rfl
    have : mdSub ∈ out := by
      by_cases hm : mdSub ∈ out
      · exact hm
      · obtain ⟨c, ⟨_, h, _⟩, _⟩ := (h3 mdSub (List.mem_singleton.2 rfl)).1 hm
        cases h
    cases h2 with
    | cons _ h => cases h; cases this
    | cons_cons _ h => cases h; exact h1
  have henc : r.enc = exAscii := by
    unfold runnerFromOptions at hr
    split at hr
    · cases hr
    · split at hr
      · cases hr
      · cases hr; rfl
  refine ⟨r, hr, rfl, hsm, by decide, by decide, by rw [henc]; exact exAscii_round_trip,
    .cons ⟨mmText, rfl, mmStandsFor, .cons rfl .nil⟩ .nil, ?_, hfind, ?_⟩
  · intro s c h l hl hx
    have h : mdFile s = some c := h
    exfalso
    obtain ⟨rx, hx⟩ := hx
    unfold mdFile at h
    split at h
    · cases h; cases hx
    · split at h
      · cases h; cases hx
      · cases h
  · refine ⟨str "a % a", [mdSub], str "f(a)", ?_, hfind, by decide, by decide +kernel, ?_⟩
    · unfold Runner.read; rw [henc]; decide +kernel
    · rw [henc]; decide

end Refex
