import Verif.Props.FixModeMain
import Verif.Props.MatcherModeExamples
/- C97: `refex --mode=fix unittest` on the file `self.assertTrue(x == y)`. -/
namespace Refex
set_option autoImplicit false

/-! ### A bit of Python -/

/-- Part of a word. -/
def fxWordChar (c : Char) : Bool := c.isAlphanum || c == '_'

/-- The words and symbols of a line, with the columns where they start. -/
def fxScan : Nat → Str → Str → List (Nat × Str)
  | col, word, [] => if word = [] then [] else [(col - word.length, word.reverse)]
  | col, word, c :: cs =>
    if fxWordChar c then fxScan (col + 1) (c :: word) cs
    else (if word = [] then [] else [(col - word.length, word.reverse)]) ++ (if c = ' ' then [] else [(col, [c])]) ++ fxScan (col + 1) [] cs

/-- A tokenizer of single lines. -/
def fxTokens (s : Str) : Option (List PTok) :=
  some (((fxScan 0 [] s).map fun p => ⟨if p.2 = str "\n" then .newline else .other, p.2, (1, p.1), (1, p.1 + p.2.length)⟩) ++ [mdEnd])

/-- `self.assertEqual(x, y)` -/
def fxEqual (i : Nat) (x y : Val) : Val :=
  .node i (str "Call") [str "func", str "args", str "keywords"]
    [.node (i + 1) (str "Attribute") [str "value", str "attr", str "ctx"] [exNameAt (i + 2) (str "self"), .const (i + 5) (.str (str "assertEqual")), .node (i + 6) (str "Load") [] []],
     .list (i + 7) [x, y], .list (i + 8) []]

/-- A parser: it knows `self.assertEqual(gensym_lhs, gensym_rhs)` and reads everything else as a tuple of the words in it. -/
def fxParse (s : Str) : Option Val :=
  if s = str "self.assertEqual(gensym_lhs, gensym_rhs)" then some (mdModule (fxEqual 20 (exNameAt 30 (str "gensym_lhs")) (exNameAt 40 (str "gensym_rhs"))))
  else some (mdModule (.node 10 (str "Tuple") [str "elts", str "ctx"] [.list 11 ((fxScan 0 [] s).map fun p => exNameAt (10 * p.1 + 20) p.2), .node 12 (str "Load") [] []]))

/-- The files: `self.assertTrue(x == y)`, with and without a newline, and `self.assertEqual(x, y)`, with and without parentheses. -/
def fxFile (s : Str) : Option Ctx :=
  if s = str "self.assertTrue(x == y)\n" then some bsFile
  else if s = str "self.assertEqual(x, y)" then some { brCtx s (mdModule (fxEqual 20 (exNameAt 30 (str "x")) (exNameAt 40 (str "y")))) with
    tok := fun i => if i = 20 then some (0, 22) else if i = 30 then some (17, 18) else if i = 40 then some (20, 21) else none }
  else if s = str "self.assertEqual((x), (y))" ∨ s = str "self.assertEqual(x, (y))" ∨ s = str "self.assertEqual((x), y)" then
    some { brCtx s (mdModule (fxEqual 20 (exNameAt 30 (str "x")) (exNameAt 40 (str "y")))) with tok := fun _ => none }
  else none

/-- Just enough of Python. -/
def fxPy : Python := Python.withFixers {
  mdPy with
  tokens := fxTokens
  parse := fxParse
  file := fxFile
  depth := 58 } exMangle (fun _ => [])

theorem withFixers_fixer (py : Python) (mangle : Label → Str) (groups : Str → List Label) :
    (py.withFixers mangle groups).fixer = (py.withFixers mangle groups).builtinFixer mangle groups := rfl

theorem fxFixer : fxPy.fixer = fxPy.builtinFixer exMangle (fun _ => []) := withFixers_fixer _ _ _

/-- The world. -/
def fxWorld : World := { exWorld with parseAst := fxPy.parseAst }

/-- `refex --mode=fix unittest -i a.py` -/
def fxOptions : Options where
  mode := str "fix"
  searchReplace := [⟨some (str "unittest"), []⟩]
  inPlace := true
  files := [exFile]

/-- The edits that a command finds, and the text with them. -/
def commandEdits (w : World) (modes : Modes CodeTemplate) (o : Options) (content path : Str) : Option (List Repl × Str) :=
  match runnerFromOptions w modes o with
  | .error _ => none
  | .ok r => match r.find content path with
    | .error _ => none
    | .ok subs => match applySubstitutions content subs with
      | .error _ => none
      | .ok new => some (allEdits subs, new)

theorem commandEdits_sound {w : World} {modes : Modes CodeTemplate} {o : Options} {content path : Str} {es : List Repl} {new : Str}
    (h : commandEdits w modes o content path = some (es, new)) : ∃ r subs, runnerFromOptions w modes o = .ok r ∧ r.find content path = .ok subs ∧
      allEdits subs = es ∧ applySubstitutions content subs = .ok new := by
  unfold commandEdits at h
  split at h
  · cases h
  rename_i r hr
  split at h
  · cases h
  rename_i subs hfind
  split at h
  · cases h
  rename_i new happly
  have h := Prod.mk.inj (Option.some.inj h)
  exact ⟨r, subs, hr, hfind, h.1, by rw [← h.2]; exact happly⟩

theorem runner_of {w : World} {modes : Modes CodeTemplate} {o : Options} {r : Runner} (h : runnerFromOptions w modes o = .ok r) : r.enc = w.enc ∧ r.shorten = w.shorten := by
  unfold runnerFromOptions at h
  split at h
  · cases h
  · split at h
    · cases h
    · cases h; exact ⟨rfl, rfl⟩

/-- A check of what a list of tokens mentions. -/
def mentionsOnly (toks : List PTok) (vars : List Str) : Bool := (toks.zip toks.tail).all fun p => decide (p.1.string ≠ str "$") || decide (p.2.string ∈ vars)

theorem mentionsOnly_sound {toks : List PTok} {vars : List Str} (h : mentionsOnly toks vars = true) : ∀ x, Mentions toks x → x ∈ vars := by
  rintro x ⟨pre, d, t, post, rfl, hd, rfl⟩
  have hmem : (d, t) ∈ (pre ++ d :: t :: post).zip (pre ++ d :: t :: post).tail := by
    clear h
    induction pre with
    | nil => simp
    | cons a pre ih =>
      cases pre with
      | nil => simp
      | cons b pre =>
        simp only [List.cons_append, List.tail_cons, List.zip_cons_cons] at ih ⊢
        exact List.mem_cons_of_mem _ ih
  have := List.all_eq_true.1 h _ hmem
  simpa [hd] using this

theorem fxTokensFit : TokensFit fxPy where
  ends := by
    intro s toks h
    have h : fxTokens s = some toks := h
    unfold fxTokens at h
    cases h
    exact ⟨_, mdEnd, rfl, rfl⟩
  rules := by
    have h : builtinRules.all (fun r => match fxTokens (withNewline r.newText) with
      | some toks => mentionsOnly toks r.new.vars
      | none => true) = true := by decide +kernel
    intro r hr toks ht
    have h := List.all_eq_true.1 h r hr
    have ht : fxTokens (withNewline r.newText) = some toks := ht
    rw [ht] at h
    exact mentionsOnly_sound h
  logging := by
    intro toks ht x hx
    have ht : fxTokens (str "logging.exception\n") = some toks := ht
    have h : (match fxTokens (str "logging.exception\n") with
      | some toks => mentionsOnly toks []
      | none => true) = true := by decide +kernel
    rw [ht] at h
    cases mentionsOnly_sound h x hx

/-- Whether there was no exception. -/
def noError : Except Exc Unit → Bool
  | .ok _ => true
  | .error _ => false

theorem noError_sound : ∀ {e : Except Exc Unit}, noError e = true → e = .ok ()
  | .ok (), _ => rfl
  | .error _, h => by cases h

theorem fxMade : TemplatesMade fxPy exMangle := made_iff.1 (noError_sound (by decide +kernel))

theorem fxEqual_python (s : Str) (tok : Nat → Option Span) : PythonFile exMangle (fun ch => ch.isDigit = true) exPython [.other]
    { brCtx s (mdModule (fxEqual 20 (exNameAt 30 (str "x")) (exNameAt 40 (str "y")))) with tok := tok } where
  grammar := exPython_ok
  parsed := parsed_of_check false (mdModule (fxEqual 20 (exNameAt 30 (str "x")) (exNameAt 40 (str "y")))) (by decide +kernel)
  file := .mk (.cons (.other (by decide) (by decide)) .nil)
  unshared := unshared_of_check (tree := mdModule (fxEqual 20 (exNameAt 30 (str "x")) (exNameAt 40 (str "y")))) (by decide +kernel)
  names := pythonNames_of_check (tree := mdModule (fxEqual 20 (exNameAt 30 (str "x")) (exNameAt 40 (str "y")))) (by decide +kernel)
  regex := ⟨(brCtx_regex s bsModule).1, (brCtx_regex s bsModule).2, ⟨rfl, rfl⟩⟩
  mangles := fun r hr => (exMangle_rules r hr).1
  argument := by decide

theorem fxFile_python : ∀ s c, fxPy.file s = some c → ∃ ss, PythonFile exMangle (fun ch => ch.isDigit = true) exPython ss c := by
  intro s c h
  have h : fxFile s = some c := h
  unfold fxFile at h
  split at h
  · cases h; exact ⟨_, bsFile_python⟩
  split at h
  · cases h; exact ⟨_, fxEqual_python s _⟩
  split at h
  · cases h; exact ⟨_, fxEqual_python s _⟩
  · cases h

theorem fxFile_spans : ∀ s c, fxPy.file s = some c → ∀ i sp, c.tok i = some sp → sp.2 ≤ s.length := by
  intro s c h i sp ht
  have h : fxFile s = some c := h
  unfold fxFile at h
  split at h
  · rename_i hs
    cases h
    have ht : (if i = 20 then some (0, 23) else if i = 12 then some (0, 23) else if i = 29 then some (16, 17) else if i = 35 then some (21, 22) else none) = some sp := ht
    rw [hs]
    repeat' split at ht
    all_goals cases ht
    all_goals decide
  split at h
  · rename_i hs
    cases h
    have ht : (if i = 20 then some (0, 22) else if i = 30 then some (17, 18) else if i = 40 then some (20, 21) else none) = some sp := ht
    rw [hs]
    repeat' split at ht
    all_goals cases ht
    all_goals decide
  split at h
  · cases h; cases ht
  · cases h

theorem fxFinds : commandEdits fxWorld fxPy.modes fxOptions (str "self.assertTrue(x == y)\n") exFile =
    some ([⟨str "self.assertEqual(x, y)", 0, 23⟩], str "self.assertEqual(x, y)\n") := by decide +kernel

/-- The hypotheses of C97_accepted are met: the names of the four groups are accepted. -/
example : ∀ name ∈ [str "*", str "correctness", str "idiom", str "unittest"], ∃ s, fxPy.factory (str "fix") (some name) [] = .ok s := fun name h =>
  (C97_accepted (groups := fun _ => []) fxFixer fxMade fxTokensFit (fun r hr => (exMangle_rules r hr).1) (by decide) _ _).1.2 ⟨rfl, name, h, rfl⟩

/-- The hypotheses of C97_command and C97_rewritten are met, and `self.assertTrue(x == y)` becomes `self.assertEqual(x, y)`. -/
example : ∃ r, runnerFromOptions fxWorld fxPy.modes fxOptions = .ok r ∧ fxPy.fixer = fxPy.builtinFixer exMangle (fun _ => []) ∧ fxWorld.parseAst = fxPy.parseAst ∧
    fxOptions.mode = str "fix" ∧ fxOptions.searchReplace ≠ [] ∧ 58 ≤ fxPy.depth ∧ (∀ s x, r.enc.encode s = some x → r.enc.decode x = some s) ∧
    (∃ subs, r.find (str "self.assertTrue(x == y)\n") (r.shorten exFile) = .ok subs ∧ allEdits subs = [⟨str "self.assertEqual(x, y)", 0, 23⟩]) ∧
    Rewritten r exNoFaults (exFs "self.assertTrue(x == y)\n") exFile (exBytes "self.assertEqual(x, y)\n") := by
  obtain ⟨r, subs, hr, hfind, hedits, happly⟩ := commandEdits_sound fxFinds
  obtain ⟨henc, hsh⟩ := runner_of hr
  have henc : r.enc = exAscii := henc
  have hsh : r.shorten exFile = exFile := by rw [hsh]; rfl
  refine ⟨r, hr, fxFixer, rfl, rfl, by decide, by decide, by rw [henc]; exact exAscii_round_trip, ⟨subs, by rw [hsh]; exact hfind, hedits⟩, ?_⟩
  refine ⟨str "self.assertTrue(x == y)\n", subs, str "self.assertEqual(x, y)\n", ?_, by rw [hsh]; exact hfind, ?_, happly, ?_⟩
  · unfold Runner.read; rw [henc]; decide +kernel
  · intro e
    rw [e] at hedits; cases hedits
  · rw [henc]; decide

end Refex
