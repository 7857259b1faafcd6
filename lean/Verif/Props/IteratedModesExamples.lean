import Verif.Props.IteratedModes
import Verif.Props.FixModeExamples
/- C98: examples. -/
namespace Refex
set_option autoImplicit false

/-- The world of `mdPy`. -/
def imWorld : World := { exWorld with parseAst := mdPy.parseAst }

/-- `refex --mode=py.expr --iterate=10 '$x % $x' --sub='f($x)'` on `a % a`: the hypotheses of C98_patterns are met, and the result is as without iteration. -/
example : ∃ r subs, runnerFromOptions imWorld mdPy.modes { mdOptions with iterate := some 10 } = .ok r ∧ imWorld.parseAst = mdPy.parseAst ∧
    SyntaxInEffect mdOptions.mode mdOptions.subMode (str "py.expr") ∧ PatternMode mdOptions.mode .expr ∧ mdOptions.searchReplace ≠ [] ∧
    (∀ sr ∈ mdOptions.searchReplace, sr.sub.WF) ∧
    (∀ sr ∈ mdOptions.searchReplace, ∀ text toks, sr.pattern = some text → mdPy.tokens (withNewline text) = some toks → ∃ ps, PlainTokens toks ps) ∧
    r.find (str "a % a") exFile = .ok subs ∧ allEdits subs = [⟨str "f(a)", 0, 5⟩] := by
  have h : commandEdits imWorld mdPy.modes { mdOptions with iterate := some 10 } (str "a % a") exFile = some ([⟨str "f(a)", 0, 5⟩], str "f(a)") := by decide +kernel
  obtain ⟨r, subs, hr, hfind, hedits, _⟩ := commandEdits_sound h
  refine ⟨r, subs, hr, rfl, .ofMode _ (by decide), .expr, by decide, ?_, ?_, hfind, hedits⟩
  · intro sr hsr
    rw [List.mem_singleton.1 hsr]
    unfold Dict.WF; decide
  · intro sr hsr text toks ht htok
    rw [List.mem_singleton.1 hsr] at ht
    cases ht
    have htok : mdTokens (str "$x % $x\n") = some toks := htok
    have : mdTokens (str "$x % $x\n") = some (mdPat ++ [mdEnd]) := by decide +kernel
    rw [this] at htok
    cases htok
    exact mdPatPlain

/-- Mode `py` with `--iterate=10`. -/
example : ∃ r subs, runnerFromOptions { exWorld with parseAst := mmPy.parseAst } mmPy.modes { mmOptions with iterate := some 10 } = .ok r ∧
    mmPy.matcher = mmPy.compile mmCompiler ∧ 2 ≤ mmPy.depth ∧ r.find (str "a % a") exFile = .ok subs ∧ allEdits subs = [⟨str "f(a)", 0, 5⟩] := by
  have h : commandEdits { exWorld with parseAst := mmPy.parseAst } mmPy.modes { mmOptions with iterate := some 10 } (str "a % a") exFile =
    some ([⟨str "f(a)", 0, 5⟩], str "f(a)") := by decide +kernel
  obtain ⟨r, subs, hr, hfind, hedits, _⟩ := commandEdits_sound h
  exact ⟨r, subs, hr, rfl, by decide, hfind, hedits⟩

end Refex
