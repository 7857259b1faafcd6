import Verif.Props.IteratedWritten
import Verif.Props.FileNames
import Verif.Props.IteratedModesExamples
/- C98: what is written, examples. The other hypotheses of C98_patterns_written and C98_matchers_written (the places of tokens, the templates, the groups) are met by
the same worlds in the examples of C93_rewritten (Props/ModesMain.lean) and C96_rewritten (Props/MatcherModeExamples.lean). -/
namespace Refex
set_option autoImplicit false

/-- A runner that reads and writes ASCII, from a command line. -/
theorem runner_ascii {modes : Modes CodeTemplate} {pa : World} (hp : pa.enc = exAscii) {o : Options} {r : Runner} (hr : runnerFromOptions pa modes o = .ok r) : r.enc = exAscii := by
  unfold runnerFromOptions at hr
  split at hr
  · cases hr
  · split at hr
    · cases hr
    · cases hr; exact hp

/-- `refex --mode=py.expr --iterate=10 '$x % $x' --sub='f($x)' -i a.py`, where `a.py` is `a % a`, writes `f(a)`. -/
example : ∃ r, runnerFromOptions imWorld mdPy.modes { mdOptions with iterate := some 10 } = .ok r ∧ (∀ s x, r.enc.encode s = some x → r.enc.decode x = some s) ∧
    r.enc.decode (exBytes "a % a") = some (str "a % a") ∧ Rewritten r exNoFaults (exFs "a % a") exFile (exBytes "f(a)") := by
  have h : commandEdits imWorld mdPy.modes { mdOptions with iterate := some 10 } (str "a % a") exFile = some ([⟨str "f(a)", 0, 5⟩], str "f(a)") := by decide +kernel
  obtain ⟨r, subs, hr, hfind, hedits, hnew⟩ := commandEdits_sound h
  have henc : r.enc = exAscii := runner_ascii rfl hr
  have hshort : r.shorten exFile = exFile := by
    rw [(runner_shorten hr)]; decide
  refine ⟨r, hr, by rw [henc]; exact exAscii_round_trip, by rw [henc]; decide, str "a % a", subs, str "f(a)", ?_, by rw [hshort]; exact hfind, ?_, hnew, by rw [henc]; decide⟩
  · unfold Runner.read; rw [henc]; decide +kernel
  · rintro rfl; cases hedits

/-- The same in mode `py`. -/
example : ∃ r, runnerFromOptions { exWorld with parseAst := mmPy.parseAst } mmPy.modes { mmOptions with iterate := some 10 } = .ok r ∧
    Rewritten r exNoFaults (exFs "a % a") exFile (exBytes "f(a)") := by
  have h : commandEdits { exWorld with parseAst := mmPy.parseAst } mmPy.modes { mmOptions with iterate := some 10 } (str "a % a") exFile =
    some ([⟨str "f(a)", 0, 5⟩], str "f(a)") := by decide +kernel
  obtain ⟨r, subs, hr, hfind, hedits, hnew⟩ := commandEdits_sound h
  have henc : r.enc = exAscii := runner_ascii rfl hr
  have hshort : r.shorten exFile = exFile := by
    rw [(runner_shorten hr)]; decide
  refine ⟨r, hr, str "a % a", subs, str "f(a)", ?_, by rw [hshort]; exact hfind, ?_, hnew, by rw [henc]; decide⟩
  · unfold Runner.read; rw [henc]; decide +kernel
  · rintro rfl; cases hedits

end Refex
