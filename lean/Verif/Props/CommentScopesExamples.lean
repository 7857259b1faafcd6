import Verif.Props.CommentScopes
import Verif.Props.FixModeExamples
/- C102: a file whose comment disables a fixer. -/
namespace Refex
set_option autoImplicit false

/-- A file with a comment. -/
def cmText : Str := str "self.assertTrue(x == y)  # pylint: disable=g-generic-assert\n"

/-- The tokens of files: all have one line of code, and one of them a comment. -/
def cmBlocks (s : Str) : List Elem × Tok :=
  if s = cmText then
    ([.line ⟨[⟨.other, str "self.assertTrue(x == y)", 0, 23⟩], some ⟨.comment, str "# pylint: disable=g-generic-assert", 25, 59⟩, ⟨.newline, str "\n", 59, 60⟩⟩],
      ⟨.endmarker, [], 60, 60⟩)
  else ([.line ⟨[⟨.other, s, 0, s.length⟩], none, ⟨.newline, [], s.length, s.length⟩⟩], ⟨.endmarker, [], s.length, s.length⟩)

theorem cmBlocks_file (s : Str) : FileBlocks (cmBlocks s).1 (cmBlocks s).2 := by
  unfold cmBlocks
  split
  · exact ⟨⟨⟨by decide, by decide, by decide⟩, trivial⟩, rfl, by decide⟩
  · refine ⟨⟨⟨?_, ?_, .inl rfl⟩, trivial⟩, rfl, ?_⟩
    · intro t ht; rw [List.mem_singleton.1 ht]
    · intro t ht; cases ht
    · simp [blockToks, Elem.toks, PLine.toks, lineEnds]

/-- As in the examples of mode `fix`, and with the file that has a comment. -/
def cmPy : Python := Python.withFixers {
  mdPy with
  tokens := fxTokens
  parse := fxParse
  file := fun s => if s = cmText then some { brCtx cmText bsModule with tok := bsFile.tok } else fxFile s
  pragmas := fun s => filePragmas (pragmaFromText exNoUw) (blockToks (cmBlocks s).1 ++ [(cmBlocks s).2])
  depth := 58 } exMangle (fun _ => [])

theorem cmReads : ReadsComments exNoUw cmPy cmBlocks := fun s _ => ⟨cmBlocks_file s, rfl⟩

/-- The world. -/
def cmWorld : World := { exWorld with parseAst := cmPy.parseAst }

theorem bsModule_python (s : Str) (tok : Nat → Option Span) : PythonFile exMangle (fun ch => ch.isDigit = true) exPython [.other]
    { brCtx s bsModule with tok := tok } where
  grammar := exPython_ok
  parsed := parsed_of_check false bsModule (by decide +kernel)
  file := .mk (.cons (.other (by decide) (by decide)) .nil)
  unshared := unshared_of_check (tree := bsModule) (by decide +kernel)
  names := pythonNames_of_check (tree := bsModule) (by decide +kernel)
  regex := ⟨(brCtx_regex s bsModule).1, (brCtx_regex s bsModule).2, ⟨rfl, rfl⟩⟩
  mangles := fun r hr => (exMangle_rules r hr).1
  argument := by decide

theorem cmFile_python : ∀ s c, cmPy.file s = some c → ∃ ss, PythonFile exMangle (fun ch => ch.isDigit = true) exPython ss c := by
  intro s c h
  have h : (if s = cmText then some { brCtx cmText bsModule with tok := bsFile.tok } else fxFile s) = some c := h
  split at h
  · cases h
    exact ⟨_, bsModule_python cmText _⟩
  · exact fxFile_python s c h

/-- The comment says it. -/
theorem cmSays : Says exNoUw "disable" (str "# pylint: disable=g-generic-assert") (str "pylint.g-generic-assert") := by
  refine ⟨str "pylint", [⟨str " ", str "disable", [], [], str "g-generic-assert", []⟩], str "g-generic-assert", ⟨⟨by decide, by decide⟩, ⟨by decide, ?_⟩,
    str "# ", [], [], by decide, by decide, by decide, .inl rfl⟩, by decide, .inr ⟨rfl, by decide⟩⟩
  intro d hd
  rw [List.mem_singleton.1 hd]
  exact ⟨by decide, by decide, by decide, by decide, ⟨by decide, by decide⟩, ⟨by decide, by decide⟩⟩

/-- The hypotheses of C102_parts, C102_positions, C102_covered and C102_line are met: the fixers for assertions are disabled in the line of the comment. -/
example : FileBlocks (cmBlocks cmText).1 (cmBlocks cmText).2 ∧
    (str "# pylint: disable=g-generic-assert", 0, 59) ∈ fileScopes ((cmBlocks cmText).1, (cmBlocks cmText).2) ∧
    ∃ r, DisabledPart exNoUw (fileScopes ((cmBlocks cmText).1, (cmBlocks cmText).2)) (str "pylint.g-generic-assert") r ∧ r.1 ≤ 5 ∧ 5 < r.2 := by
  have hscope : fileScopes ((cmBlocks cmText).1, (cmBlocks cmText).2) = [(str "# pylint: disable=g-generic-assert", 0, 59)] := by decide
  refine ⟨cmBlocks_file _, by rw [hscope]; exact List.mem_singleton.2 rfl, (C102_positions (cmBlocks_file _) _ _).2 ⟨_, 0, 59, by rw [hscope]; exact List.mem_singleton.2 rfl, cmSays, by decide, by decide, ?_⟩⟩
  rintro ⟨t', a', b', q1, q2, _⟩
  rw [hscope, List.mem_singleton] at q1
  cases q1
  obtain ⟨p, e1, _, _, e4⟩ := says_read q2 0 59
  obtain ⟨v, hv, _⟩ := e4
  have : pragmaFromText exNoUw (str "# pylint: disable=g-generic-assert") 0 59 = some ⟨str "pylint", [(str "disable", str "g-generic-assert")], 0, 59⟩ := by decide
  rw [this] at e1
  cases e1
  have hnone : Dict.get? [(str "disable", str "g-generic-assert")] (str "enable") = (none : Option Str) := by decide
  have hv : Dict.get? [(str "disable", str "g-generic-assert")] (str "enable") = some v := hv
  rw [hnone] at hv
  cases hv

/-- What the command finds. -/
def commandFinds (w : World) (modes : Modes CodeTemplate) (o : Options) (content path : Str) : Option (List Repl) :=
  match runnerFromOptions w modes o with
  | .error _ => none
  | .ok r => match r.find content path with
    | .error _ => none
    | .ok subs => some (allEdits subs)

/-- The hypotheses of C102_result and C102_command are met. Without the comment the fixer rewrites the line, with it it does not, unless everything is
enabled by force. -/
example : cmPy.fixer = cmPy.builtinFixer exMangle (fun _ => []) ∧ 58 ≤ cmPy.depth ∧ ReadsComments exNoUw cmPy cmBlocks ∧ cmWorld.parseAst = cmPy.parseAst ∧
    fxOptions.mode = str "fix" ∧ fxOptions.searchReplace ≠ [] ∧ cmPy.file cmText ≠ none ∧
    commandFinds cmWorld cmPy.modes fxOptions (str "self.assertTrue(x == y)\n") exFile = some [⟨str "self.assertEqual(x, y)", 0, 23⟩] ∧
    commandFinds cmWorld cmPy.modes fxOptions cmText exFile = some [] ∧
    commandFinds cmWorld cmPy.modes { fxOptions with forceEnable := true } cmText exFile = some [⟨str "self.assertEqual(x, y)", 0, 23⟩] :=
  ⟨withFixers_fixer _ _ _, by decide, cmReads, rfl, rfl, by decide, by simp [cmPy, Python.withFixers], by decide +kernel, by decide +kernel, by decide +kernel⟩

end Refex
