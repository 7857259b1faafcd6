import Verif.Props.FileNames
import Verif.Props.FixModeExamples
/- C106: `refex --mode=fix unittest -i ../b/c.py ../b/notes.txt`, run in /a/b, with the same text in both files. -/
namespace Refex
set_option autoImplicit false

/-- The world as it looks from /a/b. -/
def fnWorld : World := { fxWorld with shorten := fun p => match shortenPath (str "/a/b") p with | .ok name => name | .error _ => [] }

/-- The command. -/
def fnOptions : Options := { fxOptions with files := [str "../b/c.py", str "../b/notes.txt"] }

/-- The files. -/
def fnFs : FS := fun p => if p = str "../b/c.py" ∨ p = str "../b/notes.txt" then some (exBytes "self.assertTrue(x == y)\n") else none

/-- The hypotheses of C106_command are met: notes.txt stays as it was. -/
theorem fnNotes : (mainRun fnWorld fxPy.modes fnOptions (fun _ => none) exNoFaults fnFs {}).fs (str "../b/notes.txt") = fnFs (str "../b/notes.txt") :=
  (C106_command fxFixer fxTokensFit fxFile_python (by decide) (str "/a/b") rfl (w := fnWorld) rfl
    (fun p name h => by show (match shortenPath (str "/a/b") p with | .ok name => name | .error _ => []) = name; rw [h]) rfl (by decide)
    (fun _ => none) exNoFaults fnFs {} (str "../b/notes.txt") (str "notes.txt")
    ⟨str "../b/", rfl, .inr ⟨str "../b", rfl⟩, by decide, by decide, by decide, by decide⟩
    (by
      rintro ⟨inner, h⟩
      have := congrArg List.length h
      rw [List.length_append, show location (str "/a/b") (str "../b/notes.txt") = [str "notes.txt", str "b", str "a"] by decide,
        show absLocation (str "/a/b") = [str "b", str "a"] by decide] at this
      simp at this)
    (by
      rintro ⟨base, h | h⟩
      · have := congrArg List.getLast? h
        rw [List.getLast?_append, show (str ".py").getLast? = some 'y' by decide, show (str "notes.txt").getLast? = some 't' by decide] at this
        simp at this
      · have := congrArg List.getLast? h
        rw [List.getLast?_append, show (str ".py\n").getLast? = some '\n' by decide, show (str "notes.txt").getLast? = some 't' by decide] at this
        simp at this)).2

/-- And c.py is rewritten. -/
example : (mainRun fnWorld fxPy.modes fnOptions (fun _ => none) exNoFaults fnFs {}).fs (str "../b/c.py") = some (exBytes "self.assertEqual(x, y)\n") := by decide +kernel

end Refex
