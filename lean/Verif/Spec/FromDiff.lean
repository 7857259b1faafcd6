import Verif.Model.FromDiff
import Verif.Spec.Splice
/- Specification of a correct line diff. -/
namespace Refex
set_option autoImplicit false

/-- The text the diff starts from: its unchanged and removed lines. -/
def DiffLine.before : DiffLine → Str
  | .same l => l
  | .removed l => l
  | _ => []

/-- The text the diff leads to: its unchanged and added lines. -/
def DiffLine.after : DiffLine → Str
  | .same l => l
  | .added l => l
  | _ => []

/-- A correct diff from one text to another: what any line differ must deliver (difflib is not modelled). -/
def DiffBetween (diff : List DiffLine) (before after : Str) : Prop :=
  diff.flatMap DiffLine.before = before ∧ diff.flatMap DiffLine.after = after

instance (d : List DiffLine) (a b : Str) : Decidable (DiffBetween d a b) := inferInstanceAs (Decidable (_ ∧ _))

/-- The edit a found replacement stands for. -/
def DiffRepl.edit (r : DiffRepl) : Repl := ⟨r.added.flatten, r.start, r.stop⟩

end Refex
