import Verif.Spec.Output
/-! What it means that a path ends in a name, and that it leads to a directory one stands in. -/
namespace Refex
set_option autoImplicit false

/-- The path `p` ends in the name `n`: what follows its last slash (all of it, if there is none), and that is not '.' or '..' or nothing. -/
def EndsIn (p n : Str) : Prop :=
  ∃ dir, p = dir ++ n ∧ (dir = [] ∨ ∃ d, dir = d ++ ['/']) ∧ '/' ∉ n ∧ n ≠ [] ∧ n ≠ str "." ∧ n ≠ str ".."

/-- The path leads to the current directory or to one above it (a file is never found there). -/
def LeadsUp (cwd p : Str) : Prop := ∃ inner, absLocation cwd = inner ++ location cwd p

end Refex
