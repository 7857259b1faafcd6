import Verif.Model.Bindings
/- `MatchInfo.from_diff` (refex/python/matcher.py:773-830). -/
namespace Refex
set_option autoImplicit false

/-- One line of `difflib.Differ().compare(before_lines, after_lines)`: its two-character prefix and the rest. refex/python/matcher.py:791-794. -/
inductive DiffLine
  | same (line : Str)     -- prefix of two spaces
  | added (line : Str)    -- "+ "
  | removed (line : Str)  -- "- "
  | hint (line : Str)     -- "? "
  deriving DecidableEq, Repr

/-- A replacement found by the loop: start, end, new text. refex/python/matcher.py:796-829. -/
structure DiffRepl where
  start : Nat
  stop : Nat
  added : List Str
  deriving DecidableEq, Repr

/-- The variables of the loop. refex/python/matcher.py:795-818. -/
structure DiffState where
  start : Nat := 0
  stop : Nat := 0
  pending : List Str := []
  out : List DiffRepl := []
  deriving DecidableEq, Repr

/-- One iteration. refex/python/matcher.py:799-816. -/
def diffStep (st : DiffState) : DiffLine → DiffState
  | .same line =>
    let st' := if st.pending ≠ [] ∨ st.start ≠ st.stop then
      { st with out := st.out ++ [⟨st.start, st.stop, st.pending⟩], pending := [] } else st
    { st' with stop := st'.stop + line.length, start := st'.stop + line.length }
  | .added line => { st with pending := st.pending ++ [line] }
  | .removed line => { st with stop := st.stop + line.length }
  | .hint _ => st

/-- The loop, with the artificial unchanged empty line at the end. refex/python/matcher.py:792-818. -/
def diffReplacements (diff : List DiffLine) : List DiffRepl :=
  ((diff ++ [DiffLine.same []]).foldl diffStep {}).out

/-- `f'{prefix}.{i}'`. refex/python/matcher.py:824. -/
def diffLabel (pre : Label) (i : Nat) : Label := pre ++ str "." ++ Nat.toDigits 10 i

/-- The bindings and replacements made for a diff, numbered from `i`. refex/python/matcher.py:820-829. -/
def diffBindings (before : Str) (pre : Label) : Nat → List DiffRepl → Bindings × Replacements
  | _, [] => ([], [])
  | i, r :: rs =>
    let rest := diffBindings before pre (i + 1) rs
    ((diffLabel pre i, ⟨.span (slice before r.start r.stop) (some (r.start, r.stop)), .merge, .keepLast⟩) :: rest.1,
     (diffLabel pre i, r.added.flatten) :: rest.2)

end Refex
