import Verif.Model.Find
/- What a search of a tree has to report, in terms of positions in the tree. -/
namespace Refex
set_option autoImplicit false

/-- A position: child numbers from the root down. -/
abbrev Path := List Nat

/-- The object at a position. -/
def Val.at? (v : Val) : Path → Option Val
  | [] => some v
  | i :: p => match v.children[i]? with
    | some w => w.at? p
    | none => none

/-- `p` comes before `q` in document order and neither contains the other: at the point where they part, `p` goes to
an earlier child. -/
def before : Path → Path → Bool
  | i :: p, j :: q => decide (i < j) || (decide (i = j) && before p q)
  | _, _ => false

/-- A report: where, what, and the `Once` keys the match set. -/
structure Report where
  path : Path
  mi : MatchInfo
  keys : List Key

/-- The `Once` keys set by the reports before position `p`. -/
def keysBefore (rs : List Report) (p : Path) : List Key := (rs.filter (fun r => before r.path p)).flatMap (·.keys)

/-- The object at `p` is tried with the keys of the reports before it, and this is the outcome. -/
def Tried (att : List Key → Val → MOut) (tree : Val) (done : List Key) (rs : List Report) (p : Path) (o : MOut) : Prop :=
  ∃ v, tree.at? p = some v ∧ att (done ++ keysBefore rs p) v = o

/-- `r` must be reported: the matcher matches there, and everything that contains it was tried without a match and
without an error. -/
def ToReport (att : List Key → Val → MOut) (tree : Val) (done : List Key) (rs : List Report) (r : Report) : Prop :=
  Tried att tree done rs r.path (.ok (some r.mi, r.keys)) ∧
  ∀ q s, r.path = q ++ s → s ≠ [] → ∃ ks, Tried att tree done rs q (.ok (none, ks))

/-- `rs` are the outermost matches, in document order and never one inside another. -/
def Outermost (att : List Key → Val → MOut) (tree : Val) (done : List Key) (rs : List Report) : Prop :=
  rs.Pairwise (fun a b => before a.path b.path = true) ∧ ∀ r, r ∈ rs ↔ ToReport att tree done rs r

/-- The first match of a tree, for a matcher without state: no key matters. -/
def Stateless (att : List Key → Val → MOut) : Prop := ∀ ks ks' v, att ks v = att ks' v

end Refex
