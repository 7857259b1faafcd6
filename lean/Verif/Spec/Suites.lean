import Verif.Model.Sanitize
import Verif.Spec.Category
/- Specification of suites and of the removal of their statements. -/
namespace Refex
set_option autoImplicit false

/-- A statement of a suite: the spans of its first and last token, and of a ';' right after it. -/
structure Stmt where
  id : Nat
  first : Span
  last : Span
  semi : Option Span
  deriving DecidableEq

/-- A suite is a list of statements; it may be the module body. -/
structure Suite where
  isModule : Bool
  stmts : List Stmt

/-- The statements are distinct and written one after the other. -/
structure Suite.Valid (s : Suite) : Prop where
  distinct : (s.stmts.map Stmt.id).Nodup
  nonempty : ∀ x ∈ s.stmts, x.first.1 < x.last.2
  semi : ∀ x ∈ s.stmts, ∀ sp, x.semi = some sp → x.last.2 ≤ sp.1 ∧ sp.1 ≤ sp.2
  ordered : s.stmts.Pairwise fun a b => a.last.2 ≤ b.first.1

/-- `nav` describes this suite. -/
def Suite.In (s : Suite) (nav : Nav) : Prop :=
  ∀ pre x post, s.stmts = pre ++ x :: post →
    nav x.id = { inList := true, moduleLevel := s.isModule, prev := pre.getLast?.map Stmt.id, next := post.head?.map Stmt.id,
                 first := x.first, last := x.last, semi := x.semi }

/-- The statements that a match removes: those bound to a label whose template is empty, in the order of the templates. -/
def removals (m : Dict Str LexMatch × Dict Str Str) : List Nat :=
  m.2.filterMap fun kt => if kt.2 ≠ [] then none else (m.1.get? kt.1).bind LexMatch.stmt

/-- The edits that come of them: statement, span, and replacement. -/
def removalEdits (m m' : Dict Str LexMatch × Dict Str Str) : List (Nat × Span × Str) :=
  m.2.filterMap fun kt => if kt.2 ≠ [] then none else
    (m.1.get? kt.1).bind fun x => x.stmt.bind fun id =>
      match m'.1.get? kt.1, m'.2.get? kt.1 with
      | some y, some t => some (id, y.span, t)
      | _, _ => none

/-- Over all matches. -/
def allRemovalEdits : List (Dict Str LexMatch × Dict Str Str) → List (Dict Str LexMatch × Dict Str Str) → List (Nat × Span × Str)
  | m :: ms, m' :: ms' => removalEdits m m' ++ allRemovalEdits ms ms'
  | _, _ => []

/-- Matches of statements span the statements. -/
def Plain (nav : Nav) (dict : Dict Str LexMatch) : Prop :=
  ∀ k m id, dict.get? k = some m → m.stmt = some id → m = stmtMatch nav id

/-- The removed statements of the suite come in its order, each once. -/
def SuiteOrder (s : Suite) (ids : List Nat) : Prop :=
  (ids.filter fun i => decide (i ∈ s.stmts.map Stmt.id)).Sublist (s.stmts.map Stmt.id)

end Refex
