import Verif.Model.Bindings
/- Specification of binding merges, key by key, without any iteration order. -/
namespace Refex
set_option autoImplicit false

/-- The label is bound on both sides. -/
def Shared (lhs rhs : Bindings) (k : Label) (l r : BoundValue) : Prop :=
  lhs.get? k = some l ∧ rhs.get? k = some r

/-- Merging the two values of one label is a user error: the two sides disagree about how to merge, or the
agreed policy demands an error. -/
def PairError (l r : BoundValue) : Prop :=
  l.onConflict ≠ r.onConflict ∨ l.onMerge ≠ r.onMerge ∨ l.onConflict = .error ∨
    (l.onConflict = .mergeIdenticalOrError ∧ l.pyEq r = false) ∨
    (l.onConflict = .mergeEquivalentAstOrError ∧ equivalentAst l r = false)

/-- Merging the two values of one label fails the match. -/
def PairSkip (l r : BoundValue) : Prop :=
  ¬ PairError l r ∧ (l.onConflict = .skip ∨ (l.onConflict = .mergeIdentical ∧ l.pyEq r = false) ∨
    (l.onConflict = .mergeEquivalentAst ∧ equivalentAst l r = false))

/-- The merged value of a label: the agreed side if both bind it, else the only one there is. -/
def mergedValue (lhs rhs : Bindings) (k : Label) : Option BoundValue :=
  match lhs.get? k, rhs.get? k with
  | some l, some r => some (if l.onMerge = .keepFirst then l else r)
  | some l, none => some l
  | none, some r => some r
  | none, none => none

/-- The list enumerates the set, in some order. -/
def Enumerates (l : List Label) (P : Label → Prop) : Prop := l.Nodup ∧ ∀ k, k ∈ l ↔ P k

end Refex
