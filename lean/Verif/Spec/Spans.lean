import Verif.Model.Substitution
/- Specification of tilings by labelled spans and of diffs. -/
namespace Refex
set_option autoImplicit false

/-- Spans following each other without gap or overlap from `a` to `b`. -/
def Contig : Nat → Nat → List LabeledSpan → Prop
  | a, b, [] => a = b
  | a, b, ls :: rest => ls.span.1 = a ∧ a ≤ ls.span.2 ∧ Contig ls.span.2 b rest

/-- `lo` is the least start and `hi` the greatest end of the matched spans. -/
def IsExtent (s : Substitution) (lo hi : Nat) : Prop :=
  (∃ p ∈ s.matchedSpans, p.2.1 = lo) ∧ (∃ p ∈ s.matchedSpans, p.2.2 = hi) ∧
  ∀ p ∈ s.matchedSpans, lo ≤ p.2.1 ∧ p.2.2 ≤ hi

/-- The old text of a diff item. -/
def DiffItem.before (data : Str) (d : DiffItem) : Str := slice data d.span.1 d.span.2

/-- The new text of a diff item. -/
def DiffItem.after' (data : Str) : DiffItem → Str
  | .labeled ls => slice data ls.span.1 ls.span.2
  | .diff _ _ after => after

end Refex
