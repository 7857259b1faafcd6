import Verif.Model.Substitution
/- Specifications for categories, suppression and selection of substitutions. -/
namespace Refex
set_option autoImplicit false

/-- A well-formed category: components joined by dots, each non-empty, without dots and white space; the whole does
not start with a dash. -/
def CategorySpec (c : Str) : Prop :=
  ∃ parts : List Str, parts ≠ [] ∧ c = joinWith ['.'] parts ∧
    (∀ p ∈ parts, p ≠ [] ∧ ∀ ch ∈ p, ch ≠ '.' ∧ isReSpace ch = false) ∧ c.head? ≠ some '-'

/-- A substitution with category `c` is in category `k`: `k` is `c` itself or `c` cut right before one of its dots. -/
def InCategory (s : Substitution) (k : Str) : Prop :=
  ∃ c, s.category = some c ∧ (c = k ∨ ∃ rest, c = k ++ '.' :: rest)

/-- Half-open spans meet: each starts before the other ends. -/
def Meets (a b : Span) : Prop := a.1 < b.2 ∧ b.1 < a.2

instance (a b : Span) : Decidable (Meets a b) := inferInstanceAs (Decidable (_ ∧ _))

/-- For non-empty spans, meeting is sharing a position. -/
theorem meets_iff_shared {a b : Span} (ha : a.1 < a.2) (hb : b.1 < b.2) :
    Meets a b ↔ ∃ i, (a.1 ≤ i ∧ i < a.2) ∧ (b.1 ≤ i ∧ i < b.2) := by
  unfold Meets
  constructor
  · intro h
    by_cases h' : a.1 ≤ b.1
    · exact ⟨b.1, by omega⟩
    · exact ⟨a.1, by omega⟩
  · rintro ⟨i, h⟩; omega

/-- Suppressed: meets an excluded range of a category (or of the root category) it belongs to. -/
def Suppressed (s : Substitution) (ranges : Dict (Option Str) (List Span)) : Prop :=
  ∃ k : Option Str, (k = none ∨ ∃ c, k = some c ∧ InCategory s c) ∧
    ∃ rs, ranges.get? k = some rs ∧ ∃ r ∈ rs, Meets s.primarySpan r

/-- Two spans are apart. -/
def SpanApart (a b : Span) : Prop := a.2 ≤ b.1 ∨ b.2 ≤ a.1

instance (a b : Span) : Decidable (SpanApart a b) := inferInstanceAs (Decidable (_ ∨ _))

end Refex
