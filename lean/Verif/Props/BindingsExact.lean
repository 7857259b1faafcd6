import Verif.Props.Bindings
import Verif.Props.MatcherSem
/- C37 with the policies spelled out: when two bound values are the same, and when they are the same code. -/
namespace Refex
set_option autoImplicit false

theorem sameMatch_iff (a b : MObj) : a.pyEq b = true ↔ SameMatch a b := by
  constructor
  · intro h
    cases a <;> cases b <;> simp only [MObj.pyEq, Bool.and_eq_true, decide_eq_true_eq, Bool.false_eq_true] at h
    · obtain ⟨h1, rfl⟩ := h; exact .lexical _ ((pyEq_iff _ _).1 h1)
    · subst h; exact .string _
    · exact .object ((pyEq_iff _ _).1 h)
    · obtain ⟨rfl, rfl⟩ := h; exact .span _ _
    · exact .bare
  · intro h
    cases h with
    | lexical sp h => simp [MObj.pyEq, (pyEq_iff _ _).2 h]
    | object h => simp [MObj.pyEq, (pyEq_iff _ _).2 h]
    | string s => simp [MObj.pyEq]
    | span s sp => simp [MObj.pyEq]
    | bare => rfl

theorem matched?_iff (m : MObj) (v : Val) : m.matched? = some v ↔ ObjectOf m v := by
  constructor
  · intro h
    cases m <;> simp only [MObj.matched?] at h <;> cases h
    · exact .lexical _ _
    · exact .object _
  · intro h; cases h <;> rfl

theorem sameCode_iff (a b : BoundValue) : equivalentAst a b = true ↔ SameCode a.value b.value := by
  unfold equivalentAst SameCode
  constructor
  · intro h
    split at h
    · rename_i v w h1 h2
      exact ⟨v, w, (matched?_iff _ _).1 h1, (matched?_iff _ _).1 h2, h⟩
    · cases h
  · rintro ⟨v, w, h1, h2, h⟩
    rw [(matched?_iff _ _).2 h1, (matched?_iff _ _).2 h2]
    exact h

/-- The two values of a label cannot be merged: the policies differ, or the common policy is to raise, or it demands the same value or
the same code and they are not. -/
def CannotMerge (l r : BoundValue) : Prop :=
  l.onConflict ≠ r.onConflict ∨ l.onMerge ≠ r.onMerge ∨ l.onConflict = .error ∨
    (l.onConflict = .mergeIdenticalOrError ∧ ¬ SameMatch l.value r.value) ∨
    (l.onConflict = .mergeEquivalentAstOrError ∧ ¬ SameCode l.value r.value)

/-- The two values of a label fail the match. -/
def FailsMatch (l r : BoundValue) : Prop :=
  l.onConflict = .skip ∨ (l.onConflict = .mergeIdentical ∧ ¬ SameMatch l.value r.value) ∨
    (l.onConflict = .mergeEquivalentAst ∧ ¬ SameCode l.value r.value)

theorem boundEq_iff {l r : BoundValue} (h1 : l.onConflict = r.onConflict) (h2 : l.onMerge = r.onMerge) :
    l.pyEq r = false ↔ ¬ SameMatch l.value r.value := by
  rw [← sameMatch_iff]
  simp [BoundValue.pyEq, h1, h2]

theorem cannotMerge_iff (l r : BoundValue) : PairError l r ↔ CannotMerge l r := by
  unfold PairError CannotMerge
  by_cases h1 : l.onConflict = r.onConflict
  · by_cases h2 : l.onMerge = r.onMerge
    · rw [boundEq_iff h1 h2, ← sameCode_iff]; simp
    · simp [h2]
  · simp [h1]

theorem failsMatch_iff (l r : BoundValue) : PairSkip l r ↔ ¬ CannotMerge l r ∧ FailsMatch l r := by
  unfold PairSkip
  rw [cannotMerge_iff]
  constructor
  · rintro ⟨h, h'⟩
    have h1 : l.onConflict = r.onConflict := Classical.byContradiction fun e => h (.inl e)
    have h2 : l.onMerge = r.onMerge := Classical.byContradiction fun e => h (.inr (.inl e))
    refine ⟨h, ?_⟩
    rw [boundEq_iff h1 h2] at h'
    unfold FailsMatch
    rw [← sameCode_iff]
    simpa using h'
  · rintro ⟨h, h'⟩
    have h1 : l.onConflict = r.onConflict := Classical.byContradiction fun e => h (.inl e)
    have h2 : l.onMerge = r.onMerge := Classical.byContradiction fun e => h (.inr (.inl e))
    refine ⟨h, ?_⟩
    rw [boundEq_iff h1 h2]
    unfold FailsMatch at h'
    rw [← sameCode_iff] at h'
    simpa using h'

/-- **C37**, all of it: whatever the iteration orders, `merge_bindings` raises MatchError iff the values of some label cannot be merged;
otherwise the match fails iff those of some label fail it; otherwise every label keeps its value, and those with two the first or
last one as they say. -/
theorem C37_exact {lhs rhs : Bindings} {s l r : List Label} (h : Orders lhs rhs s l r) :
    ((∃ k a b, Shared lhs rhs k a b ∧ CannotMerge a b) ∧ mergeBindingsIn s l r lhs rhs = .error .matchError) ∨
    ((¬ ∃ k a b, Shared lhs rhs k a b ∧ CannotMerge a b) ∧ (∃ k a b, Shared lhs rhs k a b ∧ FailsMatch a b) ∧
      mergeBindingsIn s l r lhs rhs = .ok none) ∨
    ((¬ ∃ k a b, Shared lhs rhs k a b ∧ (CannotMerge a b ∨ FailsMatch a b)) ∧
      ∃ d, mergeBindingsIn s l r lhs rhs = .ok (some d) ∧ ∀ k, d.get? k = mergedValue lhs rhs k) := by
  by_cases h1 : ∃ k a b, Shared lhs rhs k a b ∧ CannotMerge a b
  · refine .inl ⟨h1, (C37_error_iff h).2 ?_⟩
    obtain ⟨k, a, b, hs, hc⟩ := h1
    exact ⟨k, a, b, hs, (cannotMerge_iff a b).2 hc⟩
  · have h1' : ¬ ∃ k a b, Shared lhs rhs k a b ∧ PairError a b :=
      fun ⟨k, a, b, hs, hc⟩ => h1 ⟨k, a, b, hs, (cannotMerge_iff a b).1 hc⟩
    by_cases h2 : ∃ k a b, Shared lhs rhs k a b ∧ FailsMatch a b
    · refine .inr (.inl ⟨h1, h2, (C37_skip_iff h).2 ⟨h1', ?_⟩⟩)
      obtain ⟨k, a, b, hs, hf⟩ := h2
      exact ⟨k, a, b, hs, (failsMatch_iff a b).2 ⟨fun hc => h1 ⟨k, a, b, hs, hc⟩, hf⟩⟩
    · refine .inr (.inr ⟨?_, C37_merged h h1' ?_⟩)
      · rintro ⟨k, a, b, hs, hc | hf⟩
        · exact h1 ⟨k, a, b, hs, hc⟩
        · exact h2 ⟨k, a, b, hs, hf⟩
      · rintro ⟨k, a, b, hs, hp⟩
        exact h2 ⟨k, a, b, hs, ((failsMatch_iff a b).1 hp).2⟩

/-- Two matches of the same node at different places are not the same. -/
example : ¬ SameMatch (.lexical (.node 1 (str "Load") [] []) (0, 1)) (.lexical (.node 1 (str "Load") [] []) (2, 3)) := by
  intro h; cases h

end Refex
