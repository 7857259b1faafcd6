import Verif.Props.Substitution
import Verif.Model.Matchers
import Verif.Props.Find
/- C10, C11: which of overlapping substitutions are dropped. -/
namespace Refex
set_option autoImplicit false

/-- `t` is preferred to `s`: they overlap, and `t` is shorter, or as long and later in the order. -/
def Preferred (t s : Nat × Span) : Prop :=
  ¬ SpanApart t.2 s.2 ∧ (t.2.2 - t.2.1 < s.2.2 - s.2.1 ∨ (t.2.2 - t.2.1 = s.2.2 - s.2.1 ∧ s.1 < t.1))

theorem disjointLoop_rivals : ∀ (xs : List (Nat × Span × Substitution)) (l : Nat × Span × Substitution),
    (l :: xs).Pairwise (fun a b => spanLe a.2.1 b.2.1 = true) → (l :: xs).Pairwise (fun a b => a.1 < b.1) →
    (∀ e ∈ l :: xs, e.2.1.1 ≤ e.2.1.2) →
    ∃ keep : Nat → Bool, disjointLoop (some l.2) (xs.map Prod.snd) = ((l :: xs).filter (fun e => keep e.1)).map (fun e => e.2.2) ∧
      ∀ e ∈ l :: xs, keep e.1 = false → ∃ e' ∈ l :: xs, Preferred (e'.1, e'.2.1) (e.1, e.2.1)
  | [], l, _, _, _ => ⟨fun _ => true, by simp [disjointLoop], by simp⟩
  | x :: xs, l, hs, hp, hw => by
    have hlx : spanLe l.2.1 x.2.1 = true := List.rel_of_pairwise_cons hs (by simp)
    rw [spanLe_iff] at hlx
    have hwl := hw l (by simp)
    have hwx := hw x (by simp)
    have hord : l.1 < x.1 := List.rel_of_pairwise_cons hp (by simp)
    simp only [List.map_cons, disjointLoop]
    by_cases h1 : x.2.1.1 ≥ l.2.1.2
    · -- no collision
      rw [if_pos h1]
      obtain ⟨keep, e, h⟩ := disjointLoop_rivals xs x (List.Pairwise.of_cons hs) (List.Pairwise.of_cons hp) (fun e he => hw e (by simp [List.mem_cons.1 he]))
      refine ⟨fun i => if i = l.1 then true else keep i, ?_, ?_⟩
      · rw [e, List.filter_cons (x := l)]
        simp only [if_true, List.map_cons, List.cons.injEq, true_and]
        congr 1
        refine List.filter_congr (fun y hy => ?_)
        have : l.1 < y.1 := List.rel_of_pairwise_cons hp hy
        rw [if_neg (by omega)]
      · intro y hy hk
        simp only [] at hk
        rcases List.mem_cons.1 hy with rfl | hy
        · simp at hk
        · have : l.1 < y.1 := List.rel_of_pairwise_cons hp hy
          rw [if_neg (by omega)] at hk
          obtain ⟨e', he', hr⟩ := h y hy hk
          exact ⟨e', List.mem_cons_of_mem _ he', hr⟩
    · rw [if_neg h1]
      have hov : ¬ SpanApart l.2.1 x.2.1 := by
        unfold SpanApart; omega
      by_cases h2 : (x.2.1.2 : Int) - x.2.1.1 > (l.2.1.2 : Int) - l.2.1.1
      · -- the new one is longer
        rw [if_pos h2]
        have hs' : (l :: xs).Pairwise (fun a b => spanLe a.2.1 b.2.1 = true) := by
          rw [List.pairwise_cons] at hs ⊢
          exact ⟨fun y hy => hs.1 y (List.mem_cons_of_mem _ hy), hs.2.of_cons⟩
        have hp' : (l :: xs).Pairwise (fun a b => a.1 < b.1) := by
          rw [List.pairwise_cons] at hp ⊢
          exact ⟨fun y hy => hp.1 y (List.mem_cons_of_mem _ hy), hp.2.of_cons⟩
        obtain ⟨keep, e, h⟩ := disjointLoop_rivals xs l hs' hp' (fun e he => hw e (by
          rcases List.mem_cons.1 he with h | h <;> simp [h]))
        refine ⟨fun i => if i = x.1 then false else keep i, ?_, ?_⟩
        · rw [e, List.filter_cons, List.filter_cons (x := l) (xs := x :: xs), List.filter_cons (x := x) (xs := xs)]
          simp only [if_true, Bool.false_eq_true, if_false]
          have : (xs.filter (fun e => if e.1 = x.1 then false else keep e.1)) = xs.filter (fun e => keep e.1) := by
            refine List.filter_congr (fun y hy => ?_)
            have : x.1 < y.1 := List.rel_of_pairwise_cons (List.Pairwise.of_cons hp) hy
            rw [if_neg (by omega)]
          rw [this, if_neg (show ¬ l.1 = x.1 by omega)]
        · intro y hy hk
          simp only [] at hk
          by_cases hyx : y.1 = x.1
          · have : y = x := by
              rcases List.mem_cons.1 hy with rfl | hy
              · omega
              · rcases List.mem_cons.1 hy with rfl | hy
                · rfl
                · have : x.1 < y.1 := List.rel_of_pairwise_cons (List.Pairwise.of_cons hp) hy
                  omega
            subst this
            exact ⟨l, by simp, hov, Or.inl (by simp only; omega)⟩
          · rw [if_neg hyx] at hk
            have hy' : y ∈ l :: xs := by
              rcases List.mem_cons.1 hy with rfl | hy
              · simp
              · rcases List.mem_cons.1 hy with rfl | hy
                · exact absurd rfl hyx
                · simp [hy]
            obtain ⟨e', he', hr⟩ := h y hy' hk
            refine ⟨e', ?_, hr⟩
            rcases List.mem_cons.1 he' with h | h <;> simp [h]
      · -- the new one is not longer
        rw [if_neg h2]
        obtain ⟨keep, e, h⟩ := disjointLoop_rivals xs x (List.Pairwise.of_cons hs) (List.Pairwise.of_cons hp) (fun e he => hw e (by simp [List.mem_cons.1 he]))
        refine ⟨fun i => if i = l.1 then false else keep i, ?_, ?_⟩
        · rw [e, List.filter_cons (x := l)]
          simp only [if_true, Bool.false_eq_true, if_false]
          congr 1
          refine List.filter_congr (fun y hy => ?_)
          have : l.1 < y.1 := List.rel_of_pairwise_cons hp hy
          rw [if_neg (by omega)]
        · intro y hy hk
          simp only [] at hk
          rcases List.mem_cons.1 hy with rfl | hy
          · refine ⟨x, by simp, fun h => hov (by simp only [SpanApart] at h ⊢; omega), ?_⟩
            simp only; omega
          · have : l.1 < y.1 := List.rel_of_pairwise_cons hp hy
            rw [if_neg (by omega)] at hk
            obtain ⟨e', he', hr⟩ := h y hy hk
            exact ⟨e', List.mem_cons_of_mem _ he', hr⟩

theorem enumFrom_increasing {α : Type} : ∀ (i : Nat) (l : List α), (enumFrom i l).Pairwise (fun a b => a.1 < b.1)
  | _, [] => List.Pairwise.nil
  | i, x :: l => by
    rw [enumFrom, List.pairwise_cons]
    refine ⟨fun y hy => ?_, enumFrom_increasing (i + 1) l⟩
    have := (mem_enumFrom (i + 1) l y).1 hy
    simp only; omega

/-- C10, C11: the input is sorted by primary span, equal spans in their order; every substitution is kept except those to which an
overlapping one is preferred: a shorter one, or one of the same length that is later in that order. -/
theorem C11_dropped_for_preferred (subs : List Substitution) (hw : ∀ s ∈ subs, s.primarySpan.1 ≤ s.primarySpan.2) :
    ∃ (sorted : List Substitution) (keep : Nat → Bool),
      sorted.Perm subs ∧ sorted.Pairwise (fun s t => spanLe s.primarySpan t.primarySpan = true) ∧
      (∀ sp, sorted.filter (fun s => decide (s.primarySpan = sp)) = subs.filter (fun s => decide (s.primarySpan = sp))) ∧
      disjointSubstitutions subs = ((enumFrom 0 sorted).filter (fun e => keep e.1)).map Prod.snd ∧
      ∀ i s, sorted[i]? = some s → keep i = false →
        ∃ (j : Nat) (t : Substitution), sorted[j]? = some t ∧ Preferred (j, t.primarySpan) (i, s.primarySpan) := by
  let le := fun a b : Substitution => spanLe a.primarySpan b.primarySpan
  let sorted := stableSort le subs
  have hsorted : sorted.Pairwise (fun s t => spanLe s.primarySpan t.primarySpan = true) :=
    stableSort_sorted (le := le) (fun a b => spanLe_total _ _) (fun a b c => spanLe_trans _ _ _) _
  have hperm : sorted.Perm subs := stableSort_perm _ _
  have hout : disjointSubstitutions subs = disjointLoop none (sorted.map fun s => (s.primarySpan, s)) := by
    rw [disjointSubstitutions]
    congr 1
    exact stableSort_map (le := le) (le' := fun a b : Span × Substitution => spanLe a.1 b.1) (fun s => (s.primarySpan, s)) subs (fun _ _ _ _ => rfl)
  have hstab : ∀ sp, sorted.filter (fun s => decide (s.primarySpan = sp)) = subs.filter (fun s => decide (s.primarySpan = sp)) := by
    intro sp
    refine stableSort_filter _ _ (fun a _ b _ ha hb => ?_)
    simp only [decide_eq_true_eq] at ha hb
    show spanLe a.primarySpan b.primarySpan = true
    rw [spanLe_iff, ha, hb]; omega
  let lab := (enumFrom 0 sorted).map fun e => (e.1, e.2.primarySpan, e.2)
  have hlab : lab.map Prod.snd = sorted.map fun s => (s.primarySpan, s) := by
    have := enumFrom_snd 0 sorted
    simp only [lab, List.map_map]
    conv => rhs; rw [← this]
    rw [List.map_map]; rfl
  have hmem : ∀ e ∈ lab, ∃ s, sorted[e.1]? = some s ∧ e = (e.1, s.primarySpan, s) := by
    intro e he
    obtain ⟨q, hq, rfl⟩ := List.mem_map.1 he
    have := (mem_enumFrom 0 sorted q).1 hq
    exact ⟨q.2, by simpa using this.2, rfl⟩
  have key : ∃ keep : Nat → Bool, disjointLoop none (lab.map Prod.snd) = (lab.filter (fun e => keep e.1)).map (fun e => e.2.2) ∧
      ∀ e ∈ lab, keep e.1 = false → ∃ e' ∈ lab, Preferred (e'.1, e'.2.1) (e.1, e.2.1) := by
    have h1 : lab.Pairwise (fun a b => spanLe a.2.1 b.2.1 = true) := by
      have : (lab.map Prod.snd).Pairwise (fun a b => spanLe a.1 b.1 = true) := by
        rw [hlab, List.pairwise_map]; exact hsorted
      rwa [List.pairwise_map] at this
    have h2 : lab.Pairwise (fun a b => a.1 < b.1) := by
      simp only [lab, List.pairwise_map]
      exact enumFrom_increasing 0 sorted
    have h3 : ∀ e ∈ lab, e.2.1.1 ≤ e.2.1.2 := by
      intro e he
      obtain ⟨s, hs, e2⟩ := hmem e he
      rw [e2]
      exact hw s (hperm.mem_iff.1 (List.mem_of_getElem? hs))
    revert h1 h2 h3
    cases lab with
    | nil => intro _ _ _; exact ⟨fun _ => true, rfl, by simp⟩
    | cons l xs => intro h1 h2 h3; exact disjointLoop_rivals xs l h1 h2 h3
  obtain ⟨keep, e, h⟩ := key
  refine ⟨sorted, keep, hperm, hsorted, hstab, ?_, ?_⟩
  · rw [hout, ← hlab, e]
    simp only [lab, List.filter_map, List.map_map]
    rfl
  · intro i s hs hk
    have hin : (i, s.primarySpan, s) ∈ lab := by
      refine List.mem_map.2 ⟨(i, s), (mem_enumFrom 0 sorted (i, s)).2 (by simpa using hs), rfl⟩
    obtain ⟨e', he', hr⟩ := h _ hin hk
    obtain ⟨t, ht, e2⟩ := hmem e' he'
    rw [e2] at hr
    exact ⟨e'.1, t, ht, hr⟩

/-- Two substitutions that overlap, and one that overlaps neither: the shorter one is kept, of equals the later. -/
example : disjointSubstitutions [mk 0 6, mk 5 10, mk 20 22] = [mk 5 10, mk 20 22] ∧ disjointSubstitutions [mk 0 5, mk 4 10, mk 20 22] = [mk 0 5, mk 20 22] ∧
    disjointSubstitutions [mk 0 5, mk 3 8] = [mk 3 8] := by decide

end Refex
