import Verif.Lemmas.Sort
import Verif.Spec.Spans
/- Loop invariant of `labeled_spans`. -/
namespace Refex
set_option autoImplicit false

structure LInv (spans : Dict Label Span) (starts ends : List Nat) (cur : List Label) (r : Nat) : Prop where
  sS : starts.Pairwise (· < ·)
  sE : ends.Pairwise (· < ·)
  bS : ∀ x ∈ starts, r < x
  bE : ∀ x ∈ ends, r ≤ x
  cS : ∀ p ∈ spans, p.2.1 ∈ starts ∨ p.2.1 ≤ r
  cE : ∀ p ∈ spans, p.2.2 ∈ ends ∨ p.2.2 ≤ r
  d : ∀ p ∈ spans, p.2.1 ∈ starts → p.2.2 ∈ ends
  e : ∀ l, l ∈ cur ↔ ∃ p ∈ spans, p.1 = l ∧ p.2.1 ∉ starts ∧ p.2.2 ∈ ends
  f : r ∈ ends → ∃ p ∈ spans, p.2.1 = r
  g : ∀ x ∈ starts, ∃ p ∈ spans, p.2.1 = x

structure LFacts (spans : Dict Label Span) (starts ends : List Nat) (cur : List Label) (r hi : Nat)
    (out : List LabeledSpan) : Prop where
  contig : Contig r hi out
  chars : ∀ ls ∈ out, ∀ i, ls.span.1 ≤ i → i < ls.span.2 →
    ∀ l, l ∈ ls.labels ↔ ∃ p ∈ spans, p.1 = l ∧ p.2.1 ≤ i ∧ i < p.2.2
  closed : ∀ ls ∈ out, ∀ l ∈ ls.labels, ∃ p ∈ spans, p.1 = l ∧ p.2.1 ≤ ls.span.1 ∧ ls.span.2 ≤ p.2.2 ∧
    (p.2.2 = ls.span.1 → ∃ q ∈ spans, q.2.1 = ls.span.1)
  distinct : out.Pairwise (fun a b => a.span.1 < b.span.1 ∨ a.span.2 < b.span.2)
  appears : ∀ p ∈ spans, p.2.1 ∈ starts ∨ (p.2.1 = r ∧ p.1 ∈ cur) →
    ∃ ls ∈ out, ls.span.1 = p.2.1 ∧ p.1 ∈ ls.labels
  ge : ∀ ls ∈ out, r ≤ ls.span.1 ∧ ls.span.1 ≤ ls.span.2 ∧ (r ∉ ends → r < ls.span.2)

/-- One step of the loop, start event. -/
theorem loop_start (spans : Dict Label Span) (fuel s : Nat) (starts : List Nat) (e : Nat) (ends : List Nat)
    (cur : List Label) (rs : Option Nat) (h : s ≤ e) :
    labeledSpansLoop spans (fuel + 1) (s :: starts) (e :: ends) cur rs =
      match labeledSpansLoop spans fuel starts (e :: ends)
        (cur ++ ((spans.filter (fun p => p.2.1 = s)).map Prod.fst).filter (fun l => !cur.contains l)) (some s) with
      | .error x => .error x
      | .ok rest => match rs with
        | some r => .ok ({ span := (r, s), labels := cur } :: rest)
        | none => .ok rest := by
  simp [labeledSpansLoop, h]
  rfl

/-- One step of the loop, end event. -/
theorem loop_end (spans : Dict Label Span) (fuel : Nat) (starts : List Nat) (e : Nat) (ends : List Nat)
    (cur : List Label) (rs : Option Nat) (h : ∀ s, starts.head? = some s → e < s) :
    labeledSpansLoop spans (fuel + 1) starts (e :: ends) cur rs =
      match labeledSpansLoop spans fuel starts ends
        (cur.filter (fun l => !((spans.filter (fun p => p.2.2 = e)).map Prod.fst).contains l)) (some e) with
      | .error x => .error x
      | .ok rest => match rs with
        | some r => .ok ({ span := (r, e), labels := cur } :: rest)
        | none => .ok rest := by
  cases starts with
  | nil => simp [labeledSpansLoop]; rfl
  | cons s ss =>
    have : ¬ s ≤ e := by have := h s rfl; omega
    simp [labeledSpansLoop, this]
    rfl

theorem mem_startLabels (spans : Dict Label Span) (pos : Nat) (l : Label) :
    l ∈ (spans.filter (fun p => p.2.1 = pos)).map Prod.fst ↔ ∃ p ∈ spans, p.1 = l ∧ p.2.1 = pos := by
  simp only [List.mem_map, List.mem_filter, decide_eq_true_eq]
  constructor
  · rintro ⟨p, ⟨h1, h2⟩, h3⟩; exact ⟨p, h1, h3, h2⟩
  · rintro ⟨p, h1, h3, h2⟩; exact ⟨p, ⟨h1, h2⟩, h3⟩

theorem mem_endLabels (spans : Dict Label Span) (pos : Nat) (l : Label) :
    l ∈ (spans.filter (fun p => p.2.2 = pos)).map Prod.fst ↔ ∃ p ∈ spans, p.1 = l ∧ p.2.2 = pos := by
  simp only [List.mem_map, List.mem_filter, decide_eq_true_eq]
  constructor
  · rintro ⟨p, ⟨h1, h2⟩, h3⟩; exact ⟨p, h1, h3, h2⟩
  · rintro ⟨p, h1, h3, h2⟩; exact ⟨p, ⟨h1, h2⟩, h3⟩

/-- Invariant after a start event. -/
theorem inv_start {spans : Dict Label Span} {s : Nat} {starts : List Nat} {e : Nat} {ends : List Nat}
    {cur : List Label} {r : Nat} (h : LInv spans (s :: starts) (e :: ends) cur r) (hse : s ≤ e) :
    LInv spans starts (e :: ends)
      (cur ++ ((spans.filter (fun p => p.2.1 = s)).map Prod.fst).filter (fun l => !cur.contains l)) s := by
  obtain ⟨s1, s2⟩ := List.pairwise_cons.1 h.sS
  refine ⟨s2, h.sE, s1, ?_, ?_, ?_, fun p hp hm => h.d p hp (by simp [hm]), ?_, ?_, fun x hx => h.g x (by simp [hx])⟩
  · intro x hx
    rcases List.mem_cons.1 hx with rfl | hx'
    · exact hse
    · have := (List.pairwise_cons.1 h.sE).1 x hx'; omega
  · intro p hp
    rcases h.cS p hp with hm | hm
    · rcases List.mem_cons.1 hm with hm | hm
      · exact Or.inr (by omega)
      · exact Or.inl hm
    · have := h.bS s (by simp); exact Or.inr (by omega)
  · intro p hp
    rcases h.cE p hp with hm | hm
    · exact Or.inl hm
    · have := h.bS s (by simp); exact Or.inr (by omega)
  · intro l
    simp only [List.mem_append, List.mem_filter, mem_startLabels, Bool.not_eq_true', List.contains_eq_mem,
      decide_eq_false_iff_not]
    constructor
    · rintro (hc | ⟨⟨p, hp, hl, hps⟩, _⟩)
      · obtain ⟨p, hp, hl, h1, h2⟩ := (h.e l).1 hc
        exact ⟨p, hp, hl, fun hm => h1 (by simp [hm]), h2⟩
      · refine ⟨p, hp, hl, ?_, h.d p hp (by simp [hps])⟩
        intro hm; have := s1 _ hm; omega
    · rintro ⟨p, hp, hl, h1, h2⟩
      by_cases hc : l ∈ cur
      · exact Or.inl hc
      · right
        refine ⟨⟨p, hp, hl, ?_⟩, hc⟩
        by_cases hps : p.2.1 = s
        · exact hps
        · exact absurd ((h.e l).2 ⟨p, hp, hl, by simp [hps, h1], h2⟩) hc
  · intro _; exact h.g s (by simp)

/-- Invariant after an end event. -/
theorem inv_end {spans : Dict Label Span} {starts : List Nat} {e : Nat} {ends : List Nat}
    {cur : List Label} {r : Nat} (hwf : spans.WF) (hsp : ∀ p ∈ spans, p.2.1 ≤ p.2.2)
    (h : LInv spans starts (e :: ends) cur r) (hse : ∀ s, starts.head? = some s → e < s) :
    LInv spans starts ends
      (cur.filter (fun l => !((spans.filter (fun p => p.2.2 = e)).map Prod.fst).contains l)) e := by
  obtain ⟨e1, e2⟩ := List.pairwise_cons.1 h.sE
  have hre := h.bE e (by simp)
  have hb : ∀ x ∈ starts, e < x := by
    intro x hx
    have hs := h.sS
    cases starts with
    | nil => simp at hx
    | cons s ss =>
      have := hse s rfl
      rcases List.mem_cons.1 hx with rfl | hx
      · exact this
      · have := (List.pairwise_cons.1 hs).1 x hx; omega
  refine ⟨h.sS, e2, hb, fun x hx => Nat.le_of_lt (e1 x hx), ?_, ?_, ?_, ?_, ?_, h.g⟩
  · intro p hp
    rcases h.cS p hp with hm | hm
    · exact Or.inl hm
    · exact Or.inr (by omega)
  · intro p hp
    rcases h.cE p hp with hm | hm
    · rcases List.mem_cons.1 hm with hm | hm
      · exact Or.inr (by omega)
      · exact Or.inl hm
    · exact Or.inr (by omega)
  · intro p hp hm
    rcases List.mem_cons.1 (h.d p hp hm) with he | he
    · have := hb _ hm; have := hsp p hp; omega
    · exact he
  · intro l
    simp only [List.mem_filter, Bool.not_eq_true', List.contains_eq_mem, decide_eq_false_iff_not, mem_endLabels,
      h.e l, not_exists, not_and]
    constructor
    · rintro ⟨⟨p, hp, hl, h1, h2⟩, hn⟩
      refine ⟨p, hp, hl, h1, ?_⟩
      rcases List.mem_cons.1 h2 with he | he
      · exact absurd he (hn p hp hl)
      · exact he
    · rintro ⟨p, hp, hl, h1, h2⟩
      refine ⟨⟨p, hp, hl, h1, by simp [h2]⟩, ?_⟩
      intro q hq hql hqe
      have : p = q := nodup_map_inj (f := Prod.fst) hwf hp hq (by rw [hl, hql])
      subst this
      have := e1 _ h2
      omega
  · intro hm; have := e1 e hm; omega

theorem Contig.mono {a b : Nat} {ls : List LabeledSpan} (h : Contig a b ls) : a ≤ b := by
  induction ls generalizing a with
  | nil => exact Nat.le_of_eq h
  | cons l ls ih => have := ih h.2.2; have := h.2.1; omega

/-- Combining one yielded span with the facts about the rest. -/
theorem facts_step {spans : Dict Label Span} {starts starts' ends ends' : List Nat} {cur cur' : List Label}
    {r pos hi : Nat} {rest : List LabeledSpan}
    (hr : r ≤ pos) (h : LInv spans starts ends cur r)
    (hS : ∀ x ∈ starts, pos ≤ x) (hE : ∀ x ∈ ends, pos ≤ x)
    (hstart : ∀ p ∈ spans, p.2.1 ∈ starts → p.2.1 ∈ starts' ∨ (p.2.1 = pos ∧ p.1 ∈ cur'))
    (hE' : pos = r → pos ∉ ends')
    (hne : r ∉ ends → r < pos)
    (hf : LFacts spans starts' ends' cur' pos hi rest) :
    LFacts spans starts ends cur r hi ({ span := (r, pos), labels := cur } :: rest) := by
  refine ⟨⟨rfl, hr, hf.contig⟩, ?_, ?_, ?_, ?_, ?_⟩
  · intro ls hls
    rcases List.mem_cons.1 hls with rfl | hls
    · intro i h1 h2 l
      simp only at h1 h2
      simp only [h.e l]
      constructor
      · rintro ⟨p, hp, hl, a1, a2⟩
        refine ⟨p, hp, hl, ?_, ?_⟩
        · rcases h.cS p hp with hm | hm
          · exact absurd hm a1
          · omega
        · have := hE _ a2; omega
      · rintro ⟨p, hp, hl, a1, a2⟩
        refine ⟨p, hp, hl, ?_, ?_⟩
        · intro hm; have := hS _ hm; omega
        · rcases h.cE p hp with hm | hm
          · exact hm
          · omega
    · exact hf.chars ls hls
  · intro ls hls
    rcases List.mem_cons.1 hls with rfl | hls
    · intro l hl
      obtain ⟨p, hp, hpl, a1, a2⟩ := (h.e l).1 hl
      refine ⟨p, hp, hpl, ?_, hE _ a2, ?_⟩
      · rcases h.cS p hp with hm | hm
        · exact absurd hm a1
        · exact hm
      · intro heq; exact h.f (by simp only at heq; rw [← heq]; exact a2)
    · exact hf.closed ls hls
  · refine List.pairwise_cons.2 ⟨?_, hf.distinct⟩
    intro b hb
    have hg := hf.ge b hb
    by_cases hp : r < pos
    · left; simp only; omega
    · right; have := hg.2.2 (hE' (by omega)); simpa using this
  · intro p hp hc
    rcases hc with hm | ⟨hm, hc⟩
    · rcases hstart p hp hm with hx | hx
      · obtain ⟨ls, h1, h2⟩ := hf.appears p hp (Or.inl hx); exact ⟨ls, by simp [h1], h2⟩
      · obtain ⟨ls, h1, h2⟩ := hf.appears p hp (Or.inr hx); exact ⟨ls, by simp [h1], h2⟩
    · exact ⟨{ span := (r, pos), labels := cur }, by simp, hm.symm, hc⟩
  · intro ls hls
    rcases List.mem_cons.1 hls with rfl | hls
    · exact ⟨Nat.le_refl _, hr, hne⟩
    · have hg := hf.ge ls hls
      refine ⟨by omega, hg.2.1, ?_⟩
      intro hn; have := hne hn; omega

theorem loop_facts (spans : Dict Label Span) (hwf : spans.WF) (hsp : ∀ p ∈ spans, p.2.1 ≤ p.2.2)
    (fuel : Nat) (starts ends : List Nat) (cur : List Label) (r : Nat)
    (hfuel : starts.length + ends.length ≤ fuel) (h : LInv spans starts ends cur r) :
    ∃ out, labeledSpansLoop spans fuel starts ends cur (some r) = .ok out ∧
      LFacts spans starts ends cur r ((ends.getLast?).getD r) out := by
  induction fuel generalizing starts ends cur r with
  | zero =>
    have h1 : starts = [] := List.length_eq_zero_iff.1 (by omega)
    have h2 : ends = [] := List.length_eq_zero_iff.1 (by omega)
    subst h1; subst h2
    refine ⟨[], rfl, ⟨rfl, by simp, by simp, .nil, ?_, by simp⟩⟩
    intro p hp hc
    rcases hc with hm | ⟨_, hc⟩
    · simp at hm
    · obtain ⟨_, _, _, _, hm⟩ := (h.e p.1).1 hc; simp at hm
  | succ fuel ih =>
    cases ends with
    | nil =>
      cases starts with
      | nil =>
        refine ⟨[], rfl, ⟨rfl, by simp, by simp, .nil, ?_, by simp⟩⟩
        intro p hp hc
        rcases hc with hm | ⟨_, hc⟩
        · simp at hm
        · obtain ⟨_, _, _, _, hm⟩ := (h.e p.1).1 hc; simp at hm
      | cons s ss =>
        obtain ⟨p, hp, hps⟩ := h.g s (by simp)
        have := h.d p hp (by simp [hps])
        simp at this
    | cons e es =>
      have he1 := (List.pairwise_cons.1 h.sE).1
      by_cases hev : ∃ s ss, starts = s :: ss ∧ s ≤ e
      · obtain ⟨s, ss, rfl, hse⟩ := hev
        have hinv := inv_start h hse
        obtain ⟨out, ho, hf⟩ := ih ss (e :: es) _ s (by simp at hfuel ⊢; omega) hinv
        rw [loop_start _ _ _ _ _ _ _ _ hse, ho]
        have hrs := h.bS s (by simp)
        have hlast : ((e :: es).getLast?).getD s = ((e :: es).getLast?).getD r := by simp [List.getLast?_cons]
        rw [hlast] at hf
        refine ⟨_, rfl, facts_step (Nat.le_of_lt hrs) h ?_ ?_ ?_ ?_ (fun _ => hrs) hf⟩
        · intro x hx
          rcases List.mem_cons.1 hx with rfl | hx
          · exact Nat.le_refl _
          · exact Nat.le_of_lt ((List.pairwise_cons.1 h.sS).1 x hx)
        · intro x hx
          rcases List.mem_cons.1 hx with rfl | hx
          · exact hse
          · have := he1 x hx; omega
        · intro p hp hm
          rcases List.mem_cons.1 hm with hm | hm
          · right
            refine ⟨hm, ?_⟩
            rw [hinv.e]
            refine ⟨p, hp, rfl, ?_, h.d p hp (by simp [hm])⟩
            intro hm2; have := (List.pairwise_cons.1 h.sS).1 _ hm2; omega
          · exact Or.inl hm
        · intro hx; omega
      · have hhd : ∀ s, starts.head? = some s → e < s := by
          intro s hs
          cases starts with
          | nil => simp at hs
          | cons s' ss =>
            simp only [List.head?_cons, Option.some.injEq] at hs
            subst hs
            have : ¬ s' ≤ e := fun hle => hev ⟨s', ss, rfl, hle⟩
            omega
        have hinv := inv_end hwf hsp h hhd
        obtain ⟨out, ho, hf⟩ := ih starts es _ e (by simp at hfuel ⊢; omega) hinv
        rw [loop_end _ _ _ _ _ _ _ hhd, ho]
        have hre := h.bE e (by simp)
        have hlast : (es.getLast?).getD e = ((e :: es).getLast?).getD r := by
          cases es with
          | nil => rfl
          | cons x xs => simp [List.getLast?_cons]
        rw [hlast] at hf
        refine ⟨_, rfl, facts_step hre h ?_ ?_ ?_ ?_ ?_ hf⟩
        · intro x hx; exact Nat.le_of_lt (hinv.bS x hx)
        · intro x hx
          rcases List.mem_cons.1 hx with rfl | hx
          · exact Nat.le_refl _
          · exact Nat.le_of_lt (he1 x hx)
        · intro p hp hm; exact Or.inl hm
        · intro _ hm; have := he1 e hm; omega
        · intro hn
          have : r ≠ e := fun hx => hn (by simp [hx])
          omega

theorem mem_dedup {α : Type _} [DecidableEq α] (l : List α) (x : α) : x ∈ dedup l ↔ x ∈ l := by
  induction l with
  | nil => simp [dedup]
  | cons y ys ih =>
    simp only [dedup, List.mem_cons, List.mem_filter, ih, decide_eq_true_eq]
    by_cases h : x = y <;> simp [h]

theorem nodup_dedup {α : Type _} [DecidableEq α] (l : List α) : (dedup l).Nodup := by
  induction l with
  | nil => simp [dedup]
  | cons y ys ih =>
    simp only [dedup, List.nodup_cons, List.mem_filter, decide_eq_true_eq]
    exact ⟨fun h => h.2 rfl, ih.filter _⟩

theorem mem_sortedDistinct (l : List Nat) (x : Nat) : x ∈ sortedDistinct l ↔ x ∈ l := by
  unfold sortedDistinct
  rw [(stableSort_perm _ _).mem_iff, mem_dedup]

theorem sortedDistinct_sorted (l : List Nat) : (sortedDistinct l).Pairwise (· < ·) := by
  unfold sortedDistinct
  have h1 := stableSort_sorted (le := fun a b : Nat => decide (a ≤ b))
    (fun a b => by simp only [decide_eq_true_eq]; omega) (fun a b c => by simp only [decide_eq_true_eq]; omega) (dedup l)
  have h2 : (stableSort (fun a b : Nat => decide (a ≤ b)) (dedup l)).Nodup :=
    (stableSort_perm _ _).nodup_iff.2 (nodup_dedup l)
  refine (h1.and h2).imp ?_
  intro a b h
  simp only [decide_eq_true_eq] at h
  omega

/-- Everything later proofs need about `labeled_spans`. `lo`, `hi` are the least start and the greatest end. -/
theorem labeledSpans_facts (s : Substitution) (hwf : s.matchedSpans.WF) (hne : s.matchedSpans ≠ [])
    (hsp : ∀ p ∈ s.matchedSpans, p.2.1 ≤ p.2.2) :
    ∃ lo hi out, labeledSpans s = .ok out ∧
      (∃ p ∈ s.matchedSpans, p.2.1 = lo) ∧ (∃ p ∈ s.matchedSpans, p.2.2 = hi) ∧
      (∀ p ∈ s.matchedSpans, lo ≤ p.2.1 ∧ p.2.2 ≤ hi) ∧
      Contig lo hi out ∧
      (∀ ls ∈ out, ∀ i, ls.span.1 ≤ i → i < ls.span.2 →
        ∀ l, l ∈ ls.labels ↔ ∃ p ∈ s.matchedSpans, p.1 = l ∧ p.2.1 ≤ i ∧ i < p.2.2) ∧
      (∀ ls ∈ out, ∀ l ∈ ls.labels, ∃ p ∈ s.matchedSpans, p.1 = l ∧ p.2.1 ≤ ls.span.1 ∧ ls.span.2 ≤ p.2.2 ∧
        (p.2.2 = ls.span.1 → ∃ q ∈ s.matchedSpans, q.2.1 = ls.span.1)) ∧
      out.Pairwise (fun a b => a.span.1 < b.span.1 ∨ a.span.2 < b.span.2) ∧
      (∀ p ∈ s.matchedSpans, ∃ ls ∈ out, ls.span.1 = p.2.1 ∧ p.1 ∈ ls.labels) := by
  have mS := mem_sortedDistinct (s.matchedSpans.map fun p => p.2.1)
  have mE := mem_sortedDistinct (s.matchedSpans.map fun p => p.2.2)
  have sS := sortedDistinct_sorted (s.matchedSpans.map fun p => p.2.1)
  have sE := sortedDistinct_sorted (s.matchedSpans.map fun p => p.2.2)
  unfold labeledSpans
  revert mS mE sS sE
  generalize sortedDistinct (s.matchedSpans.map fun p => p.2.1) = starts
  generalize sortedDistinct (s.matchedSpans.map fun p => p.2.2) = ends
  intro mS mE sS sE
  have hS : ∀ x, x ∈ starts ↔ ∃ p ∈ s.matchedSpans, p.2.1 = x := fun x => by rw [mS]; simp
  have hE : ∀ x, x ∈ ends ↔ ∃ p ∈ s.matchedSpans, p.2.2 = x := fun x => by rw [mE]; simp
  obtain ⟨p0, hp0⟩ := List.exists_mem_of_ne_nil _ hne
  cases starts with
  | nil => exact absurd ((hS p0.2.1).2 ⟨p0, hp0, rfl⟩) (by simp)
  | cons st ss =>
    cases ends with
    | nil => exact absurd ((hE p0.2.2).2 ⟨p0, hp0, rfl⟩) (by simp)
    | cons e es =>
      obtain ⟨s1, s2⟩ := List.pairwise_cons.1 sS
      have hmin : ∀ p ∈ s.matchedSpans, st ≤ p.2.1 := by
        intro p hp
        rcases List.mem_cons.1 ((hS _).2 ⟨p, hp, rfl⟩) with h | h
        · omega
        · have := s1 _ h; omega
      have hse : st ≤ e := by
        obtain ⟨p, hp, h⟩ := (hE e).1 (by simp)
        have := hmin p hp; have := hsp p hp; omega
      have hinv : LInv s.matchedSpans ss (e :: es)
          ([] ++ ((s.matchedSpans.filter (fun p => p.2.1 = st)).map Prod.fst).filter
            (fun l => !([] : List Label).contains l)) st := by
        refine ⟨s2, sE, s1, ?_, ?_, ?_, ?_, ?_, ?_, fun x hx => (hS x).1 (by simp [hx])⟩
        · intro x hx
          obtain ⟨p, hp, h⟩ := (hE x).1 hx
          have := hmin p hp; have := hsp p hp; omega
        · intro p hp
          rcases List.mem_cons.1 ((hS _).2 ⟨p, hp, rfl⟩) with h | h
          · exact Or.inr (by omega)
          · exact Or.inl h
        · intro p hp; exact Or.inl ((hE _).2 ⟨p, hp, rfl⟩)
        · intro p hp _; exact (hE _).2 ⟨p, hp, rfl⟩
        · intro l
          simp only [List.nil_append, List.mem_filter, mem_startLabels]
          constructor
          · rintro ⟨⟨p, hp, hl, hps⟩, _⟩
            refine ⟨p, hp, hl, ?_, (hE _).2 ⟨p, hp, rfl⟩⟩
            intro hm; have := s1 _ hm; omega
          · rintro ⟨p, hp, hl, h1, _⟩
            refine ⟨⟨p, hp, hl, ?_⟩, by simp⟩
            rcases List.mem_cons.1 ((hS _).2 ⟨p, hp, rfl⟩) with h | h
            · exact h
            · exact absurd h h1
        · intro _; exact (hS st).1 (by simp)
      obtain ⟨out, ho, hf⟩ := loop_facts s.matchedSpans hwf hsp (ss.length + (e :: es).length) ss (e :: es) _ st
        (Nat.le_refl _) hinv
      have hlast : ∃ last, (e :: es).getLast? = some last ∧ last ∈ e :: es ∧ ∀ x ∈ e :: es, x ≤ last := by
        have key : ∀ (l : List Nat) (a : Nat), (a :: l).Pairwise (· < ·) →
            ∃ last, (a :: l).getLast? = some last ∧ last ∈ a :: l ∧ ∀ x ∈ a :: l, x ≤ last := by
          intro l
          induction l with
          | nil => intro a _; exact ⟨a, rfl, by simp, by simp⟩
          | cons b l ih =>
            intro a hp
            obtain ⟨h1, h2⟩ := List.pairwise_cons.1 hp
            obtain ⟨last, g1, g2, g3⟩ := ih b h2
            refine ⟨last, by simpa [List.getLast?_cons] using g1, by simp [List.mem_cons.1 g2], ?_⟩
            intro x hx
            rcases List.mem_cons.1 hx with rfl | hx
            · exact Nat.le_of_lt (h1 last g2)
            · exact g3 x hx
        exact key es e sE
      obtain ⟨last, l1, l2, l3⟩ := hlast
      rw [l1] at hf
      have hfu : (st :: ss).length + (e :: es).length = (ss.length + (e :: es).length) + 1 := by
        simp only [List.length_cons]; omega
      refine ⟨st, last, out, ?_, (hS st).1 (by simp), (hE last).1 l2, ?_, hf.contig, hf.chars, hf.closed, hf.distinct, ?_⟩
      · simp only [hfu]
        rw [loop_start _ _ _ _ _ _ _ _ hse, ho]
      · intro p hp; exact ⟨hmin p hp, l3 _ ((hE _).2 ⟨p, hp, rfl⟩)⟩
      · intro p hp
        refine hf.appears p hp ?_
        rcases List.mem_cons.1 ((hS _).2 ⟨p, hp, rfl⟩) with h | h
        · right
          refine ⟨h, ?_⟩
          rw [hinv.e]
          refine ⟨p, hp, rfl, ?_, (hE _).2 ⟨p, hp, rfl⟩⟩
          intro hm; have := s1 _ hm; omega
        · exact Or.inl h

end Refex
