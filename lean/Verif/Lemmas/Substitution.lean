import Verif.Lemmas.Sort
import Verif.Spec.Category
/- Lemmas for categories and for `disjoint_substitutions`. -/
namespace Refex
set_option autoImplicit false

theorem joinWith_cons (sep p : Str) (ps : List Str) :
    joinWith sep (p :: ps) = p ++ (if ps = [] then [] else sep ++ joinWith sep ps) := by
  cases ps with
  | nil => simp [joinWith]
  | cons q qs => simp [joinWith]

/-- The parts allowed after the first character: the first may be empty iff nothing is needed. -/
def TailParts (need : Bool) (parts : List Str) : Prop :=
  parts ≠ [] ∧ (∀ p ∈ parts, ∀ ch ∈ p, ch ≠ '.' ∧ isReSpace ch = false) ∧
  (∀ p ∈ parts.tail, p ≠ []) ∧ (need = true → ∀ p, parts.head? = some p → p ≠ [])

theorem catTail_iff (need : Bool) (cs : Str) :
    catTail need cs = true ↔ ∃ parts, TailParts need parts ∧ cs = joinWith ['.'] parts := by
  induction cs generalizing need with
  | nil =>
    simp only [catTail]
    constructor
    · intro h
      refine ⟨[[]], ⟨by simp, by simp, by simp, ?_⟩, rfl⟩
      intro hn; rw [hn] at h; simp at h
    · rintro ⟨parts, ⟨h1, h2, h3, h4⟩, h5⟩
      cases parts with
      | nil => exact absurd rfl h1
      | cons p ps =>
        rw [joinWith_cons] at h5
        have := (List.append_eq_nil_iff.1 h5.symm).1
        cases need with
        | false => rfl
        | true => exact absurd this (h4 rfl p rfl)
  | cons c cs ih =>
    simp only [catTail]
    by_cases hc : c = '.'
    · subst hc
      simp only [if_true, Bool.and_eq_true, Bool.not_eq_true', ih]
      constructor
      · rintro ⟨hn, parts, ⟨h1, h2, h3, h4⟩, rfl⟩
        refine ⟨[] :: parts, ⟨by simp, ?_, ?_, ?_⟩, ?_⟩
        · intro p hp
          rcases List.mem_cons.1 hp with rfl | hp
          · simp
          · exact h2 p hp
        · intro p hp
          simp only [List.tail_cons] at hp
          cases parts with
          | nil => simp at hp
          | cons q qs =>
            rcases List.mem_cons.1 hp with rfl | hp
            · exact h4 rfl _ rfl
            · exact h3 p hp
        · intro h; rw [hn] at h; cases h
        · rw [joinWith_cons]; simp [h1]
      · rintro ⟨parts, ⟨h1, h2, h3, h4⟩, h5⟩
        cases parts with
        | nil => exact absurd rfl h1
        | cons p ps =>
          rw [joinWith_cons] at h5
          cases p with
          | cons ch p =>
            simp only [List.cons_append, List.cons.injEq] at h5
            have := (h2 (ch :: p) (by simp) ch (by simp)).1
            exact absurd h5.1.symm this
          | nil =>
            have hps : ps ≠ [] := by
              intro h; rw [h] at h5; simp at h5
            simp only [List.nil_append, hps, if_false, List.singleton_append, List.cons.injEq, true_and] at h5
            refine ⟨?_, ps, ⟨hps, fun q hq => h2 q (by simp [hq]), ?_, ?_⟩, h5⟩
            · cases need with
              | false => rfl
              | true => exact absurd rfl (h4 rfl [] rfl)
            · intro q hq; exact h3 q (List.mem_of_mem_tail hq)
            · intro _ q hq; exact h3 q (List.mem_of_mem_head? hq)
    · simp only [hc, if_false, Bool.and_eq_true, ih]
      constructor
      · rintro ⟨hcc, parts, ⟨h1, h2, h3, h4⟩, rfl⟩
        cases parts with
        | nil => exact absurd rfl h1
        | cons p ps =>
          refine ⟨(c :: p) :: ps, ⟨by simp, ?_, h3, by simp⟩, ?_⟩
          · intro q hq
            rcases List.mem_cons.1 hq with rfl | hq
            · intro ch hch
              rcases List.mem_cons.1 hch with rfl | hch
              · simp only [catChar, Bool.and_eq_true, Bool.not_eq_true'] at hcc
                exact ⟨hc, hcc.2⟩
              · exact h2 p (by simp) ch hch
            · exact h2 q (by simp [hq])
          · rw [joinWith_cons, joinWith_cons]; simp
      · rintro ⟨parts, ⟨h1, h2, h3, h4⟩, h5⟩
        cases parts with
        | nil => exact absurd rfl h1
        | cons p ps =>
          rw [joinWith_cons] at h5
          cases p with
          | nil =>
            by_cases hps : ps = []
            · rw [hps] at h5; simp at h5
            · simp only [List.nil_append, hps, if_false, List.singleton_append, List.cons.injEq] at h5
              exact absurd h5.1 hc
          | cons ch p =>
            simp only [List.cons_append, List.cons.injEq] at h5
            obtain ⟨rfl, h5⟩ := h5
            have hch := h2 (c :: p) (by simp) c (by simp)
            refine ⟨by simp [catChar, hch.1, hch.2], p :: ps, ⟨by simp, ?_, h3, by simp⟩, ?_⟩
            · intro q hq
              rcases List.mem_cons.1 hq with rfl | hq
              · intro x hx; exact h2 (c :: q) (by simp) x (by simp [hx])
              · exact h2 q (by simp [hq])
            · rw [joinWith_cons]; exact h5

theorem splitOn_ne_nil (c : Char) (s : Str) : splitOn c s ≠ [] := by
  cases s with
  | nil => simp [splitOn]
  | cons x xs =>
    simp only [splitOn]
    split
    · simp
    · split <;> simp

/-- The strings obtained by cutting before a dot, and the whole string. -/
def cuts : Str → List Str
  | [] => [[]]
  | x :: xs => if x = '.' then [] :: (cuts xs).map (x :: ·) else (cuts xs).map (x :: ·)

theorem mem_cuts (k c : Str) : k ∈ cuts c ↔ c = k ∨ ∃ rest, c = k ++ '.' :: rest := by
  induction c generalizing k with
  | nil => simp [cuts, eq_comm]
  | cons x xs ih =>
    have hmap : k ∈ (cuts xs).map (x :: ·) ↔
        ∃ k', k = x :: k' ∧ (xs = k' ∨ ∃ rest, xs = k' ++ '.' :: rest) := by
      simp only [List.mem_map, ih]
      constructor
      · rintro ⟨a, ha, rfl⟩; exact ⟨a, rfl, ha⟩
      · rintro ⟨a, rfl, ha⟩; exact ⟨a, ha, rfl⟩
    have hmap' : k ∈ (cuts xs).map (x :: ·) ↔ k ≠ [] ∧ (x :: xs = k ∨ ∃ rest, x :: xs = k ++ '.' :: rest) := by
      rw [hmap]
      constructor
      · rintro ⟨k', rfl, h⟩
        refine ⟨by simp, ?_⟩
        rcases h with rfl | ⟨r, rfl⟩
        · exact Or.inl rfl
        · exact Or.inr ⟨r, rfl⟩
      · rintro ⟨hk, h⟩
        cases k with
        | nil => exact absurd rfl hk
        | cons y ys =>
          rcases h with h | ⟨r, h⟩
          · simp only [List.cons.injEq] at h; exact ⟨ys, by rw [h.1], Or.inl h.2⟩
          · simp only [List.cons_append, List.cons.injEq] at h; exact ⟨ys, by rw [h.1], Or.inr ⟨r, h.2⟩⟩
    simp only [cuts]
    by_cases hx : x = '.'
    · subst hx
      simp only [if_true, List.mem_cons, hmap']
      by_cases hk : k = []
      · subst hk; simp
      · simp [hk]
    · simp only [hx, if_false, hmap']
      by_cases hk : k = []
      · subst hk; simp [hx]
      · simp [hk]

theorem prefixes_eq_cuts (c : Str) :
    (List.range (splitOn '.' c).length).map (fun i => joinWith ['.'] ((splitOn '.' c).take (i + 1))) = cuts c := by
  induction c with
  | nil => rfl
  | cons x xs ih =>
    simp only [cuts, splitOn]
    by_cases hx : x = '.'
    · subst hx
      simp only [if_true, List.length_cons, List.range_succ_eq_map, List.map_cons, List.map_map, ← ih]
      congr 1
      refine List.map_congr_left ?_
      intro i hi
      simp only [Function.comp, List.take_succ_cons, joinWith_cons, List.nil_append]
      rw [if_neg]
      · rfl
      · intro h
        have := List.take_eq_nil_iff.1 h
        rcases this with h | h
        · simp at h
        · exact splitOn_ne_nil _ _ h
    · simp only [hx, if_false]
      revert ih
      cases hs : splitOn '.' xs with
      | nil => exact absurd hs (splitOn_ne_nil _ _)
      | cons p ps =>
        intro ih
        simp only [← ih, List.length_cons, List.map_map]
        refine List.map_congr_left ?_
        intro i _
        simp only [Function.comp, List.take_succ_cons, joinWith_cons, List.cons_append]

theorem mem_allCategories (s : Substitution) (k : Str) : some k ∈ s.allCategories ↔ InCategory s k := by
  unfold Substitution.allCategories InCategory
  cases hc : s.category with
  | none => simp
  | some c =>
    have := prefixes_eq_cuts c
    have h2 : (List.range (splitOn '.' c).length).map (fun i => some (joinWith ['.'] ((splitOn '.' c).take (i + 1))))
        = (cuts c).map some := by rw [← this, List.map_map]; rfl
    simp only [List.mem_cons, reduceCtorEq, false_or]
    rw [h2]
    simp only [List.mem_map, Option.some.injEq, exists_eq_right, mem_cuts, exists_eq_left']

theorem disjointLoop_sublist (l : Span × Substitution) (xs : List (Span × Substitution)) :
    (disjointLoop (some l) xs).Sublist ((l :: xs).map Prod.snd) := by
  induction xs generalizing l with
  | nil => simp [disjointLoop]
  | cons x xs ih =>
    simp only [disjointLoop]
    split
    · exact (ih x).cons₂ _
    · split
      · refine (ih l).trans ?_
        simp only [List.map_cons]
        exact (List.Sublist.refl _).cons _ |>.cons₂ _
      · exact (ih x).cons _

theorem disjointLoop_ge (l : Span × Substitution) (xs : List (Span × Substitution))
    (hs : (l :: xs).Pairwise (fun a b => a.1.1 ≤ b.1.1))
    (hk : ∀ p ∈ l :: xs, p.1 = p.2.primarySpan) :
    ∀ o ∈ disjointLoop (some l) xs, l.1.1 ≤ o.primarySpan.1 := by
  intro o ho
  have := (disjointLoop_sublist l xs).mem ho
  obtain ⟨p, hp, rfl⟩ := List.mem_map.1 this
  rw [← hk p hp]
  rcases List.mem_cons.1 hp with rfl | hp
  · exact Nat.le_refl _
  · exact (List.pairwise_cons.1 hs).1 p hp

theorem disjointLoop_pairwise (l : Span × Substitution) (xs : List (Span × Substitution))
    (hs : (l :: xs).Pairwise (fun a b => a.1.1 ≤ b.1.1))
    (hk : ∀ p ∈ l :: xs, p.1 = p.2.primarySpan) :
    (disjointLoop (some l) xs).Pairwise (fun s t => s.primarySpan.2 ≤ t.primarySpan.1) := by
  induction xs generalizing l with
  | nil => simp [disjointLoop]
  | cons x xs ih =>
    obtain ⟨h1, h2⟩ := List.pairwise_cons.1 hs
    have hk2 : ∀ p ∈ x :: xs, p.1 = p.2.primarySpan := fun p hp => hk p (by simp [List.mem_cons.1 hp])
    simp only [disjointLoop]
    split
    · rename_i hc
      refine List.pairwise_cons.2 ⟨?_, ih x h2 hk2⟩
      intro t ht
      have := disjointLoop_ge x xs h2 hk2 t ht
      rw [← hk l (by simp)]
      omega
    · split
      · refine ih l ?_ (fun p hp => hk p ?_)
        · exact List.pairwise_cons.2 ⟨fun p hp => h1 p (by simp [hp]), (List.pairwise_cons.1 h2).2⟩
        · simp only [List.mem_cons] at hp ⊢
          rcases hp with rfl | hp
          · exact Or.inl rfl
          · exact Or.inr (Or.inr hp)
      · exact ih x h2 hk2

theorem disjointLoop_ne_nil (l : Span × Substitution) (xs : List (Span × Substitution)) :
    disjointLoop (some l) xs ≠ [] := by
  induction xs generalizing l with
  | nil => simp [disjointLoop]
  | cons x xs ih =>
    simp only [disjointLoop]
    split
    · simp
    · split
      · exact ih l
      · exact ih x

theorem apart_sorted {a b : Span} (h : spanLe a b = true) (ha : a.1 ≤ a.2) (hb : b.1 ≤ b.2) (hd : SpanApart a b) :
    a.2 ≤ b.1 := by
  rw [spanLe_iff] at h
  unfold SpanApart at hd
  omega

theorem disjointLoop_keeps (pre post : List (Span × Substitution)) (x l : Span × Substitution)
    (xs : List (Span × Substitution)) (hx : l :: xs = pre ++ x :: post)
    (hs : (l :: xs).Pairwise (fun a b => spanLe a.1 b.1 = true))
    (hw : ∀ p ∈ l :: xs, p.1.1 ≤ p.1.2)
    (ha : ∀ p ∈ pre ++ post, SpanApart x.1 p.1) : x.2 ∈ disjointLoop (some l) xs := by
  induction xs generalizing l pre with
  | nil =>
    cases pre with
    | nil => simp only [List.nil_append, List.cons.injEq] at hx; simp [disjointLoop, hx.1]
    | cons p ps => simp at hx
  | cons y ys ih =>
    obtain ⟨h1, h2⟩ := List.pairwise_cons.1 hs
    have hw2 : ∀ p ∈ y :: ys, p.1.1 ≤ p.1.2 := fun p hp => hw p (by simp [List.mem_cons.1 hp])
    have hwl := hw l (by simp)
    have hwy := hw y (by simp)
    simp only [disjointLoop]
    cases pre with
    | nil =>
      simp only [List.nil_append, List.cons.injEq] at hx
      obtain ⟨rfl, rfl⟩ := hx
      have := apart_sorted (h1 y (by simp)) hwl hwy (ha y (by simp))
      rw [if_pos this]; simp
    | cons p ps =>
      simp only [List.cons_append, List.cons.injEq] at hx
      obtain ⟨rfl, hx⟩ := hx
      have ha2 : ∀ q ∈ ps ++ post, SpanApart x.1 q.1 := fun q hq => ha q (by simp only [List.cons_append]; exact List.mem_cons_of_mem _ hq)
      have hrec := ih ps y hx h2 hw2 ha2
      split
      · simp [hrec]
      · rename_i hov
        split
        · cases ps with
          | nil =>
            simp only [List.nil_append, List.cons.injEq] at hx
            obtain ⟨rfl, rfl⟩ := hx
            have had : SpanApart l.1 y.1 := Or.symm (ha l (by simp))
            exact absurd (apart_sorted (h1 y (by simp)) hwl hwy had) hov
          | cons q qs =>
            simp only [List.cons_append, List.cons.injEq] at hx
            obtain ⟨rfl, hx⟩ := hx
            refine ih (l :: qs) l (by rw [hx]; rfl) ?_ ?_ ?_
            · exact List.pairwise_cons.2 ⟨fun p hp => h1 p (by simp [hp]), (List.pairwise_cons.1 h2).2⟩
            · intro p hp
              refine hw p ?_
              simp only [List.mem_cons] at hp ⊢
              rcases hp with rfl | hp
              · exact Or.inl rfl
              · exact Or.inr (Or.inr hp)
            · intro p hp
              refine ha p ?_
              simp only [List.cons_append, List.mem_cons] at hp ⊢
              rcases hp with rfl | hp
              · exact Or.inl rfl
              · exact Or.inr (Or.inr hp)
        · exact hrec

theorem disjointLoop_all (l : Span × Substitution) (xs : List (Span × Substitution))
    (hs : (l :: xs).Pairwise (fun a b => a.1.2 ≤ b.1.1)) :
    disjointLoop (some l) xs = (l :: xs).map Prod.snd := by
  induction xs generalizing l with
  | nil => rfl
  | cons y ys ih =>
    obtain ⟨h1, h2⟩ := List.pairwise_cons.1 hs
    simp only [disjointLoop, if_pos (h1 y (by simp) : y.1.1 ≥ l.1.2), ih y h2, List.map_cons]

end Refex
