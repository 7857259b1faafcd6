import Verif.Model.Basic
/- Lemmas about the stable sort of the model. -/
namespace Refex
set_option autoImplicit false
variable {α β : Type _}

theorem insertBy_perm (le : α → α → Bool) (x : α) (l : List α) : (insertBy le x l).Perm (x :: l) := by
  induction l with
  | nil => exact .refl _
  | cons y ys ih =>
    simp only [insertBy]; split
    · exact .refl _
    · exact (ih.cons y).trans (.swap x y ys)

theorem stableSort_perm (le : α → α → Bool) (l : List α) : (stableSort le l).Perm l := by
  induction l with
  | nil => exact .refl _
  | cons x xs ih => exact (insertBy_perm le x _).trans (ih.cons x)

theorem insertBy_sorted {le : α → α → Bool} (tot : ∀ a b, le a b = true ∨ le b a = true)
    (tr : ∀ a b c, le a b = true → le b c = true → le a c = true) (x : α) {l : List α}
    (h : l.Pairwise (fun a b => le a b = true)) : (insertBy le x l).Pairwise (fun a b => le a b = true) := by
  induction l with
  | nil => simp [insertBy]
  | cons y ys ih =>
    simp only [insertBy]
    obtain ⟨h1, h2⟩ := List.pairwise_cons.1 h
    split
    · rename_i hxy
      refine List.pairwise_cons.2 ⟨?_, h⟩
      intro a ha
      rcases List.mem_cons.1 ha with rfl | ha
      · exact hxy
      · exact tr _ _ _ hxy (h1 a ha)
    · rename_i hxy
      refine List.pairwise_cons.2 ⟨?_, ih h2⟩
      intro a ha
      have := (insertBy_perm le x ys).mem_iff.1 ha
      rcases List.mem_cons.1 this with rfl | ha
      · rcases tot a y with h | h
        · exact absurd h hxy
        · exact h
      · exact h1 a ha

theorem stableSort_sorted {le : α → α → Bool} (tot : ∀ a b, le a b = true ∨ le b a = true)
    (tr : ∀ a b c, le a b = true → le b c = true → le a c = true) (l : List α) :
    (stableSort le l).Pairwise (fun a b => le a b = true) := by
  induction l with
  | nil => exact .nil
  | cons x xs ih => exact insertBy_sorted tot tr x ih

theorem insertBy_map {le : α → α → Bool} {le' : β → β → Bool} (f : α → β) (x : α) (l : List α)
    (h : ∀ b ∈ l, le' (f x) (f b) = le x b) :
    insertBy le' (f x) (l.map f) = (insertBy le x l).map f := by
  induction l with
  | nil => rfl
  | cons y ys ih =>
    simp only [insertBy, List.map_cons, h y (by simp)]
    split
    · simp
    · rw [ih (fun b hb => h b (by simp [hb]))]; simp

theorem stableSort_map {le : α → α → Bool} {le' : β → β → Bool} (f : α → β) (l : List α)
    (h : ∀ a ∈ l, ∀ b ∈ l, le' (f a) (f b) = le a b) :
    stableSort le' (l.map f) = (stableSort le l).map f := by
  induction l with
  | nil => rfl
  | cons x xs ih =>
    simp only [stableSort, List.map_cons]
    rw [ih (fun a ha b hb => h a (by simp [ha]) b (by simp [hb])), insertBy_map]
    intro b hb
    exact h x (by simp) b (by simp [(stableSort_perm le xs).mem_iff.1 hb])

/-- A list that is already sorted is left alone. -/
theorem stableSort_of_sorted {le : α → α → Bool} {l : List α}
    (h : l.Pairwise (fun a b => le a b = true)) : stableSort le l = l := by
  induction l with
  | nil => rfl
  | cons x xs ih =>
    obtain ⟨h1, h2⟩ := List.pairwise_cons.1 h
    simp only [stableSort, ih h2]
    cases xs with
    | nil => rfl
    | cons y ys => simp [insertBy, h1 y (by simp)]

/-- Two sorted permutations agree if the order is antisymmetric on the elements. -/
theorem sorted_perm_unique {le : α → α → Bool} {l₁ l₂ : List α} (hp : l₁.Perm l₂)
    (s₁ : l₁.Pairwise (fun a b => le a b = true)) (s₂ : l₂.Pairwise (fun a b => le a b = true))
    (anti : ∀ a ∈ l₁, ∀ b ∈ l₁, le a b = true → le b a = true → a = b) : l₁ = l₂ := by
  induction l₁ generalizing l₂ with
  | nil => exact (List.nil_perm.1 hp).symm
  | cons x xs ih =>
    cases l₂ with
    | nil => exact absurd hp.length_eq (by simp)
    | cons y ys =>
      obtain ⟨a1, a2⟩ := List.pairwise_cons.1 s₁
      obtain ⟨b1, b2⟩ := List.pairwise_cons.1 s₂
      have hxy : x = y := by
        by_cases e : x = y
        · exact e
        · have hy : y ∈ xs := by
            have := hp.mem_iff.2 (List.mem_cons_self (a := y) (l := ys))
            rcases List.mem_cons.1 this with h | h
            · exact absurd h.symm e
            · exact h
          have hx : x ∈ ys := by
            have := hp.mem_iff.1 (List.mem_cons_self (a := x) (l := xs))
            rcases List.mem_cons.1 this with h | h
            · exact absurd h e
            · exact h
          exact anti x (by simp) y (by simp [hy]) (a1 y hy) (b1 x hx)
      subst hxy
      rw [ih ((List.perm_cons x).1 hp) a2 b2 (fun a ha b hb => anti a (by simp [ha]) b (by simp [hb]))]

theorem spanLe_iff (a b : Span) : spanLe a b = true ↔ a.1 < b.1 ∨ (a.1 = b.1 ∧ a.2 ≤ b.2) := by
  simp [spanLe]

theorem spanLe_total (a b : Span) : spanLe a b = true ∨ spanLe b a = true := by
  simp only [spanLe_iff]; omega

theorem spanLe_trans (a b c : Span) : spanLe a b = true → spanLe b c = true → spanLe a c = true := by
  simp only [spanLe_iff]; omega

/-- The sort is stable: equal-key elements (`p`) keep their relative order. -/
theorem insertBy_filter {le : α → α → Bool} (p : α → Bool) (x : α) (l : List α)
    (hp : ∀ b ∈ l, p x = true → p b = true → le x b = true) :
    (insertBy le x l).filter p = (x :: l).filter p := by
  induction l with
  | nil => rfl
  | cons y ys ih =>
    simp only [insertBy]; split
    · rfl
    · rename_i hxy
      have ih' := ih (fun b hb => hp b (by simp [hb]))
      have := hp y (by simp)
      simp only [List.filter_cons] at ih' ⊢
      rw [ih']
      cases hx : p x <;> cases hy : p y <;> simp_all

theorem stableSort_filter {le : α → α → Bool} (p : α → Bool) (l : List α)
    (hp : ∀ a ∈ l, ∀ b ∈ l, p a = true → p b = true → le a b = true) :
    (stableSort le l).filter p = l.filter p := by
  induction l with
  | nil => rfl
  | cons x xs ih =>
    simp only [stableSort]
    rw [insertBy_filter, List.filter_cons, List.filter_cons,
      ih (fun a ha b hb => hp a (by simp [ha]) b (by simp [hb]))]
    intro b hb
    exact hp x (by simp) b (by simp [(stableSort_perm le xs).mem_iff.1 hb])

theorem nodup_map_inj {f : α → β} {l : List α} (hd : (l.map f).Nodup) {a b : α} (ha : a ∈ l) (hb : b ∈ l)
    (hab : f a = f b) : a = b := by
  induction l with
  | nil => simp at ha
  | cons s ss ih =>
    simp only [List.map_cons, List.nodup_cons, List.mem_map, not_exists, not_and] at hd
    rcases List.mem_cons.1 ha with rfl | ha' <;> rcases List.mem_cons.1 hb with rfl | hb'
    · rfl
    · exact absurd hab.symm (hd.1 b hb')
    · exact absurd hab (hd.1 a ha')
    · exact ih hd.2 ha' hb'

end Refex
