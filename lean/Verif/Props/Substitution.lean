import Verif.Lemmas.Dict
import Verif.Lemmas.Substitution
/-
Properties C04, C06, C07, C10, C11: Substitution objects, categories, suppression, disjoint selection.
-/
namespace Refex
set_option autoImplicit false

/-! ### C04 -/

/-- C04, categories: the validating regular expression accepts exactly the well-formed categories. -/
theorem C04_category_iff (c : Str) : categoryOk c = true ↔ CategorySpec c := by
  cases c with
  | nil =>
    simp only [categoryOk, Bool.false_eq_true, false_iff]
    rintro ⟨parts, h1, h2, h3, _⟩
    cases parts with
    | nil => exact h1 rfl
    | cons p ps =>
      rw [joinWith_cons] at h2
      exact (h3 p (by simp)).1 (List.append_eq_nil_iff.1 h2.symm).1
  | cons ch cs =>
    simp only [categoryOk, Bool.and_eq_true, catTail_iff]
    constructor
    · rintro ⟨⟨hd, hc⟩, parts, ⟨h1, h2, h3, h4⟩, rfl⟩
      cases parts with
      | nil => exact absurd rfl h1
      | cons p ps =>
        refine ⟨(ch :: p) :: ps, by simp, by rw [joinWith_cons, joinWith_cons]; rfl, ?_, ?_⟩
        · intro q hq
          rcases List.mem_cons.1 hq with rfl | hq
          · refine ⟨by simp, ?_⟩
            intro x hx
            rcases List.mem_cons.1 hx with rfl | hx
            · simpa [catChar] using hc
            · exact h2 p (by simp) x hx
          · exact ⟨h3 q hq, h2 q (by simp [hq])⟩
        · simpa using hd
    · rintro ⟨parts, h1, h2, h3, h4⟩
      cases parts with
      | nil => exact absurd rfl h1
      | cons p ps =>
        rw [joinWith_cons] at h2
        cases p with
        | nil => exact absurd rfl (h3 [] (by simp)).1
        | cons x p =>
          simp only [List.cons_append, List.cons.injEq] at h2
          obtain ⟨rfl, rfl⟩ := h2
          refine ⟨⟨by simpa using h4, ?_⟩, p :: ps, ⟨by simp, ?_, ?_, by simp⟩, by rw [joinWith_cons]; rfl⟩
          · simpa [catChar] using (h3 (ch :: p) (by simp)).2 ch (by simp)
          · intro q hq
            rcases List.mem_cons.1 hq with rfl | hq
            · intro y hy; exact (h3 (ch :: q) (by simp)).2 y (by simp [hy])
            · exact (h3 q (by simp [hq])).2
          · intro q hq; exact (h3 q (by simp [show q ∈ ps from hq])).1

/-- C04. A Substitution is accepted iff its category is absent or well formed, its primary label is matched and every
replaced label is matched; otherwise ValueError. -/
theorem C04_validate_iff (s : Substitution) :
    (s.validate = .ok () ↔
      (∀ c, s.category = some c → CategorySpec c) ∧
      s.primaryLabel ∈ s.matchedSpans.map Prod.fst ∧
      (∀ r, s.replacements = some r → ∀ k ∈ r.map Prod.fst, k ∈ s.matchedSpans.map Prod.fst)) ∧
    (s.validate ≠ .ok () → s.validate = .error .valueError) := by
  have hhas : ∀ (d : Dict Label Span) (k : Label), d.has k = true ↔ k ∈ d.map Prod.fst := by
    intro d k
    induction d with
    | nil => simp [Dict.has, Dict.get?]
    | cons p d ih =>
      obtain ⟨k', v⟩ := p
      simp only [Dict.has, Dict.get?] at ih ⊢
      by_cases h : k' = k
      · simp [h]
      · simp only [h, if_false, ih, List.map_cons, List.mem_cons]
        constructor
        · exact Or.inr
        · rintro (h' | h')
          · exact absurd h'.symm h
          · exact h'
  have hcat : s.category.any (fun c => !categoryOk c) = false ↔ ∀ c, s.category = some c → CategorySpec c := by
    cases s.category with
    | none => simp
    | some c => simp [← C04_category_iff]
  have hrep : ∀ r : Dict Label Str, (r.keys.all fun k => s.matchedSpans.has k) = true ↔
      ∀ k ∈ r.map Prod.fst, k ∈ s.matchedSpans.map Prod.fst := by
    intro r
    rw [List.all_eq_true]
    exact ⟨fun h k hk => (hhas _ _).1 (h k hk), fun h k hk => (hhas _ _).2 (h k hk)⟩
  rw [← hcat, ← hhas]
  unfold Substitution.validate
  cases h1 : s.category.any (fun c => !categoryOk c) with
  | true => simp
  | false =>
    cases h2 : s.matchedSpans.has s.primaryLabel with
    | false => simp
    | true =>
      cases hr : s.replacements with
      | none => simp
      | some r =>
        simp only [Bool.false_eq_true, if_false, Bool.not_true, true_and, Option.some.injEq, forall_eq', ← hrep]
        cases r.keys.all fun k => s.matchedSpans.has k <;> simp

example : CategorySpec (str "refex.a-b.c") :=
  ⟨[str "refex", str "a-b", str "c"], by decide, by decide, by decide, by decide⟩
example : categoryOk (str "a..b") = false ∧ categoryOk (str "-a") = false ∧ categoryOk (str "a b") = false ∧
    categoryOk (str "a.") = false ∧ categoryOk (str "a.-b") = true := by decide

/-- C04. Of a substitution that was accepted, the primary span is the span that its primary label has. -/
theorem C04_primary_span (s : Substitution) (hv : s.validate = .ok ()) (hw : s.matchedSpans.WF) (sp : Span) :
    s.primarySpan = sp ↔ (s.primaryLabel, sp) ∈ s.matchedSpans := by
  obtain ⟨⟨l, sp'⟩, hm, hl⟩ := List.mem_map.1 ((C04_validate_iff s).1.1 hv).2.1
  simp only at hl
  subst hl
  have hg := Dict.get?_of_mem hw hm
  unfold Substitution.primarySpan Substitution.primarySpan?
  rw [hg, Option.getD_some]
  constructor
  · rintro rfl; exact hm
  · intro h
    have := Dict.get?_of_mem hw h
    rw [hg] at this
    exact Option.some.inj this

example : let s : Substitution := { matchedSpans := [(str "a", (0, 9)), (str "b", (3, 5))], primaryLabel := str "b" }
    s.validate = .ok () ∧ s.matchedSpans.WF ∧ s.primarySpan = (3, 5) := by decide

/-! ### C06 -/

/-- C06. A substitution is in the root category (`None`), and in `k` iff its category is `k` or continues `k` after a
dot. -/
theorem C06_all_categories (s : Substitution) :
    none ∈ s.allCategories ∧ ∀ k, some k ∈ s.allCategories ↔ InCategory s k :=
  ⟨by simp [Substitution.allCategories], mem_allCategories s⟩

/-- C06, multiplicity and order: the root, then the prefixes from short to long, each once. -/
theorem C06_strictly_longer (s : Substitution) :
    (s.allCategories.tail).Pairwise (fun a b => ∀ x y, a = some x → b = some y → x.length < y.length) := by
  unfold Substitution.allCategories
  cases s.category with
  | none => simp
  | some c =>
    have h2 : (List.range (splitOn '.' c).length).map (fun i => some (joinWith ['.'] ((splitOn '.' c).take (i + 1))))
        = (cuts c).map some := by rw [← prefixes_eq_cuts c, List.map_map]; rfl
    simp only [List.tail_cons]
    rw [h2, List.pairwise_map]
    have : (cuts c).Pairwise (fun x y => x.length < y.length) := by
      clear h2
      induction c with
      | nil => simp [cuts]
      | cons x xs ih =>
        have hm : ((cuts xs).map (x :: ·)).Pairwise (fun x y => x.length < y.length) := by
          rw [List.pairwise_map]; simpa using ih
        simp only [cuts]
        split
        · refine List.pairwise_cons.2 ⟨?_, hm⟩
          intro k hk
          obtain ⟨k', _, rfl⟩ := List.mem_map.1 hk
          simp
        · exact hm
    refine this.imp ?_
    intro a b h x y hx hy
    cases hx; cases hy; exact h

example : InCategory { matchedSpans := [], primaryLabel := [], category := some (str "foo.bar.baz") } (str "foo.bar") :=
  ⟨_, rfl, Or.inr ⟨str "baz", rfl⟩⟩
example : some (str "foo.ba") ∉
    ({ matchedSpans := [], primaryLabel := [], category := some (str "foo.bar") } : Substitution).allCategories := by decide

/-! ### C07 -/

open Classical in
/-- C07. Exactly the substitutions that are not suppressed are kept, in order and with multiplicity. -/
theorem C07_suppress_exact (subs : List Substitution) (ranges : Dict (Option Str) (List Span)) :
    suppressExcludeBytes subs ranges = subs.filter (fun s => decide (¬ Suppressed s ranges)) := by
  unfold suppressExcludeBytes
  refine List.filter_congr ?_
  intro s _
  have : subMatchesRanges s ranges = true ↔ Suppressed s ranges := by
    unfold subMatchesRanges Suppressed Meets
    simp only [List.any_eq_true, Bool.and_eq_true, decide_eq_true_eq]
    constructor
    · rintro ⟨k, hk, r, hr, h1, h2⟩
      refine ⟨k, ?_, ?_⟩
      · cases k with
        | none => exact Or.inl rfl
        | some c => exact Or.inr ⟨c, rfl, (mem_allCategories s c).1 hk⟩
      · cases hg : ranges.get? k with
        | none => rw [hg] at hr; simp at hr
        | some rs => rw [hg] at hr; exact ⟨rs, rfl, r, hr, h2, h1⟩
    · rintro ⟨k, hk, rs, hg, r, hr, h1, h2⟩
      refine ⟨k, ?_, r, by rw [hg]; exact hr, h2, h1⟩
      rcases hk with rfl | ⟨c, rfl, hc⟩
      · exact (C06_all_categories s).1
      · exact (mem_allCategories s c).2 hc
  rw [Bool.eq_iff_iff]
  simp [← this]

/-- Beside C07: for non-empty primary spans and ranges "meets" is "shares a character position". -/
theorem C07_meets_is_sharing (a b : Span) (ha : a.1 < a.2) (hb : b.1 < b.2) :
    Meets a b ↔ ∃ i, (a.1 ≤ i ∧ i < a.2) ∧ (b.1 ≤ i ∧ i < b.2) := meets_iff_shared ha hb

example : suppressExcludeBytes
    [{ matchedSpans := [(str "r", (0, 5))], primaryLabel := str "r", category := some (str "a.b") },
     { matchedSpans := [(str "r", (5, 6))], primaryLabel := str "r", category := some (str "a.b") },
     { matchedSpans := [(str "r", (4, 6))], primaryLabel := str "r", category := some (str "c") }]
    [(some (str "a"), [(2, 5)])] =
    [{ matchedSpans := [(str "r", (5, 6))], primaryLabel := str "r", category := some (str "a.b") },
     { matchedSpans := [(str "r", (4, 6))], primaryLabel := str "r", category := some (str "c") }] := by decide

/-! ### C10 -/

/-- C10. The result is a subsequence of the input sorted by primary span, it does not overlap, it is
non-empty if the input is. -/
theorem C10_disjoint_sound (subs : List Substitution) :
    (∃ sorted, sorted.Perm subs ∧
        sorted.Pairwise (fun s t => s.primarySpan.1 < t.primarySpan.1 ∨
          (s.primarySpan.1 = t.primarySpan.1 ∧ s.primarySpan.2 ≤ t.primarySpan.2)) ∧
        (disjointSubstitutions subs).Sublist sorted) ∧
    (disjointSubstitutions subs).Pairwise (fun s t => s.primarySpan.2 ≤ t.primarySpan.1) ∧
    (subs ≠ [] → disjointSubstitutions subs ≠ []) := by
  let ps := stableSort (fun a b : Span × Substitution => spanLe a.1 b.1) (subs.map fun s => (s.primarySpan, s))
  have hperm : ps.Perm (subs.map fun s => (s.primarySpan, s)) := stableSort_perm _ _
  have hkey : ∀ p ∈ ps, p.1 = p.2.primarySpan := by
    intro p hp
    obtain ⟨s, _, rfl⟩ := List.mem_map.1 (hperm.mem_iff.1 hp)
    rfl
  have hsorted : ps.Pairwise (fun a b => spanLe a.1 b.1 = true) :=
    stableSort_sorted (le := fun a b : Span × Substitution => spanLe a.1 b.1)
      (fun a b => spanLe_total _ _) (fun a b c => spanLe_trans _ _ _) _
  have hs2 : ps.Pairwise (fun a b => a.1.1 ≤ b.1.1) := hsorted.imp (fun {a b} h => by rw [spanLe_iff] at h; omega)
  have hout : disjointSubstitutions subs = disjointLoop none ps := rfl
  refine ⟨⟨ps.map Prod.snd, ?_, ?_, ?_⟩, ?_, ?_⟩
  · have := hperm.map Prod.snd
    rw [List.map_map] at this
    simpa [Function.comp_def] using this
  · rw [List.pairwise_map]
    refine List.Pairwise.imp_of_mem ?_ hsorted
    intro a b ha hb h
    rw [← hkey a ha, ← hkey b hb]
    exact (spanLe_iff _ _).1 h
  · rw [hout]
    revert hkey hs2
    cases ps with
    | nil => intro _ _; exact List.Sublist.refl _
    | cons p ps => intro _ _; exact disjointLoop_sublist p ps
  · rw [hout]
    revert hkey hs2
    cases ps with
    | nil => intro _ _; exact .nil
    | cons p ps => intro hkey hs2; exact disjointLoop_pairwise p ps hs2 hkey
  · intro hne
    rw [hout]
    have hne' : ps ≠ [] := by
      intro h
      rw [h] at hperm
      have := hperm.length_eq
      simp at this
      exact hne (List.length_eq_zero_iff.1 this.symm)
    revert hne'
    cases ps with
    | nil => intro h; exact absurd rfl h
    | cons p ps => intro _; exact disjointLoop_ne_nil p ps

/-- C10. Nothing is lost when the input does not overlap: the result is a permutation of the input. -/
theorem C10_disjoint_keeps_all (subs : List Substitution)
    (hw : ∀ s ∈ subs, s.primarySpan.1 ≤ s.primarySpan.2)
    (hd : subs.Pairwise (fun s t => SpanApart s.primarySpan t.primarySpan)) :
    (disjointSubstitutions subs).Perm subs := by
  let ps := stableSort (fun a b : Span × Substitution => spanLe a.1 b.1) (subs.map fun s => (s.primarySpan, s))
  have hperm : ps.Perm (subs.map fun s => (s.primarySpan, s)) := stableSort_perm _ _
  have hw' : ∀ p ∈ ps, p.1.1 ≤ p.1.2 := by
    intro p hp
    obtain ⟨s, hs, rfl⟩ := List.mem_map.1 (hperm.mem_iff.1 hp)
    exact hw s hs
  have hsorted : ps.Pairwise (fun a b => spanLe a.1 b.1 = true) :=
    stableSort_sorted (le := fun a b : Span × Substitution => spanLe a.1 b.1)
      (fun a b => spanLe_total _ _) (fun a b c => spanLe_trans _ _ _) _
  have hap : ps.Pairwise (fun a b => SpanApart a.1 b.1) := by
    refine hperm.symm.pairwise ?_ (fun h => Or.symm h)
    rw [List.pairwise_map]; exact hd
  have hch : ps.Pairwise (fun a b => a.1.2 ≤ b.1.1) :=
    List.Pairwise.imp_of_mem (fun ha hb h => apart_sorted h.1 (hw' _ ha) (hw' _ hb) h.2) (hsorted.and hap)
  have hout : disjointSubstitutions subs = disjointLoop none ps := rfl
  have hres : disjointLoop none ps = ps.map Prod.snd := by
    revert hch
    cases ps with
    | nil => intro _; rfl
    | cons p ps => intro hch; exact disjointLoop_all p ps hch
  rw [hout, hres]
  have := hperm.map Prod.snd
  rw [List.map_map] at this
  simpa [Function.comp_def] using this

/-- Spans used in the examples. -/
def mk (a b : Nat) : Substitution := { matchedSpans := [(str "r", (a, b))], primaryLabel := str "r" }

example : disjointSubstitutions [mk 4 9, mk 0 3, mk 2 5, mk 9 9] = [mk 0 3, mk 4 9, mk 9 9] ∨
    disjointSubstitutions [mk 4 9, mk 0 3, mk 2 5, mk 9 9] = [mk 2 5, mk 9 9] := by decide
example : (∀ s ∈ [mk 4 9, mk 0 3, mk 9 9, mk 9 9], s.primarySpan.1 ≤ s.primarySpan.2) ∧
  [mk 4 9, mk 0 3, mk 9 9, mk 9 9].Pairwise (fun s t => SpanApart s.primarySpan t.primarySpan) := by decide

/-! ### C11 -/

/-- C11 is false of the code (as its own comment at refex/substitution.py:365 suspects): here [0,6) is dropped, although
the only kept one, [9,12), does not overlap it. -/
theorem C11_dropped_overlaps_kept_false :
    ∃ (subs : List Substitution) (s : Substitution), s ∈ subs ∧ s ∉ disjointSubstitutions subs ∧
      (∀ t ∈ subs, t.primarySpan.1 < t.primarySpan.2) ∧
      ∀ t ∈ disjointSubstitutions subs, SpanApart s.primarySpan t.primarySpan :=
  ⟨[mk 0 6, mk 5 10, mk 9 12], mk 0 6, by decide, by decide, by decide, by decide⟩

/-- C11: a substitution that overlaps no other input is kept. Not so: that a dropped one overlaps a
*kept* one. -/
theorem C11_isolated_kept (pre post : List Substitution) (s : Substitution)
    (hw : ∀ t ∈ pre ++ s :: post, t.primarySpan.1 ≤ t.primarySpan.2)
    (hd : ∀ t ∈ pre ++ post, SpanApart s.primarySpan t.primarySpan) :
    s ∈ disjointSubstitutions (pre ++ s :: post) := by
  let f : Substitution → Span × Substitution := fun s => (s.primarySpan, s)
  let ps := stableSort (fun a b : Span × Substitution => spanLe a.1 b.1) ((pre ++ s :: post).map f)
  have hperm : ps.Perm ((pre ++ s :: post).map f) := stableSort_perm _ _
  have hsorted : ps.Pairwise (fun a b => spanLe a.1 b.1 = true) :=
    stableSort_sorted (le := fun a b : Span × Substitution => spanLe a.1 b.1)
      (fun a b => spanLe_total _ _) (fun a b c => spanLe_trans _ _ _) _
  have hw' : ∀ p ∈ ps, p.1.1 ≤ p.1.2 := by
    intro p hp
    obtain ⟨t, ht, rfl⟩ := List.mem_map.1 (hperm.mem_iff.1 hp)
    exact hw t ht
  have hmem : f s ∈ ps := hperm.mem_iff.2 (by simp)
  obtain ⟨l₁, l₂, hl⟩ := List.append_of_mem hmem
  have hrest : (l₁ ++ l₂).Perm ((pre ++ post).map f) := by
    have h1 : (f s :: (l₁ ++ l₂)).Perm ((pre ++ s :: post).map f) := by
      refine List.Perm.trans ?_ hperm
      rw [hl]; exact List.perm_middle.symm
    have h2 : ((pre ++ s :: post).map f).Perm (f s :: (pre ++ post).map f) := by
      rw [← List.map_cons]; exact List.perm_middle.map f
    exact (List.perm_cons _).1 (h1.trans h2)
  have ha : ∀ p ∈ l₁ ++ l₂, SpanApart (f s).1 p.1 := by
    intro p hp
    obtain ⟨t, ht, rfl⟩ := List.mem_map.1 (hrest.mem_iff.1 hp)
    exact hd t ht
  have hout : disjointSubstitutions (pre ++ s :: post) = disjointLoop none ps := rfl
  rw [hout]
  cases hps : ps with
  | nil => rw [hps] at hmem; simp at hmem
  | cons l xs =>
    exact disjointLoop_keeps l₁ l₂ (f s) l xs (by rw [← hps, hl]) (by rw [← hps]; exact hsorted)
      (by rw [← hps]; exact hw') ha

example : ∀ t ∈ [mk 4 9, mk 5 6] ++ [mk 11 13], SpanApart (mk 9 11).primarySpan t.primarySpan := by decide

end Refex
