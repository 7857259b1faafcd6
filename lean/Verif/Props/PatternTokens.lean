import Verif.Spec.PatternTokens
import Verif.Lemmas.Dict
import Verif.Props.Find
/- C48: metavariable renaming. -/
namespace Refex
set_option autoImplicit false

/-! ### Names -/

theorem suffixAt_inj {i j : Nat} (h : suffixAt i = suffixAt j) : i = j := by
  cases i with
  | zero =>
    cases j with
    | zero => rfl
    | succ j => exact absurd h.symm (by simp only [suffixAt]; exact Nat.toDigits_ne_nil)
  | succ i =>
    cases j with
    | zero => exact absurd h (by simp only [suffixAt]; exact Nat.toDigits_ne_nil)
    | succ j =>
      simp only [suffixAt] at h
      rw [← Nat.ofDigitChars_toDigits (b := 10) (n := i) (by decide) (by decide), h,
        Nat.ofDigitChars_toDigits (by decide) (by decide)]

theorem suffixAt_no_underscore (i : Nat) : '_' ∉ suffixAt i := by
  cases i with
  | zero => simp [suffixAt]
  | succ i =>
    intro h
    have := Nat.isDigit_of_mem_toDigits (by decide) (by decide) h
    revert this; decide

theorem append_cons_inj {a b : Str} {c : Char} {x y : Str} (ha : c ∉ a) (hb : c ∉ b) (h : a ++ c :: x = b ++ c :: y) : a = b ∧ x = y := by
  induction a generalizing b with
  | nil =>
    cases b with
    | nil => simpa using h
    | cons d b => simp only [List.nil_append, List.cons_append, List.cons.injEq] at h; exact absurd h.1 (by intro e; subst e; simp at hb)
  | cons d a ih =>
    cases b with
    | nil => simp only [List.nil_append, List.cons_append, List.cons.injEq] at h; exact absurd h.1 (by intro e; subst e; simp at ha)
    | cons e b =>
      simp only [List.cons_append, List.cons.injEq] at h
      obtain ⟨h1, h2⟩ := ih (fun hm => ha (by simp [hm])) (fun hm => hb (by simp [hm])) h.2
      exact ⟨by rw [h.1, h1], h2⟩

theorem gensym_inj {i j : Nat} {x y : Str} (h : gensym (suffixAt i) x = gensym (suffixAt j) y) : i = j ∧ x = y := by
  unfold gensym at h
  rw [List.append_assoc, List.append_assoc, List.append_assoc, List.append_assoc] at h
  have h := List.append_cancel_left h
  have e : str "_" = ['_'] := rfl
  rw [e] at h
  obtain ⟨h1, h2⟩ := append_cons_inj (suffixAt_no_underscore i) (suffixAt_no_underscore j) h
  exact ⟨suffixAt_inj h1, h2⟩

theorem gensym_isVariable (i : Nat) {x : Str} (h : isVariable x = true) : isVariable (gensym (suffixAt i) x) = true := by
  have hs : ∀ ch ∈ suffixAt i, isIdChar ch = true := by
    intro ch hc
    cases i with
    | zero => simp [suffixAt] at hc
    | succ i =>
      have := Nat.isDigit_of_mem_toDigits (by decide) (by decide) hc
      simp [isIdChar, Char.isAlphanum, this]
  have hx : ∀ ch ∈ x, isIdChar ch = true := by
    intro ch hc
    cases x with
    | nil => simp at hc
    | cons d x =>
      simp only [isVariable, Bool.and_eq_true, List.all_eq_true] at h
      rcases List.mem_cons.1 hc with rfl | hc
      · have := h.1
        simp only [isIdStart, Bool.or_eq_true, decide_eq_true_eq] at this
        simp only [isIdChar, Char.isAlphanum, Bool.or_eq_true, decide_eq_true_eq]
        rcases this with h | h
        · exact Or.inl (Or.inl h)
        · exact Or.inr h
      · exact h.2 ch hc
  have e : gensym (suffixAt i) x = 'g' :: (str "ensym" ++ suffixAt i ++ str "_" ++ x) := rfl
  rw [e]
  simp only [isVariable, Bool.and_eq_true, List.all_eq_true]
  refine ⟨by decide, fun ch hc => ?_⟩
  rw [List.mem_append, List.mem_append, List.mem_append] at hc
  rcases hc with ((hc | hc) | hc) | hc
  · have : ∀ ch ∈ str "ensym", isIdChar ch = true := by decide
    exact this ch hc
  · exact hs ch hc
  · have : ∀ ch ∈ str "_", isIdChar ch = true := by decide
    exact this ch hc
  · exact hx ch hc

/-- `k` is the first free suffix of the variable. -/
def FirstFree (taken : List Str) (x : Str) (k : Nat) : Prop :=
  gensym (suffixAt k) x ∉ taken ∧ ∀ j, j < k → gensym (suffixAt j) x ∈ taken

theorem freshFrom_spec {taken : List Str} {x nm : Str} (fuel i : Nat) (h : freshFrom taken x fuel i = some nm) :
    ∃ k, i ≤ k ∧ nm = gensym (suffixAt k) x ∧ nm ∉ taken ∧ ∀ j, i ≤ j → j < k → gensym (suffixAt j) x ∈ taken := by
  induction fuel generalizing i with
  | zero => simp [freshFrom] at h
  | succ fuel ih =>
    rw [freshFrom] at h
    split at h
    · rename_i hm
      obtain ⟨k, h1, h2, h3, h4⟩ := ih (i + 1) h
      refine ⟨k, by omega, h2, h3, fun j hj hk => ?_⟩
      by_cases e : j = i
      · subst e; exact hm
      · exact h4 j (by omega) hk
    · rename_i hm
      cases h
      exact ⟨i, Nat.le_refl _, rfl, hm, by intro j a b; omega⟩

theorem freshFrom_none {taken : List Str} {x : Str} (fuel i : Nat) (h : freshFrom taken x fuel i = none) :
    ∀ j, i ≤ j → j < i + fuel → gensym (suffixAt j) x ∈ taken := by
  induction fuel generalizing i with
  | zero => intro j a b; omega
  | succ fuel ih =>
    rw [freshFrom] at h
    split at h
    · rename_i hm
      intro j a b
      by_cases e : j = i
      · subst e; exact hm
      · exact ih (i + 1) h j (by omega) (by omega)
    · cases h

/-- Pigeonhole: more different values than the list has items. -/
theorem exists_not_mem {α : Type} [DecidableEq α] (f : Nat → α) (hf : ∀ i j, f i = f j → i = j) (l : List α) : ∃ k, k ≤ l.length ∧ f k ∉ l := by
  apply Classical.byContradiction
  intro h
  have hall : ∀ k, k ≤ l.length → f k ∈ l := by
    intro k hk
    apply Classical.byContradiction
    intro hn
    exact h ⟨k, hk, hn⟩
  have hnd : ((List.range (l.length + 1)).map f).Nodup := by
    rw [List.nodup_iff_pairwise_ne, List.pairwise_map]
    exact (List.nodup_range (n := l.length + 1)).imp (fun hne he => hne (hf _ _ he))
  have hsub : (List.range (l.length + 1)).map f ⊆ l := by
    intro a ha
    obtain ⟨k, hk, rfl⟩ := List.mem_map.1 ha
    exact hall k (by have := List.mem_range.1 hk; omega)
  have := List.Nodup.length_le_of_subset hnd hsub
  simp at this
  omega

theorem freshFrom_total (taken : List Str) (x : Str) : ∃ nm, freshFrom taken x (taken.length + 1) 0 = some nm := by
  cases h : freshFrom taken x (taken.length + 1) 0 with
  | some nm => exact ⟨nm, rfl⟩
  | none =>
    have hall := freshFrom_none _ _ h
    obtain ⟨k, hk, hn⟩ := exists_not_mem (fun i => gensym (suffixAt i) x) (fun i j e => (gensym_inj e).1) taken
    exact absurd (hall k (by omega) (by omega)) hn

/-! ### The renaming loop -/

/-- The state after the metavariables in `done` have been renamed. `base` are the strings of the other tokens. -/
structure Renamed (toks : List PTok) (base : List Str) (done : List Nat) (st : RemapState) : Prop where
  length : st.toks.length = toks.length
  other : ∀ i, i ∉ done → st.toks[i]? = toks[i]?
  taken : ∀ s, s ∈ st.taken ↔ s ∈ base ∨ ∃ i ∈ done, StringAt st.toks i s
  renamed : ∀ i ∈ done, ∃ t k, toks[i]? = some t ∧ st.toks[i]? = some { t with string := gensym (suffixAt k) t.string } ∧
    gensym (suffixAt k) t.string ∉ base ∧
    (t.string ≠ str "_" → st.variables.get? t.string = some (gensym (suffixAt k) t.string) ∧ FirstFree base t.string k)
  variables : ∀ x s, st.variables.get? x = some s → x ≠ str "_" ∧ ∃ i ∈ done, StringAt toks i x ∧ StringAt st.toks i s
  anonymous : ∀ s, s ∈ st.anonymous ↔ ∃ i ∈ done, StringAt toks i (str "_") ∧ StringAt st.toks i s
  apart : ∀ i ∈ done, ∀ j ∈ done, i ≠ j → ∀ s, StringAt st.toks i s → StringAt st.toks j s → ¬ StringAt toks i (str "_")

theorem stringAt_set {ts : List PTok} {i j : Nat} {t : PTok} {s : Str} (hi : i < ts.length) :
    StringAt (ts.set i t) j s ↔ if i = j then t.string = s else StringAt ts j s := by
  unfold StringAt
  by_cases h : i = j
  · subst h; simp [List.getElem?_set, hi]
  · simp [List.getElem?_set, h]

theorem stringAt_unique {ts : List PTok} {i : Nat} {s s' : Str} (h : StringAt ts i s) (h' : StringAt ts i s') : s = s' := by
  obtain ⟨t, h1, rfl⟩ := h
  obtain ⟨t', h2, rfl⟩ := h'
  rw [h1] at h2; cases h2; rfl

theorem renamed_step {toks : List PTok} {base : List Str} {done : List Nat} {st : RemapState} (h : Renamed toks base done st) {i : Nat}
    (hi : i < toks.length) (hd : i ∉ done) : ∃ st', remapStep st i = some st' ∧ Renamed toks base (i :: done) st' := by
  obtain ⟨t, ht⟩ : ∃ t, toks[i]? = some t := ⟨toks[i], List.getElem?_eq_getElem hi⟩
  have hst : st.toks[i]? = some t := by rw [h.other i hd]; exact ht
  have hil : i < st.toks.length := by rw [h.length]; exact hi
  unfold remapStep
  rw [hst]
  simp only
  have hne : ∀ j ∈ done, i ≠ j := fun j hj e => hd (e ▸ hj)
  have sa : ∀ (nm : Str) j s, StringAt (st.toks.set i { t with string := nm }) j s ↔ if i = j then nm = s else StringAt st.toks j s :=
    fun nm j s => stringAt_set hil
  have oth : ∀ (nm : Str) j, j ∉ i :: done → (st.toks.set i { t with string := nm })[j]? = toks[j]? := by
    intro nm j hj
    simp only [List.mem_cons, not_or] at hj
    rw [List.getElem?_set_ne (fun e => hj.1 e.symm)]
    exact h.other j hj.2
  have keep : ∀ (nm : Str) j, j ∈ done → (st.toks.set i { t with string := nm })[j]? = st.toks[j]? := by
    intro nm j hj
    rw [List.getElem?_set_ne (hne j hj)]
  have here : ∀ nm : Str, (st.toks.set i { t with string := nm })[i]? = some { t with string := nm } := by
    intro nm; rw [List.getElem?_set_self hil]
  have hti : ∀ x, StringAt toks i x ↔ t.string = x := by
    intro x; constructor
    · rintro ⟨t', h1, h2⟩; rw [ht] at h1; cases h1; exact h2
    · intro e; exact ⟨t, ht, e⟩
  cases hv : st.variables.get? t.string with
  | some nm =>
    obtain ⟨hx, i0, hi0, hs0, hs0'⟩ := h.variables _ _ hv
    obtain ⟨t0, k0, ht0, hst0, hb0, hn0⟩ := h.renamed i0 hi0
    have et0 : t0.string = t.string := by
      obtain ⟨t', h1, h2⟩ := hs0; rw [ht0] at h1; cases h1; exact h2
    have enm : nm = gensym (suffixAt k0) t.string := by
      obtain ⟨t', h1, h2⟩ := hs0'; rw [hst0] at h1; cases h1; rw [← h2, ← et0]
    refine ⟨_, rfl, ⟨?_, oth nm, ?_, ?_, ?_, ?_, ?_⟩⟩
    · rw [List.length_set]; exact h.length
    · intro s
      simp only
      rw [h.taken s]
      constructor
      · rintro (hb | ⟨j, hj, hs⟩)
        · exact Or.inl hb
        · exact Or.inr ⟨j, by simp [hj], by rw [sa, if_neg (hne j hj)]; exact hs⟩
      · rintro (hb | ⟨j, hj, hs⟩)
        · exact Or.inl hb
        · rw [sa] at hs
          rcases List.mem_cons.1 hj with rfl | hj
          · rw [if_pos rfl] at hs; subst hs; exact Or.inr ⟨i0, hi0, hs0'⟩
          · rw [if_neg (hne j hj)] at hs; exact Or.inr ⟨j, hj, hs⟩
    · intro j hj
      rcases List.mem_cons.1 hj with rfl | hj
      · refine ⟨t, k0, ht, ?_, ?_, fun _ => ⟨?_, ?_⟩⟩
        · simp only; rw [here, enm]
        · rw [et0] at hb0; exact hb0
        · simp only; rw [hv, enm]
        · rw [et0] at hn0; exact (hn0 hx).2
      · obtain ⟨t', k, h1, h2, h3, h4⟩ := h.renamed j hj
        refine ⟨t', k, h1, ?_, h3, h4⟩
        simp only; rw [keep nm j hj]; exact h2
    · intro x s hxs
      obtain ⟨h1, j, hj, h2, h3⟩ := h.variables x s hxs
      exact ⟨h1, j, by simp [hj], h2, by simp only; rw [sa, if_neg (hne j hj)]; exact h3⟩
    · intro s
      rw [h.anonymous s]
      constructor
      · rintro ⟨j, hj, h1, h2⟩
        exact ⟨j, by simp [hj], h1, by simp only; rw [sa, if_neg (hne j hj)]; exact h2⟩
      · rintro ⟨j, hj, h1, h2⟩
        rcases List.mem_cons.1 hj with rfl | hj
        · exact absurd ((hti _).1 h1) hx
        · simp only at h2; rw [sa, if_neg (hne j hj)] at h2; exact ⟨j, hj, h1, h2⟩
    · intro a ha b hb hab s h1 h2
      simp only at h1 h2
      rw [sa] at h1 h2
      rcases List.mem_cons.1 ha with rfl | ha2
      · rw [hti]; exact hx
      · rw [if_neg (hne a ha2)] at h1
        rcases List.mem_cons.1 hb with rfl | hb2
        · rw [if_pos rfl] at h2; subst h2
          by_cases e : a = i0
          · subst e; intro hu
            exact hx (stringAt_unique hs0 hu)
          · exact h.apart a ha2 i0 hi0 e nm h1 hs0'
        · rw [if_neg (hne b hb2)] at h2
          exact h.apart a ha2 b hb2 hab s h1 h2
  | none =>
    obtain ⟨nm, hnm⟩ := freshFrom_total st.taken t.string
    obtain ⟨k, _, enm, hfree, hbefore⟩ := freshFrom_spec _ _ hnm
    rw [hnm]
    simp only
    have hnb : nm ∉ base := fun hb => hfree ((h.taken nm).2 (Or.inl hb))
    have hnd : ∀ j ∈ done, ¬ StringAt st.toks j nm := fun j hj hs => hfree ((h.taken nm).2 (Or.inr ⟨j, hj, hs⟩))
    have htaken : ∀ s, s ∈ nm :: st.taken ↔ s ∈ base ∨ ∃ j ∈ i :: done, StringAt (st.toks.set i { t with string := nm }) j s := by
      intro s
      rw [List.mem_cons, h.taken s]
      constructor
      · rintro (rfl | hb | ⟨j, hj, hs⟩)
        · exact Or.inr ⟨i, by simp, by rw [sa, if_pos rfl]⟩
        · exact Or.inl hb
        · exact Or.inr ⟨j, by simp [hj], by rw [sa, if_neg (hne j hj)]; exact hs⟩
      · rintro (hb | ⟨j, hj, hs⟩)
        · exact Or.inr (Or.inl hb)
        · rw [sa] at hs
          rcases List.mem_cons.1 hj with rfl | hj
          · rw [if_pos rfl] at hs; exact Or.inl hs.symm
          · rw [if_neg (hne j hj)] at hs; exact Or.inr (Or.inr ⟨j, hj, hs⟩)
    have hff : t.string ≠ str "_" → FirstFree base t.string k := by
      intro hx
      refine ⟨enm ▸ hnb, fun j hj => ?_⟩
      rcases (h.taken _).1 (hbefore j (Nat.zero_le _) hj) with hb | ⟨q, hq, hs⟩
      · exact hb
      · exfalso
        obtain ⟨t', k', h1, h2, h3, h4⟩ := h.renamed q hq
        have e : gensym (suffixAt j) t.string = gensym (suffixAt k') t'.string := by
          obtain ⟨t'', g1, g2⟩ := hs; rw [h2] at g1; cases g1; exact g2.symm
        obtain ⟨_, e2⟩ := gensym_inj e
        rw [← e2] at h4
        have := (h4 hx).1
        rw [hv] at this; cases this
    have hapart : ∀ a ∈ i :: done, ∀ b ∈ i :: done, a ≠ b → ∀ s, StringAt (st.toks.set i { t with string := nm }) a s →
        StringAt (st.toks.set i { t with string := nm }) b s → ¬ StringAt toks a (str "_") := by
      intro a ha b hb hab s h1 h2
      rw [sa] at h1 h2
      rcases List.mem_cons.1 ha with rfl | ha2
      · rw [if_pos rfl] at h1; subst h1
        rcases List.mem_cons.1 hb with rfl | hb2
        · exact absurd rfl hab
        · rw [if_neg (hne b hb2)] at h2; exact absurd h2 (hnd b hb2)
      · rw [if_neg (hne a ha2)] at h1
        rcases List.mem_cons.1 hb with rfl | hb2
        · rw [if_pos rfl] at h2; subst h2; exact absurd h1 (hnd a ha2)
        · rw [if_neg (hne b hb2)] at h2
          exact h.apart a ha2 b hb2 hab s h1 h2
    by_cases hx : t.string = str "_"
    · rw [if_pos hx]
      refine ⟨_, rfl, ⟨?_, oth nm, htaken, ?_, ?_, ?_, hapart⟩⟩
      · simp only; rw [List.length_set]; exact h.length
      · intro j hj
        rcases List.mem_cons.1 hj with rfl | hj
        · refine ⟨t, k, ht, ?_, enm ▸ hnb, fun hn => absurd hx hn⟩
          simp only; rw [here, enm]
        · obtain ⟨t', k', h1, h2, h3, h4⟩ := h.renamed j hj
          refine ⟨t', k', h1, ?_, h3, h4⟩
          simp only; rw [keep nm j hj]; exact h2
      · intro x s hxs
        obtain ⟨h1, j, hj, h2, h3⟩ := h.variables x s hxs
        exact ⟨h1, j, by simp [hj], h2, by simp only; rw [sa, if_neg (hne j hj)]; exact h3⟩
      · intro s
        simp only [List.mem_cons]
        rw [h.anonymous s]
        constructor
        · rintro (rfl | ⟨j, hj, h1, h2⟩)
          · exact ⟨i, Or.inl rfl, (hti _).2 hx, by rw [sa, if_pos rfl]⟩
          · exact ⟨j, Or.inr hj, h1, by rw [sa, if_neg (hne j hj)]; exact h2⟩
        · rintro ⟨j, hj, h1, h2⟩
          rcases hj with rfl | hj
          · rw [sa, if_pos rfl] at h2; exact Or.inl h2.symm
          · rw [sa, if_neg (hne j hj)] at h2; exact Or.inr ⟨j, hj, h1, h2⟩
    · rw [if_neg hx]
      refine ⟨_, rfl, ⟨?_, oth nm, htaken, ?_, ?_, ?_, hapart⟩⟩
      · simp only; rw [List.length_set]; exact h.length
      · intro j hj
        rcases List.mem_cons.1 hj with rfl | hj
        · refine ⟨t, k, ht, ?_, enm ▸ hnb, fun hn => ⟨?_, hff hn⟩⟩
          · simp only; rw [here, enm]
          · simp only; rw [Dict.get?_set, if_pos rfl, enm]
        · obtain ⟨t', k', h1, h2, h3, h4⟩ := h.renamed j hj
          refine ⟨t', k', h1, ?_, h3, fun hn => ⟨?_, (h4 hn).2⟩⟩
          · simp only; rw [keep nm j hj]; exact h2
          · simp only
            rw [Dict.get?_set, if_neg]
            · exact (h4 hn).1
            · intro e; have := (h4 hn).1; rw [e, hv] at this; cases this
      · intro x s hxs
        simp only at hxs
        rw [Dict.get?_set] at hxs
        by_cases e : x = t.string
        · rw [if_pos e] at hxs; cases hxs
          exact ⟨e ▸ hx, i, by simp, (hti _).2 e.symm, by simp only; rw [sa, if_pos rfl]⟩
        · rw [if_neg e] at hxs
          obtain ⟨h1, j, hj, h2, h3⟩ := h.variables x s hxs
          exact ⟨h1, j, by simp [hj], h2, by simp only; rw [sa, if_neg (hne j hj)]; exact h3⟩
      · intro s
        simp only
        rw [h.anonymous s]
        constructor
        · rintro ⟨j, hj, h1, h2⟩
          exact ⟨j, by simp [hj], h1, by rw [sa, if_neg (hne j hj)]; exact h2⟩
        · rintro ⟨j, hj, h1, h2⟩
          rcases List.mem_cons.1 hj with rfl | hj
          · exact absurd ((hti _).1 h1) hx
          · rw [sa, if_neg (hne j hj)] at h2; exact ⟨j, hj, h1, h2⟩

theorem renamed_all {toks : List PTok} {base : List Str} (order done : List Nat) (st : RemapState) (h : Renamed toks base done st)
    (hr : ∀ i ∈ order, i < toks.length) (hn : order.Nodup) (hd : ∀ i ∈ order, i ∉ done) :
    ∃ st', order.foldlM remapStep st = some st' ∧ Renamed toks base (order.reverse ++ done) st' := by
  induction order generalizing done st with
  | nil => exact ⟨st, rfl, by simpa using h⟩
  | cons i order ih =>
    rw [List.nodup_cons] at hn
    obtain ⟨st1, h1, h2⟩ := renamed_step h (hr i (by simp)) (hd i (by simp))
    obtain ⟨st', h3, h4⟩ := ih (i :: done) st1 h2 (fun j hj => hr j (by simp [hj])) hn.2 (fun j hj => by
      simp only [List.mem_cons, not_or]
      exact ⟨fun e => hn.1 (e ▸ hj), hd j (by simp [hj])⟩)
    refine ⟨st', ?_, by simpa [List.append_assoc] using h4⟩
    rw [List.foldlM_cons, h1]; exact h3

theorem renamed_start (toks : List PTok) (base : List Str) : Renamed toks base [] ⟨toks, base, [], []⟩ where
  length := rfl
  other := fun _ _ => rfl
  taken := by simp
  renamed := by simp
  variables := by intro x s h; simp [Dict.get?] at h
  anonymous := by simp
  apart := by simp

theorem renamed_final {toks : List PTok} {order : List Nat} (hr : ∀ i ∈ order, i < toks.length) (hn : order.Nodup) :
    ∃ st, remapVariables toks order = some st ∧ Renamed toks (takenTokens toks order) order.reverse st := by
  obtain ⟨st, h1, h2⟩ := renamed_all order [] _ (renamed_start toks (takenTokens toks order)) hr hn (by simp)
  exact ⟨st, h1, by simpa using h2⟩

theorem mem_takenTokens {toks : List PTok} {metas : List Nat} {s : Str} :
    s ∈ takenTokens toks metas ↔ ∃ i, i ∉ metas ∧ StringAt toks i s := by
  unfold takenTokens StringAt
  simp only [List.mem_map, List.mem_filter, decide_eq_true_eq]
  constructor
  · rintro ⟨⟨i, t⟩, ⟨h1, h2⟩, h3⟩
    rw [mem_enumFrom] at h1
    exact ⟨i, h2, t, by simpa using h1.2, h3⟩
  · rintro ⟨i, h1, t, h2, h3⟩
    exact ⟨(i, t), ⟨(mem_enumFrom 0 toks (i, t)).2 ⟨Nat.zero_le _, by simpa using h2⟩, h1⟩, h3⟩

section C48
variable {toks : List PTok} {metas : List Nat} (hr : ∀ i ∈ metas, i < toks.length) (hn : metas.Nodup)
include hr hn

/-- **C48**: in whatever order the set of metavariables is iterated, the renaming terminates. -/
theorem C48_terminates : ∃ st, remapVariables toks metas = some st := by
  obtain ⟨st, h, _⟩ := renamed_final hr hn
  exact ⟨st, h⟩

/-- **C48**: everything but the strings of the metavariables is preserved. -/
theorem C48_rest_preserved {st : RemapState} (h : remapVariables toks metas = some st) :
    st.toks.length = toks.length ∧ (∀ i, i ∉ metas → st.toks[i]? = toks[i]?) ∧
    ∀ i ∈ metas, ∃ t nm, toks[i]? = some t ∧ st.toks[i]? = some { t with string := nm } := by
  obtain ⟨st', h1, h2⟩ := renamed_final hr hn
  rw [h] at h1; cases h1
  refine ⟨h2.length, fun i hi => h2.other i (by simpa using hi), fun i hi => ?_⟩
  obtain ⟨t, k, h3, h4, _⟩ := h2.renamed i (by simpa using hi)
  exact ⟨t, _, h3, h4⟩

/-- **C48**: two different occurrences of metavariables get the same name exactly if they are occurrences of the same
variable other than `_`. -/
theorem C48_consistent {st : RemapState} (h : remapVariables toks metas = some st) {i j : Nat} (hi : i ∈ metas) (hj : j ∈ metas)
    (hij : i ≠ j) {x y a b : Str} (hx : StringAt toks i x) (hy : StringAt toks j y) (ha : StringAt st.toks i a) (hb : StringAt st.toks j b) :
    a = b ↔ x = y ∧ x ≠ str "_" := by
  obtain ⟨st', h1, h2⟩ := renamed_final hr hn
  rw [h] at h1; cases h1
  have hi' : i ∈ metas.reverse := by simpa using hi
  have hj' : j ∈ metas.reverse := by simpa using hj
  obtain ⟨t, k, t1, t2, t3, t4⟩ := h2.renamed i hi'
  obtain ⟨u, l, u1, u2, u3, u4⟩ := h2.renamed j hj'
  have et : t.string = x := stringAt_unique ⟨t, t1, rfl⟩ hx
  have eu : u.string = y := stringAt_unique ⟨u, u1, rfl⟩ hy
  have ea : gensym (suffixAt k) t.string = a := stringAt_unique ⟨_, t2, rfl⟩ ha
  have eb : gensym (suffixAt l) u.string = b := stringAt_unique ⟨_, u2, rfl⟩ hb
  constructor
  · intro e
    subst e
    refine ⟨?_, fun hu => ?_⟩
    · rw [← eb] at ea
      rw [← et, ← eu]; exact (gensym_inj ea).2
    · exact h2.apart i hi' j hj' hij a ha hb (hu ▸ hx)
  · rintro ⟨e, hu⟩
    rw [← et] at hu e
    have := (t4 hu).1
    rw [e, ← eu, (u4 (by rw [eu, ← e]; exact hu)).1] at this
    rw [← ea, ← eb, e, ← eu]
    exact (Option.some.inj this).symm

/-- **C48**: no metavariable gets a name that is another token of the pattern. -/
theorem C48_fresh {st : RemapState} (h : remapVariables toks metas = some st) {i j : Nat} (hi : i ∈ metas) (hj : j ∉ metas)
    {a b : Str} (ha : StringAt st.toks i a) (hb : StringAt toks j b) : a ≠ b := by
  obtain ⟨st', h1, h2⟩ := renamed_final hr hn
  rw [h] at h1; cases h1
  obtain ⟨t, k, t1, t2, t3, t4⟩ := h2.renamed i (by simpa using hi)
  have ea : gensym (suffixAt k) t.string = a := stringAt_unique ⟨_, t2, rfl⟩ ha
  intro e
  rw [← e] at hb
  exact t3 (ea ▸ mem_takenTokens.2 ⟨j, hj, hb⟩)

/-- **C48**: the new names are identifiers. -/
theorem C48_identifiers {st : RemapState} (h : remapVariables toks metas = some st) {i : Nat} (hi : i ∈ metas) {x a : Str}
    (hx : StringAt toks i x) (hv : isVariable x = true) (ha : StringAt st.toks i a) : isVariable a = true := by
  obtain ⟨st', h1, h2⟩ := renamed_final hr hn
  rw [h] at h1; cases h1
  obtain ⟨t, k, t1, t2, t3, t4⟩ := h2.renamed i (by simpa using hi)
  have et : t.string = x := stringAt_unique ⟨t, t1, rfl⟩ hx
  have ea : gensym (suffixAt k) t.string = a := stringAt_unique ⟨_, t2, rfl⟩ ha
  rw [← ea, et]; exact gensym_isVariable k hv

/-- **C48**: the returned mapping and set say exactly which names were given to what. -/
theorem C48_tables {st : RemapState} (h : remapVariables toks metas = some st) (x s : Str) :
    (st.variables.get? x = some s ↔ x ≠ str "_" ∧ ∃ i ∈ metas, StringAt toks i x ∧ StringAt st.toks i s) ∧
    (s ∈ st.anonymous ↔ ∃ i ∈ metas, StringAt toks i (str "_") ∧ StringAt st.toks i s) := by
  obtain ⟨st', h1, h2⟩ := renamed_final hr hn
  rw [h] at h1; cases h1
  constructor
  · constructor
    · intro hg
      obtain ⟨h3, i, hi, h4⟩ := h2.variables x s hg
      exact ⟨h3, i, by simpa using hi, h4⟩
    · rintro ⟨hu, i, hi, hx, hs⟩
      obtain ⟨t, k, t1, t2, t3, t4⟩ := h2.renamed i (by simpa using hi)
      have et : t.string = x := stringAt_unique ⟨t, t1, rfl⟩ hx
      have ea : gensym (suffixAt k) t.string = s := stringAt_unique ⟨_, t2, rfl⟩ hs
      rw [← et] at hu ⊢
      rw [(t4 hu).1, ea]
  · rw [h2.anonymous s]
    constructor
    · rintro ⟨i, hi, h3⟩; exact ⟨i, by simpa using hi, h3⟩
    · rintro ⟨i, hi, h3⟩; exact ⟨i, by simpa using hi, h3⟩

end C48

/-- **C48**: the names of the variables (other than `_`) do not depend on the order in which the set of metavariables is
iterated. -/
theorem C48_order_irrelevant {toks : List PTok} {metas metas' : List Nat} (hr : ∀ i ∈ metas, i < toks.length) (hn : metas.Nodup)
    (hn' : metas'.Nodup) (hp : ∀ i, i ∈ metas ↔ i ∈ metas') {st st' : RemapState} (h : remapVariables toks metas = some st)
    (h' : remapVariables toks metas' = some st') (x : Str) : st.variables.get? x = st'.variables.get? x := by
  have hbase : ∀ s, s ∈ takenTokens toks metas ↔ s ∈ takenTokens toks metas' := by
    intro s; rw [mem_takenTokens, mem_takenTokens]; simp only [hp]
  have one : ∀ {m m' : List Nat} {a b : RemapState}, (∀ i ∈ m, i < toks.length) → m.Nodup → m'.Nodup → (∀ i, i ∈ m ↔ i ∈ m') →
      (∀ s, s ∈ takenTokens toks m ↔ s ∈ takenTokens toks m') →
      remapVariables toks m = some a → remapVariables toks m' = some b → ∀ s, a.variables.get? x = some s → b.variables.get? x = some s := by
    intro m m' a b hr hn hn' hp hbase ha hb s hs
    obtain ⟨a', ha1, ha2⟩ := renamed_final hr hn
    rw [ha] at ha1; cases ha1
    obtain ⟨b', hb1, hb2⟩ := renamed_final (order := m') (fun i hi => hr i ((hp i).2 hi)) hn'
    rw [hb] at hb1; cases hb1
    obtain ⟨hu, i, hi, h3, h4⟩ := ha2.variables x s hs
    obtain ⟨t, k, t1, t2, t3, t4⟩ := ha2.renamed i hi
    obtain ⟨u, l, u1, u2, u3, u4⟩ := hb2.renamed i (by simpa using (hp i).1 (by simpa using hi))
    rw [t1] at u1; cases u1
    have et : t.string = x := stringAt_unique ⟨t, t1, rfl⟩ h3
    rw [et] at t4 u4
    obtain ⟨t5, t6⟩ := t4 hu
    obtain ⟨u5, u6⟩ := u4 hu
    have hkl : k = l := by
      rcases Nat.lt_trichotomy k l with hlt | heq | hgt
      · exact absurd ((hbase _).2 (u6.2 k hlt)) t6.1
      · exact heq
      · exact absurd ((hbase _).1 (t6.2 l hgt)) u6.1
    rw [u5, ← hkl, ← t5, hs]
  cases hs : st.variables.get? x with
  | some s => exact (one hr hn hn' hp hbase h h' s hs).symm
  | none =>
    cases hs' : st'.variables.get? x with
    | none => rfl
    | some s =>
      have := one (fun i hi => hr i ((hp i).2 hi)) hn' hn (fun i => (hp i).symm) (fun s => (hbase s).symm) h' h s hs'
      rw [hs] at this; cases this


/-! ### The markers -/

/-- The positions of the marked tokens, counted from `i`. -/
def markedAt : Nat → List (PTok × Bool) → List Nat
  | _, [] => []
  | i, (_, true) :: m => i :: markedAt (i + 1) m
  | i, (_, false) :: m => markedAt (i + 1) m

theorem markedAt_spec : ∀ (m : List (PTok × Bool)) (i : Nat),
    (∀ j, j ∈ markedAt i m ↔ i ≤ j ∧ ∃ t, m[j - i]? = some (t, true)) ∧ (markedAt i m).Pairwise (· < ·) := by
  intro m
  induction m with
  | nil => intro i; simp [markedAt]
  | cons p m ih =>
    intro i
    obtain ⟨t, b⟩ := p
    obtain ⟨h1, h2⟩ := ih (i + 1)
    have step : ∀ j, (i + 1 ≤ j ∧ ∃ t, m[j - (i + 1)]? = some (t, true)) ↔ i < j ∧ ∃ t', ((t, b) :: m)[j - i]? = some (t', true) := by
      intro j
      constructor
      · rintro ⟨g1, t', g2⟩
        refine ⟨g1, t', ?_⟩
        have : j - i = (j - (i + 1)) + 1 := by omega
        rw [this, List.getElem?_cons_succ]; exact g2
      · rintro ⟨g1, t', g2⟩
        refine ⟨g1, t', ?_⟩
        have : j - i = (j - (i + 1)) + 1 := by omega
        rw [this, List.getElem?_cons_succ] at g2; exact g2
    cases b with
    | true =>
      constructor
      · intro j
        simp only [markedAt, List.mem_cons]
        rw [h1 j, step j]
        constructor
        · rintro (rfl | ⟨g1, g2⟩)
          · exact ⟨Nat.le_refl _, t, by simp⟩
          · exact ⟨Nat.le_of_lt g1, g2⟩
        · rintro ⟨g1, g2⟩
          rcases Nat.lt_or_ge i j with g | g
          · exact Or.inr ⟨g, g2⟩
          · exact Or.inl (by omega)
      · simp only [markedAt, List.pairwise_cons]
        refine ⟨fun j hj => ?_, h2⟩
        have := ((h1 j).1 hj).1; omega
    | false =>
      constructor
      · intro j
        simp only [markedAt]
        rw [h1 j, step j]
        constructor
        · rintro ⟨g1, g2⟩; exact ⟨Nat.le_of_lt g1, g2⟩
        · rintro ⟨g1, t', g2⟩
          rcases Nat.lt_or_ge i j with g | g
          · exact ⟨g, t', g2⟩
          · have : j - i = 0 := by omega
            rw [this] at g2; simp at g2
      · exact h2

theorem tokenLoop_marked {ts : List PTok} {m : List (PTok × Bool)} (h : Marked ts m) :
    ∀ acc idx, tokenLoop ts acc idx = some (acc ++ m.map (·.1), idx ++ markedAt acc.length m) := by
  induction h with
  | nil => intro acc idx; simp [tokenLoop, markedAt]
  | plain h1 _ ih =>
    intro acc idx
    rw [tokenLoop.eq_def]
    simp only
    rw [if_pos h1, ih]
    simp [markedAt]
  | metavar h1 h2 h3 _ ih =>
    intro acc idx
    rw [tokenLoop.eq_def]
    simp only
    rw [if_neg (by simp [h1])]
    simp only [h2, Bool.not_true, Bool.false_eq_true, if_false]
    rw [if_neg (by omega), ih]
    simp [markedAt, h3]

theorem tokenLoop_inv : ∀ (n : Nat) (ts : List PTok) (acc idx r), ts.length ≤ n → tokenLoop ts acc idx = some r → ∃ m, Marked ts m := by
  intro n
  induction n with
  | zero =>
    intro ts acc idx r hl h
    have : ts = [] := List.length_eq_zero_iff.1 (by omega)
    subst this; exact ⟨_, .nil⟩
  | succ n ih =>
    intro ts acc idx r hl h
    cases ts with
    | nil => exact ⟨_, .nil⟩
    | cons t ts =>
      rw [tokenLoop.eq_def] at h
      simp only at h
      by_cases h1 : t.string ≠ str "$"
      · rw [if_pos h1] at h
        obtain ⟨m, hm⟩ := ih ts _ _ _ (by simpa using hl) h
        exact ⟨_, .plain h1 hm⟩
      · rw [if_neg h1] at h
        cases ts with
        | nil => simp at h
        | cons v ts =>
          simp only at h
          by_cases h2 : isVariable v.string = true
          · simp only [h2, Bool.not_true, Bool.false_eq_true, if_false] at h
            by_cases h3 : t.start.2 + 1 ≠ v.start.2
            · rw [if_pos h3] at h; cases h
            · rw [if_neg h3] at h
              obtain ⟨m, hm⟩ := ih ts _ _ _ (by simp at hl; omega) h
              exact ⟨_, .metavar (by simpa using h1) h2 (by omega) hm⟩
          · simp [h2] at h

theorem marked_append {ts : List PTok} {m : List (PTok × Bool)} (h : Marked ts m) {us : List PTok} {k : List (PTok × Bool)} (h' : Marked us k) :
    Marked (ts ++ us) (m ++ k) := by
  induction h with
  | nil => exact h'
  | plain h1 _ ih => exact .plain h1 ih
  | metavar h1 h2 h3 _ ih => exact .metavar h1 h2 h3 ih

theorem marked_prefix {us : List PTok} {m : List (PTok × Bool)} (h : Marked us m) : ∀ (pre : List PTok) (u : PTok) (tl : List PTok),
    us = pre ++ u :: tl → isVariable u.string = false → ∃ m', Marked pre m' := by
  induction h with
  | nil => intro pre u tl e; simp at e
  | @plain t ts out h1 _ ih =>
    intro pre u tl e hu
    cases pre with
    | nil => exact ⟨_, .nil⟩
    | cons p pre =>
      simp only [List.cons_append, List.cons.injEq] at e
      obtain ⟨rfl, rfl⟩ := e
      obtain ⟨m', hm'⟩ := ih pre u tl rfl hu
      exact ⟨_, .plain h1 hm'⟩
  | @metavar d t ts out h1 h2 h3 _ ih =>
    intro pre u tl e hu
    cases pre with
    | nil => exact ⟨_, .nil⟩
    | cons p pre =>
      simp only [List.cons_append, List.cons.injEq] at e
      obtain ⟨rfl, e⟩ := e
      cases pre with
      | nil =>
        simp only [List.nil_append, List.cons.injEq] at e
        obtain ⟨rfl, _⟩ := e
        rw [h2] at hu; cases hu
      | cons q pre =>
        simp only [List.cons_append, List.cons.injEq] at e
        obtain ⟨rfl, rfl⟩ := e
        obtain ⟨m', hm'⟩ := ih pre u tl rfl hu
        exact ⟨_, .metavar h1 h2 h3 hm'⟩

theorem markedAt_append_plain (t : PTok) : ∀ (m : List (PTok × Bool)) (i : Nat), markedAt i (m ++ [(t, false)]) = markedAt i m := by
  intro m
  induction m with
  | nil => intro i; rfl
  | cons p m ih =>
    intro i
    obtain ⟨u, b⟩ := p
    cases b <;> simp [markedAt, ih]

section Markers
variable {pre : List PTok} {nl em : PTok} (hnl : nl.string = str "\n") (hem : em.string = [])
include hnl hem

/-- **C48**: a well-marked pattern is read as its tokens without the `$`s, the metavariables being exactly the tokens that
followed a `$`; a newline that had been added goes. (Tokenizing ends with the newline and an empty end marker.) -/
theorem C48_markers (added : Bool) {m : List (PTok × Bool)} (h : Marked pre m) :
    ∃ idx, tokenPattern (pre ++ [nl, em]) added = some (m.map (·.1) ++ (if added then [em] else [nl, em]), idx) ∧
      (∀ i, i ∈ idx ↔ ∃ t, m[i]? = some (t, true)) ∧ idx.Pairwise (· < ·) := by
  have hm : Marked (pre ++ [nl, em]) (m ++ [(nl, false), (em, false)]) :=
    marked_append h (.plain (by rw [hnl]; decide) (.plain (by rw [hem]; decide) .nil))
  have hl := tokenLoop_marked hm [] []
  have hidx : markedAt 0 (m ++ [(nl, false), (em, false)]) = markedAt 0 m := by
    have : m ++ [(nl, false), (em, false)] = (m ++ [(nl, false)]) ++ [(em, false)] := by simp
    rw [this, markedAt_append_plain, markedAt_append_plain]
  simp only [List.nil_append, List.length_nil] at hl
  rw [hidx] at hl
  refine ⟨markedAt 0 m, ?_, fun i => ?_, (markedAt_spec m 0).2⟩
  · unfold tokenPattern
    rw [hl]
    simp only [List.map_append, List.map_cons, List.map_nil, List.length_append, List.length_map, List.length_cons, List.length_nil]
    have e : m.length + (0 + 1 + 1) - 2 = (m.map (·.1)).length := by simp
    have g : (m.map (·.1) ++ [nl, em])[m.length + (0 + 1 + 1) - 2]? = some nl := by
      rw [e, List.getElem?_append_right (Nat.le_refl _)]; simp
    rw [g]
    cases added with
    | false => simp
    | true =>
      simp only [Bool.true_and, Option.map_some, hnl, decide_true, Bool.and_true, if_true]
      rw [if_pos (by simp), e, List.eraseIdx_append_of_length_le (Nat.le_refl _)]
      simp
  · rw [(markedAt_spec m 0).1 i]; simp

/-- **C48**: reading a pattern fails (SyntaxError) only when some `$` is not directly followed by an identifier. -/
theorem C48_markers_complete (added : Bool) : tokenPattern (pre ++ [nl, em]) added = none ↔ ¬ ∃ m, Marked pre m := by
  constructor
  · rintro h ⟨m, hm⟩
    obtain ⟨idx, h1, _⟩ := C48_markers hnl hem added hm
    rw [h] at h1; cases h1
  · intro h
    unfold tokenPattern
    cases hl : tokenLoop (pre ++ [nl, em]) [] [] with
    | none => rfl
    | some r =>
      obtain ⟨m, hm⟩ := tokenLoop_inv _ _ _ _ _ (Nat.le_refl _) hl
      exact absurd (marked_prefix hm pre nl [em] rfl (by rw [hnl]; decide)) h

end Markers

/-! ### Printing -/

/-- The strings printed for a token stream. -/
def printedStrings : List PTok → List Str
  | [] => []
  | t :: ts => match t.kind with
    | .endmarker => []
    | .indent => printedStrings ts
    | .dedent => printedStrings ts
    | _ => t.string :: printedStrings ts

theorem SameLayout.cons {t u : PTok} {ts us : List PTok} (h : SameLayout (t :: ts) (u :: us)) :
    (t.kind = u.kind ∧ t.start = u.start ∧ t.stop = u.stop ∧ (t.kind = .indent → t.string = u.string)) ∧ SameLayout ts us :=
  ⟨h.2 0 t u rfl rfl, by simpa using h.1, fun i a b ha hb => h.2 (i + 1) a b (by simpa using ha) (by simpa using hb)⟩

theorem pieces_cons {c : Prop} [Decidable c] {gap a b : Str} {p q : Option (List (Str × Str))}
    (h : p.map (·.map (·.1)) = q.map (·.map (·.1))) :
    Option.map (·.map (·.1)) (if c then none else match p with
      | none => none
      | some ps => some ((gap, a) :: ps)) =
    Option.map (·.map (·.1)) (if c then none else match q with
      | none => none
      | some ps => some ((gap, b) :: ps)) := by
  by_cases hc : c
  · rw [if_pos hc, if_pos hc]
  · rw [if_neg hc, if_neg hc]
    cases p <;> cases q <;> simp at h ⊢
    exact h

theorem untokPieces_layout : ∀ (ts us : List PTok) (st : UntokState), SameLayout ts us →
    (untokPieces st ts).map (·.map (·.1)) = (untokPieces st us).map (·.map (·.1)) := by
  intro ts
  induction ts with
  | nil =>
    intro us st h
    have : us = [] := List.length_eq_zero_iff.1 (by simpa using h.1.symm)
    subst this; rfl
  | cons t ts ih =>
    intro us st h
    cases us with
    | nil => simpa using h.1
    | cons u us =>
      obtain ⟨⟨h1, h2, h3, h4⟩, h5⟩ := h.cons
      have key : ∀ st', (untokPieces st' ts).map (·.map (·.1)) = (untokPieces st' us).map (·.map (·.1)) := fun st' => ih us st' h5
      rw [untokPieces.eq_def, untokPieces.eq_def st (u :: us)]
      simp only
      rw [← h1, ← h2, ← h3]
      cases hk : t.kind with
      | endmarker => rfl
      | indent => simp only; rw [h4 hk]; exact key _
      | dedent => simp only; exact key _
      | newline => exact pieces_cons (key _)
      | nl => exact pieces_cons (key _)
      | other => exact pieces_cons (key _)

theorem pieces_inv {c : Prop} [Decidable c] {st : UntokState} {ts : List PTok} {gap a : Str} {ps : List (Str × Str)}
    (h : (if c then none else match untokPieces st ts with
      | none => none
      | some ps => some ((gap, a) :: ps)) = some ps) :
    ∃ gap qs st, untokPieces st ts = some qs ∧ ps = (gap, a) :: qs := by
  by_cases hc : c
  · rw [if_pos hc] at h; cases h
  · rw [if_neg hc] at h
    cases hq : untokPieces st ts with
    | none => rw [hq] at h; cases h
    | some qs => rw [hq] at h; cases h; exact ⟨_, _, _, hq, rfl⟩

theorem untokPieces_strings : ∀ (ts : List PTok) (st : UntokState) ps, untokPieces st ts = some ps → ps.map (·.2) = printedStrings ts := by
  intro ts
  induction ts with
  | nil => intro st ps h; cases h; rfl
  | cons t ts ih =>
    intro st ps h
    rw [untokPieces.eq_def] at h
    simp only at h
    rw [printedStrings]
    cases hk : t.kind <;> simp only [hk] at h ⊢
    case endmarker => cases h; rfl
    case indent => exact ih _ _ h
    case dedent => exact ih _ _ h
    all_goals
      obtain ⟨gap, qs, st', hq, rfl⟩ := pieces_inv h
      rw [List.map_cons, ih _ _ hq]


/-- **C48**: the text made of the renamed tokens has, between the tokens, the very white space the text made of the
original tokens has, and one is made iff the other is; the tokens are printed in order. With `C48_rest_preserved`: only
the metavariables change. (Metavariables are ordinary tokens, not line ends or indentation.) -/
theorem C48_text_preserved {toks : List PTok} {metas : List Nat} (hr : ∀ i ∈ metas, i < toks.length) (hn : metas.Nodup)
    (ho : ∀ i ∈ metas, ∀ t, toks[i]? = some t → t.kind = .other) {st : RemapState} (h : remapVariables toks metas = some st) :
    (untokPieces {} st.toks).map (·.map (·.1)) = (untokPieces {} toks).map (·.map (·.1)) ∧
    (∀ ps, untokPieces {} toks = some ps → ps.map (·.2) = printedStrings toks) ∧
    (∀ ps, untokPieces {} st.toks = some ps → ps.map (·.2) = printedStrings st.toks) := by
  obtain ⟨h1, h2, h3⟩ := C48_rest_preserved hr hn h
  refine ⟨untokPieces_layout _ _ _ ⟨h1, fun i t u ht hu => ?_⟩, fun ps => untokPieces_strings _ _ _, fun ps => untokPieces_strings _ _ _⟩
  by_cases hi : i ∈ metas
  · obtain ⟨v, nm, h4, h5⟩ := h3 i hi
    rw [hu] at h4; cases h4
    rw [ht] at h5; cases h5
    refine ⟨rfl, rfl, rfl, fun hk => ?_⟩
    rw [ho i hi u hu] at hk; cases hk
  · rw [h2 i hi, hu] at ht; cases ht
    exact ⟨rfl, rfl, rfl, fun _ => rfl⟩

/-- The tokens of the pattern `$x + $x` and its newline. -/
def exPatternTokens : List PTok :=
  [⟨.other, str "$", (1, 0), (1, 1)⟩, ⟨.other, str "x", (1, 1), (1, 2)⟩, ⟨.other, str "+", (1, 3), (1, 4)⟩,
   ⟨.other, str "$", (1, 5), (1, 6)⟩, ⟨.other, str "x", (1, 6), (1, 7)⟩]
def exNewline : PTok := ⟨.newline, str "\n", (1, 7), (1, 8)⟩
def exEndTok : PTok := ⟨.endmarker, [], (2, 0), (2, 0)⟩

/-- The pattern is well marked, so `C48_markers` applies; `$ x` and `$1` are not. -/
example : ∃ m, Marked exPatternTokens m :=
  ⟨_, .metavar rfl (by decide) rfl (.plain (by decide) (.metavar rfl (by decide) rfl .nil))⟩
example : (tokenPattern (exPatternTokens ++ [exNewline, exEndTok]) true).map (fun r => (r.1.map (·.string), r.2)) =
    some ([str "x", str "+", str "x", []], [0, 2]) := by decide
example : ((tokenPattern (exPatternTokens ++ [exNewline, exEndTok]) true).bind fun r => (remapVariables r.1 r.2).bind fun st => untokenize st.toks) =
    some (str "gensym_x + gensym_x") := by decide

/-- A renaming that has to avoid `gensym_x`, with `_` twice; the hypotheses of the theorems hold of it. -/
def exRenamed : List PTok :=
  [⟨.other, str "gensym_x", (1, 0), (1, 8)⟩, ⟨.other, str "+", (1, 9), (1, 10)⟩, ⟨.other, str "x", (1, 11), (1, 13)⟩,
   ⟨.other, str "+", (1, 14), (1, 15)⟩, ⟨.other, str "_", (1, 16), (1, 18)⟩, ⟨.other, str "+", (1, 19), (1, 20)⟩,
   ⟨.other, str "_", (1, 21), (1, 23)⟩, exEndTok]
example : ∀ i ∈ [2, 4, 6], ∃ t, exRenamed[i]? = some t ∧ t.kind = .other ∧ isVariable t.string = true := by decide
example : (remapVariables exRenamed [2, 4, 6]).bind (fun st => untokenize st.toks) =
    some (str "gensym_x + gensym0_x + gensym__ + gensym0__") := by decide
example : (remapVariables exRenamed [6, 4, 2]).map (fun st => (st.variables, st.anonymous)) =
    some ([(str "x", str "gensym0_x")], [str "gensym0__", str "gensym__"]) := by decide

/-- **C48** fails for text inside tokens: the generated name is not compared with the identifiers inside an f-string that
is one token (as before Python 3.12): in `f"{gensym_x}" + $x`, the metavariable captures the name in the f-string.
The freshness theorem above is about whole tokens. -/
theorem C48_text_capture_false : ∃ (toks : List PTok) (metas : List Nat) (st : RemapState) (a b : Str),
    remapVariables toks metas = some st ∧ (∃ i ∈ metas, StringAt st.toks i a) ∧ (∃ j, j ∉ metas ∧ StringAt toks j b) ∧ a <:+: b := by
  refine ⟨[⟨.other, str "f\"{gensym_x}\"", (1, 0), (1, 13)⟩, ⟨.other, str "+", (1, 14), (1, 15)⟩, ⟨.other, str "x", (1, 16), (1, 18)⟩],
    [2], _, str "gensym_x", str "f\"{gensym_x}\"", rfl, ⟨2, by simp, _, rfl, rfl⟩, ⟨0, by simp, _, rfl, rfl⟩, ?_⟩
  exact ⟨str "f\"{", str "}\"", by decide⟩

end Refex
