import Verif.Spec.Bindings
import Verif.Lemmas.Dict
/- C37: merging binding dictionaries. -/
namespace Refex
set_option autoImplicit false

/-- A step raises exactly for an erroneous pair. -/
theorem mergeStep_error {lhs rhs : Bindings} {st : Bindings × Bool} {k : Label} {l r : BoundValue}
    (hs : Shared lhs rhs k l r) (he : PairError l r) : mergeStep lhs rhs st k = .error .matchError := by
  unfold mergeStep; rw [hs.1, hs.2]; simp only
  by_cases h1 : l.onConflict = r.onConflict
  · by_cases h2 : l.onMerge = r.onMerge
    · simp only [h1, ne_eq, not_true_eq_false, if_false, h2]
      rcases he with he | he | he | ⟨he, h⟩ | ⟨he, h⟩
      · exact absurd h1 he
      · exact absurd h2 he
      · rw [h1] at he; simp [he, BindConflict.verdict]
      · rw [h1] at he; simp [he, BindConflict.verdict, h]
      · rw [h1] at he; simp [he, BindConflict.verdict, h]
    · simp [h1, h2]
  · simp [h1]

/-- A step over a pair that is not erroneous. -/
theorem mergeStep_ok {lhs rhs : Bindings} {st : Bindings × Bool} {k : Label} {l r : BoundValue}
    (hs : Shared lhs rhs k l r) (he : ¬ PairError l r) :
    (PairSkip l r ∧ mergeStep lhs rhs st k = .ok (st.1, true)) ∨
    (¬ PairSkip l r ∧ mergeStep lhs rhs st k = .ok (st.1.set k (l.onMerge.pick l r), st.2)) := by
  have h1 : l.onConflict = r.onConflict := Classical.byContradiction fun h => he (Or.inl h)
  have h2 : l.onMerge = r.onMerge := Classical.byContradiction fun h => he (Or.inr (Or.inl h))
  have hstep : mergeStep lhs rhs st k = (match l.onConflict.verdict l r with
      | .error => .error .matchError
      | .merge => .ok (st.1.set k (l.onMerge.pick l r), st.2)
      | .skip => .ok (st.1, true)) := by
    unfold mergeStep; rw [hs.1, hs.2]; simp only [h1, h2, ne_eq, not_true_eq_false, if_false]
    cases r.onConflict.verdict l r <;> rfl
  rw [hstep]
  have he' := he
  unfold PairError at he'
  unfold PairSkip
  cases hc : l.onConflict <;> simp only [hc, BindConflict.verdict] at he' ⊢
  · right; simp
  · left; simp [he]
  · simp at he'
  · by_cases hq : l.pyEq r = true
    · right; simp [hq]
    · left; exact ⟨⟨he, by simp [hq]⟩, by simp [hq]⟩
  · by_cases hq : l.pyEq r = true
    · right; simp [hq]
    · simp [hq] at he'
  · by_cases hq : equivalentAst l r = true
    · right; simp [hq]
    · left; exact ⟨⟨he, by simp [hq]⟩, by simp [hq]⟩
  · by_cases hq : equivalentAst l r = true
    · right; simp [hq]
    · simp [hq] at he'

/-- The loop over the shared keys. -/
theorem mergeFold {lhs rhs : Bindings} (ks : List Label) (hks : ∀ k ∈ ks, ∃ l r, Shared lhs rhs k l r)
    (st : Bindings × Bool) :
    ((∃ k ∈ ks, ∃ l r, Shared lhs rhs k l r ∧ PairError l r) →
      ks.foldlM (mergeStep lhs rhs) st = .error .matchError) ∧
    ((∀ k ∈ ks, ∀ l r, Shared lhs rhs k l r → ¬ PairError l r) →
      ∃ d b, ks.foldlM (mergeStep lhs rhs) st = .ok (d, b) ∧
        (b = true ↔ st.2 = true ∨ ∃ k ∈ ks, ∃ l r, Shared lhs rhs k l r ∧ PairSkip l r) ∧
        (b = false → ∀ k, d.get? k = if k ∈ ks then mergedValue lhs rhs k else st.1.get? k)) := by
  induction ks generalizing st with
  | nil =>
    refine ⟨by simp, fun _ => ⟨st.1, st.2, rfl, by simp, by simp⟩⟩
  | cons k ks ih =>
    obtain ⟨l, r, hs⟩ := hks k (by simp)
    have hks' : ∀ k ∈ ks, ∃ l r, Shared lhs rhs k l r := fun k' h => hks k' (by simp [h])
    have huniq : ∀ l' r', Shared lhs rhs k l' r' → l' = l ∧ r' = r := fun l' r' h =>
      ⟨Option.some.inj (h.1.symm.trans hs.1), Option.some.inj (h.2.symm.trans hs.2)⟩
    rw [List.foldlM_cons]
    refine ⟨fun hex => ?_, fun hall => ?_⟩
    · by_cases he : PairError l r
      · rw [mergeStep_error hs he]; rfl
      · have hex' : ∃ k ∈ ks, ∃ l r, Shared lhs rhs k l r ∧ PairError l r := by
          obtain ⟨k', hk', l', r', hs', he'⟩ := hex
          rcases List.mem_cons.1 hk' with rfl | hk'
          · obtain ⟨rfl, rfl⟩ := huniq _ _ hs'; exact absurd he' he
          · exact ⟨k', hk', l', r', hs', he'⟩
        rcases mergeStep_ok (st := st) hs he with ⟨_, h⟩ | ⟨_, h⟩
        · rw [h]; exact (ih hks' _).1 hex'
        · rw [h]; exact (ih hks' _).1 hex'
    · have he : ¬ PairError l r := hall k (by simp) l r hs
      have hall' : ∀ k ∈ ks, ∀ l r, Shared lhs rhs k l r → ¬ PairError l r :=
        fun k' h => hall k' (by simp [h])
      rcases mergeStep_ok (st := st) hs he with ⟨hsk, h⟩ | ⟨hsk, h⟩
      · obtain ⟨d, b, h1, h2, h3⟩ := (ih hks' (st.1, true)).2 hall'
        refine ⟨d, b, by rw [h]; exact h1, ?_, ?_⟩
        · simp only [true_or, iff_true] at h2
          simp only [h2, true_iff]
          exact Or.inr ⟨k, by simp, l, r, hs, hsk⟩
        · intro hb; simp [hb] at h2
      · obtain ⟨d, b, h1, h2, h3⟩ := (ih hks' (st.1.set k (l.onMerge.pick l r), st.2)).2 hall'
        refine ⟨d, b, by rw [h]; exact h1, ?_, ?_⟩
        · rw [h2]
          constructor
          · rintro (h | ⟨k', hk', rest⟩)
            · exact Or.inl h
            · exact Or.inr ⟨k', by simp [hk'], rest⟩
          · rintro (h | ⟨k', hk', l', r', hs', hsk'⟩)
            · exact Or.inl h
            · rcases List.mem_cons.1 hk' with rfl | hk'
              · obtain ⟨rfl, rfl⟩ := huniq _ _ hs'; exact absurd hsk' hsk
              · exact Or.inr ⟨k', hk', l', r', hs', hsk'⟩
        · intro hb k'
          rw [h3 hb k']
          by_cases hm : k' ∈ ks
          · simp [hm]
          · simp only [hm, if_false, List.mem_cons, or_false, Dict.get?_set]
            by_cases hk : k' = k
            · subst hk
              simp only [if_true, mergedValue, hs.1, hs.2]
              cases l.onMerge <;> rfl
            · simp [hk]

theorem get?_updateFrom (src : Bindings) (ks : List Label) (d : Bindings) (k : Label) :
    (updateFrom d src ks).get? k = if k ∈ ks ∧ (src.get? k).isSome then src.get? k else d.get? k := by
  unfold updateFrom
  induction ks generalizing d with
  | nil => simp
  | cons a ks ih =>
    rw [List.foldl_cons, ih]
    by_cases hk : k ∈ ks ∧ (src.get? k).isSome
    · simp [hk.1, hk.2]
    · rw [if_neg hk]
      by_cases hka : k = a
      · subst hka
        cases hv : src.get? k with
        | none => simp
        | some v => simp [Dict.get?_set]
      · have : ¬ (k ∈ a :: ks ∧ (src.get? k).isSome) := by
          simp only [List.mem_cons, hka, false_or]; exact hk
        rw [if_neg this]
        split
        · rw [Dict.get?_set]; simp [hka]
        · rfl

/-- Three enumerations of the sets the code iterates over. -/
structure Orders (lhs rhs : Bindings) (shared lonly ronly : List Label) : Prop where
  shared : Enumerates shared (fun k => ∃ l r, Shared lhs rhs k l r)
  lonly : Enumerates lonly (fun k => (∃ l, lhs.get? k = some l) ∧ rhs.get? k = none)
  ronly : Enumerates ronly (fun k => (∃ r, rhs.get? k = some r) ∧ lhs.get? k = none)

/-- **C37**: whatever the iteration orders, `merge_bindings` raises `MatchError` iff the two values of some
label are in error. -/
theorem C37_error_iff {lhs rhs : Bindings} {s l r : List Label} (h : Orders lhs rhs s l r) :
    mergeBindingsIn s l r lhs rhs = .error .matchError ↔
      ∃ k a b, Shared lhs rhs k a b ∧ PairError a b := by
  have hf := mergeFold s (fun k hk => (h.shared.2 k).1 hk) ([], false)
  unfold mergeBindingsIn
  constructor
  · intro he
    apply Classical.byContradiction
    intro hno
    obtain ⟨d, b, h1, _⟩ := hf.2 (fun k _ a b hs hp => hno ⟨k, a, b, hs, hp⟩)
    rw [h1] at he
    cases b <;> simp at he
  · rintro ⟨k, a, b, hs, hp⟩
    rw [hf.1 ⟨k, (h.shared.2 k).2 ⟨a, b, hs⟩, a, b, hs, hp⟩]

/-- **C37**: no other exception is raised. -/
theorem C37_only_match_error {lhs rhs : Bindings} {s l r : List Label} (h : Orders lhs rhs s l r) {e : MExc}
    (he : mergeBindingsIn s l r lhs rhs = .error e) : e = .matchError := by
  have hf := mergeFold s (fun k hk => (h.shared.2 k).1 hk) ([], false)
  unfold mergeBindingsIn at he
  by_cases hex : ∃ k ∈ s, ∃ l r, Shared lhs rhs k l r ∧ PairError l r
  · rw [hf.1 hex] at he; cases he; rfl
  · obtain ⟨d, b, h1, _⟩ := hf.2 (fun k hk a b hs hp => hex ⟨k, hk, a, b, hs, hp⟩)
    rw [h1] at he
    cases b <;> simp at he

/-- **C37**: the match is skipped iff no label is in error and some label has a skipping pair;
so an error beats a skip, in every order. -/
theorem C37_skip_iff {lhs rhs : Bindings} {s l r : List Label} (h : Orders lhs rhs s l r) :
    mergeBindingsIn s l r lhs rhs = .ok none ↔
      (¬ ∃ k a b, Shared lhs rhs k a b ∧ PairError a b) ∧ ∃ k a b, Shared lhs rhs k a b ∧ PairSkip a b := by
  have hf := mergeFold s (fun k hk => (h.shared.2 k).1 hk) ([], false)
  by_cases hex : ∃ k a b, Shared lhs rhs k a b ∧ PairError a b
  · rw [(C37_error_iff h).2 hex]; simp [hex]
  · obtain ⟨d, b, h1, h2, h3⟩ := hf.2 (fun k _ a b hs hp => hex ⟨k, a, b, hs, hp⟩)
    unfold mergeBindingsIn
    rw [h1]
    simp only [hex, not_false_eq_true, true_and]
    have hb : b = true ↔ ∃ k a c, Shared lhs rhs k a c ∧ PairSkip a c := by
      rw [h2]
      simp only [Bool.false_eq_true, false_or]
      constructor
      · rintro ⟨k, _, rest⟩; exact ⟨k, rest⟩
      · rintro ⟨k, a, c, hs, hp⟩; exact ⟨k, (h.shared.2 k).2 ⟨a, c, hs⟩, a, c, hs, hp⟩
    rw [← hb]
    cases b <;> simp

/-- **C37**: otherwise the result binds every label bound on either side, to the value of the agreed side
where both bind it and unchanged where only one does, and no other label. -/
theorem C37_merged {lhs rhs : Bindings} {s l r : List Label} (h : Orders lhs rhs s l r)
    (herr : ¬ ∃ k a b, Shared lhs rhs k a b ∧ PairError a b)
    (hskip : ¬ ∃ k a b, Shared lhs rhs k a b ∧ PairSkip a b) :
    ∃ d, mergeBindingsIn s l r lhs rhs = .ok (some d) ∧ ∀ k, d.get? k = mergedValue lhs rhs k := by
  have hf := mergeFold s (fun k hk => (h.shared.2 k).1 hk) ([], false)
  obtain ⟨d, b, h1, h2, h3⟩ := hf.2 (fun k _ a b hs hp => herr ⟨k, a, b, hs, hp⟩)
  have hb : b = false := by
    cases b with
    | false => rfl
    | true =>
      have := h2.1 rfl
      simp only [Bool.false_eq_true, false_or] at this
      obtain ⟨k, _, rest⟩ := this
      exact absurd ⟨k, rest⟩ hskip
  subst hb
  refine ⟨_, by unfold mergeBindingsIn; rw [h1], ?_⟩
  intro k
  rw [get?_updateFrom, get?_updateFrom, h3 rfl k]
  have e1 := h.shared.2 k
  have e2 := h.lonly.2 k
  have e3 := h.ronly.2 k
  unfold Shared at e1
  unfold mergedValue
  cases hl : lhs.get? k <;> cases hr : rhs.get? k <;> simp only [hl, hr] at e1 e2 e3 <;> simp at e1 e2 e3 <;> simp [e1, e2, e3, Dict.get?]

/-- **C37**: the outcome does not depend on the iteration orders: two runs raise alike, skip alike, and
otherwise give equal dictionaries (the same value under every label). -/
theorem C37_order_irrelevant {lhs rhs : Bindings} {s l r s' l' r' : List Label}
    (h : Orders lhs rhs s l r) (h' : Orders lhs rhs s' l' r') :
    (∀ e, mergeBindingsIn s l r lhs rhs = .error e ↔ mergeBindingsIn s' l' r' lhs rhs = .error e) ∧
    (mergeBindingsIn s l r lhs rhs = .ok none ↔ mergeBindingsIn s' l' r' lhs rhs = .ok none) ∧
    (∀ d d', mergeBindingsIn s l r lhs rhs = .ok (some d) → mergeBindingsIn s' l' r' lhs rhs = .ok (some d') →
      ∀ k, d.get? k = d'.get? k) := by
  refine ⟨fun e => ?_, ?_, fun d d' hd hd' k => ?_⟩
  · constructor
    · intro he
      obtain rfl := C37_only_match_error h he
      exact (C37_error_iff h').2 ((C37_error_iff h).1 he)
    · intro he
      obtain rfl := C37_only_match_error h' he
      exact (C37_error_iff h).2 ((C37_error_iff h').1 he)
  · rw [C37_skip_iff h, C37_skip_iff h']
  · have herr : ¬ ∃ k a b, Shared lhs rhs k a b ∧ PairError a b := fun hx => by
      rw [(C37_error_iff h).2 hx] at hd; cases hd
    have hskip : ¬ ∃ k a b, Shared lhs rhs k a b ∧ PairSkip a b := fun hx => by
      rw [(C37_skip_iff h).2 ⟨herr, hx⟩] at hd; cases hd
    obtain ⟨e, h1, h2⟩ := C37_merged h herr hskip
    obtain ⟨e', h1', h2'⟩ := C37_merged h' herr hskip
    rw [h1] at hd; rw [h1'] at hd'
    cases hd; cases hd'
    rw [h2, h2']

/-- The dictionary orders are one admissible choice, so the statements apply to `mergeBindings`. -/
theorem dictOrders {lhs rhs : Bindings} (hl : lhs.WF) (hr : rhs.WF) :
    Orders lhs rhs (lhs.keys.filter (fun k => rhs.has k)) (lhs.keys.filter (fun k => !rhs.has k))
      (rhs.keys.filter (fun k => !lhs.has k)) where
  shared := ⟨hl.sublist List.filter_sublist, fun k => by
    rw [List.mem_filter, Dict.mem_keys_iff, Dict.has_iff]
    exact ⟨fun ⟨⟨l, h⟩, r, h'⟩ => ⟨l, r, h, h'⟩, fun ⟨l, r, h, h'⟩ => ⟨⟨l, h⟩, r, h'⟩⟩⟩
  lonly := ⟨hl.sublist List.filter_sublist, fun k => by
    rw [List.mem_filter, Dict.mem_keys_iff]; unfold Dict.has; simp⟩
  ronly := ⟨hr.sublist List.filter_sublist, fun k => by
    rw [List.mem_filter, Dict.mem_keys_iff]; unfold Dict.has; simp⟩

/-- **C37**: merging with no bindings changes nothing, on either side. -/
theorem C37_empty {d : Bindings} (hd : d.WF) :
    (∃ d', mergeBindings [] d = .ok (some d') ∧ ∀ k, d'.get? k = d.get? k) ∧
    (∃ d', mergeBindings d [] = .ok (some d') ∧ ∀ k, d'.get? k = d.get? k) := by
  have hnil : Dict.WF ([] : Bindings) := List.nodup_nil
  have h1 := C37_merged (dictOrders hnil hd) (by rintro ⟨k, a, b, ⟨h, _⟩, _⟩; simp [Dict.get?] at h)
    (by rintro ⟨k, a, b, ⟨h, _⟩, _⟩; simp [Dict.get?] at h)
  have h2 := C37_merged (dictOrders hd hnil) (by rintro ⟨k, a, b, ⟨_, h⟩, _⟩; simp [Dict.get?] at h)
    (by rintro ⟨k, a, b, ⟨_, h⟩, _⟩; simp [Dict.get?] at h)
  obtain ⟨e, h1, h1'⟩ := h1
  obtain ⟨f, h2, h2'⟩ := h2
  refine ⟨⟨e, h1, fun k => ?_⟩, ⟨f, h2, fun k => ?_⟩⟩
  · rw [h1' k]; unfold mergedValue; cases Dict.get? d k <;> simp [Dict.get?]
  · rw [h2' k]; unfold mergedValue; cases Dict.get? d k <;> simp [Dict.get?]

/-- Replacements: a label replaced on both sides is a `MatchError`; otherwise both sides are kept. -/
theorem C37_replacements (lhs rhs : Replacements) (hr : rhs.WF) :
    (mergeReplacements lhs rhs = .error .matchError ↔ ∃ k, (∃ a, lhs.get? k = some a) ∧ ∃ b, rhs.get? k = some b) ∧
    (∀ d, mergeReplacements lhs rhs = .ok d → ∀ k, d.get? k = (lhs.get? k).or (rhs.get? k)) := by
  have hany : (lhs.keys.any (fun k => rhs.has k)) = true ↔
      ∃ k, (∃ a, lhs.get? k = some a) ∧ ∃ b, rhs.get? k = some b := by
    rw [List.any_eq_true]
    exact ⟨fun ⟨k, h, h'⟩ => ⟨k, Dict.mem_keys_iff.1 h, Dict.has_iff.1 h'⟩,
      fun ⟨k, h, h'⟩ => ⟨k, Dict.mem_keys_iff.2 h, Dict.has_iff.2 h'⟩⟩
  have hfold : ∀ (rs d : Replacements), rs.WF → ∀ k,
      (rs.foldl (fun d e => d.set e.1 e.2) d).get? k = (rs.get? k).or (d.get? k) := by
    intro rs
    induction rs with
    | nil => intro d _ k; simp [Dict.get?]
    | cons e rs ih =>
      intro d hwf k
      have hwf' : Dict.WF rs := (List.nodup_cons.1 hwf).2
      have hne : e.1 ∉ Dict.keys rs := (List.nodup_cons.1 hwf).1
      rw [List.foldl_cons, ih _ hwf', Dict.get?_set]
      by_cases hk : k = e.1
      · subst hk
        have : Dict.get? rs e.1 = none := by
          cases hg : Dict.get? rs e.1 with
          | none => rfl
          | some v => exact absurd (Dict.mem_keys_iff.2 ⟨v, hg⟩) hne
        simp [this, Dict.get?]
      · have : Dict.get? (e :: rs) k = Dict.get? rs k := by
          obtain ⟨a, b⟩ := e
          simp only [Dict.get?]
          rw [if_neg (fun h => hk h.symm)]
        simp [hk, this]
  unfold mergeReplacements
  by_cases h : (lhs.keys.any (fun k => rhs.has k)) = true
  · rw [if_pos h]
    exact ⟨⟨fun _ => hany.1 h, fun _ => rfl⟩, fun d hd => by cases hd⟩
  · rw [if_neg h]
    refine ⟨⟨fun h' => (by cases h'), fun h' => absurd (hany.2 h') h⟩, ?_⟩
    intro d hd k
    cases hd
    rw [hfold _ _ hr]
    cases hl : lhs.get? k with
    | none => simp
    | some a =>
      cases hb : rhs.get? k with
      | none => simp
      | some b => exact absurd (hany.2 ⟨k, ⟨a, hl⟩, b, hb⟩) h

/-- Non-vacuity: `x` conflicts with policy MERGE (last wins), `y` and `z` are on one side only. -/
example : ∃ d, mergeBindings [(str "x", ⟨.string (str "1"), .merge, .keepLast⟩), (str "y", ⟨.bare, .skip, .keepFirst⟩)]
    [(str "z", ⟨.bare, .merge, .keepLast⟩), (str "x", ⟨.string (str "2"), .merge, .keepLast⟩)] = .ok (some d) ∧
    (d.get? (str "x")).map (fun b => b.value.pyEq (.string (str "2"))) = some true ∧ d.keys.length = 3 :=
  ⟨_, rfl, by decide, by decide⟩

/-- Non-vacuity: one label skips, another is in error: the error wins. -/
example : mergeBindings [(str "x", ⟨.string (str "1"), .skip, .keepLast⟩), (str "y", ⟨.bare, .error, .keepLast⟩)]
    [(str "y", ⟨.bare, .error, .keepLast⟩), (str "x", ⟨.string (str "2"), .skip, .keepLast⟩)] = .error .matchError := by
  rfl

/-- Non-vacuity of the skipping case. -/
example : mergeBindings [(str "x", ⟨.string (str "1"), .mergeIdentical, .keepLast⟩)]
    [(str "x", ⟨.string (str "2"), .mergeIdentical, .keepLast⟩)] = .ok none := by rfl

end Refex
