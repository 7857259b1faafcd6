import Verif.Lemmas.Dict
import Verif.Lemmas.LabeledSpans
import Verif.Spec.Templates
/-
Properties C17-C19: templates.
-/
namespace Refex
set_option autoImplicit false

theorem get?_stringify {ms : Dict MatchKey MatchV} (hwf : ms.WF) (k : MatchKey) :
    (stringifyMatches ms).get? k = (ms.get? k).bind (fun v => v.string) := by
  induction ms with
  | nil => rfl
  | cons e ms ih =>
    obtain ⟨k', v⟩ := e
    simp only [Dict.WF, Dict.keys, List.map_cons, List.nodup_cons] at hwf
    have ih := ih hwf.2
    unfold stringifyMatches at ih ⊢
    simp only [List.filterMap_cons, Dict.get?]
    cases hv : v.string with
    | none =>
      simp only [Option.map_none]
      rw [ih]
      by_cases h : k' = k
      · simp only [h, if_true, Option.bind_some, hv]
        have : Dict.get? ms k = none := by
          rw [Dict.get?_none_iff]
          intro w hw
          exact hwf.1 (h ▸ List.mem_map.2 ⟨_, hw, rfl⟩)
        rw [this]; rfl
      · simp [h]
    | some s =>
      simp only [Option.map_some, Dict.get?]
      by_cases h : k' = k
      · simp [h, hv]
      · simp only [h, if_false, ih]

theorem textOf_iff {ms : Dict MatchKey MatchV} (hwf : ms.WF) (k : MatchKey) (s : Str) :
    (stringifyMatches ms).get? k = some s ↔ TextOf ms k s := by
  rw [get?_stringify hwf]
  unfold TextOf
  rw [Option.bind_eq_some_iff]

/-! ### C18 -/

theorem idStart_idChar {c : Char} (h : isIdStart c = true) : isIdChar c = true := by
  unfold isIdStart at h
  unfold isIdChar Char.isAlphanum
  rcases Bool.or_eq_true_iff.1 h with h | h
  · simp [h]
  · simp [h]

def ShPart.tok : ShPart → ShTok
  | .lit c => .lit c
  | .dollar => .escaped
  | .bare n => .var n
  | .braced n => .var n

theorem takeWhile_append_stop {p : Char → Bool} {n rest : Str} (hn : ∀ x ∈ n, p x = true)
    (hr : ∀ c, rest.head? = some c → p c = false) :
    (n ++ rest).takeWhile p = n ∧ (n ++ rest).dropWhile p = rest := by
  induction n with
  | nil =>
    cases rest with
    | nil => simp
    | cons c cs => have := hr c rfl; simp [this]
  | cons x xs ih =>
    have h1 := hn x (by simp)
    have := ih (fun y hy => hn y (by simp [hy]))
    simp [h1, this]

theorem shTokens_source (ps : List ShPart) (h : ShWF ps) (n : Nat) (hn : (shSource ps).length ≤ n) :
    shTokens n (shSource ps) = ps.map ShPart.tok := by
  induction n generalizing ps with
  | zero =>
    cases ps with
    | nil => rfl
    | cons p ps =>
      exfalso
      cases p <;> simp [shSource, ShPart.source] at hn
  | succ n ih =>
    cases ps with
    | nil => rfl
    | cons p ps =>
      have hs : shSource (p :: ps) = p.source ++ shSource ps := rfl
      rw [hs] at hn ⊢
      cases p with
      | lit c =>
        obtain ⟨h1, h2⟩ := h
        simp only [ShPart.source, List.singleton_append, List.length_cons] at hn ⊢
        simp only [shTokens, h1, if_false, List.map_cons, ShPart.tok]
        rw [ih ps h2 (by omega)]
      | dollar =>
        simp only [ShPart.source, List.cons_append, List.nil_append, List.length_cons] at hn ⊢
        simp only [shTokens, if_true, List.map_cons, ShPart.tok]
        rw [ih ps h (by omega)]
      | bare nm =>
        obtain ⟨⟨c, cs, hc, h1, h2⟩, h3, h4⟩ := h
        have hd : c ≠ '$' := fun h => by rw [h] at h1; exact absurd h1 (by decide)
        obtain ⟨ht, hdr⟩ := takeWhile_append_stop h2 h3
        subst hc
        simp only [ShPart.source, List.cons_append, List.length_cons, List.length_append] at hn ht hdr ⊢
        simp only [shTokens, if_true, hd, if_false, h1, List.map_cons, ShPart.tok, ht, hdr]
        rw [ih ps h4 (by omega)]
      | braced nm =>
        obtain ⟨⟨c, cs, hc, h1, h2⟩, h4⟩ := h
        have hb : isIdChar '}' = false := by decide
        obtain ⟨ht, hdr⟩ := takeWhile_append_stop (rest := '}' :: shSource ps) h2 (by simp [hb])
        subst hc
        simp only [ShPart.source, List.cons_append, List.length_cons, List.length_append, List.append_assoc,
          List.nil_append] at hn ht hdr ⊢
        have e1 : ¬ ('{' = '$') := by decide
        have e2 : isIdStart '{' = false := by decide
        simp only [shTokens, if_true, e1, if_false, e2, Bool.false_eq_true, h1, List.map_cons, ShPart.tok, ht, hdr]
        rw [ih ps h4 (by omega)]

theorem dropWhile_head {p : Char → Bool} (s : Str) : ∀ c, (s.dropWhile p).head? = some c → p c = false := by
  intro c hc
  have := List.head?_dropWhile_not p s
  rw [hc] at this
  simpa using this

theorem shTokens_valid (n : Nat) (t : Str) (hn : t.length ≤ n) (h : ShTok.invalid ∉ shTokens n t) :
    ∃ ps, ShWF ps ∧ shSource ps = t := by
  induction n generalizing t with
  | zero =>
    have : t = [] := List.length_eq_zero_iff.1 (by omega)
    exact ⟨[], trivial, this.symm⟩
  | succ n ih =>
    cases t with
    | nil => exact ⟨[], trivial, rfl⟩
    | cons c cs =>
      simp only [List.length_cons] at hn
      simp only [shTokens] at h
      by_cases hc : c = '$'
      · simp only [hc, if_true] at h
        subst hc
        cases cs with
        | nil => simp at h
        | cons d ds =>
          simp only [List.length_cons] at hn
          by_cases hd : d = '$'
          · simp only [hd, if_true, List.mem_cons, not_or] at h
            obtain ⟨ps, h1, h2⟩ := ih ds (by omega) h.2
            exact ⟨.dollar :: ps, h1, by rw [← h2, hd]; rfl⟩
          · simp only [hd, if_false] at h
            by_cases hi : isIdStart d = true
            · simp only [hi, if_true, List.mem_cons, not_or] at h
              have hlen : ((d :: ds).dropWhile isIdChar).length ≤ n := by
                have hsub := (List.dropWhile_sublist isIdChar (l := ds)).length_le
                simp only [List.dropWhile_cons, idStart_idChar hi, if_true]
                omega
              obtain ⟨ps, h1, h2⟩ := ih _ hlen h.2
              refine ⟨.bare ((d :: ds).takeWhile isIdChar) :: ps, ⟨⟨d, ds.takeWhile isIdChar, ?_, hi, ?_⟩, ?_, h1⟩, ?_⟩
              · simp [idStart_idChar hi]
              · intro x hx; exact List.all_eq_true.1 List.all_takeWhile x hx
              · rw [h2]; exact dropWhile_head _
              · show '$' :: ((d :: ds).takeWhile isIdChar) ++ shSource ps = _
                rw [h2, List.cons_append, List.takeWhile_append_dropWhile]
            · have hi' : isIdStart d = false := by simpa using hi
              simp only [hi', Bool.false_eq_true, if_false] at h
              by_cases hb : d = '{'
              · simp only [hb, if_true] at h
                subst hb
                cases ds with
                | nil => simp at h
                | cons e es =>
                  by_cases he : isIdStart e = true
                  · simp only [he, if_true] at h
                    split at h
                    · rename_i rest hr
                      simp only [List.mem_cons, not_or] at h
                      have hlen : rest.length ≤ n := by
                        have hsub := (List.dropWhile_sublist isIdChar (l := e :: es)).length_le
                        rw [hr] at hsub
                        simp only [List.length_cons] at hsub hn
                        omega
                      obtain ⟨ps, h1, h2⟩ := ih _ hlen h.2
                      refine ⟨.braced ((e :: es).takeWhile isIdChar) :: ps, ⟨⟨e, es.takeWhile isIdChar, ?_, he, ?_⟩, h1⟩, ?_⟩
                      · simp [idStart_idChar he]
                      · intro x hx; exact List.all_eq_true.1 List.all_takeWhile x hx
                      · show '$' :: '{' :: ((e :: es).takeWhile isIdChar ++ ['}']) ++ shSource ps = _
                        have := List.takeWhile_append_dropWhile (p := isIdChar) (l := e :: es)
                        rw [hr] at this
                        rw [h2]
                        simp only [List.cons_append, List.append_assoc, List.nil_append]
                        rw [this]
                    · simp at h
                  · have he' : isIdStart e = false := by simpa using he
                    simp [he'] at h
              · simp [hb] at h
      · simp only [hc, if_false, List.mem_cons, not_or] at h
        obtain ⟨ps, h1, h2⟩ := ih cs (by omega) h.2
        exact ⟨.lit c :: ps, ⟨hc, h1⟩, by rw [← h2]; rfl⟩

theorem shSubst_value (m : Str → Option Str) (f : Str → Str) (ps : List ShPart)
    (h : ∀ p ∈ ps, ∀ n, p.name? = some n → m n = some (f n)) :
    shSubst m (ps.map ShPart.tok) = .ok (ps.flatMap (ShPart.value f)) := by
  induction ps with
  | nil => rfl
  | cons p ps ih =>
    have ih := ih (fun q hq => h q (by simp [hq]))
    cases p with
    | lit c => simp only [List.map_cons, ShPart.tok, shSubst, ih, Except.map]; rfl
    | dollar => simp only [List.map_cons, ShPart.tok, shSubst, ih, Except.map]; rfl
    | bare n =>
      have := h (.bare n) (by simp) n rfl
      simp only [List.map_cons, ShPart.tok, shSubst, ih, Except.map, this]; rfl
    | braced n =>
      have := h (.braced n) (by simp) n rfl
      simp only [List.map_cons, ShPart.tok, shSubst, ih, Except.map, this]; rfl

theorem shSubst_undefined (m : Str → Option Str) (ps : List ShPart)
    (h : ∃ p ∈ ps, ∃ n, p.name? = some n ∧ m n = none) :
    shSubst m (ps.map ShPart.tok) = .error .keyError := by
  induction ps with
  | nil => simp at h
  | cons p ps ih =>
    have ih' : (∃ p ∈ ps, ∃ n, p.name? = some n ∧ m n = none) → _ := ih
    obtain ⟨q, hq, n, hn, hm⟩ := h
    rcases List.mem_cons.1 hq with rfl | hq
    · cases q with
      | lit c => cases hn
      | dollar => cases hn
      | bare n' => cases hn; simp [ShPart.tok, shSubst, hm]
      | braced n' => cases hn; simp [ShPart.tok, shSubst, hm]
    · have ih := ih ⟨q, hq, n, hn, hm⟩
      cases p with
      | lit c => simp only [List.map_cons, ShPart.tok, shSubst, ih]; rfl
      | dollar => simp only [List.map_cons, ShPart.tok, shSubst, ih]; rfl
      | bare n' => simp only [List.map_cons, ShPart.tok, shSubst]; split; rfl; rw [ih]; rfl
      | braced n' => simp only [List.map_cons, ShPart.tok, shSubst]; split; rfl; rw [ih]; rfl

/-- C18. Substituting into a well-written template replaces every `$name`/`${name}` by the text of that match and `$$` by
`$`, and keeps everything else. -/
theorem C18_substitute (ps : List ShPart) (hps : ShWF ps) (ms : Dict MatchKey MatchV) (hwf : ms.WF) (f : Str → Str)
    (hdef : ∀ p ∈ ps, ∀ n, p.name? = some n → TextOf ms (.name n) (f n)) :
    shSubstitute (shSource ps) ms = .ok (ps.flatMap (ShPart.value f)) := by
  unfold shSubstitute
  rw [shTokens_source ps hps _ (Nat.le_refl _)]
  exact shSubst_value _ f ps (fun p hp n hn => (textOf_iff hwf _ _).2 (hdef p hp n hn))

/-- C18, it needs all of its names: a missing one is a KeyError. -/
theorem C18_needs_names (ps : List ShPart) (hps : ShWF ps) (ms : Dict MatchKey MatchV) (hwf : ms.WF)
    (h : ∃ p ∈ ps, ∃ n, p.name? = some n ∧ ∀ s, ¬ TextOf ms (.name n) s) :
    shSubstitute (shSource ps) ms = .error .keyError := by
  unfold shSubstitute
  rw [shTokens_source ps hps _ (Nat.le_refl _)]
  obtain ⟨p, hp, n, hn, h⟩ := h
  refine shSubst_undefined _ ps ⟨p, hp, n, hn, ?_⟩
  cases hg : (stringifyMatches ms).get? (.name n) with
  | none => rfl
  | some s => exact absurd ((textOf_iff hwf _ _).1 hg) (h s)

/-- C18, the variables are exactly the names. -/
theorem C18_variables (ps : List ShPart) (hps : ShWF ps) :
    ∃ vs, shVariables (shSource ps) = .ok vs ∧ ∀ n, n ∈ vs ↔ ∃ p ∈ ps, p.name? = some n := by
  unfold shVariables
  rw [shTokens_source ps hps _ (Nat.le_refl _), shSubst_value _ (fun _ => []) ps (fun _ _ _ _ => rfl)]
  refine ⟨_, rfl, ?_⟩
  intro n
  unfold shNames
  rw [mem_dedup, List.mem_filterMap]
  constructor
  · rintro ⟨t, ht, he⟩
    obtain ⟨p, hp, rfl⟩ := List.mem_map.1 ht
    refine ⟨p, hp, ?_⟩
    cases p <;> simp_all [ShPart.tok, ShPart.name?]
  · rintro ⟨p, hp, hn⟩
    refine ⟨p.tok, List.mem_map.2 ⟨p, hp, rfl⟩, ?_⟩
    cases p <;> simp_all [ShPart.tok, ShPart.name?]

theorem shSubst_invalid (m : Str → Option Str) (hm : ∀ v, m v ≠ none) (ts : List ShTok) :
    (ShTok.invalid ∈ ts → shSubst m ts = .error .valueError) ∧ (ShTok.invalid ∉ ts → ∃ s, shSubst m ts = .ok s) := by
  induction ts with
  | nil => simp [shSubst]
  | cons t ts ih =>
    cases t with
    | lit c =>
      simp only [List.mem_cons, reduceCtorEq, false_or, shSubst]
      refine ⟨fun h => by rw [ih.1 h]; rfl, fun h => ?_⟩
      obtain ⟨s, hs⟩ := ih.2 h; exact ⟨_, by rw [hs]; rfl⟩
    | escaped =>
      simp only [List.mem_cons, reduceCtorEq, false_or, shSubst]
      refine ⟨fun h => by rw [ih.1 h]; rfl, fun h => ?_⟩
      obtain ⟨s, hs⟩ := ih.2 h; exact ⟨_, by rw [hs]; rfl⟩
    | invalid => simp [shSubst]
    | var v =>
      simp only [List.mem_cons, reduceCtorEq, false_or, shSubst]
      cases hv : m v with
      | none => exact absurd hv (hm v)
      | some x =>
        refine ⟨fun h => by simp only [ih.1 h]; rfl, fun h => ?_⟩
        obtain ⟨s, hs⟩ := ih.2 h; exact ⟨_, by simp only [hs]; rfl⟩

/-- C18, a template that is not well written is rejected with ValueError when its variables are asked for (which the
searchers do on construction), and only such a template is. -/
theorem C18_malformed_rejected (t : Str) :
    shVariables t = .error .valueError ↔ ¬ ∃ ps, ShWF ps ∧ shSource ps = t := by
  constructor
  · rintro h ⟨ps, h1, rfl⟩
    obtain ⟨vs, h2, _⟩ := C18_variables ps h1
    rw [h] at h2; cases h2
  · intro h
    have hi : ShTok.invalid ∈ shTokens t.length t :=
      Classical.byContradiction fun hn => h (shTokens_valid _ t (Nat.le_refl _) hn)
    unfold shVariables
    rw [(shSubst_invalid (fun _ => some []) (by simp) _).1 hi]

example : ShWF [.bare (str "x"), .lit '+', .dollar, .braced (str "y1"), .lit 'z'] ∧
    shSource [.bare (str "x"), .lit '+', .dollar, .braced (str "y1"), .lit 'z'] = str "$x+$$${y1}z" := by
  refine ⟨⟨⟨'x', [], rfl, by decide, by decide⟩, ?_, by decide, ⟨'y', ['1'], rfl, by decide, by decide⟩, by decide, trivial⟩, by decide⟩
  intro c hc
  simp [shSource, ShPart.source] at hc
  subst hc; decide
example : shVariables (str "$1") = .error .valueError := by decide

/-! ### C17 -/

/-- Invariant of `_VarDict`: keys are names, indexes are negative, above `next`, and distinct. -/
def VarDict.Inv (d : VarDict) : Prop :=
  d.varToIndex.WF ∧ d.next < 0 ∧ (∀ k i, d.varToIndex.get? k = some i → d.next < i ∧ i < 0 ∧ ∃ v, k = .name v) ∧
  (∀ k k' i, d.varToIndex.get? k = some i → d.varToIndex.get? k' = some i → k = k')

theorem VarDict.getItem_inv {d : VarDict} (h : d.Inv) (v : Str) :
    (d.getItem (.name v)).2.Inv ∧ (d.getItem (.name v)).2.varToIndex.get? (.name v) = some (d.getItem (.name v)).1 ∧
    (∀ k i, d.varToIndex.get? k = some i → (d.getItem (.name v)).2.varToIndex.get? k = some i) ∧
    (∀ k i, (d.getItem (.name v)).2.varToIndex.get? k = some i → d.varToIndex.get? k = some i ∨ k = .name v) := by
  obtain ⟨h1, h2, h3, h4⟩ := h
  unfold VarDict.getItem
  cases hg : d.varToIndex.get? (.name v) with
  | some i => exact ⟨⟨h1, h2, h3, h4⟩, hg, fun _ _ h => h, fun _ _ h => Or.inl h⟩
  | none =>
    simp only
    refine ⟨⟨Dict.WF_set h1 _ _, by show d.next - 1 < 0; omega, ?_, ?_⟩, ?_, ?_, ?_⟩
    · intro k i hk
      rw [Dict.get?_set] at hk
      split at hk
      · rename_i hkv
        cases hk
        exact ⟨by show d.next - 1 < d.next; omega, h2, v, hkv⟩
      · obtain ⟨a, b, c⟩ := h3 k i hk
        exact ⟨by show d.next - 1 < i; omega, b, c⟩
    · intro k k' i hk hk'
      rw [Dict.get?_set] at hk hk'
      split at hk
      · rename_i e1
        split at hk'
        · rename_i e2; rw [e1, e2]
        · cases hk
          exact absurd (h3 k' _ hk').1 (by omega)
      · split at hk'
        · cases hk'
          exact absurd (h3 k _ hk).1 (by omega)
        · exact h4 k k' i hk hk'
    · rw [Dict.get?_set, if_pos rfl]
    · intro k i hk
      rw [Dict.get?_set]
      split
      · rename_i e; rw [e, hg] at hk; cases hk
      · exact hk
    · intro k i hk
      rw [Dict.get?_set] at hk
      split at hk
      · rename_i e; exact Or.inr e
      · exact Or.inl hk

/-- The expanded element of an item, given the final dictionary. -/
def Expands (d : Dict MatchKey Int) : ReItem → Expanded → Prop
  | .lit s, e => e = .lit s
  | .group n, e => e = .index n
  | .named v, e => ∃ i, e = .index i ∧ d.get? (.name v) = some i

theorem expandItems_spec (items : List ReItem) (d : VarDict) (h : d.Inv) :
    (expandItems d items).2.Inv ∧ (∀ k i, d.varToIndex.get? k = some i → (expandItems d items).2.varToIndex.get? k = some i) ∧
    (expandItems d items).1.length = items.length ∧
    (∀ p ∈ items.zip (expandItems d items).1, Expands (expandItems d items).2.varToIndex p.1 p.2) ∧
    (∀ k i, (expandItems d items).2.varToIndex.get? k = some i →
      d.varToIndex.get? k = some i ∨ ∃ v, k = .name v ∧ ReItem.named v ∈ items) := by
  induction items generalizing d with
  | nil => exact ⟨h, fun _ _ h => h, rfl, by simp, fun _ _ h => Or.inl h⟩
  | cons it items ih =>
    cases it with
    | lit s =>
      obtain ⟨h1, h2, h3, h4, h5⟩ := ih d h
      refine ⟨h1, h2, by simp [expandItems, h3], ?_, ?_⟩
      · intro p hp
        simp only [expandItems, List.zip_cons_cons, List.mem_cons] at hp
        rcases hp with rfl | hp
        · rfl
        · exact h4 p hp
      · intro k i hk
        rcases h5 k i hk with h | ⟨v, a, b⟩
        · exact Or.inl h
        · exact Or.inr ⟨v, a, by simp [b]⟩
    | group n =>
      obtain ⟨h1, h2, h3, h4, h5⟩ := ih d h
      refine ⟨h1, h2, by simp [expandItems, h3], ?_, ?_⟩
      · intro p hp
        simp only [expandItems, List.zip_cons_cons, List.mem_cons] at hp
        rcases hp with rfl | hp
        · rfl
        · exact h4 p hp
      · intro k i hk
        rcases h5 k i hk with h | ⟨v, a, b⟩
        · exact Or.inl h
        · exact Or.inr ⟨v, a, by simp [b]⟩
    | named v =>
      obtain ⟨g1, g2, g3, g4⟩ := VarDict.getItem_inv h v
      obtain ⟨h1, h2, h3, h4, h5⟩ := ih _ g1
      refine ⟨h1, fun k i hk => h2 k i (g3 k i hk), by simp [expandItems, h3], ?_, ?_⟩
      · intro p hp
        simp only [expandItems, List.zip_cons_cons, List.mem_cons] at hp
        rcases hp with rfl | hp
        · exact ⟨_, rfl, h2 _ _ g2⟩
        · exact h4 p hp
      · intro k i hk
        rcases h5 k i hk with h | ⟨w, a, b⟩
        · rcases g4 k i h with h | h
          · exact Or.inl h
          · exact Or.inr ⟨v, h, by simp⟩
        · exact Or.inr ⟨w, a, by simp [b]⟩

theorem addNumeric_get (es : List Expanded) (d : Dict MatchKey Int) (hwf : d.WF) :
    (addNumeric d es).WF ∧ (∀ v, (addNumeric d es).get? (.name v) = d.get? (.name v)) ∧
    (∀ n, (addNumeric d es).get? (.num n) = if Expanded.index n ∈ es then some (n : Int) else d.get? (.num n)) := by
  induction es generalizing d with
  | nil => simp [addNumeric, hwf]
  | cons e es ih =>
    cases e with
    | lit s => simpa [addNumeric] using ih d hwf
    | index i =>
      simp only [addNumeric]
      by_cases hi : 0 ≤ i
      · simp only [hi, if_true]
        obtain ⟨h1, h2, h3⟩ := ih (d.set (.num i.toNat) i) (Dict.WF_set hwf _ _)
        refine ⟨h1, ?_, ?_⟩
        · intro v; rw [h2, Dict.get?_set]; simp
        · intro n
          rw [h3, Dict.get?_set]
          simp only [List.mem_cons, Expanded.index.injEq, MatchKey.num.injEq]
          by_cases hn : (n : Int) = i
          · have : n = i.toNat := by omega
            rw [if_pos this, if_pos (Or.inl hn), hn]
            split <;> rfl
          · have : n ≠ i.toNat := by omega
            simp [hn, this]
      · simp only [hi, if_false]
        obtain ⟨h1, h2, h3⟩ := ih d hwf
        refine ⟨h1, h2, ?_⟩
        intro n
        rw [h3]
        have : (n : Int) ≠ i := by omega
        simp [this]

theorem invertDict_get (d : Dict MatchKey Int) (hinj : ∀ e ∈ d, ∀ e' ∈ d, e.2 = e'.2 → e = e') :
    (∀ i k, (invertDict d).get? i = some k ↔ (k, i) ∈ d) ∧ (∀ k, k ∈ (invertDict d).values ↔ ∃ i, (k, i) ∈ d) := by
  have key : ∀ (l : Dict MatchKey Int) (acc : Dict Int MatchKey), acc.WF → (∀ e ∈ l, ∀ e' ∈ l, e.2 = e'.2 → e = e') →
      (∀ e ∈ l, ∀ k, acc.get? e.2 = some k → k = e.1) →
      (l.foldl (fun acc e => acc.set e.2 e.1) acc).WF ∧
      ∀ i k, (l.foldl (fun acc e => acc.set e.2 e.1) acc).get? i = some k ↔ acc.get? i = some k ∨ (k, i) ∈ l := by
    intro l
    induction l with
    | nil => intro acc hwf _ _; exact ⟨hwf, by simp⟩
    | cons e l ih =>
      intro acc hwf hinj hcon
      obtain ⟨ek, ei⟩ := e
      simp only [List.foldl_cons]
      have hcon' : ∀ e' ∈ l, ∀ k, (acc.set ei ek).get? e'.2 = some k → k = e'.1 := by
        intro e' he' k hk
        rw [Dict.get?_set] at hk
        split at hk
        · rename_i h
          cases hk
          have := hinj (ek, ei) (by simp) e' (by simp [he']) h.symm
          rw [← this]
        · exact hcon e' (by simp [he']) k hk
      obtain ⟨h1, h2⟩ := ih (acc.set ei ek) (Dict.WF_set hwf _ _)
        (fun a ha b hb => hinj a (by simp [ha]) b (by simp [hb])) hcon'
      refine ⟨h1, ?_⟩
      intro i k
      rw [h2, Dict.get?_set]
      constructor
      · rintro (h | h)
        · split at h
          · rename_i e; cases h; right; simp [e]
          · exact Or.inl h
        · right; simp [h]
      · rintro (h | h)
        · by_cases he : i = ei
          · subst he
            have := hcon (ek, i) (by simp) k h
            left; simp only [if_true, Option.some.injEq]; exact this.symm
          · left; simp [he, h]
        · rcases List.mem_cons.1 h with h | h
          · cases h; left; simp
          · exact Or.inr h
  obtain ⟨h1, h2⟩ := key d [] (by simp [Dict.WF, Dict.keys]) hinj (by simp [Dict.get?])
  have hget : ∀ i k, (invertDict d).get? i = some k ↔ (k, i) ∈ d := by
    intro i k
    unfold invertDict
    rw [h2]
    simp [Dict.get?]
  refine ⟨hget, ?_⟩
  intro k
  simp only [Dict.values, List.mem_map]
  constructor
  · rintro ⟨⟨i, k'⟩, hm, rfl⟩
    exact ⟨i, (hget i k').1 (Dict.get?_of_mem h1 hm)⟩
  · rintro ⟨i, hi⟩
    exact ⟨(i, k), Dict.get?_some_mem ((hget i k).2 hi), rfl⟩

/-- The two facts about `_parse_re_template` that matter: the index table maps the index of every item back to what the item
references, and its values are exactly the references. -/
theorem parseRe_facts (items : List ReItem) :
    (parseReTemplate items).1.length = items.length ∧
    (∀ p ∈ items.zip (parseReTemplate items).1,
      (∃ s, p.1 = .lit s ∧ p.2 = .lit s) ∨
      (∃ k i, p.1.ref? = some k ∧ p.2 = .index i ∧ (parseReTemplate items).2.get? i = some k)) ∧
    (∀ k, k ∈ (parseReTemplate items).2.values ↔ ∃ it ∈ items, it.ref? = some k) := by
  have hinv : VarDict.Inv {} := ⟨by simp [Dict.WF, Dict.keys], by decide, by simp [Dict.get?], by simp [Dict.get?]⟩
  obtain ⟨h1, _, h3, h4, h5⟩ := expandItems_spec items {} hinv
  obtain ⟨i1, i2, i3, i4⟩ := h1
  obtain ⟨n1, n2, n3⟩ := addNumeric_get (expandItems {} items).1 _ i1
  have hnum : ∀ n, (expandItems {} items).2.varToIndex.get? (.num n) = none := by
    intro n
    cases hg : (expandItems {} items).2.varToIndex.get? (.num n) with
    | none => rfl
    | some i => obtain ⟨_, _, v, hv⟩ := i3 _ _ hg; cases hv
  have hget : ∀ k i, (k, i) ∈ addNumeric (expandItems {} items).2.varToIndex (expandItems {} items).1 ↔
      (addNumeric (expandItems {} items).2.varToIndex (expandItems {} items).1).get? k = some i :=
    fun k i => ⟨Dict.get?_of_mem n1, Dict.get?_some_mem⟩
  have hinj : ∀ e ∈ addNumeric (expandItems {} items).2.varToIndex (expandItems {} items).1,
      ∀ e' ∈ addNumeric (expandItems {} items).2.varToIndex (expandItems {} items).1, e.2 = e'.2 → e = e' := by
    rintro ⟨k, i⟩ he ⟨k', i'⟩ he' heq
    simp only at heq
    subst heq
    rw [hget] at he he'
    congr 1
    cases k with
    | name v =>
      rw [n2] at he
      cases k' with
      | name v' => rw [n2] at he'; exact i4 _ _ _ he he'
      | num n =>
        rw [n3, hnum] at he'
        split at he'
        · cases he'
          have := (i3 _ _ he).2.1
          omega
        · cases he'
    | num n =>
      rw [n3, hnum] at he
      split at he
      · cases he
        cases k' with
        | name v' =>
          rw [n2] at he'
          have := (i3 _ _ he').2.1
          omega
        | num n' =>
          rw [n3, hnum] at he'
          split at he'
          · simp only [Option.some.injEq] at he'
            congr 1
            omega
          · cases he'
      · cases he
  obtain ⟨g1, g2⟩ := invertDict_get _ hinj
  have hidx : ∀ n, Expanded.index (n : Nat) ∈ (expandItems {} items).1 ↔ ReItem.group n ∈ items := by
    intro n
    have hz : ∀ e, e ∈ (expandItems {} items).1 → ∃ it, (it, e) ∈ items.zip (expandItems {} items).1 := by
      intro e he
      have hsnd : (items.zip (expandItems {} items).1).map Prod.snd = (expandItems {} items).1 := by
        rw [List.map_snd_zip]; omega
      rw [← hsnd] at he
      obtain ⟨⟨it, e'⟩, h, rfl⟩ := List.mem_map.1 he
      exact ⟨it, h⟩
    have hz' : ∀ it, it ∈ items → ∃ e, (it, e) ∈ items.zip (expandItems {} items).1 := by
      intro it hit
      have hfst : (items.zip (expandItems {} items).1).map Prod.fst = items := by
        rw [List.map_fst_zip]; omega
      have hit' := hit
      rw [← hfst] at hit'
      obtain ⟨⟨it', e⟩, h, rfl⟩ := List.mem_map.1 hit'
      exact ⟨e, h⟩
    constructor
    · intro h
      obtain ⟨it, hit⟩ := hz _ h
      have hx := h4 _ hit
      have hm := (List.of_mem_zip hit).1
      cases it with
      | lit s => simp [Expands] at hx
      | group m =>
        simp only [Expands, Expanded.index.injEq] at hx
        have : m = n := by omega
        rw [← this]; exact hm
      | named v =>
        obtain ⟨i, he, hg⟩ := hx
        cases he
        have := (i3 _ _ hg).2.1
        omega
    · intro h
      obtain ⟨e, he⟩ := hz' _ h
      have hx := h4 _ he
      simp only [Expands] at hx
      rw [← hx]
      exact (List.of_mem_zip he).2
  refine ⟨h3, ?_, ?_⟩
  · rintro ⟨it, e⟩ hp
    have hx := h4 _ hp
    cases it with
    | lit s => exact Or.inl ⟨s, rfl, hx⟩
    | group n =>
      refine Or.inr ⟨.num n, n, rfl, hx, ?_⟩
      show (invertDict _).get? _ = _
      rw [g1, hget, n3, if_pos]
      simp only [Expands] at hx
      rw [← hx]
      exact (List.of_mem_zip hp).2
    | named v =>
      obtain ⟨i, he, hg⟩ := hx
      refine Or.inr ⟨.name v, i, rfl, he, ?_⟩
      show (invertDict _).get? _ = _
      rw [g1, hget, n2, hg]
  · intro k
    show k ∈ (invertDict _).values ↔ _
    rw [g2]
    constructor
    · rintro ⟨i, hi⟩
      rw [hget] at hi
      cases k with
      | name v =>
        rw [n2] at hi
        rcases h5 _ _ hi with h | ⟨w, hw, hm⟩
        · simp [Dict.get?] at h
        · cases hw; exact ⟨_, hm, rfl⟩
      | num n =>
        rw [n3, hnum] at hi
        split at hi
        · rename_i h; exact ⟨_, (hidx n).1 h, rfl⟩
        · cases hi
    · rintro ⟨it, hit, hr⟩
      cases it with
      | lit s => cases hr
      | group n =>
        cases hr
        refine ⟨n, ?_⟩
        rw [hget, n3, if_pos ((hidx n).2 hit)]
      | named v =>
        cases hr
        have hfst : (items.zip (expandItems {} items).1).map Prod.fst = items := by
          rw [List.map_fst_zip]; omega
        have hit' := hit
        rw [← hfst] at hit'
        obtain ⟨⟨it', e⟩, hz, he⟩ := List.mem_map.1 hit'
        simp only at he
        subst he
        obtain ⟨i, _, hg⟩ := h4 _ hz
        exact ⟨i, by rw [hget, n2, hg]⟩

theorem reJoin_value (m : MatchKey → Option Str) (f : MatchKey → Str) (tbl : Dict Int MatchKey) (items : List ReItem)
    (es : List Expanded) (hl : es.length = items.length)
    (hz : ∀ p ∈ items.zip es, (∃ s, p.1 = .lit s ∧ p.2 = .lit s) ∨
      (∃ k i, p.1.ref? = some k ∧ p.2 = .index i ∧ tbl.get? i = some k))
    (hdef : ∀ it ∈ items, ∀ k, it.ref? = some k → m k = some (f k)) :
    reJoin m tbl es = .ok (items.flatMap (ReItem.value f)) := by
  induction items generalizing es with
  | nil =>
    cases es with
    | nil => rfl
    | cons e es => simp at hl
  | cons it items ih =>
    cases es with
    | nil => simp at hl
    | cons e es =>
      have ih := ih es (by simpa using hl) (fun p hp => hz p (by simp [hp])) (fun it hit => hdef it (by simp [hit]))
      rcases hz (it, e) (by simp) with ⟨s, h1, h2⟩ | ⟨k, i, h1, h2, h3⟩
      · simp only at h1 h2
        subst h1; subst h2
        simp only [reJoin, ih, Except.map]; rfl
      · simp only at h1 h2
        subst h2
        have hk := hdef it (by simp) k h1
        simp only [reJoin, h3, Option.bind_some, hk, ih, Except.map]
        cases it with
        | lit s => cases h1
        | named v => cases h1; rfl
        | group n => cases h1; rfl

theorem reJoin_undefined (m : MatchKey → Option Str) (tbl : Dict Int MatchKey) (items : List ReItem)
    (es : List Expanded) (hl : es.length = items.length)
    (hz : ∀ p ∈ items.zip es, (∃ s, p.1 = .lit s ∧ p.2 = .lit s) ∨
      (∃ k i, p.1.ref? = some k ∧ p.2 = .index i ∧ tbl.get? i = some k))
    (hun : ∃ it ∈ items, ∃ k, it.ref? = some k ∧ m k = none) :
    reJoin m tbl es = .error .keyError := by
  induction items generalizing es with
  | nil => simp at hun
  | cons it items ih =>
    cases es with
    | nil => simp at hl
    | cons e es =>
      have ih := ih es (by simpa using hl) (fun p hp => hz p (by simp [hp]))
      obtain ⟨it', hit', k', hk', hm'⟩ := hun
      rcases hz (it, e) (by simp) with ⟨s, h1, h2⟩ | ⟨k, i, h1, h2, h3⟩
      · simp only at h1 h2
        subst h1; subst h2
        rcases List.mem_cons.1 hit' with rfl | hit'
        · cases hk'
        · simp only [reJoin, ih ⟨it', hit', k', hk', hm'⟩]; rfl
      · simp only at h1 h2
        subst h2
        simp only [reJoin, h3, Option.bind_some]
        cases hmk : m k with
        | none => rfl
        | some x =>
          simp only
          rcases List.mem_cons.1 hit' with rfl | hit'
          · rw [h1] at hk'; cases hk'; rw [hmk] at hm'; cases hm'
          · rw [ih ⟨it', hit', k', hk', hm'⟩]; rfl

/-- C17. Substituting into a regex template replaces each reference (by name or number) by the text of that match and keeps
the literal text, whenever all references are defined. -/
theorem C17_substitute (items : List ReItem) (m : MatchV) (ms : Dict MatchKey MatchV) (hwf : ms.WF) (f : MatchKey → Str)
    (hdef : ∀ it ∈ items, ∀ k, it.ref? = some k → TextOf ms k (f k)) :
    (regexTemplate items).substitute m ms = .ok (items.flatMap (ReItem.value f)) := by
  obtain ⟨h1, h2, _⟩ := parseRe_facts items
  exact reJoin_value _ f _ items _ h1 h2 (fun it hit k hk => (textOf_iff hwf _ _).2 (hdef it hit k hk))

/-- C17, its variables are exactly the references. -/
theorem C17_variables (items : List ReItem) (k : MatchKey) :
    k ∈ (regexTemplate items).vars ↔ ∃ it ∈ items, it.ref? = some k :=
  (parseRe_facts items).2.2 k

/-- C17, an undefined reference is a KeyError. -/
theorem C17_needs_references (items : List ReItem) (m : MatchV) (ms : Dict MatchKey MatchV) (hwf : ms.WF)
    (h : ∃ it ∈ items, ∃ k, it.ref? = some k ∧ ∀ s, ¬ TextOf ms k s) :
    (regexTemplate items).substitute m ms = .error .keyError := by
  obtain ⟨h1, h2, _⟩ := parseRe_facts items
  obtain ⟨it, hit, k, hk, hn⟩ := h
  refine reJoin_undefined _ _ items _ h1 h2 ⟨it, hit, k, hk, ?_⟩
  cases hg : (stringifyMatches ms).get? k with
  | none => rfl
  | some s => exact absurd ((textOf_iff hwf _ _).1 hg) (hn s)

example : (regexTemplate [.named (str "b"), .lit (str "+"), .group 1, .named (str "a"), .named (str "b")]).substitute {}
    [(.name (str "a"), ⟨some (str "A"), none, none⟩), (.name (str "b"), ⟨some (str "B"), none, none⟩), (.num 1, ⟨some (str "1"), none, none⟩)] =
    .ok (str "B+1AB") := by decide

/-! ### C19 -/

/-- A metadata label: a string starting with two underscores. -/
def IsMeta (k : MatchKey) : Prop := ∃ rest, k = .name ('_' :: '_' :: rest)

theorem startsDunder_true {k : MatchKey} : startsDunder k = .ok true ↔ IsMeta k := by
  unfold IsMeta
  constructor
  · intro h
    unfold startsDunder at h
    split at h
    · exact ⟨_, rfl⟩
    · cases h
    · cases h
  · rintro ⟨r, rfl⟩; rfl

/-- The match a template for `label` is applied to: the match of that label if it has a span; a fake one for a metadata
label that is not matched. -/
def AppliedTo (ms : Dict MatchKey MatchV) (label : MatchKey) (m : MatchV) : Prop :=
  (ms.get? label = some m ∧ m.span ≠ none) ∨ (ms.get? label = none ∧ IsMeta label ∧ m = {})

/-- C19. If `rewrite_templates` succeeds, its result has an entry for a label iff the label has a template and is matched
with a span or is an unmatched metadata label; the value is that template applied to the matches; the order is that of
the templates. -/
theorem C19_right_labels (ms : Dict MatchKey MatchV) (ts : Dict MatchKey Template) (hts : ts.WF)
    (out : Dict MatchKey Str) (h : rewriteTemplates ms ts = .ok out) :
    (∀ label s, out.get? label = some s ↔
      ∃ t m, ts.get? label = some t ∧ AppliedTo ms label m ∧ t.substitute m ms = .ok s) ∧
    out.keys.Sublist ts.keys := by
  induction ts generalizing out with
  | nil =>
    simp only [rewriteTemplates, Except.ok.injEq] at h
    subst h
    simp [Dict.get?, Dict.keys]
  | cons e ts ih =>
    obtain ⟨l, t⟩ := e
    simp only [Dict.WF, Dict.keys, List.map_cons, List.nodup_cons] at hts
    have hl : ∀ t', Dict.get? ts l ≠ some t' := fun t' h' => hts.1 (List.mem_map.2 ⟨_, Dict.get?_some_mem h', rfl⟩)
    -- the label is skipped
    have skip : (∀ m, ¬ AppliedTo ms l m) → rewriteTemplates ms ts = .ok out →
        (∀ label s, out.get? label = some s ↔
          ∃ t' m, Dict.get? ((l, t) :: ts) label = some t' ∧ AppliedTo ms label m ∧ t'.substitute m ms = .ok s) ∧
        out.keys.Sublist (Dict.keys ((l, t) :: ts)) := by
      intro hno h
      obtain ⟨h1, h2⟩ := ih hts.2 out h
      refine ⟨?_, List.Sublist.cons _ h2⟩
      intro label s
      rw [h1]
      simp only [Dict.get?]
      by_cases hlab : l = label
      · subst hlab
        constructor
        · rintro ⟨t', m, _, ha, _⟩; exact absurd ha (hno m)
        · rintro ⟨t', m, _, ha, _⟩; exact absurd ha (hno m)
      · simp only [hlab, if_false]
    have keep : ∀ m0 s0 out', AppliedTo ms l m0 → t.substitute m0 ms = .ok s0 → rewriteTemplates ms ts = .ok out' →
        out = (l, s0) :: out' →
        (∀ label s, out.get? label = some s ↔
          ∃ t' m, Dict.get? ((l, t) :: ts) label = some t' ∧ AppliedTo ms label m ∧ t'.substitute m ms = .ok s) ∧
        out.keys.Sublist (Dict.keys ((l, t) :: ts)) := by
      intro m0 s0 out' ha hs h ho
      obtain ⟨h1, h2⟩ := ih hts.2 out' h
      subst ho
      refine ⟨?_, List.Sublist.cons_cons _ h2⟩
      intro label s
      simp only [Dict.get?]
      by_cases hlab : l = label
      · subst hlab
        simp only [if_true, Option.some.injEq]
        constructor
        · rintro rfl; exact ⟨t, m0, rfl, ha, hs⟩
        · rintro ⟨t', m, rfl, ha', hs'⟩
          have : m = m0 := by
            rcases ha with ⟨a, _⟩ | ⟨a, _, a'⟩ <;> rcases ha' with ⟨b, _⟩ | ⟨b, _, b'⟩
            · rw [a] at b; cases b; rfl
            · rw [a] at b; cases b
            · rw [a] at b; cases b
            · rw [a', b']
          rw [this, hs] at hs'
          cases hs'; rfl
      · simp only [hlab, if_false, h1]
    simp only [rewriteTemplates] at h
    split at h
    · rename_i m hm
      split at h
      · rename_i hsp
        apply skip _ h
        rintro m' (⟨a, b⟩ | ⟨a, _⟩)
        · rw [hm] at a; cases a; exact b hsp
        · rw [hm] at a; cases a
      · rename_i sp hsp
        split at h
        · cases h
        · rename_i s hs
          cases hr : rewriteTemplates ms ts with
          | error e => rw [hr] at h; cases h
          | ok o =>
            rw [hr] at h
            simp only [Except.map, Except.ok.injEq] at h
            exact keep m s o (Or.inl ⟨hm, by rw [hsp]; simp⟩) hs hr h.symm
    · rename_i hm
      split at h
      · cases h
      · rename_i hd
        apply skip _ h
        rintro m' (⟨a, b⟩ | ⟨a, b, _⟩)
        · rw [hm] at a; cases a
        · rw [← startsDunder_true, hd] at b; cases b
      · rename_i hd
        split at h
        · cases h
        · rename_i s hs
          cases hr : rewriteTemplates ms ts with
          | error e => rw [hr] at h; cases h
          | ok o =>
            rw [hr] at h
            simp only [Except.map, Except.ok.injEq] at h
            exact keep {} s o (Or.inr ⟨hm, startsDunder_true.1 hd, rfl⟩) hs hr h.symm

/-- C19, the strings offered to a template are those of the matches that have one. -/
theorem C19_stringify (ms : Dict MatchKey MatchV) (hwf : ms.WF) (k : MatchKey) (s : Str) :
    (stringifyMatches ms).get? k = some s ↔ ∃ m, ms.get? k = some m ∧ m.string = some s :=
  textOf_iff hwf k s

example : rewriteTemplates [(.name (str "a"), ⟨some (str "A"), some (0, 1), none⟩), (.name (str "b"), ⟨some (str "B"), none, none⟩)]
    [(.name (str "a"), regexTemplate [.named (str "b")]), (.name (str "b"), literalTemplate (str "x")),
     (.name (str "__message"), literalTemplate (str "m")), (.name (str "c"), literalTemplate (str "y"))] =
    .ok [(.name (str "a"), str "B"), (.name (str "__message"), str "m")] := by decide

end Refex
