import Verif.Spec.PyTemplate
import Verif.Props.PatternTokens
/- C53, first half: filling the slots of a template. -/
namespace Refex
set_option autoImplicit false

theorem get?_varIndices (toks : List PTok) (metas : List Nat) (x : Label) :
    ∀ i, i ∈ ((varIndices toks metas).get? x).getD [] ↔ i ∈ metas ∧ StringAt toks i x := by
  suffices H : ∀ (metas : List Nat) (d : Dict Label (List Nat)) (i : Nat),
      i ∈ (Dict.get? (metas.foldl (fun d i => match toks[i]? with
        | some t => d.set t.string ((d.get? t.string).getD [] ++ [i])
        | none => d) d) x).getD [] ↔ i ∈ (d.get? x).getD [] ∨ (i ∈ metas ∧ StringAt toks i x) by
    intro i
    have h := H metas [] i
    exact h.trans ⟨fun h => h.resolve_left (by simp [Dict.get?]), .inr⟩
  intro metas
  induction metas with
  | nil => intro d i; simp
  | cons j metas ih =>
    intro d i
    rw [List.foldl_cons, ih]
    cases hj : toks[j]? with
    | none =>
      simp only [List.mem_cons]
      constructor
      · rintro (h | ⟨h1, h2⟩)
        · exact .inl h
        · exact .inr ⟨.inr h1, h2⟩
      · rintro (h | ⟨rfl | h1, h2⟩)
        · exact .inl h
        · obtain ⟨t, ht, _⟩ := h2; rw [hj] at ht; cases ht
        · exact .inr ⟨h1, h2⟩
    | some t =>
      simp only [List.mem_cons, Dict.get?_set]
      by_cases hx : x = t.string
      · subst hx
        simp only [if_true, Option.getD_some, List.mem_append, List.mem_singleton]
        constructor
        · rintro ((h | rfl) | ⟨h1, h2⟩)
          · exact .inl h
          · exact .inr ⟨.inl rfl, t, hj, rfl⟩
          · exact .inr ⟨.inr h1, h2⟩
        · rintro (h | ⟨rfl | h1, h2⟩)
          · exact .inl (.inl h)
          · exact .inl (.inr rfl)
          · exact .inr ⟨h1, h2⟩
      · rw [if_neg hx]
        constructor
        · rintro (h | ⟨h1, h2⟩)
          · exact .inl h
          · exact .inr ⟨.inr h1, h2⟩
        · rintro (h | ⟨rfl | h1, h2⟩)
          · exact .inl h
          · obtain ⟨u, hu, rfl⟩ := h2; rw [hj] at hu; cases hu; exact absurd rfl hx
          · exact .inr ⟨h1, h2⟩

theorem fillSlots_get (new : Str) (is : List Nat) : ∀ (ts : List PTok) (j : Nat),
    (fillSlots new ts is)[j]? = if j ∈ is then ts[j]?.map (fun t => { t with string := new }) else ts[j]? := by
  induction is with
  | nil => intro ts j; simp [fillSlots]
  | cons i is ih =>
    intro ts j
    rw [show fillSlots new ts (i :: is) = fillSlots new (match ts[i]? with
      | some t => ts.set i { t with string := new }
      | none => ts) is from rfl, ih]
    cases hi : ts[i]? with
    | none =>
      simp only [List.mem_cons]
      by_cases hj : j = i
      · subst hj; simp [hi]
      · simp [hj]
    | some t =>
      have hil := (List.getElem?_eq_some_iff.1 hi).1
      simp only [List.mem_cons, List.getElem?_set]
      by_cases hj : j = i
      · subst hj
        have e : ts[j] = t := (List.getElem?_eq_some_iff.1 hi).2
        simp [hil, e]
      · simp [hj, Ne.symm hj]

/-- Filling slot after slot. -/
theorem fill_get (toks : List PTok) (metas : List Nat) (j : Nat) (x : Label) (hj : j ∈ metas → StringAt toks j x) :
    ∀ (rs : Dict Label Str), rs.WF → ∀ (ts : List PTok),
    (rs.foldl (fun ts e => match (varIndices toks metas).get? e.1 with
      | some is => fillSlots e.2 ts is
      | none => ts) ts)[j]? =
      if j ∈ metas then (match rs.get? x with
        | some s => ts[j]?.map (fun t => { t with string := s })
        | none => ts[j]?) else ts[j]? := by
  intro rs
  induction rs with
  | nil => intro _ ts; simp [Dict.get?]
  | cons e rs ih =>
    intro hw ts
    have hw' : Dict.WF rs := (List.nodup_cons.1 hw).2
    rw [List.foldl_cons, ih hw']
    have hstep : (match (varIndices toks metas).get? e.1 with
        | some is => fillSlots e.2 ts is
        | none => ts)[j]? = if j ∈ ((varIndices toks metas).get? e.1).getD [] then ts[j]?.map (fun t => { t with string := e.2 }) else ts[j]? := by
      cases (varIndices toks metas).get? e.1 with
      | none => simp
      | some is => simp only [Option.getD_some]; exact fillSlots_get ..
    rw [hstep]
    have hmem := get?_varIndices toks metas e.1 j
    by_cases hm : j ∈ metas
    · have hs := hj hm
      rw [if_pos hm, if_pos hm]
      by_cases hx : e.1 = x
      · have hnone : Dict.get? rs x = none := by
          cases hg : Dict.get? rs x with
          | none => rfl
          | some v =>
            have : x ∈ Dict.keys rs := Dict.mem_keys_iff.2 ⟨v, hg⟩
            exact absurd (hx ▸ this) (List.nodup_cons.1 hw).1
        have hg : Dict.get? (e :: rs) x = some e.2 := by simp only [Dict.get?]; rw [if_pos hx]
        rw [hnone, hg, if_pos (hmem.2 ⟨hm, hx ▸ hs⟩)]
      · have hg : Dict.get? (e :: rs) x = Dict.get? rs x := by simp only [Dict.get?]; rw [if_neg hx]
        rw [hg, if_neg (fun h => hx (stringAt_unique (hmem.1 h).2 hs))]
    · rw [if_neg hm, if_neg hm, if_neg (fun h => hm (hmem.1 h).1)]

/-- **C53**: what filling a template does: every slot gets the string of its variable, every other token and the
white space between the tokens stay as they are. A variable without a string is a KeyError. (`untokenize` gives up exactly
if it does on the template's own tokens, which it made; metavariables are ordinary tokens.) -/
theorem C53_slots (t : PyTemplate) (hr : ∀ i ∈ t.metas, i < t.toks.length)
    (ho : ∀ i ∈ t.metas, ∀ u, t.toks[i]? = some u → u.kind = .other) (he : t.template ≠ []) (map : Dict Label Str) (hw : map.WF) :
    match t.fill map with
    | .ok s => ∃ us, Filled t.toks t.metas map us ∧ untokenize us = some s ∧
        (untokPieces {} us).map (·.map (·.1)) = (untokPieces {} t.toks).map (·.map (·.1))
    | .error e => (e = .keyError ∧ ∃ i ∈ t.metas, ∃ x, StringAt t.toks i x ∧ map.get? x = none) ∨
        (e = .valueError ∧ untokenize t.toks = none) := by
  have hget := fun (j : Nat) (x : Label) (hj : j ∈ t.metas → StringAt t.toks j x) => fill_get t.toks t.metas j x hj map hw t.toks
  unfold PyTemplate.fill lexicalSubstitute
  rw [if_neg he]
  simp only
  generalize hus : map.foldl (fun ts e => match (varIndices t.toks t.metas).get? e.1 with
      | some is => fillSlots e.2 ts is
      | none => ts) t.toks = us at hget ⊢
  have key : ((varIndices t.toks t.metas).keys.any (fun x => !map.has x) = true) ↔ ∃ i ∈ t.metas, ∃ x, StringAt t.toks i x ∧ map.get? x = none := by
    rw [List.any_eq_true]
    constructor
    · rintro ⟨x, hx, hn⟩
      obtain ⟨is, his⟩ := Dict.mem_keys_iff.1 hx
      cases is with
      | nil =>
        exfalso
        -- no key has an empty list
        have : ∀ (metas : List Nat) (d : Dict Label (List Nat)), (∀ x, d.get? x ≠ some []) → ∀ x,
            Dict.get? (metas.foldl (fun d i => match t.toks[i]? with
              | some u => d.set u.string ((d.get? u.string).getD [] ++ [i])
              | none => d) d) x ≠ some [] := by
          intro metas
          induction metas with
          | nil => intro d h; exact h
          | cons m metas ih =>
            intro d h
            rw [List.foldl_cons]
            refine ih _ ?_
            intro y
            cases t.toks[m]? with
            | none => exact h y
            | some u =>
              simp only [Dict.get?_set]
              split
              · intro e; simp at e
              · exact h y
        exact this t.metas [] (by intro x; simp [Dict.get?]) x his
      | cons i is =>
        have := (get?_varIndices t.toks t.metas x i).1 (by rw [his]; simp)
        exact ⟨i, this.1, x, this.2, by simpa [Dict.has] using hn⟩
    · rintro ⟨i, hi, x, hx, hn⟩
      refine ⟨x, ?_, by simp [Dict.has, hn]⟩
      have := (get?_varIndices t.toks t.metas x i).2 ⟨hi, hx⟩
      cases hg : (varIndices t.toks t.metas).get? x with
      | none => rw [hg] at this; simp at this
      | some is => exact Dict.mem_keys_iff.2 ⟨is, hg⟩
  have hmeta : ∀ i ∈ t.metas, ∃ u, t.toks[i]? = some u := fun i hi => ⟨_, List.getElem?_eq_getElem (hr i hi)⟩
  have hlen : us.length = t.toks.length := by
    have h1 : ∀ (j : Nat), us[j]? = none ↔ t.toks[j]? = none := by
      intro j
      by_cases hj : j ∈ t.metas
      · obtain ⟨u, hu⟩ := hmeta j hj
        rw [hget j u.string (fun _ => ⟨u, hu, rfl⟩), if_pos hj, hu]
        cases map.get? u.string <;> simp
      · rw [hget j [] (fun h => absurd h hj), if_neg hj]
    have a := (h1 us.length).1 (by simp)
    have b := (h1 t.toks.length).2 (by simp)
    rw [List.getElem?_eq_none_iff] at a b
    omega
  have hother : ∀ (i : Nat), i ∉ t.metas → us[i]? = t.toks[i]? := fun i hi => by
    rw [hget i [] (fun h => absurd h hi), if_neg hi]
  have hlay : SameLayout us t.toks := by
    refine ⟨hlen, fun i a b ha hb => ?_⟩
    by_cases hi : i ∈ t.metas
    · rw [hget i b.string (fun _ => ⟨b, hb, rfl⟩), if_pos hi, hb] at ha
      have hk := ho i hi b hb
      cases hs : map.get? b.string with
      | none => rw [hs] at ha; cases ha; exact ⟨rfl, rfl, rfl, fun _ => rfl⟩
      | some s => rw [hs] at ha; cases ha; exact ⟨rfl, rfl, rfl, fun h => by rw [show b.kind = _ from h] at hk; cases hk⟩
    · rw [hother i hi, hb] at ha; cases ha; exact ⟨rfl, rfl, rfl, fun _ => rfl⟩
  have hp := untokPieces_layout us t.toks {} hlay
  have hun : untokenize us = none ↔ untokenize t.toks = none := by
    unfold untokenize
    simp only [Option.map_eq_none_iff]
    cases h1 : untokPieces {} us <;> cases h2 : untokPieces {} t.toks <;> simp [h1, h2] at hp ⊢
  by_cases hk : (varIndices t.toks t.metas).keys.any (fun x => !map.has x) = true
  · rw [if_pos hk]
    exact .inl ⟨rfl, key.1 hk⟩
  · rw [if_neg hk]
    cases hu : untokenize us with
    | none => exact .inr ⟨rfl, hun.1 hu⟩
    | some s =>
      refine ⟨us, ⟨hlen, hother, fun i hi u hti => ?_⟩, hu, hp⟩
      cases hs : map.get? u.string with
      | none => exact absurd (key.2 ⟨i, hi, u.string, ⟨u, hti, rfl⟩, hs⟩) hk
      | some s =>
        refine ⟨s, rfl, ?_⟩
        rw [hget i u.string (fun _ => ⟨u, hti, rfl⟩), if_pos hi, hs, hti]; rfl

end Refex
