import Verif.Model.Matchers
import Verif.Lemmas.Dict
/- Lemmas about the matcher interpreter. -/
namespace Refex
set_option autoImplicit false

/-- The type filter lets values of the type through. -/
def admits (f : TypeFilter) (ty : Str) : Bool :=
  match f with
  | none => true
  | some tys => decide (ty ∈ tys)

theorem typedAppend_get? {α : Type} (m : α) (tys : List Str) (hn : tys.Nodup) (d : Dict Str (List α)) (ty : Str) :
    (typedAppend m tys d).get? ty = if ty ∈ tys then some ((d.get? ty).getD [] ++ [m]) else d.get? ty := by
  unfold typedAppend
  induction tys generalizing d with
  | nil => simp
  | cons t tys ih =>
    obtain ⟨hnt, hn'⟩ := List.nodup_cons.1 hn
    rw [List.foldl_cons, ih hn', Dict.get?_set]
    by_cases h : ty = t
    · subst h; simp [hnt]
    · simp [h]

theorem typedAppend_keys {α : Type} (m : α) (tys : List Str) (d : Dict Str (List α)) (hs : ∀ t ∈ tys, t ∈ d.keys) :
    (typedAppend m tys d).keys = d.keys := by
  unfold typedAppend
  induction tys generalizing d with
  | nil => rfl
  | cons t tys ih =>
    have hk : (d.set t ((d.get? t).getD [] ++ [m])).keys = d.keys := by
      rw [Dict.keys_set, if_pos (hs t (by simp))]
    rw [List.foldl_cons, ih, hk]
    intro t' ht'; rw [hk]; exact hs t' (by simp [ht'])

theorem foldl_set_keys {β : Type} (tys : List Str) (v : β) (d : Dict Str β) :
    (d.WF → (tys.foldl (fun d ty => d.set ty v) d).WF) ∧
    ∀ t, (tys.foldl (fun d ty => d.set ty v) d).get? t = if t ∈ tys then some v else d.get? t := by
  induction tys generalizing d with
  | nil => simp
  | cons a tys ih =>
    rw [List.foldl_cons]
    refine ⟨fun h => (ih _).1 (Dict.WF_set h _ _), fun t => ?_⟩
    rw [(ih _).2, Dict.get?_set]
    by_cases h1 : t ∈ tys
    · simp [h1]
    · by_cases h2 : t = a <;> simp [h1, h2]

/-- `AnyOf` tries exactly the matchers whose filter admits the type, in their order. -/
theorem dispatch_eq {α : Type} (l : List (α × TypeFilter)) (hn : ∀ p ∈ l, ∀ s, p.2 = some s → s.Nodup) (ty : Str) :
    dispatch l ty = (l.filter (fun p => admits p.2 ty)).map Prod.fst := by
  have hinit : Dict.WF (typedInit l) := (foldl_set_keys _ [] []).1 List.nodup_nil
  have hget : ∀ t, (typedInit l).get? t = if t ∈ l.flatMap (fun p => p.2.getD []) then some [] else none := by
    intro t; have := (foldl_set_keys (l.flatMap (fun p => p.2.getD [])) ([] : List α) []).2 t
    simpa [typedInit, Dict.get?] using this
  have key : ∀ (l2 : List (α × TypeFilter)) (d : Dict Str (List α)), d.WF → (∀ p ∈ l2, ∀ s, p.2 = some s → s.Nodup) →
      (∀ p ∈ l2, ∀ s, p.2 = some s → ∀ t ∈ s, t ∈ d.keys) →
      ∀ t, (l2.foldl typedStep d).get? t =
        (d.get? t).map (· ++ (l2.filter (fun p => admits p.2 t)).map Prod.fst) := by
    intro l2
    induction l2 with
    | nil => intro d _ _ _ t; simp
    | cons p l2 ih =>
      intro d hwf hn2 hk t
      rw [List.foldl_cons]
      cases hp : p.2 with
      | none =>
        simp only [typedStep, hp]
        have hkeys : (typedAppend p.1 d.keys d).keys = d.keys := typedAppend_keys _ _ _ (fun t h => h)
        rw [ih _ (by unfold Dict.WF; rw [hkeys]; exact hwf) (fun q hq => hn2 q (by simp [hq]))
          (fun q hq s hs t ht => by rw [hkeys]; exact hk q (by simp [hq]) s hs t ht)]
        rw [typedAppend_get? _ _ hwf, List.filter_cons]
        simp only [hp, admits, if_true, List.map_cons]
        cases hg : d.get? t with
        | none =>
          have : t ∉ d.keys := fun h => by obtain ⟨v, hv⟩ := Dict.mem_keys_iff.1 h; rw [hg] at hv; cases hv
          simp [this]
        | some v => simp [Dict.mem_keys_iff.2 ⟨v, hg⟩]
      | some tys =>
        simp only [typedStep, hp]
        have hkeys : (typedAppend p.1 tys d).keys = d.keys := typedAppend_keys _ _ _ (hk p (by simp) tys hp)
        rw [ih _ (by unfold Dict.WF; rw [hkeys]; exact hwf) (fun q hq => hn2 q (by simp [hq]))
          (fun q hq s hs t ht => by rw [hkeys]; exact hk q (by simp [hq]) s hs t ht)]
        rw [typedAppend_get? _ _ (hn2 p (by simp) tys hp), List.filter_cons]
        simp only [hp, admits]
        by_cases ht : t ∈ tys
        · obtain ⟨v, hv⟩ := Dict.mem_keys_iff.1 (hk p (by simp) tys hp t ht)
          simp [ht, hv]
        · simp [ht]
  unfold dispatch typedMatchers
  rw [key l (typedInit l) hinit hn ?_ ty, hget]
  · by_cases ht : ty ∈ l.flatMap (fun p => p.2.getD [])
    · simp [ht]
    · simp only [ht, if_false, Option.map_none, Option.getD_none, universalMatchers]
      congr 1
      apply List.filter_congr
      intro p hp
      cases h2 : p.2 with
      | none => simp [admits]
      | some s =>
        have : ty ∉ s := fun h => ht (List.mem_flatMap.2 ⟨p, hp, by simp [h2, h]⟩)
        simp [admits, this]
  · intro p hp s hs t ht
    rw [Dict.mem_keys_iff]
    refine ⟨[], ?_⟩
    rw [hget, if_pos]
    exact List.mem_flatMap.2 ⟨p, hp, by simp [hs, ht]⟩

theorem tyUnion_nodup {a b : List Str} (ha : a.Nodup) (hb : b.Nodup) : (tyUnion a b).Nodup := by
  unfold tyUnion
  rw [List.nodup_append]
  refine ⟨ha, hb.sublist List.filter_sublist, ?_⟩
  intro x hx y hy hxy
  subst hxy
  simp at hy
  exact hy.2 hx

theorem mem_tyUnion {a b : List Str} {t : Str} : t ∈ tyUnion a b ↔ t ∈ a ∨ t ∈ b := by
  unfold tyUnion
  simp only [List.mem_append, List.mem_filter, decide_not, Bool.not_eq_true', decide_eq_false_iff_not]
  by_cases h : t ∈ a <;> simp [h]

theorem anyOfFilterLoop_nodup (fs : List TypeFilter) (acc : List Str) (h : acc.Nodup)
    (hf : ∀ f ∈ fs, ∀ s, f = some s → s.Nodup) (s : List Str) (hs : anyOfFilterLoop acc fs = some s) : s.Nodup := by
  induction fs generalizing acc with
  | nil => cases hs; exact h
  | cons f fs ih =>
    cases f with
    | none => cases hs
    | some t =>
      exact ih _ (tyUnion_nodup h (hf _ (by simp) t rfl)) (fun f hm => hf f (by simp [hm])) hs

/-- The union filter rejects only what every member rejects. -/
theorem anyOfFilter_rejects {fs : List TypeFilter} {ty : Str} (h : admits (anyOfFilter fs) ty = false) :
    ∀ f ∈ fs, admits f ty = false := by
  unfold anyOfFilter at h
  have : ∀ (fs : List TypeFilter) (acc : List Str), admits (anyOfFilterLoop acc fs) ty = false →
      ∀ f ∈ fs, admits f ty = false := by
    intro fs
    induction fs with
    | nil => intro _ _ f hf; simp at hf
    | cons f fs ih =>
      intro acc h g hg
      cases f with
      | none => simp [anyOfFilterLoop, admits] at h
      | some t =>
        rw [anyOfFilterLoop] at h
        rcases List.mem_cons.1 hg with rfl | hg
        · have hmono : ∀ (fs : List TypeFilter) (acc : List Str), ty ∈ acc → admits (anyOfFilterLoop acc fs) ty = true := by
            intro fs
            induction fs with
            | nil => intro acc h; simp [anyOfFilterLoop, admits, h]
            | cons f fs ih =>
              intro acc h
              cases f with
              | none => rfl
              | some s => exact ih _ (mem_tyUnion.2 (Or.inl h))
          by_cases ht : ty ∈ t
          · rw [hmono fs _ (mem_tyUnion.2 (Or.inr ht))] at h; cases h
          · simp [admits, ht]
        · exact ih _ h g hg
  exact this fs [] h

theorem allOfFilter_fold (fs : List TypeFilter) (acc : TypeFilter) :
    ((∀ s, acc = some s → s.Nodup) → (∀ f ∈ fs, ∀ s, f = some s → s.Nodup) → ∀ s, fs.foldl allOfStep acc = some s → s.Nodup) ∧
    ∀ ty, admits (fs.foldl allOfStep acc) ty =
      (admits acc ty && fs.all (fun f => admits f ty)) := by
  induction fs generalizing acc with
  | nil => exact ⟨fun h _ s hs => h s hs, fun ty => by simp⟩
  | cons f fs ih =>
    refine ⟨fun ha hf => ?_, fun ty => ?_⟩
    · rw [List.foldl_cons]
      apply (ih _).1
      · cases f with
        | none => exact ha
        | some t =>
          cases acc with
          | none => intro s hs; cases hs; exact hf _ (by simp) t rfl
          | some a => intro s hs; cases hs; exact (ha a rfl).sublist List.filter_sublist
      · exact fun f hm => hf f (by simp [hm])
    · rw [List.foldl_cons, (ih _).2, List.all_cons]
      cases f with
      | none => simp [admits, allOfStep]
      | some t =>
        cases acc with
        | none => simp [admits, allOfStep]
        | some a => simp [admits, allOfStep, Bool.and_assoc]

theorem allOfFilter_admits (fs : List TypeFilter) (ty : Str) :
    admits (allOfFilter fs) ty = fs.all (fun f => admits f ty) := by
  have := (allOfFilter_fold fs none).2 ty
  simpa [allOfFilter, admits] using this

/-- Results of `mapM` in `Except`. -/
theorem mapM_except_ok {ε α β : Type} {f : α → Except ε β} {l : List α} {r : List β} (h : l.mapM f = .ok r) :
    r.length = l.length ∧ ∀ p ∈ l.zip r, f p.1 = .ok p.2 := by
  induction l generalizing r with
  | nil => simp [List.mapM_nil, pure, Except.pure] at h; subst h; simp
  | cons a l ih =>
    rw [List.mapM_cons] at h
    cases ha : f a with
    | error e => rw [ha] at h; cases h
    | ok b =>
      rw [ha] at h
      cases hl : l.mapM f with
      | error e => rw [hl] at h; cases h
      | ok bs =>
        rw [hl] at h
        cases h
        obtain ⟨h1, h2⟩ := ih hl
        refine ⟨by simp [h1], ?_⟩
        intro p hp
        rw [List.zip_cons_cons] at hp
        rcases List.mem_cons.1 hp with rfl | hp
        · exact ha
        · exact h2 p hp

theorem mapM_mem_right {ε α β : Type} {f : α → Except ε β} {l : List α} {r : List β} (h : l.mapM f = .ok r) :
    ∀ b ∈ r, ∃ a ∈ l, f a = .ok b := by
  induction l generalizing r with
  | nil => simp [List.mapM_nil, pure, Except.pure] at h; subst h; simp
  | cons a l ih =>
    rw [List.mapM_cons] at h
    cases ha : f a with
    | error e => rw [ha] at h; cases h
    | ok b =>
      rw [ha] at h
      cases hl : l.mapM f with
      | error e => rw [hl] at h; cases h
      | ok bs =>
        rw [hl] at h
        cases h
        intro x hx
        rcases List.mem_cons.1 hx with rfl | hx
        · exact ⟨a, by simp, ha⟩
        · obtain ⟨y, hy, e⟩ := ih hl x hx; exact ⟨y, by simp [hy], e⟩

/-- Type filters are sets. -/
theorem typeFilter_nodup (n : Nat) (env : Env) (m : Matcher) (s : List Str) (h : typeFilter n env m = .ok (some s)) :
    s.Nodup := by
  induction n generalizing env m s with
  | zero => simp [typeFilter] at h
  | succ n ih =>
    cases m <;> simp only [typeFilter] at h
    case allOf ms =>
      cases hm : ms.mapM (typeFilter n env) with
      | error e => rw [hm] at h; cases h
      | ok fs =>
        rw [hm] at h
        simp only [Except.map, Except.ok.injEq] at h
        exact (allOfFilter_fold fs none).1 (by simp) (fun f hf s hs => by
          obtain ⟨m, _, e⟩ := mapM_mem_right hm f hf; exact ih env m s (hs ▸ e)) s h
    case anyOf ms =>
      cases hm : ms.mapM (typeFilter n env) with
      | error e => rw [hm] at h; cases h
      | ok fs =>
        rw [hm] at h
        simp only [Except.map, Except.ok.injEq] at h
        exact anyOfFilterLoop_nodup fs [] List.nodup_nil (fun f hf s hs => by
          obtain ⟨m, _, e⟩ := mapM_mem_right hm f hf; exact ih env m s (hs ▸ e)) s h
    case recWrapped i w =>
      cases hi : typeFilter n env i with
      | error e => rw [hi] at h; cases h
      | ok f =>
        cases hw : typeFilter n ((i, w) :: env) w with
        | error e => rw [hi, hw] at h; cases h
        | ok f' =>
          rw [hi, hw] at h
          simp only [bind, Except.bind, pure, Except.pure, Except.ok.injEq] at h
          refine anyOfFilterLoop_nodup [f, f'] [] List.nodup_nil (fun g hg s hs => ?_) s h
          simp only [List.mem_cons, List.not_mem_nil, or_false] at hg
          rcases hg with rfl | rfl
          · exact ih env i s (hs ▸ hi)
          · exact ih _ w s (hs ▸ hw)
    case recurse k =>
      split at h
      · exact ih _ _ _ h
      · cases h
    case delegate m keep =>
      split at h
      · exact ih _ _ _ h
      · cases h
    case typeIs ty => cases h; simp
    case node ty ns ms => cases h; simp
    case constant tys m => cases h; simp
    all_goals first
      | exact ih _ _ _ h
      | (cases h; done)

/-- What `firstMatch` returns was returned by a step. -/
theorem firstMatch_some {steps : List (List Key → MOut)} {ks ks' : List Key} {mi : MatchInfo}
    (h : firstMatch steps ks = .ok (some mi, ks')) : ∃ st ∈ steps, ∃ ks0, st ks0 = .ok (some mi, ks') := by
  induction steps generalizing ks with
  | nil => simp [firstMatch] at h
  | cons st steps ih =>
    rw [firstMatch] at h
    split at h
    · cases h
    · obtain ⟨st', h1, h2⟩ := ih h; exact ⟨st', by simp [h1], h2⟩
    · rename_i e; cases h; exact ⟨st, by simp, ks, e⟩

end Refex
