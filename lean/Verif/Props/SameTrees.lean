import Verif.Spec.Each
import Verif.Props.Patterns
/- Trees that are the same: an equivalence, and what it does to instances of patterns. -/
namespace Refex
set_option autoImplicit false

theorem Const.pyEq_refl (c : Const) : c.pyEq c = true := by unfold Const.pyEq; split <;> simp_all

theorem Const.pyEq_symm {c d : Const} (h : c.pyEq d = true) : d.pyEq c = true := by
  unfold Const.pyEq at h ⊢
  cases hc : c.whole? <;> cases hd : d.whole? <;> simp only [hc, hd] at h ⊢ <;>
    exact decide_eq_true (of_decide_eq_true h).symm

theorem Const.pyEq_trans {a b c : Const} (h1 : c.pyEq b = true) (h2 : b.pyEq a = true) : c.pyEq a = true := by
  unfold Const.pyEq at h1 h2 ⊢
  cases ha : a.whole? <;> cases hb : b.whole? <;> cases hc : c.whole? <;> simp only [ha, hb, hc] at h1 h2 ⊢ <;>
    have k1 := of_decide_eq_true h1 <;> have k2 := of_decide_eq_true h2 <;>
    first
      | exact decide_eq_true (k1.trans k2)
      | (subst k1; simp_all)
      | (subst k2; simp_all)

theorem SameTree.refl (v : Val) : SameTree v v := by
  suffices H : ∀ k (v : Val), v.size ≤ k → SameTree v v from H _ v (Nat.le_refl _)
  intro k
  induction k with
  | zero => intro v h; have := v.size_pos; omega
  | succ k ih =>
    intro v h
    cases v with
    | const i c => exact .const (Const.pyEq_refl c)
    | list i vs =>
      refine .list rfl fun m t v ht hv => ?_
      rw [ht] at hv; cases hv
      refine ih t ?_
      have := size_mem (List.mem_of_getElem? ht); simp only [Val.size] at h; omega
    | node i ty ns vs =>
      refine .node rfl fun m n t v _ ht hv _ => ?_
      rw [ht] at hv; cases hv
      refine ih t ?_
      have := size_mem (List.mem_of_getElem? ht); simp only [Val.size] at h; omega

theorem getElem?_of_length {α β : Type} {l : List α} {m : List β} (h : l.length = m.length) {k : Nat} {a : α} (ha : l[k]? = some a) :
    ∃ b, m[k]? = some b := by
  have := (List.getElem?_eq_some_iff.1 ha).1
  exact ⟨_, List.getElem?_eq_getElem (by omega)⟩

theorem SameTree.trans {a b c : Val} (h1 : SameTree a b) (h2 : SameTree b c) : SameTree a c := by
  induction h1 generalizing c with
  | const h => cases h2 with | const h' => exact .const (Const.pyEq_trans h' h)
  | list hl _ ih =>
    cases h2 with
    | list hl' h' =>
      refine .list (hl.trans hl') fun k t v ht hv => ?_
      obtain ⟨w, hw⟩ := getElem?_of_length hl ht
      exact ih k t w ht hw (h' k w v hw hv)
  | node hl _ ih =>
    cases h2 with
    | node hl' h' =>
      refine .node (hl.trans hl') fun k n t v hn ht hv hc => ?_
      obtain ⟨w, hw⟩ := getElem?_of_length hl ht
      exact ih k n t w hn ht hw hc (h' k n w v hn hw hv hc)

theorem SameTree.symm {a b : Val} (h : SameTree a b) : SameTree b a := by
  induction h with
  | const h => exact .const (Const.pyEq_symm h)
  | list hl _ ih => exact .list hl.symm fun k t v ht hv => ih k v t hv ht
  | node hl _ ih => exact .node hl.symm fun k n t v hn ht hv hc => ih k n v t hn hv ht hc

/-- The same names, standing for the same trees. -/
abbrev SameOccs : Occs → Occs → Prop := Each (fun p q => p.1 = q.1 ∧ SameTree p.2 q.2)

theorem Each.append {α β : Type} {R : α → β → Prop} {a c : List α} {b d : List β} (h : Each R a b) (h' : Each R c d) :
    Each R (a ++ c) (b ++ d) := by
  induction h with
  | nil => exact h'
  | cons h1 _ ih => exact .cons h1 ih

theorem instances_moved {hole : Val → Hole} {al al' : Label → Val → Prop} (ts : List Val)
    (h : ∀ t ∈ ts, ∀ v v' occ, Instance hole al t v occ → SameTree v v' → ∃ occ', Instance hole al' t v' occ' ∧ SameOccs occ occ')
    {vs vs' : List Val} {occ : Occs} (h1 : Instances hole al ts vs occ) (hl : vs.length = vs'.length)
    (h2 : ∀ (k : Nat) t v, vs[k]? = some t → vs'[k]? = some v → SameTree t v) :
    ∃ occ', Instances hole al' ts vs' occ' ∧ SameOccs occ occ' := by
  induction ts generalizing vs vs' occ with
  | nil =>
    cases h1
    have : vs' = [] := List.length_eq_zero_iff.1 (by simpa using hl.symm)
    subst this
    exact ⟨[], .nil, .nil⟩
  | cons t ts ih =>
    cases h1 with
    | @cons _ _ v vs o occ a b =>
      cases vs' with
      | nil => simp at hl
      | cons v' vs' =>
        obtain ⟨o', a', e⟩ := h t (by simp) v v' o a (h2 0 v v' rfl rfl)
        obtain ⟨occ', b', e'⟩ := ih (fun t ht => h t (by simp [ht])) b (by simpa using hl)
          (fun k t v ht hv => h2 (k + 1) t v (by simpa using ht) (by simpa using hv))
        exact ⟨o' ++ occ', .cons a' b', e.append e'⟩

theorem fieldInstances_moved {hole : Val → Hole} {al al' : Label → Val → Prop} {ty : Str} (ts : List Val)
    (h : ∀ t ∈ ts, ∀ v v' occ, Instance hole al t v occ → SameTree v v' → ∃ occ', Instance hole al' t v' occ' ∧ SameOccs occ occ')
    {ns : List Str} {vs vs' : List Val} {occ : Occs} (h1 : FieldInstances hole al ty ns ts vs occ) (hl : vs.length = vs'.length)
    (h2 : ∀ (k : Nat) n t v, ns[k]? = some n → vs[k]? = some t → vs'[k]? = some v → ¬ (ty = str "Name" ∧ n = str "ctx") → SameTree t v) :
    ∃ occ', FieldInstances hole al' ty ns ts vs' occ' ∧ SameOccs occ occ' := by
  induction ts generalizing ns vs vs' occ with
  | nil =>
    cases h1
    have : vs' = [] := List.length_eq_zero_iff.1 (by simpa using hl.symm)
    subst this
    exact ⟨[], .nil, .nil⟩
  | cons t ts ih =>
    cases h1 with
    | @ctx _ ns _ v vs occ b =>
      cases vs' with
      | nil => simp at hl
      | cons v' vs' =>
        obtain ⟨occ', b', e'⟩ := ih (fun t ht => h t (by simp [ht])) b (by simpa using hl)
          (fun k n t v hn ht hv => h2 (k + 1) n t v (by simpa using hn) (by simpa using ht) (by simpa using hv))
        exact ⟨occ', .ctx b', e'⟩
    | @cons _ n _ ns _ v vs o occ hc a b =>
      cases vs' with
      | nil => simp at hl
      | cons v' vs' =>
        obtain ⟨o', a', e⟩ := h t (by simp) v v' o a (h2 0 n v v' rfl rfl rfl hc)
        obtain ⟨occ', b', e'⟩ := ih (fun t ht => h t (by simp [ht])) b (by simpa using hl)
          (fun k n t v hn ht hv => h2 (k + 1) n t v (by simpa using hn) (by simpa using ht) (by simpa using hv))
        exact ⟨o' ++ occ', .cons hc a' b', e.append e'⟩

/-- A tree that is the same as an instance is an instance, with the same trees for the metavariables. -/
theorem instance_moved {hole : Val → Hole} {al al' : Label → Val → Prop} (hal : ∀ x v v', SameTree v v' → al x v → al' x v')
    (t v v' : Val) (occ : Occs) (h1 : Instance hole al t v occ)
    (h2 : SameTree v v') : ∃ occ', Instance hole al' t v' occ' ∧ SameOccs occ occ' := by
  suffices H : ∀ k (t : Val), t.size ≤ k → ∀ v v' occ, Instance hole al t v occ → SameTree v v' →
      ∃ occ', Instance hole al' t v' occ' ∧ SameOccs occ occ' from H _ t (Nat.le_refl _) v v' occ h1 h2
  intro k
  induction k with
  | zero => intro t ht; have := t.size_pos; omega
  | succ k ih =>
    intro t ht v v' occ h1 h2
    cases h1 with
    | named e a => exact ⟨_, .named e (hal _ _ _ h2 a), .cons ⟨rfl, h2⟩ .nil⟩
    | anonymous e => exact ⟨_, .anonymous e, .nil⟩
    | const e a => cases h2 with | const h => exact ⟨_, .const e (Const.pyEq_trans h a), .nil⟩
    | list e a =>
      cases h2 with
      | list hl h =>
        obtain ⟨occ', b, e'⟩ := instances_moved _ (fun t ht' => ih t (by
          have := size_mem ht'; simp only [Val.size] at ht; omega)) a hl h
        exact ⟨occ', .list e b, e'⟩
    | node e a =>
      cases h2 with
      | node hl h =>
        obtain ⟨occ', b, e'⟩ := fieldInstances_moved _ (fun t ht' => ih t (by
          have := size_mem ht'; simp only [Val.size] at ht; omega)) a hl h
        exact ⟨occ', .node e b, e'⟩

theorem sameOccs_of {occ occ' : Occs} (h : SameOccs occ occ') (x : Label) : Each SameTree (occ.of x) (occ'.of x) := by
  induction h with
  | nil => exact .nil
  | @cons p q ps qs hpq _ ih =>
    obtain ⟨h1, h2⟩ := hpq
    unfold Occs.of at ih ⊢
    by_cases hx : p.1 = x
    · have hx' : q.1 = x := h1 ▸ hx
      rw [List.filter_cons_of_pos (by simpa using hx), List.filter_cons_of_pos (by simpa using hx')]
      exact .cons h2 ih
    · have hx' : ¬ q.1 = x := h1 ▸ hx
      rw [List.filter_cons_of_neg (by simpa using hx), List.filter_cons_of_neg (by simpa using hx')]
      exact ih

theorem Each.getElem? {α β : Type} {R : α → β → Prop} {l : List α} {m : List β} (h : Each R l m) {k : Nat} {b : β} (hb : m[k]? = some b) :
    ∃ a, l[k]? = some a ∧ R a b := by
  induction h generalizing k with
  | nil => simp at hb
  | cons h1 _ ih =>
    cases k with
    | zero => simp at hb; subst hb; exact ⟨_, rfl, h1⟩
    | succ k => simpa using ih (by simpa using hb)

theorem Each.length {α β : Type} {R : α → β → Prop} {l : List α} {m : List β} (h : Each R l m) : l.length = m.length := by
  induction h with
  | nil => rfl
  | cons _ _ ih => simp [ih]

theorem Each.getLast? {α β : Type} {R : α → β → Prop} {l : List α} {m : List β} (h : Each R l m) {b : β} (hb : m.getLast? = some b) :
    ∃ a, l.getLast? = some a ∧ R a b := by
  rw [List.getLast?_eq_getElem?] at hb ⊢
  rw [h.length]
  exact h.getElem? hb

/-- What stands for a metavariable in a tree of the grammar is a tree of the grammar. -/
theorem instance_parsed {hole : Val → Hole} {al : Label → Val → Prop} {g : Grammar} (t v : Val) (occ : Occs) (h : Instance hole al t v occ)
    (b : Bool) (hv : Parsed g b v) : ∀ p ∈ occ, ∃ b, Parsed g b p.2 := by
  suffices H : ∀ k (t : Val), t.size ≤ k → ∀ v occ, Instance hole al t v occ → ∀ b, Parsed g b v → ∀ p ∈ occ, ∃ b, Parsed g b p.2 from
    H _ t (Nat.le_refl _) v occ h b hv
  intro k
  induction k with
  | zero => intro t ht; have := t.size_pos; omega
  | succ k ih =>
    intro t ht v occ h b hv
    cases h with
    | named e a => intro p hp; simp at hp; subst hp; exact ⟨b, hv⟩
    | anonymous e => simp
    | const e a => simp
    | @list i j ts vs _ e a =>
      have hvs : ∀ w ∈ vs, Parsed g false w := by cases hv with | list h => exact h
      have ih' : ∀ t ∈ ts, ∀ v occ, Instance hole al t v occ → ∀ b, Parsed g b v → ∀ p ∈ occ, ∃ b, Parsed g b p.2 := fun t ht' =>
        ih t (by have := size_mem ht'; simp only [Val.size] at ht; omega)
      clear ht hv ih e
      induction ts generalizing vs occ with
      | nil => cases a; simp
      | cons t ts iht =>
        cases a with
        | @cons _ _ w ws o os a1 a2 =>
          intro p hp
          rcases List.mem_append.1 hp with hp | hp
          · exact ih' t (by simp) w o a1 false (hvs w (by simp)) p hp
          · exact iht os a2 (fun w hw => hvs w (by simp [hw])) (fun t ht => ih' t (by simp [ht])) p hp
    | @node i j ty ns ts vs _ e a =>
      have hvs : ∀ w ∈ vs, ∃ b, Parsed g b w := by
        cases hv with
        | node h1 h2 h3 h4 h5 =>
          intro w hw
          obtain ⟨m, hm⟩ := List.getElem?_of_mem hw
          have hl : vs.length = (g.fields ty).length := by rw [h4, h2]; simp
          obtain ⟨f, hf⟩ := getElem?_of_length hl hm
          exact ⟨_, h5 m f w hf hm⟩
      have ih' : ∀ t ∈ ts, ∀ v occ, Instance hole al t v occ → ∀ b, Parsed g b v → ∀ p ∈ occ, ∃ b, Parsed g b p.2 := fun t ht' =>
        ih t (by have := size_mem ht'; simp only [Val.size] at ht; omega)
      clear ht hv ih e
      induction ts generalizing ns vs occ with
      | nil => cases a; simp
      | cons t ts iht =>
        cases a with
        | @ctx _ ns _ w ws os a2 =>
          exact iht _ a2 (fun w hw => hvs w (by simp [hw])) (fun t ht => ih' t (by simp [ht]))
        | @cons _ n _ ns _ w ws o os _ a1 a2 =>
          intro p hp
          rcases List.mem_append.1 hp with hp | hp
          · obtain ⟨b, hb⟩ := hvs w (by simp)
            exact ih' t (by simp) w o a1 b hb p hp
          · exact iht os a2 (fun w hw => hvs w (by simp [hw])) (fun t ht => ih' t (by simp [ht])) p hp

theorem Occs.mem_of {occ : Occs} {x : Label} {w : Val} : w ∈ occ.of x ↔ (x, w) ∈ occ := by
  unfold Occs.of
  simp only [List.mem_map, List.mem_filter, decide_eq_true_eq]
  constructor
  · rintro ⟨⟨y, v⟩, ⟨h, rfl⟩, rfl⟩; exact h
  · intro h; exact ⟨(x, w), ⟨h, rfl⟩, rfl⟩

end Refex
