import Verif.Spec.Nav
import Verif.Lemmas.Dict
import Verif.Props.PatternNames
/- C50: parents and siblings. -/
namespace Refex
set_option autoImplicit false

theorem at?_append (v : Val) : ∀ (p q : Path), v.at? (p ++ q) = (v.at? p).bind (·.at? q) := by
  intro p
  induction p generalizing v with
  | nil => intro q; simp [Val.at?]
  | cons i p ih =>
    intro q
    rw [List.cons_append, at?_cons, at?_cons]
    cases v.children[i]? with
    | none => rfl
    | some w => simp only [Option.bind_some]; exact ih w q

/-- The crumbs recorded from the stack on, in order. -/
def loopCrumbs (stack : List Val) : List (Val × (Val × Crumb)) :=
  match stack with
  | [] => []
  | v :: rest => crumbsOf v ++ loopCrumbs (((crumbsOf v).map Prod.fst).reverse ++ rest)
  termination_by Val.sizes stack
  decreasing_by
    have := crumbsOf_size v
    simp only [Val.sizes_append, Val.sizes_reverse, Val.sizes]; omega

theorem breadcrumbLoop_eq : ∀ (n : Nat) (stack : List Val) (d : Dict Nat (Val × Crumb)), Val.sizes stack ≤ n →
    breadcrumbLoop stack d = recordCrumbs d (loopCrumbs stack) := by
  intro n
  induction n with
  | zero =>
    intro stack d h
    cases stack with
    | nil => rw [breadcrumbLoop, loopCrumbs]; rfl
    | cons v vs => have := Val.size_pos v; simp only [Val.sizes] at h; omega
  | succ n ih =>
    intro stack d h
    cases stack with
    | nil => rw [breadcrumbLoop, loopCrumbs]; rfl
    | cons v vs =>
      rw [breadcrumbLoop, loopCrumbs]
      have hs := crumbsOf_size v
      rw [ih _ _ (by simp only [Val.sizes_append, Val.sizes_reverse]; simp only [Val.sizes] at h; omega)]
      simp only [recordCrumbs, List.foldl_append]

theorem recordCrumbs_get (cs : List (Val × (Val × Crumb))) : ∀ (d : Dict Nat (Val × Crumb)) (k : Nat),
    (∀ x, (recordCrumbs d cs).get? k = some x → d.get? k = some x ∨ ∃ c ∈ cs, c.1.ident = k ∧ c.2 = x) ∧
    ((∃ c ∈ cs, c.1.ident = k) → ∃ c ∈ cs, c.1.ident = k ∧ (recordCrumbs d cs).get? k = some c.2) ∧
    ((¬ ∃ c ∈ cs, c.1.ident = k) → (recordCrumbs d cs).get? k = d.get? k) := by
  induction cs with
  | nil => intro d k; simp [recordCrumbs]
  | cons c cs ih =>
    intro d k
    have e : recordCrumbs d (c :: cs) = recordCrumbs (d.set c.1.ident c.2) cs := rfl
    rw [e]
    obtain ⟨h1, h2, h3⟩ := ih (d.set c.1.ident c.2) k
    refine ⟨fun x hx => ?_, ?_, ?_⟩
    · rcases h1 x hx with h | ⟨b, hb, h⟩
      · rw [Dict.get?_set] at h
        split at h
        · rename_i hk; exact Or.inr ⟨c, by simp, hk.symm, by simpa using h⟩
        · exact Or.inl h
      · exact Or.inr ⟨b, by simp [hb], h⟩
    · rintro ⟨b, hb, hk⟩
      by_cases hlater : ∃ b ∈ cs, b.1.ident = k
      · obtain ⟨b', hb', h⟩ := h2 hlater
        exact ⟨b', by simp [hb'], h⟩
      · rcases List.mem_cons.1 hb with rfl | hb
        · refine ⟨b, by simp, hk, ?_⟩
          rw [h3 hlater, Dict.get?_set, if_pos hk.symm]
        · exact absurd ⟨b, hb, hk⟩ hlater
    · intro hn
      rw [h3 (fun ⟨b, hb, hk⟩ => hn ⟨b, by simp [hb], hk⟩), Dict.get?_set, if_neg]
      intro hk; exact hn ⟨c, by simp, hk.symm⟩

theorem mem_attrCrumbs (p : Val) : ∀ (ns : List Str) (vs : List Val) c, c ∈ attrCrumbs p ns vs →
    c.1 ∈ vs ∧ c.1.isNone = false ∧ ∃ (i : Nat) (n : Str), ns[i]? = some n ∧ vs[i]? = some c.1 ∧ c.2 = (p, .attr n) := by
  intro ns
  induction ns with
  | nil => intro vs c h; simp [attrCrumbs] at h
  | cons n ns ih =>
    intro vs c h
    cases vs with
    | nil => simp [attrCrumbs] at h
    | cons v vs =>
      rw [attrCrumbs] at h
      split at h
      · obtain ⟨h1, h2, i, m, h3, h4, h5⟩ := ih vs c h
        exact ⟨by simp [h1], h2, i + 1, m, by simpa using h3, by simpa using h4, h5⟩
      · rename_i hv
        rcases List.mem_cons.1 h with rfl | h
        · exact ⟨by simp, by simpa using hv, 0, n, rfl, rfl, rfl⟩
        · obtain ⟨h1, h2, i, m, h3, h4, h5⟩ := ih vs c h
          exact ⟨by simp [h1], h2, i + 1, m, by simpa using h3, by simpa using h4, h5⟩

theorem attrCrumbs_complete (p : Val) : ∀ (ns : List Str) (vs : List Val) (i : Nat) v, ns.length = vs.length → vs[i]? = some v →
    v.isNone = false → ∃ n, (v, (p, .attr n)) ∈ attrCrumbs p ns vs := by
  intro ns
  induction ns with
  | nil =>
    intro vs i v hl h
    have : vs = [] := List.length_eq_zero_iff.1 (by simpa using hl.symm)
    subst this; simp at h
  | cons n ns ih =>
    intro vs i v hl h hn
    cases vs with
    | nil => simp at h
    | cons w vs =>
      rw [attrCrumbs]
      cases i with
      | zero =>
        simp only [List.getElem?_cons_zero, Option.some.injEq] at h
        subst h
        exact ⟨n, by rw [if_neg (by simp [hn])]; simp⟩
      | succ i =>
        obtain ⟨m, hm⟩ := ih vs i v (by simpa using hl) (by simpa using h) hn
        refine ⟨m, ?_⟩
        split
        · exact hm
        · simp [hm]

theorem mem_itemCrumbs (p : Val) : ∀ (vs : List Val) (k : Nat) c, c ∈ itemCrumbs p k vs ↔
    ∃ i : Nat, vs[i]? = some c.1 ∧ c.2 = (p, .item (k + i)) := by
  intro vs
  induction vs with
  | nil => intro k c; simp [itemCrumbs]
  | cons v vs ih =>
    intro k c
    rw [itemCrumbs, List.mem_cons, ih]
    constructor
    · rintro (rfl | ⟨i, h1, h2⟩)
      · exact ⟨0, rfl, rfl⟩
      · exact ⟨i + 1, by simpa using h1, by rw [h2]; congr 2; omega⟩
    · rintro ⟨i, h1, h2⟩
      cases i with
      | zero =>
        simp only [List.getElem?_cons_zero, Option.some.injEq] at h1
        exact Or.inl (Prod.ext h1.symm h2)
      | succ i => exact Or.inr ⟨i, by simpa using h1, by rw [h2]; congr 2; omega⟩

/-- What a crumb of an object says. -/
theorem mem_crumbsOf {u : Val} {c : Val × (Val × Crumb)} (h : c ∈ crumbsOf u) :
    c.2.1 = u ∧ ∃ i : Nat, u.children[i]? = some c.1 ∧ (∀ j vs, u = .list j vs → c.2.2 = .item i) ∧ (∀ j t ns vs, u = .node j t ns vs → ∃ n, c.2.2 = .attr n) := by
  cases u with
  | const i d => simp [crumbsOf] at h
  | list i vs =>
    rw [crumbsOf, mem_itemCrumbs] at h
    obtain ⟨k, h1, h2⟩ := h
    rw [h2]
    exact ⟨rfl, k, h1, fun _ _ _ => by simp, fun _ _ _ _ e => by cases e⟩
  | node i t ns vs =>
    rw [crumbsOf] at h
    obtain ⟨_, _, k, n, _, h2, h3⟩ := mem_attrCrumbs _ _ _ _ h
    rw [h3]
    exact ⟨rfl, k, h2, fun _ _ e => by (cases e), fun _ _ _ _ _ => ⟨n, rfl⟩⟩

theorem mem_loopCrumbs : ∀ (n : Nat) (stack : List Val) c, Val.sizes stack ≤ n → c ∈ loopCrumbs stack →
    ∃ v ∈ stack, ∃ q u, v.at? q = some u ∧ c ∈ crumbsOf u := by
  intro n
  induction n with
  | zero =>
    intro stack c hs h
    cases stack with
    | nil => rw [loopCrumbs] at h; cases h
    | cons v vs => have := Val.size_pos v; simp only [Val.sizes] at hs; omega
  | succ n ih =>
    intro stack c hs h
    cases stack with
    | nil => rw [loopCrumbs] at h; cases h
    | cons v vs =>
      rw [loopCrumbs] at h
      rcases List.mem_append.1 h with h | h
      · exact ⟨v, by simp, [], v, rfl, h⟩
      · have hsz := crumbsOf_size v
        obtain ⟨w, hw, q, u, h1, h2⟩ := ih _ c (by simp only [Val.sizes_append, Val.sizes_reverse]; simp only [Val.sizes] at hs; omega) h
        rcases List.mem_append.1 hw with hw | hw
        · simp only [List.mem_reverse, List.mem_map] at hw
          obtain ⟨b, hb, rfl⟩ := hw
          obtain ⟨_, i, hi, _⟩ := mem_crumbsOf hb
          exact ⟨v, by simp, i :: q, u, by rw [at?_cons, hi]; exact h1, h2⟩
        · exact ⟨w, by simp [hw], q, u, h1, h2⟩

/-- Every field and item is recorded, except `None` in a field. -/
theorem crumbsOf_complete {u : Val} (hsh : ∀ i t ns vs, u = .node i t ns vs → ns.length = vs.length) {i : Nat} {v : Val} (h : u.children[i]? = some v)
    (hn : v.isNone = false) : ∃ cr, (v, (u, cr)) ∈ crumbsOf u ∧ (∀ j vs, u = .list j vs → cr = .item i) := by
  cases u with
  | const j d => simp [Val.children] at h
  | list j vs =>
    refine ⟨.item i, ?_, fun _ _ _ => rfl⟩
    rw [crumbsOf, mem_itemCrumbs]
    exact ⟨i, h, by simp⟩
  | node j t ns vs =>
    obtain ⟨n, hm⟩ := attrCrumbs_complete (.node j t ns vs) ns vs i v (hsh _ _ _ _ rfl) h hn
    exact ⟨.attr n, hm, fun _ _ e => by cases e⟩

theorem const_at {i : Nat} {c : Const} {q : Path} {u : Val} (h : (Val.const i c).at? q = some u) : u = .const i c := by
  cases q with
  | nil => simpa [Val.at?] using h.symm
  | cons k q => simp [at?_cons, Val.children] at h

theorem loopCrumbs_complete : ∀ (n : Nat) (stack : List Val), Val.sizes stack ≤ n → ∀ v ∈ stack,
    (∀ q i t ns vs, v.at? q = some (.node i t ns vs) → ns.length = vs.length) →
    ∀ q u, v.at? q = some u → ∀ c ∈ crumbsOf u, c ∈ loopCrumbs stack := by
  intro n
  induction n with
  | zero =>
    intro stack hs v hv
    cases stack with
    | nil => cases hv
    | cons w vs => have := Val.size_pos w; simp only [Val.sizes] at hs; omega
  | succ n ih =>
    intro stack hs v hv hsh q u hq c hc
    cases stack with
    | nil => cases hv
    | cons w vs =>
      have hsz := crumbsOf_size w
      have hle : Val.sizes (((crumbsOf w).map Prod.fst).reverse ++ vs) ≤ n := by
        simp only [Val.sizes_append, Val.sizes_reverse]; simp only [Val.sizes] at hs; omega
      rw [loopCrumbs, List.mem_append]
      rcases List.mem_cons.1 hv with rfl | hv
      · cases q with
        | nil => simp only [Val.at?, Option.some.injEq] at hq; subst hq; exact Or.inl hc
        | cons k q =>
          rw [at?_cons] at hq
          cases hk : v.children[k]? with
          | none => rw [hk] at hq; cases hq
          | some x =>
            rw [hk] at hq
            simp only [Option.bind_some] at hq
            by_cases hn : x.isNone = true
            · cases x with
              | const a b =>
                have := const_at hq
                subst this; simp [crumbsOf] at hc
              | list _ _ => simp [Val.isNone] at hn
              | node _ _ _ _ => simp [Val.isNone] at hn
            · obtain ⟨cr, hcr, _⟩ := crumbsOf_complete (u := v) (fun i t ns vs e => hsh [] i t ns vs (by simp [Val.at?, e])) hk (by simpa using hn)
              refine Or.inr (ih _ hle x ?_ ?_ q u hq c hc)
              · rw [List.mem_append]; left
                simp only [List.mem_reverse, List.mem_map]
                exact ⟨_, hcr, rfl⟩
              · intro q' i t ns vs' e
                exact hsh (k :: q') i t ns vs' (by rw [at?_cons, hk]; exact e)
      · exact Or.inr (ih _ hle v (by rw [List.mem_append]; right; exact hv) hsh q u hq c hc)

theorem breadcrumbs_eq (tree : Val) : breadcrumbs tree = recordCrumbs [] (loopCrumbs [tree]) :=
  breadcrumbLoop_eq _ [tree] [] (Nat.le_refl _)

/-- What a recorded parent is. -/
theorem breadcrumb_sound {tree : Val} {k : Nat} {p : Val} {cr : Crumb} (h : (breadcrumbs tree).get? k = some (p, cr)) :
    ∃ (q : Path) (i : Nat) (w : Val), tree.at? q = some p ∧ p.children[i]? = some w ∧ w.ident = k ∧ (w, (p, cr)) ∈ crumbsOf p := by
  rw [breadcrumbs_eq] at h
  rcases (recordCrumbs_get _ _ _).1 _ h with h | ⟨c, hc, h1, h2⟩
  · simp [Dict.get?] at h
  · obtain ⟨v, hv, q, u, h3, h4⟩ := mem_loopCrumbs _ _ _ (Nat.le_refl _) hc
    simp only [List.mem_singleton] at hv
    subst hv
    obtain ⟨h5, i, h6, _⟩ := mem_crumbsOf h4
    have e : c.2.1 = p := by rw [h2]
    rw [h5] at e; subst e
    refine ⟨q, i, c.1, h3, h6, h1, ?_⟩
    have : c = (c.1, (u, cr)) := Prod.ext rfl h2
    rw [← this]; exact h4

/-- **C50**: whatever the tree, a parent that is reported is an object of the tree and has the object among its children. -/
theorem C50_parent_sound {tree v p : Val} (h : getParent tree v = some p) :
    ∃ (q : Path) (i : Nat) (w : Val), tree.at? q = some p ∧ p.children[i]? = some w ∧ w.ident = v.ident := by
  unfold getParent at h
  cases hb : (breadcrumbs tree).get? v.ident with
  | none => rw [hb] at h; cases h
  | some x =>
    rw [hb] at h
    obtain ⟨p', cr⟩ := x
    simp only [Option.map_some, Option.some.injEq] at h
    subst h
    obtain ⟨q, i, w, h1, h2, h3, _⟩ := breadcrumb_sound hb
    exact ⟨q, i, w, h1, h2, h3⟩

section Unshared
variable {tree : Val} (hu : Unshared tree)
include hu

/-- The entry of a node or list: its parent and where it is in it. -/
theorem breadcrumb_exact {q : Path} {i : Nat} {v : Val} (h : tree.at? (q ++ [i]) = some v) (hv : v.isInner) :
    ∃ p cr, tree.at? q = some p ∧ (breadcrumbs tree).get? v.ident = some (p, cr) ∧ p.children[i]? = some v ∧
      (∀ j vs, p = .list j vs → cr = .item i) ∧ (∀ j t ns vs, p = .node j t ns vs → ∃ n, cr = .attr n) := by
  rw [at?_append] at h
  cases hq : tree.at? q with
  | none => rw [hq] at h; cases h
  | some p =>
    have hwhole := h
    rw [hq] at h
    simp only [Option.bind_some, at?_cons] at h
    cases hc : p.children[i]? with
    | none => rw [hc] at h; cases h
    | some w =>
      rw [hc] at h
      simp only [Option.bind_some, Val.at?, Option.some.injEq] at h
      subst h
      have hpos : ∀ q' p', tree.at? q' = some p' → ∀ i' w', p'.children[i']? = some w' → tree.at? (q' ++ [i']) = some w' := by
        intro q' p' h1 i' w' h2
        rw [at?_append, h1]; simp [at?_cons, h2, Val.at?]
      have hnone : w.isNone = false := by
        cases w with
        | const a b => exact absurd rfl (hv a b)
        | list _ _ => rfl
        | node _ _ _ _ => rfl
      obtain ⟨cr, h1, _⟩ := crumbsOf_complete (u := p) (fun a t ns vs e => hu.shaped q a t ns vs (e ▸ hq)) hc hnone
      have h2 := loopCrumbs_complete _ [tree] (Nat.le_refl _) tree (by simp) hu.shaped q p hq _ h1
      obtain ⟨c, hc1, hc2, hc3⟩ := (recordCrumbs_get (loopCrumbs [tree]) [] w.ident).2.1 ⟨_, h2, rfl⟩
      rw [← breadcrumbs_eq] at hc3
      obtain ⟨c1, p', cr'⟩ := c
      simp only at hc3 hc2
      obtain ⟨q', i', w', g1, g2, g3, g4⟩ := breadcrumb_sound hc3
      have hqq : q ++ [i] = q' ++ [i'] := hu.distinct _ _ _ _ (hpos q p hq i w hc) (hpos q' p' g1 i' w' g2) g3.symm hv
      obtain ⟨rfl, hii⟩ := List.append_inj' hqq rfl
      simp only [List.cons.injEq, and_true] at hii
      subst hii
      rw [hq] at g1; cases g1
      obtain ⟨_, k, k1, k2, k3⟩ := mem_crumbsOf g4
      refine ⟨p, cr', rfl, hc3, hc, fun j vs e => ?_, fun j t ns vs e => k3 j t ns vs e⟩
      have hki : q ++ [k] = q ++ [i] := hu.distinct _ _ _ _ (hpos q p hq k w' k1) (hpos q p hq i w hc) g3
        (by rw [hc] at g2; cases g2; exact hv)
      have := List.append_cancel_left hki
      simp only [List.cons.injEq, and_true] at this
      subst this
      exact k2 j vs e

/-- **C50**: the parent reported for a node or list is the object it stands in. -/
theorem C50_parent_exact {q : Path} {i : Nat} {v : Val} (h : tree.at? (q ++ [i]) = some v) (hv : v.isInner) :
    getParent tree v = tree.at? q := by
  obtain ⟨p, cr, h1, h2, _⟩ := breadcrumb_exact hu h hv
  rw [h1, getParent, h2]; rfl

/-- **C50**: the root has no parent. -/
theorem C50_root (hv : tree.isInner) : getParent tree tree = none := by
  cases h : getParent tree tree with
  | none => rfl
  | some p =>
    exfalso
    obtain ⟨q, i, w, h1, h2, h3⟩ := C50_parent_sound h
    have h4 : tree.at? (q ++ [i]) = some w := by rw [at?_append, h1]; simp [at?_cons, h2, Val.at?]
    have := hu.distinct [] (q ++ [i]) tree w rfl h4 h3.symm hv
    simp at this

/-- **C50**: siblings are the neighbours in the list the object is in; an object in a field has none. -/
theorem C50_siblings {q : Path} {i : Nat} {v p : Val} (h : tree.at? (q ++ [i]) = some v) (hv : v.isInner) (hp : tree.at? q = some p) :
    (p.isList = true → getNextSibling tree v = tree.at? (q ++ [i + 1]) ∧
      getPrevSibling tree v = (if i = 0 then none else tree.at? (q ++ [i - 1]))) ∧
    (p.isList = false → getNextSibling tree v = none ∧ getPrevSibling tree v = none) := by
  obtain ⟨p', cr, h1, h2, h3, h4, h5⟩ := breadcrumb_exact hu h hv
  rw [hp] at h1; cases h1
  have hat : ∀ j : Nat, tree.at? (q ++ [j]) = p.children[j]? := by
    intro j
    rw [at?_append, hp]
    simp only [Option.bind_some, at?_cons]
    cases p.children[j]? <;> rfl
  constructor
  · intro hl
    cases p with
    | const _ _ => simp [Val.isList] at hl
    | node _ _ _ _ => simp [Val.isList] at hl
    | list j vs =>
      have e := h4 j vs rfl
      subst e
      rw [getNextSibling, getPrevSibling, h2, hat, hat]
      refine ⟨rfl, ?_⟩
      cases i with
      | zero => rfl
      | succ i => simp
  · intro hl
    cases p with
    | const _ _ => simp [Val.children] at h3
    | list _ _ => simp [Val.isList] at hl
    | node j t ns vs =>
      obtain ⟨n, e⟩ := h5 j t ns vs rfl
      subst e
      rw [getNextSibling, getPrevSibling, h2]
      exact ⟨rfl, rfl⟩

/-- **C50**: next and previous sibling are inverse. -/
theorem C50_inverse {q : Path} {i : Nat} {v w : Val} (h : tree.at? (q ++ [i]) = some v) (hv : v.isInner) (hw : w.isInner) :
    (getNextSibling tree v = some w → getPrevSibling tree w = some v) ∧
    (getPrevSibling tree v = some w → getNextSibling tree w = some v) := by
  obtain ⟨p, cr, hp, _, _⟩ := breadcrumb_exact hu h hv
  obtain ⟨s1, s2⟩ := C50_siblings hu h hv hp
  by_cases hl : p.isList = true
  · obtain ⟨s3, s4⟩ := s1 hl
    constructor
    · intro hn
      rw [s3] at hn
      obtain ⟨g1, _⟩ := C50_siblings hu hn hw hp
      rw [(g1 hl).2, if_neg (by omega)]
      simpa using h
    · intro hn
      rw [s4] at hn
      by_cases h0 : i = 0
      · rw [if_pos h0] at hn; cases hn
      · rw [if_neg h0] at hn
        obtain ⟨g1, _⟩ := C50_siblings hu hn hw hp
        rw [(g1 hl).1]
        have : i - 1 + 1 = i := by omega
        rw [this]; exact h
  · obtain ⟨s3, s4⟩ := s2 (by simpa using hl)
    constructor
    · intro hn; rw [s3] at hn; cases hn
    · intro hn; rw [s4] at hn; cases hn

end Unshared

theorem firstNonList_snoc (tree : Val) : ∀ (s q : Path) (i : Nat) (v : Val), tree.at? (q ++ (s ++ [i])) = some v →
    firstNonList tree q (s ++ [i]) = (firstNonList tree q s).or (if v.isList then none else some v) := by
  intro s
  induction s with
  | nil =>
    intro q i v h
    simp only [List.nil_append] at h
    rw [List.nil_append]
    simp only [firstNonList, h]
    split <;> simp
  | cons k s ih =>
    intro q i v h
    rw [List.cons_append, firstNonList, firstNonList]
    cases hk : tree.at? (q ++ [k]) with
    | none =>
      rw [List.cons_append, List.append_cons, at?_append, hk] at h; cases h
    | some x =>
      simp only
      split
      · exact ih (q ++ [k]) i v (by simpa using h)
      · simp

/-- **C50** (`get_simple_node`): for an object below a node with a body (nearest one: at `q`), the search ends, with the first
object on the way down from there that is not a list; for a node with a body itself it is `None`. -/
theorem C50_simple_node {tree : Val} (hu : Unshared tree) (q s : Path) {v b : Val} (hq : tree.at? q = some b) (hb : hasBody b = true)
    (hv : tree.at? (q ++ s) = some v) (hinner : v.isInner)
    (hn : ∀ (t : Path) (x : Val), t <+: s → t ≠ [] → tree.at? (q ++ t) = some x → hasBody x = false) (fuel : Nat) (hf : s.length < fuel) :
    getSimpleLoop tree fuel none v = some (firstNonList tree q s) := by
  have key : ∀ (n : Nat) (s : Path), s.length = n → ∀ (v : Val) (last : Option Val) (fuel : Nat), tree.at? (q ++ s) = some v → v.isInner →
      (∀ (t : Path) (x : Val), t <+: s → t ≠ [] → tree.at? (q ++ t) = some x → hasBody x = false) → s.length < fuel →
      getSimpleLoop tree fuel last v = some ((firstNonList tree q s).or last) := by
    intro n
    induction n with
    | zero =>
      intro s hs v last fuel hv _ _ hf
      have : s = [] := List.length_eq_zero_iff.1 hs
      subst this
      rw [List.append_nil, hq] at hv; cases hv
      cases fuel with
      | zero => simp at hf
      | succ fuel => rw [getSimpleLoop, if_pos hb]; rfl
    | succ n ih =>
      intro s hs v last fuel hv hinner hn hf
      cases fuel with
      | zero => simp at hf
      | succ fuel =>
        have hne : s ≠ [] := by intro e; subst e; simp at hs
        obtain ⟨t, i, rfl⟩ : ∃ t i, s = t ++ [i] := ⟨s.dropLast, s.getLast hne, (List.dropLast_concat_getLast hne).symm⟩
        rw [getSimpleLoop, if_neg (by rw [hn _ v (List.prefix_refl _) hne hv]; simp)]
        have hv' : tree.at? ((q ++ t) ++ [i]) = some v := by simpa using hv
        rw [C50_parent_exact hu hv' hinner]
        obtain ⟨p, cr, hp, _, hpc, _⟩ := breadcrumb_exact hu hv' hinner
        rw [hp]
        simp only
        rw [ih t (by simpa using hs) p _ fuel hp ?_ ?_ (by simp at hf ⊢; omega)]
        · rw [firstNonList_snoc tree t q i v hv]
          cases hl : v.isList <;> cases firstNonList tree q t <;> simp
        · rintro a c rfl; simp [Val.children] at hpc
        · intro t' x h1 h2 h3
          exact hn t' x (h1.trans (List.prefix_append _ _)) h2 h3
  have := key _ s rfl v none fuel hv hinner hn hf
  rw [this]; simp

mutual
/-- All positions of a tree, with what is there. -/
def allPos : Val → List (Path × Val)
  | .const i c => [([], .const i c)]
  | .list i vs => ([], .list i vs) :: allPosFrom 0 vs
  | .node i t ns vs => ([], .node i t ns vs) :: allPosFrom 0 vs
/-- The same for the children from the `k`-th on. -/
def allPosFrom : Nat → List Val → List (Path × Val)
  | _, [] => []
  | k, v :: vs => (allPos v).map (fun x => (k :: x.1, x.2)) ++ allPosFrom (k + 1) vs
end

mutual
theorem mem_allPos : ∀ (v : Val) (p : Path) (w : Val), v.at? p = some w → (p, w) ∈ allPos v
  | .const i c, p, w, h => by
    have := const_at h
    cases p with
    | nil => subst this; simp [allPos]
    | cons k p => simp [at?_cons, Val.children] at h
  | .list i vs, p, w, h => by
    cases p with
    | nil => simp only [Val.at?, Option.some.injEq] at h; subst h; simp [allPos]
    | cons k p =>
      rw [allPos, List.mem_cons]
      refine Or.inr ?_
      rw [at?_cons] at h
      exact mem_allPosFrom vs 0 k p w (by simpa [Val.children] using h) (by omega)
  | .node i t ns vs, p, w, h => by
    cases p with
    | nil => simp only [Val.at?, Option.some.injEq] at h; subst h; simp [allPos]
    | cons k p =>
      rw [allPos, List.mem_cons]
      refine Or.inr ?_
      rw [at?_cons] at h
      exact mem_allPosFrom vs 0 k p w (by simpa [Val.children] using h) (by omega)
theorem mem_allPosFrom : ∀ (vs : List Val) (k j : Nat) (p : Path) (w : Val), (vs[j - k]?).bind (·.at? p) = some w → k ≤ j →
    (j :: p, w) ∈ allPosFrom k vs
  | [], _, _, _, _, h, _ => by simp at h
  | v :: vs, k, j, p, w, h, hk => by
    rw [allPosFrom, List.mem_append]
    by_cases e : j = k
    · subst e
      simp only [Nat.sub_self, List.getElem?_cons_zero, Option.bind_some] at h
      exact Or.inl (List.mem_map.2 ⟨(p, w), mem_allPos v p w h, rfl⟩)
    · have e' : j - k = (j - (k + 1)) + 1 := by omega
      rw [e', List.getElem?_cons_succ] at h
      exact Or.inr (mem_allPosFrom vs (k + 1) j p w h (by omega))
end

/-- Whether the object is a leaf. -/
def isLeaf : Val → Bool
  | .const _ _ => true
  | _ => false

/-- Whether the node has a value for each field. -/
def isShaped : Val → Bool
  | .node _ _ ns vs => decide (ns.length = vs.length)
  | _ => true

theorem unshared_of_check {tree : Val}
    (h : (allPos tree).all (fun a => (isShaped a.2) && (isLeaf a.2 || (allPos tree).all fun b => decide (a.2.ident ≠ b.2.ident) || decide (a.1 = b.1))) = true) :
    Unshared tree := by
  simp only [List.all_eq_true, Bool.and_eq_true, Bool.or_eq_true, decide_eq_true_eq] at h
  constructor
  · intro p q v w hv hw he hi
    rcases (h _ (mem_allPos _ _ _ hv)).2 with h1 | h1
    · cases v with
      | const i c => exact absurd rfl (hi i c)
      | list _ _ => simp [isLeaf] at h1
      | node _ _ _ _ => simp [isLeaf] at h1
    · rcases h1 _ (mem_allPos _ _ _ hw) with h2 | h2
      · exact absurd he h2
      · exact h2
  · intro p i t ns vs hv
    have := (h _ (mem_allPos _ _ _ hv)).1
    simpa [isShaped] using this

/-- The tree of `foo.bar` as a statement of a module; strings share an identity. -/
def exModule : Val :=
  .node 1 (str "Module") [str "body"] [.list 2 [
    .node 3 (str "Expr") [str "value"] [.node 4 (str "Attribute") [str "value", str "attr", str "ctx"]
      [.node 5 (str "Name") [str "id", str "ctx"] [.const 6 (.str (str "foo")), .node 7 (str "Load") [] []], .const 6 (.str (str "foo")),
       .node 8 (str "Load") [] []]],
    .node 9 (str "Pass") [] []]]

/-- It is unshared, so the theorems apply to it. -/
theorem exModule_unshared : Unshared exModule := unshared_of_check (by decide)
example : exModule.at? [0, 0, 0] = some (.node 4 (str "Attribute") [str "value", str "attr", str "ctx"]
      [.node 5 (str "Name") [str "id", str "ctx"] [.const 6 (.str (str "foo")), .node 7 (str "Load") [] []], .const 6 (.str (str "foo")),
       .node 8 (str "Load") [] []]) := rfl
example : (firstNonList exModule [] [0, 0, 0]).map Val.ident = some 3 := rfl

example : (getParent exModule (.node 9 (str "Pass") [] [])).map Val.ident = some 2 := by
  simp [getParent, exModule, breadcrumbs, breadcrumbLoop, crumbsOf, attrCrumbs, itemCrumbs, recordCrumbs, Val.isNone, Val.ident, Dict.set, Dict.get?]

end Refex
