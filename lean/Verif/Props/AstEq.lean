import Verif.Spec.AstEq
/- C46: `ast_equivalent`. -/
namespace Refex
set_option autoImplicit false

theorem getattr_cons_self {j : Nat} {t : Str} {n : Str} {ns : List Str} {w : Val} {ws : List Val} :
    (Val.node j t (n :: ns) (w :: ws)).getattr n = w := by simp [Val.getattr, Val.lookup]

theorem lookup_index (ns : List Str) (ws : List Val) (hn : ns.Nodup) (hl : ws.length = ns.length) (k : Nat) (n : Str) (w : Val)
    (h1 : ns[k]? = some n) (h2 : ws[k]? = some w) : Val.lookup ns ws n = some w := by
  induction ns generalizing ws k with
  | nil => simp at h1
  | cons m ns ih =>
    cases ws with
    | nil => simp at h2
    | cons x ws =>
      simp only [Val.lookup]
      cases k with
      | zero => simp at h1 h2; simp [h1, h2]
      | succ k =>
        simp only [List.getElem?_cons_succ] at h1 h2
        have hne : m ≠ n := by
          intro e; subst e
          exact (List.nodup_cons.1 hn).1 (List.mem_of_getElem? h1)
        rw [if_neg hne]
        exact ih ws (List.nodup_cons.1 hn).2 (by simpa using hl) k h1 h2

/-- Nodes of one type: the pairs compared are the fields in order. -/
theorem fieldPairs_zip {j : Nat} {t : Str} {ms : List Str} {us : List Val} (hn : ms.Nodup) (hl : us.length = ms.length)
    (ns : List Str) (vs ws : List Val) (d : Nat) (h1 : ms.drop d = ns) (h2 : us.drop d = ws) (hv : vs.length = ns.length) :
    fieldPairs (.node j t ms us) ns vs = vs.zip ws := by
  induction ns generalizing vs ws d with
  | nil =>
    have : vs = [] := by cases vs <;> simp_all
    subst this; simp [fieldPairs]
  | cons n ns ih =>
    cases vs with
    | nil => simp at hv
    | cons v vs =>
      have hdl : d < ms.length := by
        apply Nat.lt_of_not_le; intro h; rw [List.drop_eq_nil_of_le h] at h1; cases h1
      rw [List.drop_eq_getElem_cons hdl] at h1
      rw [List.drop_eq_getElem_cons (by omega : d < us.length)] at h2
      subst h2
      simp only [List.cons.injEq] at h1
      simp only [fieldPairs, List.zip_cons_cons, List.cons.injEq, Prod.mk.injEq, true_and]
      refine ⟨?_, ih vs _ (d + 1) h1.2 rfl (by simpa using hv)⟩
      simp only [Val.getattr]
      rw [lookup_index ms us hn hl d n us[d] (by rw [List.getElem?_eq_getElem hdl, h1.1]) (List.getElem?_eq_getElem _)]
      rfl

theorem conforms_pairs {fields : Str → List Str} {i j : Nat} {t : Str} {ns ns' : List Str} {vs ws : List Val}
    (ha : Conforms fields (.node i t ns vs)) (hb : Conforms fields (.node j t ns' ws)) :
    ns' = ns ∧ vs.length = ws.length ∧ fieldPairs (.node j t ns' ws) ns vs = vs.zip ws := by
  cases ha with
  | node h1 h2 h3 h4 h5 =>
    cases hb with
    | node g1 g2 g3 g4 g5 =>
      have e : ns' = ns := g1.trans h1.symm
      subst e
      exact ⟨rfl, by omega, fieldPairs_zip g2 g3 ns' vs ws 0 rfl rfl h3⟩

theorem zip_mem_index {α β : Type} {l : List α} {r : List β} {p : α × β} (h : p ∈ l.zip r) :
    ∃ k : Nat, l[k]? = some p.1 ∧ r[k]? = some p.2 := by
  obtain ⟨k, hk, e⟩ := List.getElem_of_mem h
  rw [List.getElem_zip] at e
  rw [List.length_zip] at hk
  refine ⟨k, ?_, ?_⟩
  · rw [List.getElem?_eq_getElem (by omega), ← e]
  · rw [List.getElem?_eq_getElem (by omega), ← e]

theorem index_mem_zip {α β : Type} {l : List α} {r : List β} {k : Nat} {a : α} {b : β} (h1 : l[k]? = some a) (h2 : r[k]? = some b) :
    (a, b) ∈ l.zip r := by
  obtain ⟨hk, e⟩ := List.getElem?_eq_some_iff.1 h1
  obtain ⟨hk', e'⟩ := List.getElem?_eq_some_iff.1 h2
  have hl : k < (l.zip r).length := by rw [List.length_zip]; omega
  have := List.getElem_mem hl
  rw [List.getElem_zip, e, e'] at this
  exact this

theorem pyEq_refl_const (c : Const) : c.pyEq c = true := by
  unfold Const.pyEq
  split <;> simp_all

theorem pyEqs_consts {vs ws : List Val} (h : ∀ v ∈ vs, ∃ j c, v = .const j c) :
    Val.pyEqs vs ws = true ↔ vs.length = ws.length ∧
      ∀ (k : Nat) v w, vs[k]? = some v → ws[k]? = some w → AstEqBy (fun a b => a.pyEq b = true) v w := by
  induction vs generalizing ws with
  | nil => cases ws <;> simp [Val.pyEqs]
  | cons v vs ih =>
    obtain ⟨j, c, rfl⟩ := h v (by simp)
    cases ws with
    | nil => simp [Val.pyEqs]
    | cons w ws =>
      have ih := ih (ws := ws) (fun x hx => h x (by simp [hx]))
      simp only [Val.pyEqs, Bool.and_eq_true, ih, List.length_cons]
      constructor
      · rintro ⟨h1, h2, h3⟩
        refine ⟨by omega, ?_⟩
        intro k v' w' e1 e2
        cases k with
        | zero =>
          simp at e1 e2; subst e1 e2
          cases w <;> simp only [Val.pyEq] at h1
          · exact .const h1
          · cases h1
          · cases h1
        | succ k => exact h3 k v' w' (by simpa using e1) (by simpa using e2)
      · rintro ⟨h1, h2⟩
        refine ⟨?_, by omega, fun k v' w' e1 e2 => h2 (k + 1) v' w' (by simpa using e1) (by simpa using e2)⟩
        have := h2 0 (.const j c) w (by simp) (by simp)
        cases this with
        | ctx h1 _ => simp [isExprContext] at h1
        | const h => simpa [Val.pyEq] using h

/-- What the comparison of two objects, one of them not a node, says. -/
theorem pyEq_leaf {a b : Val} (ha : NodeFreeLists a) (hn : a.isNode = false ∨ b.isNode = false) :
    a.pyEq b = true ↔ AstEqBy (fun a b => a.pyEq b = true) a b := by
  cases a with
  | const i c =>
    cases b with
    | const j d =>
      simp only [Val.pyEq]
      constructor
      · exact fun h => .const h
      · intro h; cases h with
        | ctx h1 _ => simp [isExprContext] at h1
        | const h => exact h
    | list j ws => simp only [Val.pyEq]; constructor; (intro h; cases h); (intro h; cases h with | ctx h1 _ => simp [isExprContext] at h1)
    | node j t ns ws => simp only [Val.pyEq]; constructor; (intro h; cases h); (intro h; cases h with | ctx h1 _ => simp [isExprContext] at h1)
  | list i vs =>
    cases b with
    | list j ws =>
      cases ha with
      | list ha =>
        simp only [Val.pyEq, pyEqs_consts ha]
        constructor
        · exact fun h => .list h.1 h.2
        · intro h; cases h with
          | ctx h1 _ => simp [isExprContext] at h1
          | list h1 h2 => exact ⟨h1, h2⟩
    | const j c => simp only [Val.pyEq]; constructor; (intro h; cases h); (intro h; cases h with | ctx h1 _ => simp [isExprContext] at h1)
    | node j t ns ws => simp only [Val.pyEq]; constructor; (intro h; cases h); (intro h; cases h with | ctx h1 _ => simp [isExprContext] at h1)
  | node i t ns vs =>
    cases b with
    | node j t' ns' ws => simp [Val.isNode] at hn
    | const j c => simp only [Val.pyEq]; constructor; (intro h; cases h); (intro h; cases h with | ctx _ h1 => simp [isExprContext] at h1)
    | list j ws => simp only [Val.pyEq]; constructor; (intro h; cases h); (intro h; cases h with | ctx _ h1 => simp [isExprContext] at h1)

/-- A pair the loop is about to compare. -/
def PairOk (fields : Str → List Str) (p : Val × Val) : Prop := Conforms fields p.1 ∧ Conforms fields p.2 ∧ NodeFreeLists p.1

theorem pairOk_children {fields : Str → List Str} {i j : Nat} {t t' : Str} {ns ns' : List Str} {vs ws : List Val}
    (h : PairOk fields (.node i t ns vs, .node j t' ns' ws)) : ∀ p ∈ vs.zip ws, PairOk fields p := by
  obtain ⟨h1, h2, h3⟩ := h
  intro p hp
  have hm := List.of_mem_zip (a := p.1) (b := p.2) hp
  cases h1 with
  | node _ _ _ _ h1 =>
    cases h2 with
    | node _ _ _ _ h2 =>
      cases h3 with
      | node h3 => exact ⟨h1 _ hm.1, h2 _ hm.2, h3 _ hm.1⟩

theorem contextsDiffer_child {i j : Nat} {t t' : Str} {ns ns' : List Str} {vs ws : List Val} {p : Val × Val} (hp : p ∈ vs.zip ws)
    (h : ContextsDiffer p.1 p.2) : ContextsDiffer (.node i t ns vs) (.node j t' ns' ws) := by
  obtain ⟨k, h1, h2⟩ := zip_mem_index hp
  obtain ⟨q, x, y, a, b, c, d, e⟩ := h
  exact ⟨k :: q, x, y, by simp [Val.at?, Val.children, h1, a], by simp [Val.at?, Val.children, h2, b], c, d, e⟩

theorem astEqLoop_sound {fields : Str → List Str} (stack : List (Val × Val)) (hs : ∀ p ∈ stack, PairOk fields p)
    (h : astEqLoop stack = true) :
    (∀ p ∈ stack, AstEqBy (fun a b => a.pyEq b = true) p.1 p.2) ∨ ∃ p ∈ stack, ContextsDiffer p.1 p.2 := by
  induction stack using astEqLoop.induct with
  | case1 => simp
  | case2 rest i ns vs j t ns' vs' ih =>
    rw [astEqLoop] at h
    simp only [if_true] at h
    obtain ⟨e1, e2, e3⟩ := conforms_pairs (hs _ (List.mem_cons_self ..)).1 (hs _ (List.mem_cons_self ..)).2.1
    rw [e3] at h ih
    have hc := pairOk_children (hs _ (List.mem_cons_self ..))
    rcases ih (by
      intro p hp
      rcases List.mem_append.1 hp with hp | hp
      · exact hc p hp
      · exact hs p (by simp [hp])) h with ih | ⟨p, hp, ih⟩
    · left
      intro p hp
      rcases List.mem_cons.1 hp with rfl | hp
      · subst e1
        exact .node e2 (fun k v w h1 h2 => ih (v, w) (by simp [index_mem_zip h1 h2]))
      · exact ih p (by simp [hp])
    · right
      rcases List.mem_append.1 hp with hp | hp
      · exact ⟨_, List.mem_cons_self .., contextsDiffer_child hp ih⟩
      · exact ⟨p, by simp [hp], ih⟩
  | case3 rest i t ns vs j t' ns' vs' hne =>
    rw [astEqLoop] at h
    simp only [hne, if_false, Bool.and_eq_true] at h
    right
    exact ⟨_, List.mem_cons_self .., [], _, _, rfl, rfl, h.1, h.2, hne⟩
  | case4 rest x y hxy he ih =>
    rw [astEqLoop] at h
    · rw [if_pos he] at h
      have hn : x.isNode = false ∨ y.isNode = false := by
        cases x <;> cases y <;> first | exact (hxy _ _ _ _ _ _ _ _ rfl rfl).elim | simp [Val.isNode]
      rcases ih (fun p hp => hs p (by simp [hp])) h with ih | ⟨p, hp, ih⟩
      · left
        intro p hp
        rcases List.mem_cons.1 hp with rfl | hp
        · exact (pyEq_leaf (hs _ (List.mem_cons_self ..)).2.2 hn).1 he
        · exact ih p hp
      · exact Or.inr ⟨p, by simp [hp], ih⟩
    · exact hxy
  | case5 rest x y hxy he =>
    rw [astEqLoop] at h
    · rw [if_neg he] at h; cases h
    · exact hxy


theorem AstEqBy.mono {r r' : Const → Const → Prop} (h : ∀ c d, r c d → r' c d) {a b : Val} (hab : AstEqBy r a b) : AstEqBy r' a b := by
  induction hab with
  | ctx h1 h2 => exact .ctx h1 h2
  | const h1 => exact .const (h _ _ h1)
  | list h1 _ ih => exact .list h1 ih
  | node h1 _ ih => exact .node h1 ih

theorem AstEqBy.isNode {r : Const → Const → Prop} {a b : Val} (hab : AstEqBy r a b) : a.isNode = b.isNode := by
  cases hab with
  | ctx h1 h2 => cases a <;> cases b <;> simp_all [isExprContext, Val.isNode]
  | const h => rfl
  | list h _ => rfl
  | node h _ => rfl

theorem astEqLoop_complete {fields : Str → List Str} (stack : List (Val × Val)) (hs : ∀ p ∈ stack, PairOk fields p)
    (he : ∀ p ∈ stack, AstEqBy (fun a b => a.pyEq b = true) p.1 p.2) : astEqLoop stack = true := by
  induction stack using astEqLoop.induct with
  | case1 => simp [astEqLoop]
  | case2 rest i ns vs j t ns' vs' ih =>
    rw [astEqLoop]
    simp only [if_true]
    obtain ⟨e1, e2, e3⟩ := conforms_pairs (hs _ (List.mem_cons_self ..)).1 (hs _ (List.mem_cons_self ..)).2.1
    rw [e3] at ih ⊢
    have hc := pairOk_children (hs _ (List.mem_cons_self ..))
    refine ih ?_ ?_
    · intro p hp
      rcases List.mem_append.1 hp with hp | hp
      · exact hc p hp
      · exact hs p (by simp [hp])
    · intro p hp
      rcases List.mem_append.1 hp with hp | hp
      · obtain ⟨k, h1, h2⟩ := zip_mem_index hp
        cases he _ (List.mem_cons_self ..) with
        | ctx hx hy =>
          cases (hs _ (List.mem_cons_self ..)).1 with
          | node a1 a2 a3 a4 a5 =>
            have := a4 hx
            rw [this, List.length_nil, List.length_eq_zero_iff] at a3
            rw [a3] at h1; simp at h1
        | node _ hch => exact hch k p.1 p.2 h1 h2
      · exact he p (by simp [hp])
  | case3 rest i t ns vs j t' ns' vs' hne =>
    rw [astEqLoop]
    simp only [hne, if_false]
    cases he _ (List.mem_cons_self ..) with
    | ctx hx hy => simp only at hx hy; simp [hx, hy]
    | node _ _ => exact absurd rfl hne
  | case4 rest x y hxy hp ih =>
    rw [astEqLoop]
    · rw [if_pos hp]
      exact ih (fun p h => hs p (by simp [h])) (fun p h => he p (by simp [h]))
    · exact hxy
  | case5 rest x y hxy hp =>
    exfalso
    have hn : x.isNode = false ∨ y.isNode = false := by
      cases x <;> cases y <;> first | exact (hxy _ _ _ _ _ _ _ _ rfl rfl).elim | simp [Val.isNode]
    exact hp ((pyEq_leaf (hs _ (List.mem_cons_self ..)).2.2 hn).2 (he _ (List.mem_cons_self ..)))

/-- **C46**, for trees in which no list has nodes among its items: structurally equal trees (up to expression contexts)
are equivalent. -/
theorem C46_equal_is_equivalent {fields : Str → List Str} {a b : Val} (ha : Conforms fields a) (hb : Conforms fields b)
    (hl : NodeFreeLists a) (h : AstEq a b) : astEquivalent a b = true := by
  unfold astEquivalent
  split
  · rfl
  · refine astEqLoop_complete (fields := fields) _ ?_ ?_
    · intro p hp; simp only [List.mem_singleton] at hp; subst hp; exact ⟨ha, hb, hl⟩
    · simp only [List.mem_singleton, forall_eq]
      exact h.mono (fun c d e => by subst e; exact pyEq_refl_const c)

/-- **C46**, for the same trees: equivalent trees are the same object, or equal up to expression contexts and Python's
`==` on leaves, or have different expression contexts at some position (after which nothing is compared). -/
theorem C46_equivalent_is_equal {fields : Str → List Str} {a b : Val} (ha : Conforms fields a) (hb : Conforms fields b)
    (hl : NodeFreeLists a) (h : astEquivalent a b = true) :
    a.ident = b.ident ∨ AstEqBy (fun c d => c.pyEq d = true) a b ∨ ContextsDiffer a b := by
  unfold astEquivalent at h
  split at h
  · exact Or.inl ‹_›
  · right
    rcases astEqLoop_sound (fields := fields) _ (by intro p hp; simp only [List.mem_singleton] at hp; subst hp; exact ⟨ha, hb, hl⟩) h with h | ⟨p, hp, h⟩
    · exact Or.inl (h (a, b) (by simp))
    · simp only [List.mem_singleton] at hp; subst hp; exact Or.inr h

/-- **C46**: the exact outcome when the two trees have the same contexts everywhere. -/
theorem C46_same_contexts {fields : Str → List Str} {a b : Val} (ha : Conforms fields a) (hb : Conforms fields b)
    (hl : NodeFreeLists a) (hid : a.ident ≠ b.ident) (hc : ¬ ContextsDiffer a b) :
    astEquivalent a b = true ↔ AstEqBy (fun c d => c.pyEq d = true) a b := by
  constructor
  · intro h
    rcases C46_equivalent_is_equal ha hb hl h with h | h | h
    · exact absurd h hid
    · exact h
    · exact absurd h hc
  · intro h
    unfold astEquivalent
    rw [if_neg hid]
    exact astEqLoop_complete (fields := fields) _ (by intro p hp; simp only [List.mem_singleton] at hp; subst hp; exact ⟨ha, hb, hl⟩) (by simpa using h)

/-- A name in a given context. -/
def exName (i : Nat) (s ctx : String) : Val :=
  .node i (str "Name") [str "id", str "ctx"] [.const (i + 1) (.str (str s)), .node (i + 2) (str ctx) [] []]

/-- `f(x)`. -/
def exCall (i : Nat) : Val :=
  .node i (str "Call") [str "func", str "args", str "keywords"]
    [exName (i + 1) "f" "Load", .list (i + 4) [exName (i + 5) "x" "Load"], .list (i + 8) []]

theorem exCall_equal (a b : Nat) : AstEq (exCall a) (exCall b) := by
  unfold exCall
  refine .node rfl ?_
  have hn : ∀ i j s, AstEq (exName i s "Load") (exName j s "Load") := by
    intro i j s
    refine .node rfl ?_
    intro k v w h1 h2
    match k with
    | 0 => simp at h1 h2; subst h1 h2; exact .const rfl
    | 1 => simp at h1 h2; subst h1 h2; exact .ctx rfl rfl
    | k + 2 => simp at h1
  intro k v w h1 h2
  match k with
  | 0 => simp at h1 h2; subst h1 h2; exact hn _ _ _
  | 1 =>
    simp at h1 h2; subst h1 h2
    refine .list rfl ?_
    intro k v w h1 h2
    match k with
    | 0 => simp at h1 h2; subst h1 h2; exact hn _ _ _
    | k + 1 => simp at h1
  | 2 => simp at h1 h2; subst h1 h2; exact .list rfl (by simp)
  | k + 3 => simp at h1

/-- **C46**, refutation: `f(x)` is not equivalent to another `f(x)`: lists of nodes are compared by the identity of
their items. -/
theorem C46_node_lists_false : AstEq (exCall 10) (exCall 30) ∧ astEquivalent (exCall 10) (exCall 30) = false := by
  constructor
  · exact exCall_equal 10 30
  · unfold astEquivalent exCall exName
    simp [astEqLoop, fieldPairs, Val.ident, Val.getattr, Val.lookup, Val.pyEq, Val.pyEqs, Const.pyEq, Const.whole?, str]

/-- A node with two names, the first in the given context. -/
def exPair (i : Nat) (ctx x y : String) : Val := .node i (str "Pair") [str "a", str "b"] [exName (i + 1) x ctx, exName (i + 4) y "Load"]

/-- **C46**, refutation: after differing contexts nothing more is compared: a pair `(x, y)` is equivalent to `(x, z)` if
the contexts of `x` differ. -/
theorem C46_after_contexts_false :
    astEquivalent (exPair 10 "Load" "x" "y") (exPair 30 "Store" "x" "z") = true ∧
    astEquivalent (exPair 10 "Load" "x" "y") (exPair 30 "Load" "x" "z") = false := by
  unfold astEquivalent exPair exName
  constructor <;>
  simp [astEqLoop, fieldPairs, Val.ident, Val.getattr, Val.lookup, Val.pyEq, Const.pyEq, Const.whole?, str, isExprContext]

/-- **C46**, refutation: the constants `1` and `True` are equivalent. -/
theorem C46_bool_int_false :
    astEquivalent (.node 1 (str "Constant") [str "value"] [.const 2 (.int 1)])
      (.node 3 (str "Constant") [str "value"] [.const 4 (.bool true)]) = true := by
  unfold astEquivalent
  simp [astEqLoop, fieldPairs, Val.ident, Val.getattr, Val.lookup, Val.pyEq, Const.pyEq, Const.whole?]

/-- Non-vacuity of C46: two names in different contexts are equal, conform and have no node lists. -/
example : AstEq (exName 1 "x" "Load") (exName 5 "x" "Store") ∧ NodeFreeLists (exName 1 "x" "Load") ∧
    Conforms (fun t => if t = str "Name" then [str "id", str "ctx"] else []) (exName 1 "x" "Load") := by
  refine ⟨.node rfl ?_, ?_, ?_⟩
  · intro k v w h1 h2
    match k with
    | 0 => simp at h1 h2; subst h1 h2; exact .const rfl
    | 1 => simp at h1 h2; subst h1 h2; exact .ctx rfl rfl
    | k + 2 => simp at h1
  · refine .node ?_
    intro v hv
    simp only [List.mem_cons, List.not_mem_nil, or_false] at hv
    rcases hv with rfl | rfl
    · exact .const
    · exact .node (by simp)
  · refine .node rfl (by decide) rfl ?_ ?_
    · intro h; simp [isExprContext, str] at h
    · intro v hv
      simp only [List.mem_cons, List.not_mem_nil, or_false] at hv
      rcases hv with rfl | rfl
      · exact .const
      · exact .node rfl (by simp) rfl (by simp) (by simp)

end Refex
