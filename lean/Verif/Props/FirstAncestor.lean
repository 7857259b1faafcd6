import Verif.Props.Ancestors
/- C61: HasFirstAncestor and the sibling matchers. -/
namespace Refex
set_option autoImplicit false

theorem at?_depth : ∀ (p : Path) (v w : Val), v.at? p = some w → p.length + 1 ≤ v.size := by
  intro p
  induction p with
  | nil => intro v w _; have := v.size_pos; simp; omega
  | cons i p ih =>
    intro v w h
    rw [at?_cons] at h
    cases hi : v.children[i]? with
    | none => rw [hi] at h; cases h
    | some x =>
      rw [hi] at h
      have h1 := ih x w h
      have h2 := v.size_children
      have h3 : x.size ≤ Val.sizes v.children := by
        have hx := List.mem_of_getElem? hi
        generalize v.children = l at hx
        induction l with
        | nil => simp at hx
        | cons y l ihl =>
          simp only [Val.sizes]
          rcases List.mem_cons.1 hx with h | h
          · rw [h]; omega
          · have := ihl h; omega
      simp only [List.length_cons]; omega

theorem climb_eq {c : Ctx} {first : SemM} {acc : Val → Option MatchInfo} (hu : Unshared c.tree)
    (hf : ∀ v ks, first v ks = .ok (acc v, ks)) : ∀ (k : Nat) (p : Path), p.length = k → ∀ (v : Val), c.tree.at? p = some v →
    v.isInner → ∀ n, k < n → ∀ ks, ∃ r, climb c first n v ks = .ok (r, ks) ∧
      (r = none → ∀ q i, p = q ++ [i] → NoneUpTo acc c.tree q) ∧
      (∀ a, r = some a → ∃ q0 i q, p = q0 ++ [i] ∧ Nearest acc c.tree q0 q a) := by
  intro k
  induction k with
  | zero =>
    intro p hk v hp hv n hn ks
    obtain ⟨n, rfl⟩ : ∃ k, n = k + 1 := ⟨n - 1, by omega⟩
    have : p = [] := List.length_eq_zero_iff.1 hk
    subst this
    simp only [Val.at?, Option.some.injEq] at hp
    subst hp
    exact ⟨none, by simp only [climb, C50_root hu hv], fun _ q i e => by simp at e, nofun⟩
  | succ k ih =>
    intro p hk v hp hv n hn ks
    obtain ⟨n, rfl⟩ : ∃ k, n = k + 1 := ⟨n - 1, by omega⟩
    rcases List.eq_nil_or_concat p with rfl | ⟨p, i, rfl⟩
    · simp at hk
    rw [List.concat_eq_append] at *
    simp only [List.length_append, List.length_cons, List.length_nil, Nat.zero_add, Nat.add_right_cancel_iff] at hk
    obtain ⟨w, cr, hw, _, hchild, _⟩ := breadcrumb_exact hu hp hv
    have hwi : w.isInner := by
      intro j x e; subst e; simp [Val.children] at hchild
    simp only [climb, C50_parent_exact hu hp hv, hw, hf]
    cases ha : acc w with
    | some a =>
      refine ⟨some a, rfl, nofun, fun a' e => ⟨p, i, p, rfl, List.prefix_rfl, ?_, ?_⟩⟩
      · cases e; rw [bind_some hw, ha]
      · intro q' h1 h2; have := h1.length_le; omega
    | none =>
      obtain ⟨r, h1, h2, h3⟩ := ih p hk w hw hwi n (by omega) ks
      refine ⟨r, h1, fun hr q j e q' hq' => ?_, fun a e => ?_⟩
      · rw [← (List.append_inj' e rfl).1] at hq'
        by_cases hqp : q' = p
        · rw [hqp, bind_some hw, ha]
        · rcases List.eq_nil_or_concat p with rfl | ⟨p', i', rfl⟩
          · exact absurd (List.prefix_nil.1 hq') hqp
          · rw [List.concat_eq_append] at *
            rcases prefix_snoc hq' with h | h
            · exact h2 hr p' i' rfl q' h
            · exact absurd h hqp
      · obtain ⟨q0, i', q, rfl, hq⟩ := h3 a e
        refine ⟨q0 ++ [i'], i, q, rfl, hq.above.trans (List.prefix_append ..), hq.accepted, ?_⟩
        intro q' h1 h2
        rcases prefix_snoc h1 with h | rfl
        · exact hq.nearest q' h h2
        · rw [bind_some hw, ha]

/-- **C61**, `HasFirstAncestor`: if no object that contains the candidate is accepted by the first matcher, there is no match;
otherwise the nearest one decides: the second matcher is tried on it alone, and the bindings of the two are merged. The
hypothesis `hobj`: the first matcher reports the object it was given (all matchers do that report nodes at all).
(where the bindings are in conflict there is no match but an AttributeError.) -/
theorem C61_first_ancestor {c : Ctx} {env : Env} {first also : Matcher} {d : Nat} {accF accA : Val → Option MatchInfo}
    (hu : Unshared c.tree) (hF : Answers c env first d accF) (hA : Answers c env also d accA)
    (hobj : ∀ w a, accF w = some a → w.isInner → a.obj.matched? = some w) {p : Path} {v : Val} (hp : c.tree.at? p = some v)
    (hv : v.isInner) (n : Nat) (hn : d + 1 ≤ n) (ks : List Key) :
    ((∀ q i, p = q ++ [i] → NoneUpTo accF c.tree q) ∧ run c n env (.hasFirstAncestor first also) v ks = .ok (none, ks)) ∨
    ∃ q0 i q w a, p = q0 ++ [i] ∧ Nearest accF c.tree q0 q a ∧ c.tree.at? q = some w ∧
      run c n env (.hasFirstAncestor first also) v ks =
        match accA w with
        | none => .ok (none, ks)
        | some b =>
          match mergeBindings a.bindings b.bindings with
          | .error e => .error e
          | .ok none => .error .attributeError
          | .ok (some bs) => .ok (some ⟨createMatch c v, bs, []⟩, ks) := by
  obtain ⟨n, rfl⟩ : ∃ k, n = k + 1 := ⟨n - 1, by omega⟩
  have hd := at?_depth p c.tree v hp
  obtain ⟨r, h1, h2, h3⟩ := climb_eq hu (fun v ks => hF.answers n (by omega) v ks) p.length p rfl v hp hv (c.tree.size + 1) (by omega) ks
  cases r with
  | none => exact .inl ⟨h2 rfl, by simp only [run, h1]⟩
  | some a =>
    obtain ⟨q0, i, q, e, hq⟩ := h3 a rfl
    obtain ⟨w, hw, ha⟩ := Option.bind_eq_some_iff.1 hq.accepted
    have hwi : w.isInner := by
      subst e
      obtain ⟨t, rfl⟩ := hq.above
      rw [List.append_assoc, at?_append, hw] at hp
      intro j x e; subst e
      have := const_at hp
      cases t with
      | nil => simp [Val.at?, Val.children] at hp
      | cons y t => simp [Val.at?, Val.children] at hp
    refine .inr ⟨q0, i, q, w, a, e, hq, hw, ?_⟩
    simp only [run, h1, hobj w a ha hwi, hA.answers n (by omega)]
    cases accA w with
    | none => rfl
    | some b => rfl

/-- Non-vacuity: the hypothesis on what the first matcher reports holds of type tests. -/
example (c : Ctx) (w : Val) (a : MatchInfo) (ty : Str)
    (h : (if w.ty = ty then some (⟨createMatch c w, [], []⟩ : MatchInfo) else none) = some a) (hw : w.isInner) : a.obj.matched? = some w := by
  split at h
  · cases h
    unfold createMatch
    cases w with
    | const i x => exact absurd rfl (hw i x)
    | list _ _ => rfl
    | node i t ns vs =>
      simp only
      split
      · rfl
      · split
        · split <;> rfl
        · split <;> rfl
  · cases h

/-- **C61**, refutation: where the two matchers disagree on a binding, there is an AttributeError instead of no match. -/
theorem C61_conflict_false :
    run exAttrCtx 9 [] (.hasFirstAncestor (.bind (str "x") (.typeIs (str "Expr")) (some .skip) none)
      (.bind (str "x") .anything (some .skip) none))
      (.node 5 (str "Name") [str "id", str "ctx"] [.const 6 (.str (str "foo")), .node 7 (str "Load") [] []]) [] = .error .attributeError := by
  have h1 : getParent exAttrCtx.tree (.node 5 (str "Name") [str "id", str "ctx"] [.const 6 (.str (str "foo")), .node 7 (str "Load") [] []]) =
      exAttrCtx.tree.at? [0, 0, 0] := C50_parent_exact (q := [0, 0, 0]) (i := 0) exModule_unshared rfl (by intro i c h; cases h)
  have h2 : ∀ w, exAttrCtx.tree.at? [0, 0, 0] = some w → getParent exAttrCtx.tree w = exAttrCtx.tree.at? [0, 0] := by
    intro w hw
    exact C50_parent_exact (q := [0, 0]) (i := 0) exModule_unshared hw (by cases hw; intro i c h; cases h)
  simp only [run]
  obtain ⟨k, hk⟩ : ∃ k, exAttrCtx.tree.size + 1 = k + 1 + 1 := ⟨exAttrCtx.tree.size - 1, by decide⟩
  rw [hk]
  simp only [climb, h1]
  rw [show exAttrCtx.tree.at? [0, 0, 0] = some (.node 4 (str "Attribute") [str "value", str "attr", str "ctx"]
      [.node 5 (str "Name") [str "id", str "ctx"] [.const 6 (.str (str "foo")), .node 7 (str "Load") [] []], .const 6 (.str (str "foo")),
       .node 8 (str "Load") [] []]) from rfl] at *
  simp only [h2 _ rfl]
  rfl

/-- The objects that count as false: None, False, 0, the empty string, the empty list. -/
inductive Falsy : Val → Prop
  | none (i : Nat) : Falsy (.const i .none)
  | false (i : Nat) : Falsy (.const i (.bool .false))
  | zero (i : Nat) : Falsy (.const i (.int 0))
  | empty (i : Nat) : Falsy (.const i (.str []))
  | nil (i : Nat) : Falsy (.list i [])

theorem truthy_false {w : Val} (h : Falsy w) : truthy w = false := by
  cases h <;> rfl

theorem truthy_iff (w : Val) : truthy w = true ↔ ¬ Falsy w := by
  constructor
  · intro h hf; rw [truthy_false hf] at h; cases h
  · intro h
    cases ht : truthy w with
    | true => rfl
    | false =>
      refine absurd ?_ h
      unfold truthy at ht
      split at ht
      · exact .none _
      · subst ht; exact .false _
      · simp only [ne_eq, decide_eq_false_iff_not, Classical.not_not] at ht; subst ht; exact .zero _
      · simp only [ne_eq, decide_eq_false_iff_not, Classical.not_not] at ht; subst ht; exact .empty _
      · cases ht
      · simp only [ne_eq, decide_eq_false_iff_not, Classical.not_not] at ht; subst ht; exact .nil _
      · cases ht

/-- **C61**, siblings: the matcher is tried on the neighbour in the list the candidate is in; on an object of a field, or at
the end of the list, or if the neighbour counts as false (which no node does), there is no match. -/
theorem C61_siblings {c : Ctx} {env : Env} {m : Matcher} (hu : Unshared c.tree) {q : Path} {i : Nat} {v p : Val}
    (h : c.tree.at? (q ++ [i]) = some v) (hv : v.isInner) (hp : c.tree.at? q = some p) (n : Nat) (ks : List Key) :
    (p.isList = true → (∀ w, c.tree.at? (q ++ [i + 1]) = some w →
        (¬ Falsy w → run c (n + 1) env (.hasNextSibling m) v ks = run c n env m w ks) ∧
        (Falsy w → run c (n + 1) env (.hasNextSibling m) v ks = .ok (none, ks))) ∧
      (c.tree.at? (q ++ [i + 1]) = none → run c (n + 1) env (.hasNextSibling m) v ks = .ok (none, ks)) ∧
      (∀ j w, i = j + 1 → c.tree.at? (q ++ [j]) = some w →
        (¬ Falsy w → run c (n + 1) env (.hasPrevSibling m) v ks = run c n env m w ks) ∧
        (Falsy w → run c (n + 1) env (.hasPrevSibling m) v ks = .ok (none, ks))) ∧
      (i = 0 → run c (n + 1) env (.hasPrevSibling m) v ks = .ok (none, ks))) ∧
    (p.isList = false → run c (n + 1) env (.hasNextSibling m) v ks = .ok (none, ks) ∧
      run c (n + 1) env (.hasPrevSibling m) v ks = .ok (none, ks)) := by
  obtain ⟨h1, h2⟩ := C50_siblings hu h hv hp
  refine ⟨fun hl => ?_, fun hl => ?_⟩
  · obtain ⟨h3, h4⟩ := h1 hl
    refine ⟨fun w hw => ⟨fun hn => ?_, fun hn => ?_⟩, fun hw => ?_, fun j w hi hw => ⟨fun hn => ?_, fun hn => ?_⟩, fun hi => ?_⟩
    · simp only [run, h3, hw, (truthy_iff w).2 hn, if_true]
    · simp only [run, h3, hw, truthy_false hn, Bool.false_eq_true, if_false]
    · simp only [run, h3, hw]
    · subst hi
      simp only [run, h4, Nat.add_one_ne_zero, if_false, Nat.add_sub_cancel, hw, (truthy_iff w).2 hn, if_true]
    · subst hi
      simp only [run, h4, Nat.add_one_ne_zero, if_false, Nat.add_sub_cancel, hw, truthy_false hn, Bool.false_eq_true]
    · simp only [run, h4, hi, if_true]
  · obtain ⟨h3, h4⟩ := h2 hl
    simp only [run, h3, h4, and_self]

/-- **C61**, refutation: what a sibling matcher reports as matched is the sibling, not the candidate. -/
theorem C61_sibling_reported_false : ∃ mi, run exAttrCtx 9 [] (.hasPrevSibling (.typeIs (str "Expr"))) (.node 9 (str "Pass") [] []) [] =
      .ok (some mi, []) ∧ mi.obj.matched?.map Val.ident = some 3 := by
  have h := (((C61_siblings (c := exAttrCtx) (env := []) (m := .typeIs (str "Expr")) (q := [0]) (i := 1) exModule_unshared rfl
    (by intro i c h; cases h) rfl 8 []).1 rfl).2.2.1 0 _ rfl rfl).1 (by intro h; cases h)
  exact ⟨_, h, rfl⟩

/-- Non-vacuity: the first ancestor of a kind, found and accepted. -/
example : ∃ mi, run exAttrCtx 9 [] (.hasFirstAncestor (.typeIs (str "Expr")) .anything)
      (.node 5 (str "Name") [str "id", str "ctx"] [.const 6 (.str (str "foo")), .node 7 (str "Load") [] []]) [] = .ok (some mi, []) ∧
    mi.obj.matched?.map Val.ident = some 5 := by
  have h1 : getParent exAttrCtx.tree (.node 5 (str "Name") [str "id", str "ctx"] [.const 6 (.str (str "foo")), .node 7 (str "Load") [] []]) =
      exAttrCtx.tree.at? [0, 0, 0] := C50_parent_exact (q := [0, 0, 0]) (i := 0) exModule_unshared rfl (by intro i c h; cases h)
  have h2 : ∀ w, exAttrCtx.tree.at? [0, 0, 0] = some w → getParent exAttrCtx.tree w = exAttrCtx.tree.at? [0, 0] := by
    intro w hw
    exact C50_parent_exact (q := [0, 0]) (i := 0) exModule_unshared hw (by cases hw; intro i c h; cases h)
  simp only [run]
  obtain ⟨k, hk⟩ : ∃ k, exAttrCtx.tree.size + 1 = k + 1 + 1 := ⟨exAttrCtx.tree.size - 1, by decide⟩
  rw [hk]
  simp only [climb, h1]
  rw [show exAttrCtx.tree.at? [0, 0, 0] = some (.node 4 (str "Attribute") [str "value", str "attr", str "ctx"]
      [.node 5 (str "Name") [str "id", str "ctx"] [.const 6 (.str (str "foo")), .node 7 (str "Load") [] []], .const 6 (.str (str "foo")),
       .node 8 (str "Load") [] []]) from rfl] at *
  simp only [h2 _ rfl]
  exact ⟨_, rfl, rfl⟩

end Refex
