import Verif.Spec.Ancestors
import Verif.Props.Nav
import Verif.Props.TypeFilters
/- C55: the matchers that look at parents, children, ancestors and descendants. -/
namespace Refex
set_option autoImplicit false

theorem rewrap_ok (c : Ctx) (v : Val) (r : Option MatchInfo) (ks : List Key) :
    rewrap c v (.ok (r, ks)) = .ok (r.map (relayed c v), ks) := by
  cases r <;> rfl

/-- One round of `RecursivelyWrapped` when the wrapper has no type filter. -/
theorem recWrapped_step {c : Ctx} {env : Env} {m w : Matcher} {d : Nat} {acc : Val → Option MatchInfo} (hd : Answers c env m d acc)
    (n : Nat) (hn : d ≤ n) (hw : typeFilter n ((m, w) :: env) w = .ok none) (v : Val) (ks : List Key) :
    run c (n + 1) env (.recWrapped m w) v ks =
      match acc v with
      | some mi => .ok (some mi, ks)
      | none => run c n ((m, w) :: env) w v ks := by
  obtain ⟨f, hf⟩ := hd.filter n hn
  simp only [run, hf, hw]
  have hnone : admits none v.ty = true := rfl
  rw [dispatch_eq]
  · cases ha : admits f v.ty with
    | true =>
      simp only [List.filter, ha, hnone, List.map, firstMatch, hd.answers n hn v ks]
      cases acc v with
      | some mi => rfl
      | none =>
        simp only
        cases run c n ((m, w) :: env) w v ks with
        | error e => rfl
        | ok r => obtain ⟨r, k⟩ := r; cases r <;> rfl
    | false =>
      have hno := C39_type_filter_sound c n n env m f v hf ha
      have hacc : acc v = none := by
        cases hv : acc v with
        | none => rfl
        | some mi => exact absurd (show Hits _ _ _ _ by unfold Hits; rw [hd.answers n hn v ks, hv]) (hno ks mi ks)
      simp only [List.filter, ha, hnone, List.map, firstMatch, hacc]
      cases run c n ((m, w) :: env) w v ks with
      | error e => rfl
      | ok r => obtain ⟨r, k⟩ := r; cases r <;> rfl
  · intro p hp s hs
    simp only [List.mem_cons, List.not_mem_nil, or_false] at hp
    rcases hp with rfl | rfl
    · simp only at hs; subst hs; exact typeFilter_nodup n env m s hf
    · cases hs

/-- **C55**, `HasParent`: it matches a node or list iff the matcher accepts the object it stands in (never on the root), and
the result is the candidate with the bindings made on the parent. -/
theorem C55_has_parent {c : Ctx} {env : Env} {m : Matcher} {d : Nat} {acc : Val → Option MatchInfo} (hu : Unshared c.tree)
    (hd : Answers c env m d acc) {p : Path} {v : Val} (hp : c.tree.at? p = some v) (hv : v.isInner) (n : Nat) (hn : d < n)
    (ks : List Key) :
    (p = [] → run c n env (.hasParent m) v ks = .ok (none, ks)) ∧
    (∀ q i w, p = q ++ [i] → c.tree.at? q = some w →
      run c n env (.hasParent m) v ks = .ok ((acc w).map (relayed c v), ks)) := by
  obtain ⟨n, rfl⟩ : ∃ k, n = k + 1 := ⟨n - 1, by omega⟩
  refine ⟨?_, ?_⟩
  · rintro rfl
    simp only [Val.at?, Option.some.injEq] at hp
    subst hp
    simp only [run, C50_root hu hv]
  · rintro q i w rfl hw
    simp only [run, C50_parent_exact hu hp hv, hw]
    rw [hd.answers n (by omega)]
    exact rewrap_ok ..

theorem firstMatch_answers {c : Ctx} {env : Env} {m : Matcher} {n : Nat} {acc : Val → Option MatchInfo} (vs : List Val) (ks : List Key)
    (h : ∀ v ∈ vs, ∀ ks, run c n env m v ks = .ok (acc v, ks)) :
    firstMatch (vs.map fun w => run c n env m w) ks = .ok (vs.findSome? acc, ks) := by
  induction vs with
  | nil => rfl
  | cons v vs ih =>
    simp only [List.map, firstMatch, h v (by simp) ks, List.findSome?]
    cases acc v with
    | some mi => rfl
    | none => exact ih (fun w hw => h w (by simp [hw]))

theorem findSome_index {α β : Type} (f : α → Option β) (l : List α) (b : β) (h : l.findSome? f = some b) :
    ∃ (i : Nat) (a : α), l[i]? = some a ∧ f a = some b ∧ ∀ (j : Nat) (a' : α), j < i → l[j]? = some a' → f a' = none := by
  induction l with
  | nil => cases h
  | cons x l ih =>
    simp only [List.findSome?] at h
    cases hx : f x with
    | some y =>
      rw [hx] at h; cases h
      exact ⟨0, x, rfl, hx, fun j _ hj => absurd hj (by omega)⟩
    | none =>
      rw [hx] at h
      obtain ⟨i, a, h1, h2, h3⟩ := ih h
      refine ⟨i + 1, a, by simpa using h1, h2, fun j a' hj hja => ?_⟩
      cases j with
      | zero => simp only [List.getElem?_cons_zero, Option.some.injEq] at hja; subst hja; exact hx
      | succ j => exact h3 j a' (by omega) (by simpa using hja)

/-- **C55**, `HasChild`: it matches iff the matcher accepts a child (field value or item), and the result is the candidate with
the bindings made on the first such child. -/
theorem C55_has_child {c : Ctx} {env : Env} {m : Matcher} {d : Nat} {acc : Val → Option MatchInfo}
    (hd : Answers c env m d acc) (v : Val) (n : Nat) (hn : d < n) (ks : List Key) :
    ∃ r, run c n env (.hasChild m) v ks = .ok (r, ks) ∧ (r = none ↔ ∀ w ∈ v.children, acc w = none) ∧
      ∀ mi, r = some mi → ∃ (i : Nat) (w : Val) (a : MatchInfo), v.children[i]? = some w ∧ acc w = some a ∧ mi = relayed c v a ∧
        ∀ (j : Nat) (w' : Val), j < i → v.children[j]? = some w' → acc w' = none := by
  obtain ⟨n, rfl⟩ : ∃ k, n = k + 1 := ⟨n - 1, by omega⟩
  refine ⟨(v.children.findSome? acc).map (relayed c v), ?_, ?_, ?_⟩
  · simp only [run, firstMatch_answers v.children ks (fun w _ ks => hd.answers n (by omega) w ks)]
    exact rewrap_ok ..
  · rw [Option.map_eq_none_iff, List.findSome?_eq_none_iff]
  · intro mi h
    obtain ⟨a, h1, h2⟩ := Option.map_eq_some_iff.1 h
    obtain ⟨i, w, h3, h4, h5⟩ := findSome_index _ _ _ h1
    exact ⟨i, w, a, h3, h4, h2.symm, h5⟩

theorem bind_some {α β : Type} {o : Option α} {f : α → Option β} {a : α} (h : o = some a) : o.bind f = f a := by subst h; rfl

theorem prefix_snoc {q p : Path} {i : Nat} (h : q <+: p ++ [i]) : q <+: p ∨ q = p ++ [i] := by
  obtain ⟨t, ht⟩ := h
  rcases List.eq_nil_or_concat t with rfl | ⟨t', j, rfl⟩
  · right; simpa using ht
  · left
    rw [List.concat_eq_append, ← List.append_assoc] at ht
    exact ⟨t', (List.append_inj' ht rfl).1⟩

theorem up_loop {c : Ctx} {env : Env} {m : Matcher} {d : Nat} {acc : Val → Option MatchInfo} (hu : Unshared c.tree)
    (hd : Answers c env m d acc) : ∀ (k : Nat) (p : Path), p.length = k → ∀ (v : Val), c.tree.at? p = some v → v.isInner →
    ∀ (n : Nat), d + 3 * k + 3 ≤ n → ∀ ks, ∃ r, run c n env (.recWrapped m (.hasParent (.recurse 0))) v ks = .ok (r, ks) ∧
      (r = none → NoneUpTo acc c.tree p) ∧
      (∀ mi, r = some mi → ∃ q a, Nearest acc c.tree p q a ∧ (q = p → mi = a) ∧ (q ≠ p → mi = relayed c v a)) := by
  intro k
  induction k with
  | zero =>
    intro p hk v hp hv n hn ks
    have : p = [] := List.length_eq_zero_iff.1 hk
    subst this
    obtain ⟨n, rfl⟩ : ∃ k, n = k + 2 := ⟨n - 2, by omega⟩
    rw [recWrapped_step hd (n + 1) (by omega) rfl]
    simp only [Val.at?, Option.some.injEq] at hp
    cases ha : acc v with
    | some a =>
      refine ⟨some a, rfl, nofun, fun mi h => ⟨[], a, ⟨List.prefix_rfl, ?_, ?_⟩, fun _ => ?_, fun h => absurd rfl h⟩⟩
      · simp [Val.at?, hp, ha]
      · intro q' h1 h2; rw [List.prefix_nil.1 h1] at h2; simp at h2
      · cases h; rfl
    | none =>
      refine ⟨none, ?_, ?_, nofun⟩
      · subst hp; simp only [run, C50_root hu hv]
      · intro _ q hq; rw [List.prefix_nil.1 hq]; simp [Val.at?, hp, ha]
  | succ k ih =>
    intro p hk v hp hv n hn ks
    obtain ⟨n, rfl⟩ : ∃ k, n = k + 3 := ⟨n - 3, by omega⟩
    rw [recWrapped_step hd (n + 2) (by omega) rfl]
    rcases List.eq_nil_or_concat p with rfl | ⟨p, i, rfl⟩
    · simp at hk
    rw [List.concat_eq_append] at *
    simp only [List.length_append, List.length_cons, List.length_nil, Nat.zero_add, Nat.add_right_cancel_iff] at hk
    cases ha : acc v with
    | some a =>
      refine ⟨some a, rfl, nofun, fun mi h => ⟨p ++ [i], a, ⟨List.prefix_rfl, ?_, ?_⟩, fun _ => ?_, fun h => absurd rfl h⟩⟩
      · rw [bind_some hp, ha]
      · intro q' h1 h2; have := h1.length_le; omega
      · cases h; rfl
    | none =>
      obtain ⟨w, cr, hw, _, hchild, _⟩ := breadcrumb_exact hu hp hv
      have hwi : w.isInner := by
        intro j x e; subst e; simp [Val.children] at hchild
      obtain ⟨r, h1, h2, h3⟩ := ih p hk w hw hwi n (by omega) ks
      refine ⟨r.map (relayed c v), ?_, ?_, ?_⟩
      · simp only [run, C50_parent_exact hu hp hv, hw, List.getElem?_cons_zero, Nat.zero_add, List.drop_succ_cons, List.drop_zero, h1]
        exact rewrap_ok ..
      · intro hr q hq
        rcases prefix_snoc hq with hq | rfl
        · exact h2 (Option.map_eq_none_iff.1 hr) q hq
        · rw [bind_some hp, ha]
      · intro mi hmi
        obtain ⟨mi', e1, e2⟩ := Option.map_eq_some_iff.1 hmi
        obtain ⟨q, a, hq, g1, g2⟩ := h3 mi' e1
        refine ⟨q, a, ⟨hq.above.trans (List.prefix_append ..), hq.accepted, ?_⟩, ?_, ?_⟩
        · intro q' h1' h2'
          rcases prefix_snoc h1' with h | rfl
          · exact hq.nearest q' h h2'
          · rw [bind_some hp, ha]
        · intro e
          have := hq.above.length_le
          rw [e] at this; simp at this; omega
        · intro _
          rw [← e2]
          by_cases e : q = p
          · rw [g1 e]
          · rw [g2 e]; rfl

/-- **C55**, `IsOrHasAncestor`: it matches a node or list iff the matcher accepts it or some object that contains it. The
bindings are those made on the nearest such object; the match is the candidate. -/
theorem C55_is_or_has_ancestor {c : Ctx} {env : Env} {m : Matcher} {d : Nat} {acc : Val → Option MatchInfo} (hu : Unshared c.tree)
    (hd : Answers c env m d acc) {p : Path} {v : Val} (hp : c.tree.at? p = some v) (hv : v.isInner) (n : Nat)
    (hn : d + 3 * p.length + 4 ≤ n) (ks : List Key) :
    (NoneUpTo acc c.tree p ∧ run c n env (isOrHasAncestor m) v ks = .ok (none, ks)) ∨
    ∃ q a, Nearest acc c.tree p q a ∧
      run c n env (isOrHasAncestor m) v ks = .ok (some (if q = p then a else relayed c v a), ks) := by
  obtain ⟨n, rfl⟩ : ∃ k, n = k + 1 := ⟨n - 1, by omega⟩
  obtain ⟨r, h1, h2, h3⟩ := up_loop hu hd p.length p rfl v hp hv n (by omega) ks
  cases r with
  | none => exact .inl ⟨h2 rfl, by simp only [isOrHasAncestor, run, h1]⟩
  | some mi =>
    obtain ⟨q, a, hq, g1, g2⟩ := h3 mi rfl
    refine .inr ⟨q, a, hq, ?_⟩
    simp only [isOrHasAncestor, run, h1]
    split
    · rename_i e; rw [g1 e]
    · rename_i e; rw [g2 e]

/-- **C55**, `HasAncestor`: it matches a node or list iff the matcher accepts an object that contains it, other than itself;
the bindings are those made on the nearest one. -/
theorem C55_has_ancestor {c : Ctx} {env : Env} {m : Matcher} {d : Nat} {acc : Val → Option MatchInfo} (hu : Unshared c.tree)
    (hd : Answers c env m d acc) {p : Path} {v : Val} (hp : c.tree.at? p = some v) (hv : v.isInner) (n : Nat)
    (hn : d + 3 * p.length + 6 ≤ n) (ks : List Key) :
    ((∀ q i, p = q ++ [i] → NoneUpTo acc c.tree q) ∧ run c n env (hasAncestor m) v ks = .ok (none, ks)) ∨
    ∃ q0 i q a, p = q0 ++ [i] ∧ Nearest acc c.tree q0 q a ∧ run c n env (hasAncestor m) v ks = .ok (some (relayed c v a), ks) := by
  obtain ⟨n, rfl⟩ : ∃ k, n = k + 2 := ⟨n - 2, by omega⟩
  rcases List.eq_nil_or_concat p with rfl | ⟨p, i, rfl⟩
  · refine .inl ⟨fun q i e => by simp at e, ?_⟩
    simp only [Val.at?, Option.some.injEq] at hp
    subst hp
    simp only [hasAncestor, run, C50_root hu hv]
  · rw [List.concat_eq_append] at *
    obtain ⟨w, cr, hw, _, hchild, _⟩ := breadcrumb_exact hu hp hv
    have hwi : w.isInner := by
      intro j x e; subst e; simp [Val.children] at hchild
    simp only [List.length_append, List.length_cons, List.length_nil] at hn
    have h := C55_is_or_has_ancestor hu hd hw hwi n (by omega) ks
    have e : run c (n + 2) env (hasAncestor m) v ks = rewrap c v (run c n env (isOrHasAncestor m) w ks) := by
      simp only [hasAncestor, run, C50_parent_exact hu hp hv, hw]
    rcases h with ⟨h1, h2⟩ | ⟨q, a, h1, h2⟩
    · refine .inl ⟨fun q j e => ?_, by rw [e, h2]; rfl⟩
      rw [(List.append_inj' e rfl).1] at h1; exact h1
    · refine .inr ⟨p, i, q, a, rfl, h1, ?_⟩
      rw [e, h2, rewrap_ok]
      simp only [Option.map_some]
      split <;> rfl

theorem before_snoc_nil (s : Path) : before s [] = false := by cases s <;> rfl

theorem down_loop {c : Ctx} {env : Env} {m : Matcher} {d : Nat} {acc : Val → Option MatchInfo}
    (hd : Answers c env m d acc) : ∀ (k : Nat) (v : Val), v.size ≤ k →
    ∀ (n : Nat), d + 3 * k + 3 ≤ n → ∃ r, (∀ ks, run c n env (.recWrapped m (.hasChild (.recurse 0))) v ks = .ok (r, ks)) ∧
      (r = none → ∀ s, (v.at? s).bind acc = none) ∧
      (∀ mi, r = some mi → ∃ s a, FirstInside acc v s a ∧ (s = [] → mi = a) ∧ (s ≠ [] → mi = relayed c v a)) := by
  intro k
  induction k with
  | zero => intro v hv; have := v.size_pos; omega
  | succ k ih =>
    intro v hk n hn
    obtain ⟨n, rfl⟩ : ∃ k, n = k + 3 := ⟨n - 3, by omega⟩
    cases ha : acc v with
    | some a =>
      refine ⟨some a, ?_, nofun, fun mi h => ⟨[], a, ⟨by simp [Val.at?, ha], ?_⟩, fun _ => ?_, fun h => absurd rfl h⟩⟩
      · intro ks; rw [recWrapped_step hd (n + 2) (by omega) rfl, ha]
      · rintro s' (⟨h1, h2⟩ | h1)
        · exact absurd (List.prefix_nil.1 h1) h2
        · rw [before_snoc_nil] at h1; cases h1
      · cases h; rfl
    | none =>
      have hsz : ∀ w ∈ v.children, w.size ≤ k := by
        intro w hw
        have h1 := v.size_children
        have h2 : w.size ≤ Val.sizes v.children := by
          generalize v.children = l at hw
          induction l with
          | nil => simp at hw
          | cons x l ihl =>
            simp only [Val.sizes]
            rcases List.mem_cons.1 hw with h | h
            · rw [h]; omega
            · have := ihl h; omega
        omega
      have key : ∃ ans : Val → Option MatchInfo, ∀ w ∈ v.children,
          (∀ ks, run c n env (.recWrapped m (.hasChild (.recurse 0))) w ks = .ok (ans w, ks)) ∧
          (ans w = none → ∀ s, (w.at? s).bind acc = none) ∧
          (∀ mi, ans w = some mi → ∃ s a, FirstInside acc w s a ∧ (s = [] → mi = a) ∧ (s ≠ [] → mi = relayed c w a)) := by
        refine ⟨fun w => match run c n env (.recWrapped m (.hasChild (.recurse 0))) w [] with
          | .ok (r, _) => r
          | .error _ => none, fun w hw => ?_⟩
        obtain ⟨r, h1, h2, h3⟩ := ih w (hsz w hw) n (by omega)
        simp only [h1]
        exact ⟨fun _ => trivial, h2, h3⟩
      obtain ⟨ans, hans⟩ := key
      have hrun : ∀ w ∈ v.children, ∀ ks, run c (n + 1) ((m, .hasChild (.recurse 0)) :: env) (.recurse 0) w ks = .ok (ans w, ks) := by
        intro w hw ks
        simp only [run, List.getElem?_cons_zero, Nat.zero_add, List.drop_succ_cons, List.drop_zero]
        exact (hans w hw).1 ks
      refine ⟨(v.children.findSome? ans).map (relayed c v), ?_, ?_, ?_⟩
      · intro ks
        rw [recWrapped_step hd (n + 2) (by omega) rfl, ha]
        have e : run c (n + 2) ((m, .hasChild (.recurse 0)) :: env) (.hasChild (.recurse 0)) v ks =
            rewrap c v (firstMatch (v.children.map fun w => run c (n + 1) ((m, .hasChild (.recurse 0)) :: env) (.recurse 0) w) ks) := rfl
        simp only [e]
        rw [firstMatch_answers v.children ks hrun]
        exact rewrap_ok ..
      · intro hr s
        rw [Option.map_eq_none_iff, List.findSome?_eq_none_iff] at hr
        cases s with
        | nil => simp [Val.at?, ha]
        | cons i s =>
          rw [at?_cons]
          cases hi : v.children[i]? with
          | none => rfl
          | some w =>
            simp only [Option.bind_some]
            have hw := List.mem_of_getElem? hi
            exact (hans w hw).2.1 (hr w hw) s
      · intro mi hmi
        obtain ⟨mi', e1, e2⟩ := Option.map_eq_some_iff.1 hmi
        obtain ⟨i, w, h3, h4, h5⟩ := findSome_index _ _ _ e1
        have hw := List.mem_of_getElem? h3
        obtain ⟨s, a, g1, g2, g3⟩ := (hans w hw).2.2 mi' h4
        refine ⟨i :: s, a, ⟨?_, ?_⟩, nofun, fun _ => ?_⟩
        · rw [at?_cons, h3]; exact g1.accepted
        · intro s' hs'
          cases s' with
          | nil => simp [Val.at?, ha]
          | cons j s' =>
            rw [at?_cons]
            cases hj : v.children[j]? with
            | none => rfl
            | some w' =>
              simp only [Option.bind_some]
              have hw' := List.mem_of_getElem? hj
              rcases hs' with ⟨h1, h2⟩ | h1
              · rw [List.cons_prefix_cons] at h1
                obtain ⟨rfl, h1⟩ := h1
                rw [h3] at hj; cases hj
                exact g1.first s' (.inl ⟨h1, fun e => h2 (by rw [e])⟩)
              · simp only [before, Bool.or_eq_true, Bool.and_eq_true, decide_eq_true_eq] at h1
                rcases h1 with h1 | ⟨rfl, h1⟩
                · exact (hans w' hw').2.1 (h5 j w' h1 hj) s'
                · rw [h3] at hj; cases hj
                  exact g1.first s' (.inr h1)
        · rw [← e2]
          by_cases e : s = []
          · rw [g2 e]
          · rw [g3 e]; rfl

/-- **C55**, `IsOrHasDescendant`: it matches iff the matcher accepts the candidate or some object inside it; the bindings are
those made on the first one in document order. -/
theorem C55_is_or_has_descendant {c : Ctx} {env : Env} {m : Matcher} {d : Nat} {acc : Val → Option MatchInfo}
    (hd : Answers c env m d acc) (v : Val) (n : Nat) (hn : d + 3 * v.size + 4 ≤ n) (ks : List Key) :
    ((∀ s, (v.at? s).bind acc = none) ∧ run c n env (isOrHasDescendant m) v ks = .ok (none, ks)) ∨
    ∃ s a, FirstInside acc v s a ∧
      run c n env (isOrHasDescendant m) v ks = .ok (some (if s = [] then a else relayed c v a), ks) := by
  obtain ⟨n, rfl⟩ : ∃ k, n = k + 1 := ⟨n - 1, by omega⟩
  obtain ⟨r, h1, h2, h3⟩ := down_loop hd v.size v (Nat.le_refl _) n (by omega)
  cases r with
  | none => exact .inl ⟨h2 rfl, by simp only [isOrHasDescendant, run, h1]⟩
  | some mi =>
    obtain ⟨q, a, hq, g1, g2⟩ := h3 mi rfl
    refine .inr ⟨q, a, hq, ?_⟩
    simp only [isOrHasDescendant, run, h1]
    split
    · rename_i e; rw [g1 e]
    · rename_i e; rw [g2 e]

/-- **C55**, `HasDescendant`: it matches iff the matcher accepts an object inside the candidate, other than itself; the
bindings are those made on the first one in document order. -/
theorem C55_has_descendant {c : Ctx} {env : Env} {m : Matcher} {d : Nat} {acc : Val → Option MatchInfo}
    (hd : Answers c env m d acc) (v : Val) (n : Nat) (hn : d + 3 * v.size + 6 ≤ n) (ks : List Key) :
    ((∀ s, s ≠ [] → (v.at? s).bind acc = none) ∧ run c n env (hasDescendant m) v ks = .ok (none, ks)) ∨
    ∃ (i : Nat) (w : Val) (s : Path) (a : MatchInfo), v.children[i]? = some w ∧ FirstInside acc w s a ∧
      (∀ (j : Nat) (s' : Path), j < i → (v.at? (j :: s')).bind acc = none) ∧
      run c n env (hasDescendant m) v ks = .ok (some (relayed c v a), ks) := by
  obtain ⟨n, rfl⟩ : ∃ k, n = k + 2 := ⟨n - 2, by omega⟩
  have hsz : ∀ w ∈ v.children, w.size ≤ v.size := by
    intro w hw
    have h1 := v.size_children
    have h2 : w.size ≤ Val.sizes v.children := by
      generalize v.children = l at hw
      induction l with
      | nil => simp at hw
      | cons x l ihl =>
        simp only [Val.sizes]
        rcases List.mem_cons.1 hw with h | h
        · rw [h]; omega
        · have := ihl h; omega
    omega
  let ans : Val → Option MatchInfo := fun w => match run c n env (isOrHasDescendant m) w [] with
    | .ok (r, _) => r
    | .error _ => none
  have hans : ∀ w ∈ v.children, (∀ ks, run c n env (isOrHasDescendant m) w ks = .ok (ans w, ks)) ∧
      (ans w = none → ∀ s, (w.at? s).bind acc = none) ∧
      (∀ mi, ans w = some mi → ∃ s a, FirstInside acc w s a ∧ mi.bindings = a.bindings) := by
    intro w hw
    obtain ⟨n, rfl⟩ : ∃ k, n = k + 1 := ⟨n - 1, by omega⟩
    obtain ⟨r, h1, h2, h3⟩ := down_loop hd v.size w (hsz w hw) n (by omega)
    have e : ∀ ks, run c (n + 1) env (isOrHasDescendant m) w ks = .ok (r, ks) := fun ks => h1 ks
    have e' : ans w = r := by simp only [ans, e]
    rw [e']
    refine ⟨e, h2, fun mi hmi => ?_⟩
    obtain ⟨s, a, g1, g2, g3⟩ := h3 mi hmi
    refine ⟨s, a, g1, ?_⟩
    by_cases h : s = []
    · rw [g2 h]
    · rw [g3 h]; rfl
  have e : run c (n + 2) env (hasDescendant m) v ks =
      rewrap c v (firstMatch (v.children.map fun w => run c n env (isOrHasDescendant m) w) ks) := rfl
  rw [e, firstMatch_answers v.children ks (fun w hw => (hans w hw).1), rewrap_ok]
  cases hf : v.children.findSome? ans with
  | none =>
    refine .inl ⟨fun s hs => ?_, rfl⟩
    rw [List.findSome?_eq_none_iff] at hf
    cases s with
    | nil => exact absurd rfl hs
    | cons i s =>
      rw [at?_cons]
      cases hi : v.children[i]? with
      | none => rfl
      | some w =>
        have hw := List.mem_of_getElem? hi
        exact (hans w hw).2.1 (hf w hw) s
  | some mi =>
    obtain ⟨i, w, h3, h4, h5⟩ := findSome_index _ _ _ hf
    have hw := List.mem_of_getElem? h3
    obtain ⟨s, a, g1, g2⟩ := (hans w hw).2.2 mi h4
    refine .inr ⟨i, w, s, a, h3, g1, ?_, ?_⟩
    · intro j s' hj
      rw [at?_cons]
      cases hi : v.children[j]? with
      | none => rfl
      | some w' => exact (hans w' (List.mem_of_getElem? hi)).2.1 (h5 j w' hj hi) s'
    · simp only [Option.map_some, relayed, g2]

theorem firstHit_append_left {fs gs : List (List Key → MOut)} {ks ks' : List Key} {a : MatchInfo} (h : FirstHit fs ks a ks') :
    FirstHit (fs ++ gs) ks a ks' := by
  induction h with
  | hit h => exact .hit h
  | miss h _ ih => exact .miss h ih
  | never h _ ih => exact .never h ih

theorem firstHit_append_right {fs gs : List (List Key → MOut)} {ks ks1 ks' : List Key} {a : MatchInfo} (h : AllMiss fs ks ks1)
    (hg : FirstHit gs ks1 a ks') : FirstHit (fs ++ gs) ks a ks' := by
  induction h with
  | nil => exact hg
  | miss h _ ih => exact .miss h (ih hg)
  | never h _ ih => exact .never h (ih hg)

theorem allMiss_append {fs gs : List (List Key → MOut)} {ks ks1 ks' : List Key} (h : AllMiss fs ks ks1)
    (hg : AllMiss gs ks1 ks') : AllMiss (fs ++ gs) ks ks' := by
  induction h with
  | nil => exact hg
  | miss h _ ih => exact .miss h (ih hg)
  | never h _ ih => exact .never h (ih hg)

/-- One round of `RecursivelyWrapped`, any matcher. -/
theorem recWrapped_round {c : Ctx} {env : Env} {m w : Matcher} {n : Nat} (hw : typeFilter n ((m, w) :: env) w = .ok none)
    {v : Val} {ks ks' : List Key} {r : Option MatchInfo} (h : run c (n + 1) env (.recWrapped m w) v ks = .ok (r, ks')) :
    (∃ mi, r = some mi ∧ Hits (run c n env m v) ks mi ks') ∨
    (∃ ks1, (Misses (run c n env m v) ks ks1 ∨ (NeverHits (run c n env m v) ∧ ks1 = ks)) ∧
      run c n ((m, w) :: env) w v ks1 = .ok (r, ks')) := by
  simp only [run] at h
  cases hf : typeFilter n env m with
  | error e => rw [hf] at h; cases h
  | ok f =>
    rw [hf, hw] at h
    simp only at h
    have hnone : admits none v.ty = true := rfl
    rw [dispatch_eq] at h
    · have hlast : ∀ ks1, firstMatch [run c n ((m, w) :: env) w v] ks1 = run c n ((m, w) :: env) w v ks1 := by
        intro ks1
        simp only [firstMatch]
        cases run c n ((m, w) :: env) w v ks1 with
        | error e => rfl
        | ok r => obtain ⟨r, k⟩ := r; cases r <;> rfl
      cases ha : admits f v.ty with
      | true =>
        simp only [List.filter, ha, hnone, List.map] at h
        rw [firstMatch] at h
        cases hm : run c n env m v ks with
        | error e => rw [hm] at h; cases h
        | ok x =>
          obtain ⟨x, ks1⟩ := x
          rw [hm] at h
          cases x with
          | some mi => cases h; exact .inl ⟨mi, rfl, hm⟩
          | none =>
            simp only [hlast] at h
            exact .inr ⟨ks1, .inl hm, h⟩
      | false =>
        simp only [List.filter, ha, hnone, List.map, hlast] at h
        exact .inr ⟨ks, .inr ⟨C39_type_filter_sound c n n env m f v hf ha, rfl⟩, h⟩
    · intro p hp s hs
      simp only [List.mem_cons, List.not_mem_nil, or_false] at hp
      rcases hp with rfl | rfl
      · simp only at hs; subst hs; exact typeFilter_nodup n env m s hf
      · cases hs

theorem rewrap_inv {c : Ctx} {v : Val} {o : MOut} {r : Option MatchInfo} {ks' : List Key} (h : rewrap c v o = .ok (r, ks')) :
    ∃ r0, o = .ok (r0, ks') ∧ r = r0.map (relayed c v) := by
  cases o with
  | error e => cases h
  | ok x =>
    obtain ⟨x, k⟩ := x
    rw [rewrap_ok] at h
    cases h
    exact ⟨x, rfl, rfl⟩

theorem containers_nil (tree : Val) : containers tree [] = [tree] := by
  simp [containers, Val.at?]

theorem containers_snoc {tree v : Val} {p : Path} {i : Nat} (h : tree.at? (p ++ [i]) = some v) :
    containers tree (p ++ [i]) = v :: containers tree p := by
  unfold containers
  rw [List.length_append, List.length_singleton, List.range_succ_eq_map, List.filterMap_cons, List.filterMap_map]
  have e0 : (p ++ [i]).take (p.length + 1 - 0) = p ++ [i] := by
    rw [List.take_of_length_le]; simp
  rw [e0, h]
  simp only
  congr 2
  funext j
  simp only [Function.comp]
  rw [List.take_append_of_le_length (by omega)]
  congr 2
  omega

/-- The outcome of looking through a list of objects: the first hit, relayed to the candidate unless it is the candidate's
own, or nothing. -/
theorem up_any {c : Ctx} {env : Env} {m : Matcher} (hu : Unshared c.tree) : ∀ (k : Nat) (p : Path), p.length = k →
    ∀ (v : Val), c.tree.at? p = some v → v.isInner → ∀ (n : Nat) (ks ks' : List Key) (r : Option MatchInfo),
    run c (n + 1) env (.recWrapped m (.hasParent (.recurse 0))) v ks = .ok (r, ks') →
      (r = none → AllMiss (attempts c env m n (containers c.tree p)) ks ks') ∧
      (∀ mi, r = some mi → ∃ a, FirstHit (attempts c env m n (containers c.tree p)) ks a ks' ∧ (mi = a ∨ mi = relayed c v a)) := by
  intro k
  induction k with
  | zero =>
    intro p hk v hp hv n ks ks' r h
    have : p = [] := List.length_eq_zero_iff.1 hk
    subst this
    simp only [Val.at?, Option.some.injEq] at hp
    cases n with
    | zero => simp [run, typeFilter] at h
    | succ n =>
    rw [containers_nil]
    simp only [attempts]
    rcases recWrapped_round rfl h with ⟨mi, rfl, h1⟩ | ⟨ks1, h1, h2⟩
    · rw [hp]
      exact ⟨nofun, fun mi' e => ⟨mi, .hit h1, .inl (by cases e; rfl)⟩⟩
    · rw [hp]
      subst hp
      simp only [run, C50_root hu hv] at h2
      cases h2
      refine ⟨fun _ => ?_, nofun⟩
      rcases h1 with h1 | ⟨h1, rfl⟩
      · exact .miss h1 .nil
      · exact .never h1 .nil
  | succ k ih =>
    intro p hk v hp hv n ks ks' r h
    cases n with
    | zero => simp [run, typeFilter] at h
    | succ n =>
    rcases List.eq_nil_or_concat p with rfl | ⟨p, i, rfl⟩
    · simp at hk
    rw [List.concat_eq_append] at *
    simp only [List.length_append, List.length_cons, List.length_nil, Nat.zero_add, Nat.add_right_cancel_iff] at hk
    rw [containers_snoc hp]
    simp only [attempts]
    rcases recWrapped_round rfl h with ⟨mi, rfl, h1⟩ | ⟨ks1, h1, h2⟩
    · exact ⟨nofun, fun mi' e => ⟨mi, .hit h1, .inl (by cases e; rfl)⟩⟩
    · obtain ⟨w, cr, hw, _, hchild, _⟩ := breadcrumb_exact hu hp hv
      have hwi : w.isInner := by
        intro j x e; subst e; simp [Val.children] at hchild
      simp only [run, C50_parent_exact hu hp hv, hw] at h2
      obtain ⟨r0, h3, rfl⟩ := rewrap_inv h2
      cases n with
      | zero => simp [run] at h3
      | succ n =>
      simp only [run, List.getElem?_cons_zero, Nat.zero_add, List.drop_succ_cons, List.drop_zero] at h3
      cases n with
      | zero => simp [run] at h3
      | succ n =>
      obtain ⟨g1, g2⟩ := ih p hk w hw hwi n ks1 ks' r0 h3
      have hsub : n + 1 + 1 + 1 - 3 = n := by omega
      rw [hsub]
      refine ⟨fun hr => ?_, fun mi hmi => ?_⟩
      · have := g1 (Option.map_eq_none_iff.1 hr)
        rcases h1 with h1 | ⟨h1, rfl⟩
        · exact .miss h1 this
        · exact .never h1 this
      · obtain ⟨mi', e1, e2⟩ := Option.map_eq_some_iff.1 hmi
        obtain ⟨a, g3, g4⟩ := g2 mi' e1
        refine ⟨a, ?_, .inr ?_⟩
        · rcases h1 with h1 | ⟨h1, rfl⟩
          · exact .miss h1 g3
          · exact .never h1 g3
        · rw [← e2]
          rcases g4 with rfl | rfl <;> rfl

/-- **C55**, `IsOrHasAncestor`, for every matcher, also those that raise exceptions or use `Once`: if it matches, then with
the result of the first hit among the candidate and the objects that contain it, from the inside out; if it does not, none
of them is a hit. (If it raises, nothing is said.) -/
theorem C55_is_or_has_ancestor_any {c : Ctx} {env : Env} {m : Matcher} (hu : Unshared c.tree) {p : Path} {v : Val}
    (hp : c.tree.at? p = some v) (hv : v.isInner) (n : Nat) (ks ks' : List Key) :
    (∀ mi, run c (n + 2) env (isOrHasAncestor m) v ks = .ok (some mi, ks') →
      ∃ a, FirstHit (attempts c env m n (containers c.tree p)) ks a ks' ∧ (mi = a ∨ mi = relayed c v a)) ∧
    (run c (n + 2) env (isOrHasAncestor m) v ks = .ok (none, ks') → AllMiss (attempts c env m n (containers c.tree p)) ks ks') := by
  refine ⟨fun mi h => ?_, fun h => ?_⟩
  · exact (up_any hu p.length p rfl v hp hv n ks ks' _ h).2 mi rfl
  · exact (up_any hu p.length p rfl v hp hv n ks ks' _ h).1 rfl

theorem down_children {c : Ctx} {env : Env} {m : Matcher} (n : Nat)
    (f : Val → List Key → MOut) : ∀ (ws : List Val),
    (∀ w ∈ ws, ∀ ks ks' r, f w ks = .ok (r, ks') →
      (r = none → AllMiss (attemptsIn c env m n w) ks ks') ∧
      (∀ mi, r = some mi → ∃ a, FirstHit (attemptsIn c env m n w) ks a ks' ∧ (mi = a ∨ mi = relayed c w a))) →
    ∀ ks ks' r, firstMatch (ws.map f) ks = .ok (r, ks') →
      (r = none → AllMiss (attemptsInAll c env m n ws) ks ks') ∧
      (∀ mi, r = some mi → ∃ a, FirstHit (attemptsInAll c env m n ws) ks a ks' ∧ mi.bindings = a.bindings) := by
  intro ws
  induction ws with
  | nil =>
    intro _ ks ks' r h
    cases h
    exact ⟨fun _ => .nil, nofun⟩
  | cons w ws ih =>
    intro hw ks ks' r h
    simp only [List.map, firstMatch] at h
    simp only [attemptsInAll]
    cases hf : f w ks with
    | error e => rw [hf] at h; cases h
    | ok x =>
      obtain ⟨x, ks1⟩ := x
      rw [hf] at h
      obtain ⟨g1, g2⟩ := hw w (by simp) ks ks1 x hf
      cases x with
      | some mi =>
        cases h
        refine ⟨nofun, fun mi' e => ?_⟩
        cases e
        obtain ⟨a, g3, g4⟩ := g2 mi rfl
        refine ⟨a, firstHit_append_left g3, ?_⟩
        rcases g4 with rfl | rfl <;> rfl
      | none =>
        obtain ⟨g3, g4⟩ := ih (fun w' hw' => hw w' (by simp [hw'])) ks1 ks' r h
        refine ⟨fun e => allMiss_append (g1 rfl) (g3 e), fun mi e => ?_⟩
        obtain ⟨a, g5, g6⟩ := g4 mi e
        exact ⟨a, firstHit_append_right (g1 rfl) g5, g6⟩

theorem attemptsIn_eq (c : Ctx) (env : Env) (m : Matcher) (n : Nat) (v : Val) :
    attemptsIn c env m n v = run c n env m v :: attemptsInAll c env m (n - 3) v.children := by
  cases v <;> simp [attemptsIn, Val.children, attemptsInAll]

theorem down_any {c : Ctx} {env : Env} {m : Matcher} : ∀ (k : Nat) (v : Val), v.size ≤ k → ∀ (n : Nat) (ks ks' : List Key) (r : Option MatchInfo),
    run c (n + 1) env (.recWrapped m (.hasChild (.recurse 0))) v ks = .ok (r, ks') →
      (r = none → AllMiss (attemptsIn c env m n v) ks ks') ∧
      (∀ mi, r = some mi → ∃ a, FirstHit (attemptsIn c env m n v) ks a ks' ∧ (mi = a ∨ mi = relayed c v a)) := by
  intro k
  induction k with
  | zero => intro v hv; have := v.size_pos; omega
  | succ k ih =>
    intro v hk n ks ks' r h
    cases n with
    | zero => simp [run, typeFilter] at h
    | succ n =>
    rw [attemptsIn_eq]
    rcases recWrapped_round rfl h with ⟨mi, rfl, h1⟩ | ⟨ks1, h1, h2⟩
    · exact ⟨nofun, fun mi' e => ⟨mi, .hit h1, .inl (by cases e; rfl)⟩⟩
    · simp only [run] at h2
      obtain ⟨r0, h3, rfl⟩ := rewrap_inv h2
      have hsz : ∀ w ∈ v.children, w.size ≤ k := by
        intro w hw
        have h1 := v.size_children
        have h2 : w.size ≤ Val.sizes v.children := by
          generalize v.children = l at hw
          induction l with
          | nil => simp at hw
          | cons x l ihl =>
            simp only [Val.sizes]
            rcases List.mem_cons.1 hw with h | h
            · rw [h]; omega
            · have := ihl h; omega
        omega
      have hstep := down_children (c := c) (env := env) (m := m) (n + 1 - 3)
        (fun w => run c n ((m, .hasChild (.recurse 0)) :: env) (.recurse 0) w) v.children (by
          intro w hw ks ks' r h
          cases n with
          | zero => simp [run] at h
          | succ n =>
          simp only [run, List.getElem?_cons_zero, Nat.zero_add, List.drop_succ_cons, List.drop_zero] at h
          cases n with
          | zero => simp [run] at h
          | succ n =>
          have hsub : n + 1 + 1 + 1 - 3 = n := by omega
          rw [hsub]
          exact ih w (hsz w hw) n ks ks' r h) ks1 ks' r0 h3
      refine ⟨fun hr => ?_, fun mi hmi => ?_⟩
      · have := hstep.1 (Option.map_eq_none_iff.1 hr)
        rcases h1 with h1 | ⟨h1, rfl⟩
        · exact .miss h1 this
        · exact .never h1 this
      · obtain ⟨mi', e1, e2⟩ := Option.map_eq_some_iff.1 hmi
        obtain ⟨a, g3, g4⟩ := hstep.2 mi' e1
        refine ⟨a, ?_, .inr ?_⟩
        · rcases h1 with h1 | ⟨h1, rfl⟩
          · exact .miss h1 g3
          · exact .never h1 g3
        · rw [← e2]; simp only [relayed, g4]

/-- **C55**, `IsOrHasDescendant`, for every matcher: if it matches, then with the result of the first hit among the candidate
and the objects inside it, in document order; if it does not, none of them is a hit. (If it raises, nothing is said.) -/
theorem C55_is_or_has_descendant_any (c : Ctx) (env : Env) (m : Matcher) (v : Val) (n : Nat) (ks ks' : List Key) :
    (∀ mi, run c (n + 2) env (isOrHasDescendant m) v ks = .ok (some mi, ks') →
      ∃ a, FirstHit (attemptsIn c env m n v) ks a ks' ∧ (mi = a ∨ mi = relayed c v a)) ∧
    (run c (n + 2) env (isOrHasDescendant m) v ks = .ok (none, ks') → AllMiss (attemptsIn c env m n v) ks ks') := by
  refine ⟨fun mi h => ?_, fun h => ?_⟩
  · exact (down_any v.size v (Nat.le_refl _) n ks ks' _ h).2 mi rfl
  · exact (down_any v.size v (Nat.le_refl _) n ks ks' _ h).1 rfl

/-- A type test satisfies the hypothesis. -/
theorem answers_typeIs (c : Ctx) (env : Env) (ty : Str) :
    Answers c env (.typeIs ty) 1 (fun v => if v.ty = ty then some ⟨createMatch c v, [], []⟩ else none) := by
  constructor
  · intro n hn v ks
    obtain ⟨n, rfl⟩ : ∃ k, n = k + 1 := ⟨n - 1, by omega⟩
    simp only [run, found]
    split <;> rfl
  · intro n hn
    obtain ⟨n, rfl⟩ : ∃ k, n = k + 1 := ⟨n - 1, by omega⟩
    exact ⟨_, rfl⟩

/-- So does a binding. -/
theorem answers_bind {c : Ctx} {env : Env} {m : Matcher} {d : Nat} {acc : Val → Option MatchInfo} (h : Answers c env m d acc)
    (hb : ∀ v a, acc v = some a → a.bindings = []) (name : Label) :
    Answers c env (.bind name m none none) (d + 1) (fun v => (acc v).map fun a => { a with bindings := [(name, ⟨a.obj, .merge, .keepLast⟩)] }) := by
  constructor
  · intro n hn v ks
    obtain ⟨n, rfl⟩ : ∃ k, n = k + 1 := ⟨n - 1, by omega⟩
    simp only [run, h.answers n (by omega)]
    cases ha : acc v with
    | none => rfl
    | some a =>
      simp only [hb v a ha, Option.getD_none]
      rw [show mergeBindings [] [(name, ⟨a.obj, .merge, .keepLast⟩)] = .ok (some [(name, ⟨a.obj, .merge, .keepLast⟩)]) by
        simp [mergeBindings, mergeBindingsIn, updateFrom, Dict.get?, Dict.has, Dict.keys, Dict.set]; rfl]
      rfl
  · intro n hn
    obtain ⟨n, rfl⟩ : ∃ k, n = k + 1 := ⟨n - 1, by omega⟩
    exact h.filter n (by omega)

/-- A file whose tree is `foo.bar; pass`. -/
def exAttrCtx : Ctx := { exCtx with tree := exModule }

/-- In `foo.bar`, the name has the expression statement as an ancestor; the bindings made there are returned. -/
example : ∃ mi, run exAttrCtx 30 [] (hasAncestor (.bind (str "e") (.typeIs (str "Expr")) none none))
      (.node 5 (str "Name") [str "id", str "ctx"] [.const 6 (.str (str "foo")), .node 7 (str "Load") [] []]) [] = .ok (some mi, []) ∧
    mi.bindings.keys = [str "e"] ∧ mi.obj.matched?.map Val.ident = some 5 := by
  rcases C55_has_ancestor (c := exAttrCtx) (p := [0, 0, 0, 0]) exModule_unshared
    (answers_bind (answers_typeIs exAttrCtx [] (str "Expr")) (by intro v a h; split at h <;> cases h; rfl) (str "e")) rfl
    (by intro i c h; cases h) 30 (by decide) [] with ⟨h, _⟩ | ⟨q0, i, q, a, hp, hq, h⟩
  · have := h [0, 0, 0] 0 rfl [0, 0] ⟨[0], rfl⟩
    have h' := congrArg Option.isSome this
    exact absurd h' (by decide)
  · refine ⟨_, h, ?_, rfl⟩
    have := hq.accepted
    obtain ⟨w, _, h2⟩ := Option.bind_eq_some_iff.1 this
    obtain ⟨b, _, h4⟩ := Option.map_eq_some_iff.1 h2
    rw [← h4]; rfl

/-- The module has it as a descendant. -/
example : ∃ mi, run exAttrCtx 60 [] (hasDescendant (.bind (str "e") (.typeIs (str "Expr")) none none)) exModule [] = .ok (some mi, []) ∧
    mi.bindings.keys = [str "e"] ∧ mi.obj.matched?.map Val.ident = some 1 := ⟨_, rfl, by decide, by decide⟩

/-- The limit of the claim: on something that is neither a node nor a list `HasParent` should fail; it finds the parent of
some object with the same identity. Here the string `foo` of the field `attr` of an Attribute is said to be in a Name. -/
theorem C55_leaf_false : exAttrCtx.tree.at? [0, 0, 0, 1] = some (.const 6 (.str (str "foo"))) ∧
    ((exAttrCtx.tree.at? [0, 0, 0]).map Val.ty = some (str "Attribute")) ∧
    run exAttrCtx 3 [] (.hasParent (.typeIs (str "Attribute"))) (.const 6 (.str (str "foo"))) [] = .ok (none, []) ∧
    ∃ mi, run exAttrCtx 3 [] (.hasParent (.typeIs (str "Name"))) (.const 6 (.str (str "foo"))) [] = .ok (some mi, []) := by
  have h : getParent exAttrCtx.tree (.const 6 (.str (str "foo"))) =
      some (.node 5 (str "Name") [str "id", str "ctx"] [.const 6 (.str (str "foo")), .node 7 (str "Load") [] []]) := by
    simp [exAttrCtx, getParent, exModule, breadcrumbs, breadcrumbLoop, crumbsOf, attrCrumbs, itemCrumbs, recordCrumbs, Val.isNone, Val.ident, Dict.set, Dict.get?]
  refine ⟨rfl, rfl, ?_, ?_⟩
  · simp only [run, h]; rfl
  · simp only [run, h]
    exact ⟨_, rfl⟩

end Refex
