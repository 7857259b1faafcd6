import Verif.Props.Formatting
/- C116: a pattern with a name finds nothing in a file without the name. -/
namespace Refex
set_option autoImplicit false

theorem fieldInstances_lookup_of {hole : Val → Hole} {al : Label → Val → Prop} {ty a : Str} (ha : ¬ (ty = str "Name" ∧ a = str "ctx")) :
    ∀ {ns : List Str} {ts vs : List Val} {occ : Occs}, FieldInstances hole al ty ns ts vs occ → ∀ t, Val.lookup ns ts a = some t →
      ∃ v o, Val.lookup ns vs a = some v ∧ Instance hole al t v o
  | _, _, _, _, .nil, v, h => by simp [Val.lookup] at h
  | _, _, _, _, .ctx hs, v, h => by
    unfold Val.lookup at h ⊢
    have hne : ¬ str "ctx" = a := fun e => ha ⟨rfl, e.symm⟩
    rw [if_neg hne] at h ⊢
    exact fieldInstances_lookup_of ha hs v h
  | _, _, _, _, .cons (n := n) _ hi hs, v, h => by
    unfold Val.lookup at h ⊢
    split at h
    · rename_i e
      cases h
      rw [if_pos e]
      exact ⟨_, _, rfl, hi⟩
    · rename_i e
      rw [if_neg e]
      exact fieldInstances_lookup_of ha hs v h

/-- A metavariable has no other name in it. -/
theorem hole_name {what : Str → Hole} {p : Val} {s : Str} (hsyn : Syntactic p) (hn : NameIn p s) (hs : what s = .none) (h : holeAt what p ≠ .none) : False := by
  obtain ⟨i, ns, vs, j, s', rfl, hl, hw⟩ := holeAt_inv h
  have hstr : strField (.node i (str "Name") ns vs) (str "id") = some s' := by
    have hg : (Val.node i (str "Name") ns vs).getattr (str "id") = (Val.lookup ns vs (str "id")).getD Val.pyNone := rfl
    unfold strField
    rw [hg, hl]; rfl
  obtain ⟨q, u, h1, h2, h3⟩ := hn
  cases q with
  | nil =>
    cases h1
    rw [hstr] at h3; cases h3
    exact h (hw ▸ hs)
  | cons k q => exact hsyn.names [] _ rfl rfl rfl k q u h1 h2

mutual
/-- An instance has the names of the pattern. -/
theorem instance_names {what : Str → Hole} {s : Str} (hs : what s = .none) : ∀ {p v : Val} {occ : Occs},
    Instance (holeAt what) (fun _ _ => True) p v occ → Syntactic p → NameIn p s → NameIn v s
  | _, _, _, .named e _, hsyn, hn => (hole_name hsyn hn hs (by rw [e]; simp)).elim
  | _, _, _, .anonymous e, hsyn, hn => (hole_name hsyn hn hs (by rw [e]; simp)).elim
  | .const i c, _, _, .const _ _, _, hn => by
    rw [nameIn_cases] at hn
    rcases hn with ⟨_, h⟩ | ⟨w, hw, _⟩
    · simp [strField, Val.getattr, Val.pyNone] at h
    · cases hw
  | .list i ts, .list j vs, _, .list _ h, hsyn, hn => by
    rw [nameIn_cases] at hn
    rcases hn with ⟨_, h'⟩ | ⟨w, hw, hn⟩
    · simp [strField, Val.getattr, Val.pyNone] at h'
    · obtain ⟨v, hv, h'⟩ := instances_names hs h (fun t ht => hsyn.child ht) w hw hn
      exact (nameIn_cases _ _).2 (.inr ⟨v, hv, h'⟩)
  | .node i ty ns ts, .node j _ _ vs, _, .node _ h, hsyn, hn => by
    rw [nameIn_cases] at hn
    rcases hn with ⟨hty, hid⟩ | ⟨w, hw, hn⟩
    · have hty : ty = str "Name" := hty
      subst hty
      refine (nameIn_cases _ _).2 (.inl ⟨rfl, ?_⟩)
      have hg : ∀ (i : Nat) (vs : List Val), (Val.node i (str "Name") ns vs).getattr (str "id") = (Val.lookup ns vs (str "id")).getD Val.pyNone := fun _ _ => rfl
      unfold strField at hid ⊢
      rw [hg] at hid ⊢
      cases hl : Val.lookup ns ts (str "id") with
      | none => rw [hl] at hid; simp [Val.pyNone] at hid
      | some t =>
        rw [hl] at hid
        obtain ⟨v, o, h1, h2⟩ := fieldInstances_lookup_of (a := str "id") (by decide) h t hl
        rw [h1]
        cases t with
        | const k c =>
          cases c with
          | str s' =>
            have e : s' = s := by simpa using hid
            subst e
            cases h2 with
            | named e => cases e
            | anonymous e => cases e
            | @const _ _ _ d _ e =>
              cases d <;> simp [Const.pyEq, Const.whole?] at e
              all_goals try (exact absurd e (by simp))
              · rw [e]; rfl
          | _ => simp at hid
        | list _ _ => simp at hid
        | node _ _ _ _ => simp at hid
    · have hnn : ty ≠ str "Name" := by
        rintro rfl
        obtain ⟨k, hk⟩ := List.mem_iff_getElem?.1 hw
        obtain ⟨q, u, h1, h2, _⟩ := hn
        refine hsyn.names [] _ rfl rfl rfl k q u ?_ h2
        rw [Val.at?, hk]; exact h1
      obtain ⟨v, hv, h'⟩ := fieldInstances_names hs h hnn (fun t ht => hsyn.child ht) w hw hn
      exact (nameIn_cases _ _).2 (.inr ⟨v, hv, h'⟩)
termination_by structural _ _ _ h => h
theorem instances_names {what : Str → Hole} {s : Str} (hs : what s = .none) : ∀ {ps vs : List Val} {occ : Occs},
    Instances (holeAt what) (fun _ _ => True) ps vs occ → (∀ p ∈ ps, Syntactic p) → ∀ p ∈ ps, NameIn p s → ∃ v ∈ vs, NameIn v s
  | _, _, _, .nil, _, p, hp, _ => by cases hp
  | _, _, _, .cons a b, hsyn, p, hp, hn => by
    rcases List.mem_cons.1 hp with e | hp
    · exact ⟨_, List.mem_cons_self .., instance_names hs a (hsyn _ (List.mem_cons_self ..)) (e ▸ hn)⟩
    · obtain ⟨v, hv, h⟩ := instances_names hs b (fun p hp => hsyn p (List.mem_cons_of_mem _ hp)) p hp hn
      exact ⟨v, List.mem_cons_of_mem _ hv, h⟩
termination_by structural _ _ _ h => h
theorem fieldInstances_names {what : Str → Hole} {s : Str} (hs : what s = .none) : ∀ {ty : Str} {ns : List Str} {ps vs : List Val} {occ : Occs},
    FieldInstances (holeAt what) (fun _ _ => True) ty ns ps vs occ → ty ≠ str "Name" → (∀ p ∈ ps, Syntactic p) → ∀ p ∈ ps, NameIn p s → ∃ v ∈ vs, NameIn v s
  | _, _, _, _, _, .nil, _, _, p, hp, _ => by cases hp
  | _, _, _, _, _, .ctx _, hty, _, _, _, _ => absurd rfl hty
  | _, _, _, _, _, .cons _ a b, hty, hsyn, p, hp, hn => by
    rcases List.mem_cons.1 hp with e | hp
    · exact ⟨_, List.mem_cons_self .., instance_names hs a (hsyn _ (List.mem_cons_self ..)) (e ▸ hn)⟩
    · obtain ⟨v, hv, h⟩ := fieldInstances_names hs b hty (fun p hp => hsyn p (List.mem_cons_of_mem _ hp)) p hp hn
      exact ⟨v, List.mem_cons_of_mem _ hv, h⟩
termination_by structural _ _ _ _ _ h => h
end

/-- **C116** (matches): whatever a pattern with the name `s` finds has the name in it; in a tree without it, it finds nothing. -/
theorem C116_hits {what : Str → Hole} {p tree : Val} {s : Str} (hsyn : Syntactic p) (hn : NameIn p s) (hs : what s = .none) {hits : List PatternHit}
    (h : PatternHits what p tree hits) : (∀ hit ∈ hits, NameIn hit.node s) ∧ (¬ NameIn tree s → hits = []) := by
  have h1 : ∀ hit ∈ hits, NameIn hit.node s := fun hit hh => instance_names hs (h.sound hit hh).2.1 hsyn hn
  refine ⟨h1, fun hno => ?_⟩
  cases hits with
  | nil => rfl
  | cons hit hits =>
    exfalso
    obtain ⟨q, u, h2, h3, h4⟩ := h1 hit (List.mem_cons_self ..)
    exact hno ⟨hit.path ++ q, u, by rw [at?_append, (h.sound hit (List.mem_cons_self ..)).1]; exact h2, h3, h4⟩

/-- **C116** (searches): a search for a pattern with a name reports nothing in a file without it. -/
theorem C116_search {g : Grammar} {py : Python} (hfit : PythonFits g py) {kind : PatternKind} {text : Str} {m : Matcher} {ts : Dict Str CodeTemplate}
    (h : PatternSearch py kind text m ts) :
    ∃ what p, PatternMeans py kind text what p ∧ (2 * p.size + 7 ≤ py.depth → ∀ s content subs, NameIn p s → what s = .none →
      (∀ c, py.file content = some c → ¬ NameIn c.tree s) → SearchGives py m ts content subs → subs = []) := by
  obtain ⟨what, p, hp, hr⟩ := search_means hfit h
  refine ⟨what, p, hp, fun hd s content subs hn hs hfile hf => ?_⟩
  obtain ⟨c, hits, os, hc, h1, rfl, h2⟩ := hr hd _ _ hf
  have := (C116_hits (patternMeans_syntactic hfit hp) hn hs h1).2 (hfile c hc)
  subst this
  cases h2
  rfl

theorem nameAt_names {i : Nat} {t n : Str} (h : NameIn (exNameAt i t) n) : n = t := by
  rw [nameIn_cases] at h
  rcases h with ⟨_, h⟩ | ⟨w, hw, h⟩
  · cases h; rfl
  · simp only [exNameAt, Val.children, List.mem_cons, List.not_mem_nil, or_false] at hw
    rcases hw with rfl | rfl <;> (rw [nameIn_cases] at h; rcases h with ⟨h, _⟩ | ⟨u, hu, _⟩)
    · exact absurd h (by show ¬ str "str" = str "Name"; decide)
    · cases hu
    · exact absurd h (by show ¬ str "Load" = str "Name"; decide)
    · cases hu

/-- The pattern `f($x)` has the name `f`, and so has the match of C112; in the tree of `a`, nothing is found. -/
example : NameIn msGeneral (str "f") ∧ keWhat (str "f") = .none ∧ NameIn keHit.node (str "f") ∧
    ∀ hits, PatternHits keWhat msGeneral (exNameAt 20 (str "a")) hits → hits = [] :=
  have hn : NameIn msGeneral (str "f") := ⟨[0], exNameAt 11 (str "f"), rfl, rfl, rfl⟩
  ⟨hn, by decide, instance_names (by decide) keInstance (mdCall_syntactic ..) hn,
    fun _ h => (C116_hits (mdCall_syntactic ..) hn (by decide) h).2 fun h => absurd (nameAt_names h) (by decide)⟩

end Refex
