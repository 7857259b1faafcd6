import Verif.Lemmas.Matchers
/- C38: matchers only bind the variables they declare. -/
namespace Refex
set_option autoImplicit false

theorem keys_set_subset {β : Type} {d : Dict Label β} {k k' : Label} {v : β} (h : k' ∈ (d.set k v).keys) :
    k' = k ∨ k' ∈ d.keys := by
  rw [Dict.keys_set] at h
  split at h
  · exact Or.inr h
  · rcases List.mem_append.1 h with h | h
    · exact Or.inr h
    · exact Or.inl (by simpa using h)

theorem updateFrom_keys (src : Bindings) (ks : List Label) (d : Bindings) {k : Label}
    (h : k ∈ (updateFrom d src ks).keys) : k ∈ d.keys ∨ k ∈ ks := by
  unfold updateFrom at h
  induction ks generalizing d with
  | nil => exact Or.inl h
  | cons a ks ih =>
    rw [List.foldl_cons] at h
    rcases ih _ h with h | h
    · split at h
      · rcases keys_set_subset h with h | h
        · exact Or.inr (by simp [h])
        · exact Or.inl h
      · exact Or.inl h
    · exact Or.inr (by simp [h])

theorem mergeFold_keys (lhs rhs : Bindings) (ks : List Label) (st st' : Bindings × Bool)
    (h : ks.foldlM (mergeStep lhs rhs) st = .ok st') {k : Label} (hk : k ∈ st'.1.keys) : k ∈ st.1.keys ∨ k ∈ ks := by
  induction ks generalizing st with
  | nil => cases h; exact Or.inl hk
  | cons a ks ih =>
    rw [List.foldlM_cons] at h
    cases hs : mergeStep lhs rhs st a with
    | error e => rw [hs] at h; cases h
    | ok st1 =>
      rw [hs] at h
      rcases ih st1 h with h | h
      · unfold mergeStep at hs
        split at hs
        · split at hs
          · cases hs
          · split at hs
            · cases hs
            · split at hs
              · cases hs
              · cases hs
                rcases keys_set_subset h with h | h
                · exact Or.inr (by simp [h])
                · exact Or.inl h
              · cases hs; exact Or.inl h
        · cases hs; exact Or.inl h
      · exact Or.inr (by simp [h])

/-- A merge binds only labels bound on one of the sides. -/
theorem mergeBindings_keys {l r d : Bindings} (h : mergeBindings l r = .ok (some d)) {k : Label} (hk : k ∈ d.keys) :
    k ∈ l.keys ∨ k ∈ r.keys := by
  unfold mergeBindings mergeBindingsIn at h
  split at h
  · cases h
  · cases h
  · rename_i d' he
    cases h
    rcases updateFrom_keys _ _ _ hk with hk | hk
    · rcases updateFrom_keys _ _ _ hk with hk | hk
      · rcases mergeFold_keys _ _ _ _ _ he hk with hk | hk
        · simp [Dict.keys] at hk
        · exact Or.inl (List.mem_filter.1 hk).1
      · exact Or.inl (List.mem_filter.1 hk).1
    · exact Or.inr (List.mem_filter.1 hk).1

/-- All labels a result binds satisfy `S`. -/
def BindsOnly (S : Label → Prop) (r : MOut) : Prop :=
  ∀ mi ks, r = .ok (some mi, ks) → ∀ l ∈ mi.bindings.keys, S l

theorem accumLoop_binds {c : Ctx} {v : Val} {S : Label → Prop} (steps : List (List Key → MOut))
    (h : ∀ st ∈ steps, ∀ ks, BindsOnly S (st ks)) (b : Bindings) (hb : ∀ l ∈ b.keys, S l) (r : Replacements)
    (ks : List Key) : BindsOnly S (accumLoop c v steps b r ks) := by
  induction steps generalizing b r ks with
  | nil => intro mi ks' he; cases he; exact hb
  | cons st steps ih =>
    intro mi ks' he
    rw [accumLoop] at he
    split at he
    · cases he
    · cases he
    · rename_i mi1 ks1 e1
      split at he
      · cases he
      · cases he
      · rename_i b' hm
        split at he
        · cases he
        · refine ih (fun st' hs => h st' (by simp [hs])) b' ?_ _ _ mi ks' he
          intro l hl
          rcases mergeBindings_keys hm hl with hl | hl
          · exact hb l hl
          · exact h st (by simp) _ _ _ e1 l hl

theorem firstMatch_binds {S : Label → Prop} (steps : List (List Key → MOut))
    (h : ∀ st ∈ steps, ∀ ks, BindsOnly S (st ks)) (ks : List Key) : BindsOnly S (firstMatch steps ks) := by
  intro mi ks' he
  obtain ⟨st, hs, ks0, e⟩ := firstMatch_some he
  exact h st hs ks0 mi ks' e

theorem rewrap_binds {c : Ctx} {v : Val} {S : Label → Prop} {r : MOut} (h : BindsOnly S r) :
    BindsOnly S (rewrap c v r) := by
  intro mi ks he
  unfold rewrap at he
  split at he
  · cases he
  · cases he
  · simp only [found, Except.ok.injEq, Prod.mk.injEq, Option.some.injEq] at he
    obtain ⟨rfl, rfl⟩ := he
    intro l hl
    exact h _ _ rfl l hl

theorem found_binds {c : Ctx} {v : Val} {S : Label → Prop} {b : Bindings} {ks : List Key} (h : ∀ l ∈ b.keys, S l) :
    BindsOnly S (found c v b ks) := by
  intro mi ks' he
  simp only [found, Except.ok.injEq, Prod.mk.injEq, Option.some.injEq] at he
  obtain ⟨rfl, rfl⟩ := he
  exact h

theorem none_binds {S : Label → Prop} {ks : List Key} : BindsOnly S (.ok (none, ks)) := by
  intro mi ks' he; cases he

theorem error_binds {S : Label → Prop} {e : MExc} : BindsOnly S (.error e) := by
  intro mi ks' he; cases he

theorem climb_binds {c : Ctx} {first : SemM} {S : Label → Prop} (h : ∀ v ks, BindsOnly S (first v ks)) (n : Nat) (v : Val)
    (ks : List Key) : BindsOnly S (climb c first n v ks) := by
  induction n generalizing v ks with
  | zero => exact error_binds
  | succ n ih =>
    unfold climb
    split
    · exact none_binds
    · rename_i p _
      split
      · exact error_binds
      · rename_i mi ks' e; rw [← e]; exact h p ks
      · exact ih _ _

mutual
/-- The matcher contains no whole-file rewriter (`RewriteFile`, `ExternalCommand`). -/
def Matcher.noExternal : Matcher → Bool
  | .anything => true
  | .testRaise => true
  | .allOf ms => Matcher.noExternalList ms
  | .anyOf ms => Matcher.noExternalList ms
  | .unlessM m => Matcher.noExternal m
  | .once _ m => Matcher.noExternal m
  | .bind _ m _ _ => Matcher.noExternal m
  | .rebind m _ _ => Matcher.noExternal m
  | .stringMatch _ => true
  | .withReplacements m _ => Matcher.noExternal m
  | .delegate m _ => Matcher.noExternal m
  | .recWrapped i w => Matcher.noExternal i && Matcher.noExternal w
  | .recurse _ => true
  | .equals _ => true
  | .typeIs _ => true
  | .matchesRegex _ m => Matcher.noExternal m
  | .fileMatchesRegex _ => true
  | .hasItem _ m => Matcher.noExternal m
  | .itemsAre ms => Matcher.noExternalList ms
  | .contains m => Matcher.noExternal m
  | .inLines _ => true
  | .node _ _ ms => Matcher.noExternalList ms
  | .constant _ m => Matcher.noExternal m
  | .hasParent m => Matcher.noExternal m
  | .hasChild m => Matcher.noExternal m
  | .hasFirstAncestor a b => Matcher.noExternal a && Matcher.noExternal b
  | .hasPrevSibling m => Matcher.noExternal m
  | .hasNextSibling m => Matcher.noExternal m
  | .withTopLevelImport m _ _ => Matcher.noExternal m
  | .comments _ m => Matcher.noExternal m
  | .rewriteFile _ _ => false
/-- All of them. -/
def Matcher.noExternalList : List Matcher → Bool
  | [] => true
  | m :: ms => Matcher.noExternal m && Matcher.noExternalList ms
end

theorem noExternalList_iff {ms : List Matcher} : Matcher.noExternalList ms = true ↔ ∀ m ∈ ms, m.noExternal = true := by
  induction ms with
  | nil => simp [Matcher.noExternalList]
  | cons m ms ih => simp [Matcher.noExternalList, ih]

theorem mem_bindVarsList {g : Str → List Label} {ms : List Matcher} {l : Label} :
    l ∈ Matcher.bindVarsList g ms ↔ ∃ m ∈ ms, l ∈ m.bindVars g := by
  induction ms with
  | nil => simp [Matcher.bindVarsList]
  | cons m ms ih => simp [Matcher.bindVarsList, ih]

/-- The variables declared by the recursive matchers in scope. -/
def envVars (g : Str → List Label) (env : Env) : List Label := env.flatMap fun p => p.1.bindVars g ++ p.2.bindVars g

theorem dispatch_mem {α : Type} {l : List (α × TypeFilter)} (hn : ∀ p ∈ l, ∀ s, p.2 = some s → s.Nodup) {ty : Str} {a : α}
    (h : a ∈ dispatch l ty) : a ∈ l.map Prod.fst := by
  rw [dispatch_eq l hn] at h
  obtain ⟨p, hp, e⟩ := List.mem_map.1 h
  exact List.mem_map.2 ⟨p, (List.mem_filter.1 hp).1, e⟩

theorem zip_nodup {n : Nat} {env : Env} {ms : List Matcher} {fs : List TypeFilter}
    (h : ms.mapM (typeFilter n env) = .ok fs) : ∀ p ∈ ms.zip fs, ∀ s, p.2 = some s → s.Nodup := by
  intro p hp s hs
  have := (mapM_except_ok h).2 p hp
  rw [hs] at this
  exact typeFilter_nodup n env p.1 s this

/-- Bound labels are declared, in any environment. -/
theorem run_binds (c : Ctx) (n : Nat) (env : Env) (m : Matcher) (v : Val) (ks : List Key)
    (hm : m.noExternal = true) (he : ∀ p ∈ env, p.1.noExternal = true ∧ p.2.noExternal = true) :
    BindsOnly (fun l => l ∈ m.bindVars c.rxGroups ∨ l ∈ envVars c.rxGroups env) (run c n env m v ks) := by
  induction n generalizing env m v ks with
  | zero => exact error_binds
  | succ n ih =>
    have hnil : ∀ {S : Label → Prop}, ∀ l ∈ Dict.keys ([] : Bindings), S l := by intro S l hl; simp [Dict.keys] at hl
    have weaken : ∀ {S T : Label → Prop} {r : MOut}, (∀ l, S l → T l) → BindsOnly S r → BindsOnly T r :=
      fun h hb mi ks e l hl => h l (hb mi ks e l hl)
    have regex : ∀ rx g, ∀ l ∈ (regexBindings c rx g).keys, l ∈ c.rxGroups rx := by
      intro rx g l hl
      simp only [regexBindings, Dict.keys, List.map_map, List.mem_map] at hl
      obtain ⟨a, ha, e⟩ := hl
      simpa [← e] using ha
    cases m with
    | anything => simp only [run]; exact found_binds hnil
    | testRaise => simp only [run]; exact error_binds
    | allOf ms =>
      simp only [run, accumulate]
      refine accumLoop_binds _ ?_ _ hnil _ _
      intro st hst ks
      obtain ⟨m, hmem, rfl⟩ := List.mem_map.1 hst
      rw [Matcher.noExternal, noExternalList_iff] at hm
      exact weaken (fun l h => h.imp_left fun h => by rw [Matcher.bindVars]; exact mem_bindVarsList.2 ⟨m, hmem, h⟩)
        (ih env m v ks (hm m hmem) he)
    | anyOf ms =>
      simp only [run]
      split
      · exact error_binds
      · rename_i fs hfs
        refine firstMatch_binds _ ?_ _
        intro st hst ks
        obtain ⟨m, hmem, rfl⟩ := List.mem_map.1 hst
        have hmem' : m ∈ ms := by
          obtain ⟨p, hp, rfl⟩ := List.mem_map.1 (dispatch_mem (zip_nodup hfs) hmem)
          exact (List.of_mem_zip hp).1
        rw [Matcher.noExternal, noExternalList_iff] at hm
        exact weaken (fun l h => h.imp_left fun h => by rw [Matcher.bindVars]; exact mem_bindVarsList.2 ⟨m, hmem', h⟩)
          (ih env m v ks (hm m hmem') he)
    | unlessM m =>
      simp only [run]
      split
      · exact error_binds
      · exact found_binds hnil
      · exact none_binds
    | once key m =>
      simp only [run]
      split
      · exact accumLoop_binds _ (by simp) _ hnil _ _
      · refine accumLoop_binds _ ?_ _ hnil _ _
        intro st hst ks
        rw [List.mem_singleton] at hst
        subst hst
        have := ih env m v ks hm he
        intro mi ks' e
        simp only at e
        split at e
        · rename_i mi1 ks1 e1; cases e; exact this _ _ e1
        · rename_i hno; exact absurd e (by intro h; exact hno _ _ h)
    | bind name m oc om =>
      simp only [run]
      have := ih env m v ks hm he
      split
      · exact error_binds
      · exact none_binds
      · rename_i mi ks' e
        split
        · exact error_binds
        · exact none_binds
        · rename_i b hb
          intro mi' ks'' e'
          cases e'
          intro l hl
          rw [Matcher.bindVars]
          rcases mergeBindings_keys hb hl with h | h
          · rcases this _ _ e l h with h | h
            · exact Or.inl (List.mem_cons_of_mem _ h)
            · exact Or.inr h
          · exact Or.inl (by simp only [Dict.keys, List.map_cons, List.map_nil, List.mem_singleton] at h; simp [h])
    | rebind m oc om =>
      simp only [run]
      have := ih env m v ks hm he
      split
      · exact error_binds
      · exact none_binds
      · rename_i mi ks' e
        intro mi' ks'' e'
        cases e'
        intro l hl
        refine this _ _ e l ?_
        simpa [Dict.keys, List.map_map, Function.comp_def] using hl
    | stringMatch s => simp only [run]; intro mi ks' e; cases e; exact hnil
    | withReplacements m rs =>
      simp only [run]
      have := ih env m v ks hm he
      split
      · exact error_binds
      · exact none_binds
      · rename_i mi ks' e
        split
        · exact error_binds
        · intro mi' ks'' e'; cases e'; intro l hl; exact this _ _ e l hl
    | delegate m k => simp only [run]; exact ih env m v ks hm he
    | recWrapped i w =>
      simp only [run]
      rw [Matcher.noExternal, Bool.and_eq_true] at hm
      split
      · rename_i f f' hf hf'
        refine firstMatch_binds _ ?_ _
        intro st hst ks
        obtain ⟨p, hmem, rfl⟩ := List.mem_map.1 hst
        have hn : ∀ p ∈ [((env, i), f), (((i, w) :: env, w), f')], ∀ s, p.2 = some s → s.Nodup := by
          intro p hp s hs
          simp only [List.mem_cons, List.not_mem_nil, or_false] at hp
          rcases hp with rfl | rfl
          · exact typeFilter_nodup _ _ _ _ (hf.trans (by rw [← hs]))
          · exact typeFilter_nodup _ _ _ _ (hf'.trans (by rw [← hs]))
        have := dispatch_mem hn hmem
        simp only [List.map_cons, List.map_nil, List.mem_cons, List.not_mem_nil, or_false] at this
        rw [Matcher.bindVars]
        rcases this with rfl | rfl
        · exact weaken (fun l h => h.imp_left fun h => List.mem_append.2 (Or.inl h)) (ih env i v ks hm.1 he)
        · refine weaken ?_ (ih ((i, w) :: env) w v ks hm.2 ?_)
          · intro l h
            rcases h with h | h
            · exact Or.inl (List.mem_append.2 (Or.inr h))
            · simp only [envVars, List.flatMap_cons, List.mem_append] at h ⊢
              rcases h with h | h
              · exact Or.inl h
              · exact Or.inr h
          · intro p hp
            rcases List.mem_cons.1 hp with rfl | hp
            · exact hm
            · exact he p hp
      · exact error_binds
      · exact error_binds
    | recurse k =>
      simp only [run]
      split
      · rename_i i w hk
        have hmem := List.mem_of_getElem? hk
        refine weaken ?_ (ih (env.drop (k + 1)) (.recWrapped i w) v ks ?_ ?_)
        · intro l h
          right
          rcases h with h | h
          · exact List.mem_flatMap.2 ⟨(i, w), hmem, by simpa [Matcher.bindVars] using h⟩
          · obtain ⟨p, hp, h⟩ := List.mem_flatMap.1 h
            exact List.mem_flatMap.2 ⟨p, List.mem_of_mem_drop hp, h⟩
        · simpa [Matcher.noExternal] using he _ hmem
        · exact fun p hp => he p (List.mem_of_mem_drop hp)
      · exact none_binds
    | equals w =>
      simp only [run]
      split
      · exact found_binds hnil
      · exact none_binds
    | typeIs ty =>
      simp only [run]
      split
      · exact found_binds hnil
      · exact none_binds
    | matchesRegex rx m =>
      simp only [run]
      have := ih env m v ks hm he
      split
      · exact error_binds
      · exact none_binds
      · rename_i mi ks' e
        split
        · exact none_binds
        · split
          · exact none_binds
          · rename_i g hg
            split
            · exact error_binds
            · exact none_binds
            · rename_i b hb
              intro mi' ks'' e'
              cases e'
              intro l hl
              rw [Matcher.bindVars, List.mem_append]
              rcases mergeBindings_keys hb hl with h | h
              · exact Or.inl (Or.inl (regex rx g l h))
              · rcases this _ _ e l h with h | h
                · exact Or.inl (Or.inr h)
                · exact Or.inr h
    | fileMatchesRegex rx =>
      simp only [run]
      split
      · exact none_binds
      · rename_i g hg
        intro mi ks' e; cases e
        exact fun l hl => Or.inl (regex rx g l hl)
    | hasItem i m =>
      simp only [run]
      split
      · exact none_binds
      · exact rewrap_binds (ih env m _ ks hm he)
    | itemsAre ms =>
      simp only [run, accumulate]
      refine accumLoop_binds _ ?_ _ hnil _ _
      intro st hst ks
      rw [Matcher.noExternal, noExternalList_iff] at hm
      rcases List.mem_cons.1 hst with rfl | hst
      · refine weaken ?_ (ih env (.unlessM (.hasItem ms.length .anything)) v ks rfl he)
        intro l h
        exact h.imp_left fun h => by simp [Matcher.bindVars] at h
      · obtain ⟨p, hp, rfl⟩ := List.mem_map.1 hst
        have hmem : p.2 ∈ ms := by
          have : ∀ (ms : List Matcher) (i : Nat), ∀ p ∈ enumFrom i ms, p.2 ∈ ms := by
            intro ms
            induction ms with
            | nil => intro i p hp; simp [enumFrom] at hp
            | cons a ms ih =>
              intro i p hp
              rw [enumFrom] at hp
              rcases List.mem_cons.1 hp with rfl | hp
              · simp
              · exact List.mem_cons_of_mem _ (ih _ p hp)
          exact this ms 0 p hp
        refine weaken ?_ (ih env (.hasItem p.1 p.2) v ks (by rw [Matcher.noExternal]; exact hm _ hmem) he)
        intro l h
        exact h.imp_left fun h => by
          simp only [Matcher.bindVars] at h ⊢
          exact mem_bindVarsList.2 ⟨p.2, hmem, h⟩
    | contains m =>
      simp only [run]
      split
      · exact none_binds
      · refine rewrap_binds (firstMatch_binds _ ?_ _)
        intro st hst ks
        obtain ⟨w, _, rfl⟩ := List.mem_map.1 hst
        exact ih env m w ks hm he
    | inLines ls =>
      simp only [run]
      split
      · split
        · split
          · exact found_binds hnil
          · exact none_binds
        · exact none_binds
      · exact none_binds
    | node ty names ms =>
      simp only [run, accumulate]
      split
      · exact none_binds
      · refine accumLoop_binds _ ?_ _ hnil _ _
        intro st hst ks
        obtain ⟨p, hp, rfl⟩ := List.mem_map.1 hst
        rw [Matcher.noExternal, noExternalList_iff] at hm
        have hmem := (List.of_mem_zip hp).2
        exact weaken (fun l h => h.imp_left fun h => by rw [Matcher.bindVars]; exact mem_bindVarsList.2 ⟨p.2, hmem, h⟩)
          (ih env p.2 _ ks (hm _ hmem) he)
    | constant tys m =>
      simp only [run]
      split
      · exact none_binds
      · split
        · exact none_binds
        · exact rewrap_binds (ih env m _ ks hm he)
    | hasParent m =>
      simp only [run]
      split
      · exact none_binds
      · exact rewrap_binds (ih env m _ ks hm he)
    | hasChild m =>
      simp only [run]
      refine rewrap_binds (firstMatch_binds _ ?_ _)
      intro st hst ks
      obtain ⟨w, _, rfl⟩ := List.mem_map.1 hst
      exact ih env m w ks hm he
    | hasFirstAncestor a b =>
      simp only [run]
      rw [Matcher.noExternal, Bool.and_eq_true] at hm
      have hc := climb_binds (c := c) (fun v ks => ih env a v ks hm.1 he) (c.tree.size + 1) v ks
      split
      · exact error_binds
      · exact none_binds
      · rename_i mi ks' e
        split
        · exact error_binds
        · rename_i w hw
          have h2 := ih env b w ks' hm.2 he
          split
          · exact error_binds
          · exact none_binds
          · rename_i mi' ks'' e'
            split
            · exact error_binds
            · exact error_binds
            · rename_i bs hb
              apply found_binds
              intro l hl
              rw [Matcher.bindVars, List.mem_append]
              rcases mergeBindings_keys hb hl with h | h
              · rcases hc _ _ e l h with h | h
                · exact Or.inl (Or.inl h)
                · exact Or.inr h
              · rcases h2 _ _ e' l h with h | h
                · exact Or.inl (Or.inr h)
                · exact Or.inr h
    | hasPrevSibling m =>
      simp only [run]
      split
      · exact none_binds
      · split
        · exact ih env m _ ks hm he
        · exact none_binds
    | hasNextSibling m =>
      simp only [run]
      split
      · exact none_binds
      · split
        · exact ih env m _ ks hm he
        · exact none_binds
    | withTopLevelImport m a b =>
      simp only [run]
      split
      · exact ih env m v ks hm he
      · exact none_binds
    | comments want m =>
      simp only [run]
      have := ih env m v ks hm he
      split
      · exact error_binds
      · exact none_binds
      · rename_i mi ks' e
        split
        · split
          · intro mi' ks'' e'; cases e'; exact this _ _ e
          · exact none_binds
        · exact error_binds
    | rewriteFile pre cmd => simp [Matcher.noExternal] at hm

/-- **C38** (matchers without whole-file rewriters): every label bound by a successful match is in the
matcher's `bind_variables`. Ranges over all matcher expressions, files, candidates, states and recursion depths. -/
theorem C38_bound_are_declared (c : Ctx) (n : Nat) (m : Matcher) (hm : m.noExternal = true) (v : Val)
    (ks ks' : List Key) (mi : MatchInfo) (h : run c n [] m v ks = .ok (some mi, ks')) (l : Label)
    (hl : l ∈ mi.bindings.keys) : l ∈ m.bindVars c.rxGroups := by
  rcases run_binds c n [] m v ks hm (by simp) mi ks' h l hl with h | h
  · exact h
  · simp [envVars] at h

/-- A context with no file to speak of. -/
def exCtx : Ctx where
  text := str "a\n"
  tree := .node 1 (str "Module") [str "body"] [.list 2 []]
  tok := fun _ => none
  comment := fun _ => false
  lineno := fun _ => none
  rxGroups := fun _ => []
  rxMatch := fun _ _ _ => none
  rxSearch := fun _ => none
  rewrite := fun _ _ => some [.removed (str "a\n"), .added (str "b\n")]

/-- **C38**, refutation: `ExternalCommand` binds a label it does not declare (so templates that use it are
rejected at construction). -/
theorem C38_external_undeclared_false : ∃ (c : Ctx) (m : Matcher) (v : Val) (mi : MatchInfo) (l : Label),
    run c 1 [] m v [] = .ok (some mi, []) ∧ l ∈ mi.bindings.keys ∧ l ∉ m.bindVars c.rxGroups :=
  ⟨exCtx, .rewriteFile (str "x") 0, exCtx.tree, _, str "x.0", rfl, by decide, by decide⟩

/-- Non-vacuity: nested binds under an AnyOf, a rebind and a recursive matcher. -/
example : ∃ mi, run exCtx 9 [] (.recWrapped (.bind (str "inner") (.typeIs (str "list")) none none)
      (.bind (str "outer") (.hasChild (.recurse 0)) none none)) exCtx.tree [] = .ok (some mi, []) ∧
    mi.bindings.keys = [str "inner", str "outer"] := ⟨_, rfl, by decide⟩

end Refex
