import Verif.Props.MatcherVars
/-
Matchers without `WithReplacements` and `RewriteFile` attach no templates to their matches (used for C64 and C65).
-/
namespace Refex
set_option autoImplicit false

/-- The result carries no replacement templates. -/
def NoTemplatesIn (r : MOut) : Prop := ∀ mi ks, r = .ok (some mi, ks) → mi.replacements = []

theorem bare_none {ks : List Key} : NoTemplatesIn (.ok (none, ks)) := by intro mi ks' he; cases he
theorem bare_error {e : MExc} : NoTemplatesIn (.error e) := by intro mi ks' he; cases he
theorem bare_found {c : Ctx} {v : Val} {b : Bindings} {ks : List Key} : NoTemplatesIn (found c v b ks) := by
  intro mi ks' he
  simp only [found, Except.ok.injEq, Prod.mk.injEq, Option.some.injEq] at he
  obtain ⟨rfl, rfl⟩ := he
  rfl

theorem bare_accum {c : Ctx} {v : Val} (steps : List (List Key → MOut)) (h : ∀ st ∈ steps, ∀ ks, NoTemplatesIn (st ks)) (b : Bindings)
    (ks : List Key) : NoTemplatesIn (accumLoop c v steps b [] ks) := by
  induction steps generalizing b ks with
  | nil => intro mi ks' he; cases he; rfl
  | cons st steps ih =>
    intro mi ks' he
    rw [accumLoop] at he
    split at he
    · cases he
    · cases he
    · rename_i mi1 ks1 e1
      split at he
      · cases he
      · cases he
      · rw [h st (by simp) _ _ _ e1] at he
        exact ih (fun st' hs => h st' (by simp [hs])) _ _ mi ks' he

theorem bare_first (steps : List (List Key → MOut)) (h : ∀ st ∈ steps, ∀ ks, NoTemplatesIn (st ks)) (ks : List Key) :
    NoTemplatesIn (firstMatch steps ks) := by
  intro mi ks' he
  obtain ⟨st, hs, ks0, e⟩ := firstMatch_some he
  exact h st hs ks0 mi ks' e

theorem bare_rewrap {c : Ctx} {v : Val} {r : MOut} : NoTemplatesIn (rewrap c v r) := by
  unfold rewrap
  split
  · exact bare_error
  · exact bare_none
  · exact bare_found

theorem bare_climb {c : Ctx} {first : SemM} (h : ∀ v ks, NoTemplatesIn (first v ks)) (n : Nat) (v : Val) (ks : List Key) :
    NoTemplatesIn (climb c first n v ks) := by
  induction n generalizing v ks with
  | zero => exact bare_error
  | succ n ih =>
    unfold climb
    split
    · exact bare_none
    · rename_i p _
      split
      · exact bare_error
      · rename_i mi ks' e; rw [← e]; exact h p ks
      · exact ih _ _

mutual
/-- The matcher contains no `WithReplacements` and no whole-file rewriter. -/
def Matcher.noTemplates : Matcher → Bool
  | .anything => true
  | .testRaise => true
  | .allOf ms => Matcher.noTemplatesList ms
  | .anyOf ms => Matcher.noTemplatesList ms
  | .unlessM m => Matcher.noTemplates m
  | .once _ m => Matcher.noTemplates m
  | .bind _ m _ _ => Matcher.noTemplates m
  | .rebind m _ _ => Matcher.noTemplates m
  | .stringMatch _ => true
  | .withReplacements _ _ => false
  | .delegate m _ => Matcher.noTemplates m
  | .recWrapped i w => Matcher.noTemplates i && Matcher.noTemplates w
  | .recurse _ => true
  | .equals _ => true
  | .typeIs _ => true
  | .matchesRegex _ m => Matcher.noTemplates m
  | .fileMatchesRegex _ => true
  | .hasItem _ m => Matcher.noTemplates m
  | .itemsAre ms => Matcher.noTemplatesList ms
  | .contains m => Matcher.noTemplates m
  | .inLines _ => true
  | .node _ _ ms => Matcher.noTemplatesList ms
  | .constant _ m => Matcher.noTemplates m
  | .hasParent m => Matcher.noTemplates m
  | .hasChild m => Matcher.noTemplates m
  | .hasFirstAncestor a b => Matcher.noTemplates a && Matcher.noTemplates b
  | .hasPrevSibling m => Matcher.noTemplates m
  | .hasNextSibling m => Matcher.noTemplates m
  | .withTopLevelImport m _ _ => Matcher.noTemplates m
  | .comments _ m => Matcher.noTemplates m
  | .rewriteFile _ _ => false
/-- All of them. -/
def Matcher.noTemplatesList : List Matcher → Bool
  | [] => true
  | m :: ms => Matcher.noTemplates m && Matcher.noTemplatesList ms
end

theorem noTemplatesList_iff {ms : List Matcher} : Matcher.noTemplatesList ms = true ↔ ∀ m ∈ ms, m.noTemplates = true := by
  induction ms with
  | nil => simp [Matcher.noTemplatesList]
  | cons m ms ih => simp [Matcher.noTemplatesList, ih]

theorem run_bare (c : Ctx) (n : Nat) (env : Env) (m : Matcher) (v : Val) (ks : List Key)
    (hm : m.noTemplates = true) (he : ∀ p ∈ env, p.1.noTemplates = true ∧ p.2.noTemplates = true) :
    NoTemplatesIn (run c n env m v ks) := by
  induction n generalizing env m v ks with
  | zero => exact bare_error
  | succ n ih =>
    cases m with
    | anything => simp only [run]; exact bare_found
    | testRaise => simp only [run]; exact bare_error
    | allOf ms =>
      simp only [run, accumulate]
      refine bare_accum _ ?_ _ _
      intro st hst ks
      obtain ⟨m, hmem, rfl⟩ := List.mem_map.1 hst
      rw [Matcher.noTemplates, noTemplatesList_iff] at hm
      exact ih env m v ks (hm m hmem) he
    | anyOf ms =>
      simp only [run]
      split
      · exact bare_error
      · rename_i fs hfs
        refine bare_first _ ?_ _
        intro st hst ks
        obtain ⟨m, hmem, rfl⟩ := List.mem_map.1 hst
        have hmem' : m ∈ ms := by
          obtain ⟨p, hp, rfl⟩ := List.mem_map.1 (dispatch_mem (zip_nodup hfs) hmem)
          exact (List.of_mem_zip hp).1
        rw [Matcher.noTemplates, noTemplatesList_iff] at hm
        exact ih env m v ks (hm m hmem') he
    | unlessM m =>
      simp only [run]
      split
      · exact bare_error
      · exact bare_found
      · exact bare_none
    | once key m =>
      simp only [run]
      split
      · exact bare_accum _ (by simp) _ _
      · refine bare_accum _ ?_ _ _
        intro st hst ks
        rw [List.mem_singleton] at hst
        subst hst
        have := ih env m v ks hm he
        intro mi ks' e
        simp only at e
        split at e
        · rename_i mi1 ks1 e1; cases e; exact this _ _ e1
        · rename_i hno; exact absurd e (by intro h; exact hno _ _ h)
    | bind name m oc om =>
      simp only [run]
      have := ih env m v ks hm he
      split
      · exact bare_error
      · exact bare_none
      · rename_i mi ks' e
        split
        · exact bare_error
        · exact bare_none
        · intro mi' ks'' e'
          cases e'
          have := this _ _ e
          exact this
    | rebind m oc om =>
      simp only [run]
      have := ih env m v ks hm he
      split
      · exact bare_error
      · exact bare_none
      · rename_i mi ks' e
        intro mi' ks'' e'
        cases e'
        have := this _ _ e
        exact this
    | stringMatch s => simp only [run]; intro mi ks' e; cases e; rfl
    | withReplacements m rs => simp [Matcher.noTemplates] at hm
    | delegate m k => simp only [run]; exact ih env m v ks hm he
    | recWrapped i w =>
      simp only [run]
      rw [Matcher.noTemplates, Bool.and_eq_true] at hm
      split
      · rename_i f f' hf hf'
        refine bare_first _ ?_ _
        intro st hst ks
        obtain ⟨p, hmem, rfl⟩ := List.mem_map.1 hst
        have hn : ∀ p ∈ [((env, i), f), (((i, w) :: env, w), f')], ∀ s, p.2 = some s → s.Nodup := by
          intro p hp s hs
          simp only [List.mem_cons, List.not_mem_nil, or_false] at hp
          rcases hp with rfl | rfl
          · exact typeFilter_nodup _ _ _ _ (hf.trans (by rw [← hs]))
          · exact typeFilter_nodup _ _ _ _ (hf'.trans (by rw [← hs]))
        have := dispatch_mem hn hmem
        simp only [List.map_cons, List.map_nil, List.mem_cons, List.not_mem_nil, or_false] at this
        rcases this with rfl | rfl
        · exact ih env i v ks hm.1 he
        · refine ih ((i, w) :: env) w v ks hm.2 ?_
          intro p hp
          rcases List.mem_cons.1 hp with rfl | hp
          · exact hm
          · exact he p hp
      · exact bare_error
      · exact bare_error
    | recurse k =>
      simp only [run]
      split
      · rename_i i w hk
        have hmem := List.mem_of_getElem? hk
        refine ih (env.drop (k + 1)) (.recWrapped i w) v ks ?_ ?_
        · simpa [Matcher.noTemplates] using he _ hmem
        · exact fun p hp => he p (List.mem_of_mem_drop hp)
      · exact bare_none
    | equals w =>
      simp only [run]
      split
      · exact bare_found
      · exact bare_none
    | typeIs ty =>
      simp only [run]
      split
      · exact bare_found
      · exact bare_none
    | matchesRegex rx m =>
      simp only [run]
      have := ih env m v ks hm he
      split
      · exact bare_error
      · exact bare_none
      · rename_i mi ks' e
        split
        · exact bare_none
        · split
          · exact bare_none
          · split
            · exact bare_error
            · exact bare_none
            · intro mi' ks'' e'
              cases e'
              have := this _ _ e
              exact this
    | fileMatchesRegex rx =>
      simp only [run]
      split
      · exact bare_none
      · intro mi ks' e; cases e; rfl
    | hasItem i m =>
      simp only [run]
      split
      · exact bare_none
      · exact bare_rewrap
    | itemsAre ms =>
      simp only [run, accumulate]
      refine bare_accum _ ?_ _ _
      intro st hst ks
      rw [Matcher.noTemplates, noTemplatesList_iff] at hm
      rcases List.mem_cons.1 hst with rfl | hst
      · exact ih env (.unlessM (.hasItem ms.length .anything)) v ks rfl he
      · obtain ⟨p, hp, rfl⟩ := List.mem_map.1 hst
        have hmem : p.2 ∈ ms := by
          have : ∀ (ms : List Matcher) (i : Nat), ∀ p ∈ enumFrom i ms, p.2 ∈ ms := by
            intro ms
            induction ms with
            | nil => intro i p hp; simp [enumFrom] at hp
            | cons a ms ih =>
              intro i p hp
              rw [enumFrom] at hp
              rcases List.mem_cons.1 hp with rfl | hp
              · simp
              · exact List.mem_cons_of_mem _ (ih _ p hp)
          exact this ms 0 p hp
        exact ih env (.hasItem p.1 p.2) v ks (by rw [Matcher.noTemplates]; exact hm _ hmem) he
    | contains m =>
      simp only [run]
      split
      · exact bare_none
      · exact bare_rewrap
    | inLines ls =>
      simp only [run]
      split
      · split
        · split
          · exact bare_found
          · exact bare_none
        · exact bare_none
      · exact bare_none
    | node ty names ms =>
      simp only [run, accumulate]
      split
      · exact bare_none
      · refine bare_accum _ ?_ _ _
        intro st hst ks
        obtain ⟨p, hp, rfl⟩ := List.mem_map.1 hst
        rw [Matcher.noTemplates, noTemplatesList_iff] at hm
        exact ih env p.2 _ ks (hm _ (List.of_mem_zip hp).2) he
    | constant tys m =>
      simp only [run]
      split
      · exact bare_none
      · split
        · exact bare_none
        · exact bare_rewrap
    | hasParent m =>
      simp only [run]
      split
      · exact bare_none
      · exact bare_rewrap
    | hasChild m =>
      simp only [run]
      exact bare_rewrap
    | hasFirstAncestor a b =>
      simp only [run]
      split
      · exact bare_error
      · exact bare_none
      · split
        · exact bare_error
        · split
          · exact bare_error
          · exact bare_none
          · split
            · exact bare_error
            · exact bare_error
            · exact bare_found
    | hasPrevSibling m =>
      simp only [run]
      split
      · exact bare_none
      · split
        · exact ih env m _ ks hm he
        · exact bare_none
    | hasNextSibling m =>
      simp only [run]
      split
      · exact bare_none
      · split
        · exact ih env m _ ks hm he
        · exact bare_none
    | withTopLevelImport m a b =>
      simp only [run]
      split
      · exact ih env m v ks hm he
      · exact bare_none
    | comments want m =>
      simp only [run]
      have := ih env m v ks hm he
      split
      · exact bare_error
      · exact bare_none
      · rename_i mi ks' e
        split
        · split
          · intro mi' ks'' e'; cases e'; exact this _ _ e
          · exact bare_none
        · exact bare_error
    | rewriteFile pre cmd => simp [Matcher.noTemplates] at hm

/-- A matcher without templates has no whole-file rewriter either. -/
theorem noTemplates_noExternal : ∀ m : Matcher, m.noTemplates = true → m.noExternal = true := by
  intro m
  refine Matcher.rec (motive_1 := fun m => m.noTemplates = true → m.noExternal = true)
    (motive_2 := fun ms => Matcher.noTemplatesList ms = true → Matcher.noExternalList ms = true) ?_ ?_ ?_ ?_ ?_ ?_ ?_ ?_ ?_ ?_
    ?_ ?_ ?_ ?_ ?_ ?_ ?_ ?_ ?_ ?_ ?_ ?_ ?_ ?_ ?_ ?_ ?_ ?_ ?_ ?_ ?_ ?_ ?_ m
  all_goals simp only [Matcher.noTemplates, Matcher.noExternal, Matcher.noTemplatesList, Matcher.noExternalList,
    Bool.and_eq_true] <;> intros <;> simp_all

end Refex
