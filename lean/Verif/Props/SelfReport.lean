import Verif.Model.Find
import Verif.Spec.Common
import Verif.Props.MatcherVars
import Verif.Props.Find
import Verif.Spec.SuiteTree
/-
C78: what a match is about.
-/
namespace Refex
set_option autoImplicit false

mutual
/-- The matcher reports the object it is tried on: it is not one of those that report something else (a sibling, a string
given in advance, the file), nor made from one of those by a matcher that passes on the match of its argument. -/
def Matcher.ofItself : Matcher → Bool
  | .stringMatch _ => false
  | .fileMatchesRegex _ => false
  | .hasPrevSibling _ => false
  | .hasNextSibling _ => false
  | .anyOf ms => Matcher.ofItselfAll ms
  | .bind _ m _ _ => m.ofItself
  | .rebind m _ _ => m.ofItself
  | .withReplacements m _ => m.ofItself
  | .delegate m _ => m.ofItself
  | .recWrapped i w => i.ofItself && w.ofItself
  | .matchesRegex _ m => m.ofItself
  | .withTopLevelImport m _ _ => m.ofItself
  | .comments _ m => m.ofItself
  | _ => true
/-- All of them do. -/
def Matcher.ofItselfAll : List Matcher → Bool
  | [] => true
  | m :: ms => m.ofItself && Matcher.ofItselfAll ms
end

theorem ofItselfAll_mem {ms : List Matcher} (h : Matcher.ofItselfAll ms = true) {m : Matcher} (hm : m ∈ ms) : m.ofItself = true := by
  induction ms with
  | nil => cases hm
  | cons x ms ih =>
    simp only [Matcher.ofItselfAll, Bool.and_eq_true] at h
    rcases List.mem_cons.1 hm with rfl | hm
    · exact h.1
    · exact ih h.2 hm

theorem accumLoop_obj {c : Ctx} {v : Val} (steps : List (List Key → MOut)) (b : Bindings) (r : Replacements) (ks ks' : List Key)
    (mi : MatchInfo) (h : accumLoop c v steps b r ks = .ok (some mi, ks')) : mi.obj = createMatch c v := by
  induction steps generalizing b r ks with
  | nil => simp only [accumLoop, Except.ok.injEq, Prod.mk.injEq, Option.some.injEq] at h; rw [← h.1]
  | cons s steps ih =>
    unfold accumLoop at h
    split at h
    · cases h
    · cases h
    · split at h
      · cases h
      · cases h
      · split at h
        · cases h
        · exact ih _ _ _ h

theorem firstMatch_obj {P : MatchInfo → Prop} (steps : List (List Key → MOut)) (ks ks' : List Key) (mi : MatchInfo)
    (hs : ∀ s ∈ steps, ∀ ks ks' mi, s ks = .ok (some mi, ks') → P mi) (h : firstMatch steps ks = .ok (some mi, ks')) : P mi := by
  induction steps generalizing ks with
  | nil => simp [firstMatch] at h
  | cons s steps ih =>
    unfold firstMatch at h
    split at h
    · cases h
    · exact ih _ (fun s hs' => hs s (by simp [hs'])) h
    · rename_i mi' ks1 he
      cases h
      exact hs s (by simp) _ _ _ he

theorem rewrap_obj {c : Ctx} {v : Val} {o : MOut} {ks' : List Key} {mi : MatchInfo} (h : rewrap c v o = .ok (some mi, ks')) :
    mi.obj = createMatch c v := by
  unfold rewrap at h
  split at h
  · cases h
  · cases h
  · simp only [found, Except.ok.injEq, Prod.mk.injEq, Option.some.injEq] at h; rw [← h.1]

theorem found_obj {c : Ctx} {v : Val} {b : Bindings} {ks ks' : List Key} {mi : MatchInfo} (h : found c v b ks = .ok (some mi, ks')) :
    mi.obj = createMatch c v := by
  simp only [found, Except.ok.injEq, Prod.mk.injEq, Option.some.injEq] at h; rw [← h.1]

theorem run_obj (c : Ctx) (n : Nat) : ∀ (env : Env) (m : Matcher) (v : Val) (ks ks' : List Key) (mi : MatchInfo),
    (∀ e ∈ env, e.1.ofItself = true ∧ e.2.ofItself = true) → m.ofItself = true →
    run c n env m v ks = .ok (some mi, ks') → mi.obj = createMatch c v := by
  induction n with
  | zero => intro env m v ks ks' mi _ _ h; simp [run] at h
  | succ n ih =>
    intro env m v ks ks' mi henv hm h
    cases m with
    | anything => simp only [run] at h; exact found_obj h
    | testRaise => simp [run] at h
    | allOf ms => simp only [run] at h; exact accumLoop_obj _ _ _ _ _ _ h
    | anyOf ms =>
      simp only [run] at h
      split at h
      · cases h
      · rename_i fs hfs
        refine firstMatch_obj (P := fun mi => mi.obj = createMatch c v) _ _ _ _ ?_ h
        intro s hs ks ks' mi hx
        obtain ⟨m, hmem, rfl⟩ := List.mem_map.1 hs
        obtain ⟨⟨m', f⟩, hf, rfl⟩ := List.mem_map.1 (dispatch_mem (zip_nodup hfs) hmem)
        exact ih env m' v ks ks' mi henv (ofItselfAll_mem (by simpa [Matcher.ofItself] using hm) (List.of_mem_zip hf).1) hx
    | unlessM m =>
      simp only [run] at h
      split at h
      · cases h
      · exact found_obj h
      · cases h
    | once k m =>
      simp only [run] at h
      split at h <;> exact accumLoop_obj _ _ _ _ _ _ h
    | bind l m oc om =>
      simp only [run] at h
      split at h
      · cases h
      · cases h
      · rename_i mi' ks1 he
        have := ih env m v ks ks1 mi' henv (by simpa [Matcher.ofItself] using hm) he
        split at h
        · cases h
        · cases h
        · cases h; exact this
    | rebind m oc om =>
      simp only [run] at h
      split at h
      · cases h
      · cases h
      · rename_i mi' ks1 he
        have := ih env m v ks ks1 mi' henv (by simpa [Matcher.ofItself] using hm) he
        cases h; exact this
    | stringMatch s => simp [Matcher.ofItself] at hm
    | withReplacements m rs =>
      simp only [run] at h
      split at h
      · cases h
      · cases h
      · rename_i mi' ks1 he
        have := ih env m v ks ks1 mi' henv (by simpa [Matcher.ofItself] using hm) he
        split at h
        · cases h
        · cases h; exact this
    | delegate m k => simp only [run] at h; exact ih env m v ks ks' mi henv (by simpa [Matcher.ofItself] using hm) h
    | recWrapped i w =>
      have hm' : i.ofItself = true ∧ w.ofItself = true := by simpa [Matcher.ofItself] using hm
      simp only [run] at h
      split at h
      · rename_i f f' hf hf'
        refine firstMatch_obj (P := fun mi => mi.obj = createMatch c v) _ _ _ _ ?_ h
        intro s hs ks ks' mi hx
        obtain ⟨p, hmem, rfl⟩ := List.mem_map.1 hs
        have hn : ∀ p ∈ [((env, i), f), (((i, w) :: env, w), f')], ∀ s, p.2 = some s → s.Nodup := by
          intro p hp s hs
          simp only [List.mem_cons, List.not_mem_nil, or_false] at hp
          rcases hp with rfl | rfl
          · exact typeFilter_nodup _ _ _ _ (hf.trans (by rw [← hs]))
          · exact typeFilter_nodup _ _ _ _ (hf'.trans (by rw [← hs]))
        have hf := dispatch_mem hn hmem
        simp only [List.map_cons, List.map_nil, List.mem_cons, List.not_mem_nil, or_false] at hf
        rcases hf with rfl | rfl
        · exact ih env i v ks ks' mi henv hm'.1 hx
        · refine ih ((i, w) :: env) w v ks ks' mi ?_ hm'.2 hx
          intro e he
          rcases List.mem_cons.1 he with rfl | he
          · exact hm'
          · exact henv e he
      · cases h
      · cases h
    | recurse k =>
      simp only [run] at h
      split at h
      · rename_i i w he
        have := henv (i, w) (List.mem_of_getElem? he)
        exact ih (env.drop (k + 1)) (.recWrapped i w) v ks ks' mi (fun e he => henv e (List.mem_of_mem_drop he))
          (by simp [Matcher.ofItself, this.1, this.2]) h
      · cases h
    | equals w =>
      simp only [run] at h
      split at h
      · exact found_obj h
      · cases h
    | typeIs t =>
      simp only [run] at h
      split at h
      · exact found_obj h
      · cases h
    | matchesRegex rx m =>
      simp only [run] at h
      split at h
      · cases h
      · cases h
      · rename_i mi' ks1 he
        have := ih env m v ks ks1 mi' henv (by simpa [Matcher.ofItself] using hm) he
        split at h
        · cases h
        · split at h
          · cases h
          · split at h
            · cases h
            · cases h
            · cases h; exact this
    | fileMatchesRegex rx => simp [Matcher.ofItself] at hm
    | hasItem i m =>
      simp only [run] at h
      split at h
      · cases h
      · exact rewrap_obj h
    | itemsAre ms => simp only [run] at h; exact accumLoop_obj _ _ _ _ _ _ h
    | contains m =>
      simp only [run] at h
      split at h
      · cases h
      · exact rewrap_obj h
    | inLines ls =>
      simp only [run] at h
      split at h
      · split at h
        · split at h
          · exact found_obj h
          · cases h
        · cases h
      · cases h
    | node ty names ms =>
      simp only [run] at h
      split at h
      · cases h
      · exact accumLoop_obj _ _ _ _ _ _ h
    | constant tys m =>
      simp only [run] at h
      split at h
      · cases h
      · split at h
        · cases h
        · exact rewrap_obj h
    | hasParent m =>
      simp only [run] at h
      split at h
      · cases h
      · exact rewrap_obj h
    | hasChild m => simp only [run] at h; exact rewrap_obj h
    | hasFirstAncestor f a =>
      simp only [run] at h
      split at h
      · cases h
      · cases h
      · split at h
        · cases h
        · split at h
          · cases h
          · cases h
          · split at h
            · cases h
            · cases h
            · exact found_obj h
    | hasPrevSibling m => simp [Matcher.ofItself] at hm
    | hasNextSibling m => simp [Matcher.ofItself] at hm
    | withTopLevelImport m a b =>
      simp only [run] at h
      split at h
      · exact ih env m v ks ks' mi henv (by simpa [Matcher.ofItself] using hm) h
      · cases h
    | comments want m =>
      simp only [run] at h
      split at h
      · cases h
      · cases h
      · rename_i mi' ks1 he
        have := ih env m v ks ks1 mi' henv (by simpa [Matcher.ofItself] using hm) he
        split at h
        · split at h
          · cases h; exact this
          · cases h
        · cases h
    | rewriteFile p k =>
      simp only [run] at h
      split at h
      · cases h
      · cases h; rfl

/-- **C78**: when a matcher that is `ofItself` matches an object, the match is of that object (and not of a part of it, its
parent, or a sibling), whatever its submatchers looked at. -/
theorem C78_match_is_the_object (c : Ctx) (n : Nat) (m : Matcher) (hm : m.ofItself = true) (v : Val) (ks ks' : List Key) (mi : MatchInfo)
    (h : run c n [] m v ks = .ok (some mi, ks')) : mi.obj = createMatch c v :=
  run_obj c n [] m v ks ks' mi (by simp) hm h

theorem reportsItself_of {c : Ctx} {n : Nat} {m : Matcher} (hm : m.ofItself = true) : ReportsItself c n m := by
  intro done v mi ks h
  unfold attempt at h
  split at h
  · cases h
  · split at h
    · exact C78_match_is_the_object { c with done := done } n m hm v [] ks mi h
    · cases h

/-- **C78**, a search: every reported match is of the object at the place where it was found. -/
theorem C78_search (c : Ctx) (n : Nat) (m : Matcher) (hm : m.ofItself = true) (h : (treeFind c n m).2 = none) :
    ∃ rs : List Report, (treeFind c n m).1 = rs.map (·.mi) ∧ Outermost (attempt c n m) c.tree c.done rs ∧
      ∀ r ∈ rs, ∃ v, c.tree.at? r.path = some v ∧ r.mi.obj = createMatch c v := by
  obtain ⟨rs, h1, h2⟩ := C45_reports_outermost c n m h
  refine ⟨rs, h1, h2, fun r hr => ?_⟩
  obtain ⟨⟨v, hv, ha⟩, _⟩ := (h2.2 r).1 hr
  exact ⟨v, hv, reportsItself_of hm _ _ _ _ ha⟩

end Refex
