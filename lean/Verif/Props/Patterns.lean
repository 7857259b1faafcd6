import Verif.Model.Patterns
import Verif.Spec.Patterns
import Verif.Props.AstEq
import Verif.Props.Glob
import Verif.Props.Bindings
/- C47, C59: compiled patterns match the instances of the pattern. -/
namespace Refex
set_option autoImplicit false

/-! ### Merging the bindings of metavariables -/

theorem updateFrom_wf (src : Bindings) (ks : List Label) (d : Bindings) (h : d.WF) : (updateFrom d src ks).WF := by
  induction ks generalizing d with
  | nil => exact h
  | cons k ks ih =>
    simp only [updateFrom, List.foldl_cons]
    refine ih _ ?_
    split
    · exact Dict.WF_set h _ _
    · exact h

theorem mergeFold_wf (lhs rhs : Bindings) (ks : List Label) (st st' : Bindings × Bool) (h : st.1.WF)
    (he : ks.foldlM (mergeStep lhs rhs) st = .ok st') : st'.1.WF := by
  induction ks generalizing st with
  | nil => cases he; exact h
  | cons k ks ih =>
    rw [List.foldlM_cons] at he
    cases hs : mergeStep lhs rhs st k with
    | error e => rw [hs] at he; cases he
    | ok st1 =>
      rw [hs] at he
      refine ih st1 ?_ he
      unfold mergeStep at hs
      split at hs
      · split at hs
        · cases hs
        · split at hs
          · cases hs
          · split at hs
            · cases hs
            · cases hs; exact Dict.WF_set h _ _
            · cases hs; exact h
      · cases hs; exact h

theorem mergeBindings_wf {l r d : Bindings} (h : mergeBindings l r = .ok (some d)) : d.WF := by
  unfold mergeBindings mergeBindingsIn at h
  split at h
  · cases h
  · cases h
  · rename_i d0 h0
    cases h
    exact updateFrom_wf _ _ _ (updateFrom_wf _ _ _ (mergeFold_wf _ _ _ ([], false) _ List.nodup_nil h0))

/-- The bound value of a metavariable. -/
def metaValue (c : Ctx) (v : Val) : BoundValue := ⟨createMatch c v, .mergeEquivalentAst, .keepLast⟩

/-- The bindings are those of the occurrences: every metavariable is bound to its last one. -/
def BoundTo (c : Ctx) (b : Bindings) (occ : Occs) : Prop := ∀ x, b.get? x = (occ.of x).getLast?.map (metaValue c)

theorem createMatch_matched (c : Ctx) (v : Val) :
    (createMatch c v).matched? = match v with
      | .const _ (.str _) => none
      | v => some v := by
  cases v with
  | const i k => cases k <;> rfl
  | list i vs => rfl
  | node i t ns vs =>
    simp only [createMatch]
    cases c.tok i with
    | none => rfl
    | some sp =>
      simp only
      split
      · split <;> rfl
      · split <;> rfl

theorem equivalentAst_iff (c : Ctx) (a b : Val) : equivalentAst (metaValue c a) (metaValue c b) = true ↔ Alike a b := by
  unfold equivalentAst metaValue Alike
  simp only [createMatch_matched]
  cases a with
  | const i k =>
    cases b with
    | const j k' => cases k <;> cases k' <;> simp
    | list j ws => cases k <;> simp
    | node j t ns ws => cases k <;> simp
  | list i vs =>
    cases b with
    | const j k' => cases k' <;> simp
    | list j ws => simp
    | node j t ns ws => simp
  | node i t ns vs =>
    cases b with
    | const j k' => cases k' <;> simp
    | list j ws => simp
    | node j t ns ws => simp

theorem Occs.of_append (a b : Occs) (x : Label) : Occs.of (a ++ b) x = a.of x ++ b.of x := by
  unfold Occs.of
  have : (a ++ b : List (Label × Val)).filter (fun p => decide (p.1 = x)) =
    a.filter (fun p => decide (p.1 = x)) ++ b.filter (fun p => decide (p.1 = x)) := List.filter_append ..
  rw [this, List.map_append]

/-- All metavariables are linked. -/
def LinkedAll (occ : Occs) : Prop := ∀ x, Linked (occ.of x)

/-- All occurrences of the same metavariable are alike. -/
def AlikeAll (occ : Occs) : Prop := ∀ x, AllAlike (occ.of x)

theorem linked_append {us vs : List Val} (hu : Linked us) (hv : Linked vs)
    (h : ∀ a b, us.getLast? = some a → vs.getLast? = some b → Alike a b) : Linked (us ++ vs) := by
  intro i a hi hl
  rw [List.length_append] at hl
  by_cases hiu : i < us.length
  · rw [List.getElem?_append_left hiu] at hi
    by_cases hlast : i + 1 < us.length
    · obtain ⟨j, b, hij, hj, hab⟩ := hu i a hi hlast
      have hjl : j < us.length := (List.getElem?_eq_some_iff.1 hj).1
      exact ⟨j, b, hij, by rw [List.getElem?_append_left hjl]; exact hj, hab⟩
    · have hia : us.getLast? = some a := by
        rw [List.getLast?_eq_getElem?]
        have : us.length - 1 = i := by omega
        rw [this]; exact hi
      have hne : vs ≠ [] := by intro e; subst e; simp at hl; omega
      have hvl : 0 < vs.length := List.length_pos_iff.2 hne
      have hvb : vs.getLast? = some (vs.getLast hne) := List.getLast?_eq_some_getLast hne
      refine ⟨us.length + (vs.length - 1), vs.getLast hne, by omega, ?_, h _ _ hia hvb⟩
      rw [List.getElem?_append_right (by omega), Nat.add_sub_cancel_left, ← List.getLast?_eq_getElem?]
      exact hvb
  · rw [List.getElem?_append_right (by omega)] at hi
    obtain ⟨j, b, hij, hj, hab⟩ := hv (i - us.length) a hi (by omega)
    refine ⟨us.length + j, b, by omega, ?_, hab⟩
    rw [List.getElem?_append_right (by omega), Nat.add_sub_cancel_left]; exact hj

theorem allAlike_last {us vs : List Val} (h : AllAlike (us ++ vs)) {a b : Val} (ha : us.getLast? = some a)
    (hb : vs.getLast? = some b) : Alike a b := by
  rw [List.getLast?_eq_getElem?] at ha hb
  have h1 := (List.getElem?_eq_some_iff.1 ha).1
  have h2 := (List.getElem?_eq_some_iff.1 hb).1
  refine h (us.length - 1) (us.length + (vs.length - 1)) a b (by omega) ?_ ?_
  · rw [List.getElem?_append_left h1]; exact ha
  · rw [List.getElem?_append_right (by omega), Nat.add_sub_cancel_left]; exact hb

theorem allAlike_left {us vs : List Val} (h : AllAlike (us ++ vs)) : AllAlike us := by
  intro i j a b hij hi hj
  have h1 := (List.getElem?_eq_some_iff.1 hi).1
  have h2 := (List.getElem?_eq_some_iff.1 hj).1
  exact h i j a b hij (by rw [List.getElem?_append_left h1]; exact hi) (by rw [List.getElem?_append_left h2]; exact hj)

theorem allAlike_right {us vs : List Val} (h : AllAlike (us ++ vs)) : AllAlike vs := by
  intro i j a b hij hi hj
  refine h (us.length + i) (us.length + j) a b (by omega) ?_ ?_
  · rw [List.getElem?_append_right (by omega), Nat.add_sub_cancel_left]; exact hi
  · rw [List.getElem?_append_right (by omega), Nat.add_sub_cancel_left]; exact hj

theorem pairError_meta (c : Ctx) (a b : Val) : ¬ PairError (metaValue c a) (metaValue c b) := by
  simp [PairError, metaValue]

theorem pairSkip_meta (c : Ctx) (a b : Val) : PairSkip (metaValue c a) (metaValue c b) ↔ ¬ Alike a b := by
  rw [← equivalentAst_iff c]
  unfold PairSkip
  simp only [pairError_meta, not_false_eq_true, true_and]
  simp [metaValue]

/-- Merging the bindings of two parts of a pattern. -/
theorem merge_meta {c : Ctx} {b1 b2 : Bindings} {o1 o2 : Occs} (w1 : b1.WF) (w2 : b2.WF) (h1 : BoundTo c b1 o1)
    (h2 : BoundTo c b2 o2) :
    (∃ b, mergeBindings b1 b2 = .ok (some b) ∧ b.WF ∧ BoundTo c b (o1 ++ o2) ∧
      ∀ x u v, (o1.of x).getLast? = some u → (o2.of x).getLast? = some v → Alike u v) ∨
    (mergeBindings b1 b2 = .ok none ∧ ∃ x u v, (o1.of x).getLast? = some u ∧ (o2.of x).getLast? = some v ∧ ¬ Alike u v) := by
  have ho := dictOrders w1 w2
  have shared : ∀ k l r, Shared b1 b2 k l r → ∃ u v, (o1.of k).getLast? = some u ∧ (o2.of k).getLast? = some v ∧
      l = metaValue c u ∧ r = metaValue c v := by
    intro k l r ⟨hl, hr⟩
    rw [h1 k] at hl; rw [h2 k] at hr
    obtain ⟨u, hu, rfl⟩ := Option.map_eq_some_iff.1 hl
    obtain ⟨v, hv, rfl⟩ := Option.map_eq_some_iff.1 hr
    exact ⟨u, v, hu, hv, rfl, rfl⟩
  have herr : ¬ ∃ k a b, Shared b1 b2 k a b ∧ PairError a b := by
    rintro ⟨k, a, b, hs, hp⟩
    obtain ⟨u, v, _, _, rfl, rfl⟩ := shared k a b hs
    exact pairError_meta c u v hp
  by_cases hskip : ∃ k a b, Shared b1 b2 k a b ∧ PairSkip a b
  · right
    refine ⟨(C37_skip_iff ho).2 ⟨herr, hskip⟩, ?_⟩
    obtain ⟨k, a, b, hs, hp⟩ := hskip
    obtain ⟨u, v, hu, hv, rfl, rfl⟩ := shared k a b hs
    exact ⟨k, u, v, hu, hv, (pairSkip_meta c u v).1 hp⟩
  · left
    obtain ⟨b, hb, hk⟩ := C37_merged ho herr hskip
    refine ⟨b, hb, mergeBindings_wf hb, ?_, ?_⟩
    · intro x
      rw [hk x, Occs.of_append]
      unfold mergedValue
      rw [h1 x, h2 x, List.getLast?_append]
      cases (o1.of x).getLast? <;> cases (o2.of x).getLast? <;> simp [metaValue]
    · intro x u v hu hv
      apply Classical.byContradiction
      intro hna
      exact hskip ⟨x, metaValue c u, metaValue c v, ⟨by rw [h1 x, hu]; rfl, by rw [h2 x, hv]; rfl⟩,
        (pairSkip_meta c u v).2 hna⟩

/-! ### Steps of an accumulating matcher -/

/-- The outcome `r` of matching something whose instances are given by `I`. -/
structure Outcome (c : Ctx) (pre : Occs) (I : Occs → Prop) (r : Option MatchInfo) : Prop where
  hit : ∀ mi, r = some mi → mi.replacements = [] ∧ mi.bindings.WF ∧
    ∃ occ, I occ ∧ BoundTo c mi.bindings (pre ++ occ) ∧ LinkedAll (pre ++ occ)
  miss : r = none → ∀ occ, I occ → ¬ AlikeAll (pre ++ occ)

/-- A step with that outcome, without errors or effects. -/
def PatStep (c : Ctx) (f : List Key → MOut) (I : Occs → Prop) : Prop :=
  ∀ ks, ∃ r, f ks = .ok (r, ks) ∧ Outcome c [] I r

/-- There is only one way to be an instance. -/
def Det (I : Occs → Prop) : Prop := ∀ o o', I o → I o' → o = o'

/-- One after the other. -/
inductive InSeq : List (Occs → Prop) → Occs → Prop
  | nil : InSeq [] []
  | cons {I Is o occ} : I o → InSeq Is occ → InSeq (I :: Is) (o ++ occ)

/-- Step by step. -/
inductive StepsFor (c : Ctx) : List (List Key → MOut) → List (Occs → Prop) → Prop
  | nil : StepsFor c [] []
  | cons {f fs I Is} : PatStep c f I → Det I → StepsFor c fs Is → StepsFor c (f :: fs) (I :: Is)

theorem alikeAll_mid {a b d : Occs} (h : AlikeAll (a ++ (b ++ d))) :
    AlikeAll b ∧ ∀ x u v, (a.of x).getLast? = some u → (b.of x).getLast? = some v → Alike u v := by
  constructor
  · intro x
    have := h x
    rw [Occs.of_append, Occs.of_append] at this
    exact allAlike_left (allAlike_right this)
  · intro x u v hu hv
    have := h x
    rw [Occs.of_append, Occs.of_append, ← List.append_assoc] at this
    exact allAlike_last (allAlike_left this) hu hv

theorem accumLoop_steps {c : Ctx} {v : Val} {fs : List (List Key → MOut)} {Is : List (Occs → Prop)} (h : StepsFor c fs Is)
    (pre : Occs) (b : Bindings) (hw : b.WF) (hb : BoundTo c b pre) (hl : LinkedAll pre) (ks : List Key) :
    ∃ r, accumLoop c v fs b [] ks = .ok (r, ks) ∧ Outcome c pre (InSeq Is) r ∧
      ∀ mi, r = some mi → mi.obj = createMatch c v := by
  induction h generalizing pre b with
  | nil =>
    refine ⟨some ⟨createMatch c v, b, []⟩, rfl, ⟨?_, by simp⟩, by intro mi h; cases h; rfl⟩
    intro mi h; cases h
    exact ⟨rfl, hw, [], .nil, by simpa using hb, by simpa using hl⟩
  | @cons f fs I Is hf hd hs ih =>
    obtain ⟨r, hr, ho⟩ := hf ks
    cases r with
    | none =>
      refine ⟨none, by simp [accumLoop, hr], ⟨by simp, ?_⟩, by simp⟩
      intro _ occ hI ha
      cases hI with
      | @cons _ _ o occ h1 h2 => exact ho.miss rfl o h1 (by simpa using (alikeAll_mid ha).1)
    | some mi =>
      obtain ⟨hrep, hwf, occ1, hI1, hbo, hli⟩ := ho.hit mi rfl
      rw [List.nil_append] at hbo hli
      rcases merge_meta hw hwf hb hbo with ⟨b', hm, hw', hb', hal⟩ | ⟨hm, x, u, w, hu, hv, hna⟩
      · have hl' : LinkedAll (pre ++ occ1) := by
          intro x; rw [Occs.of_append]; exact linked_append (hl x) (hli x) (fun a b => hal x a b)
        obtain ⟨r, h1, h2, h3⟩ := ih (pre ++ occ1) b' hw' hb' hl'
        refine ⟨r, ?_, ⟨?_, ?_⟩, h3⟩
        · simp only [accumLoop, hr, hm, hrep]
          simpa [mergeReplacements, Dict.keys] using h1
        · intro mi' he
          obtain ⟨g1, g2, occ, g3, g4, g5⟩ := h2.hit mi' he
          exact ⟨g1, g2, occ1 ++ occ, .cons hI1 g3, by rw [← List.append_assoc]; exact g4,
            by rw [← List.append_assoc]; exact g5⟩
        · intro he occ hI ha
          cases hI with
          | @cons _ _ o occ g1 g2 =>
            obtain rfl := hd _ _ hI1 g1
            exact h2.miss he occ g2 (by rw [List.append_assoc]; exact ha)
      · refine ⟨none, by simp [accumLoop, hr, hm], ⟨by simp, ?_⟩, by simp⟩
        intro _ occ hI ha
        cases hI with
        | @cons _ _ o occ g1 g2 =>
          obtain rfl := hd _ _ hI1 g1
          exact hna ((alikeAll_mid ha).2 x u w hu hv)

theorem accumulate_steps {c : Ctx} {v : Val} {fs : List (List Key → MOut)} {Is : List (Occs → Prop)} (h : StepsFor c fs Is)
    (ks : List Key) :
    ∃ r, accumulate c v fs ks = .ok (r, ks) ∧ Outcome c [] (InSeq Is) r ∧ ∀ mi, r = some mi → mi.obj = createMatch c v :=
  accumLoop_steps h [] [] List.nodup_nil (by intro x; rfl) (by intro x i a h; simp [Occs.of] at h) ks

/-! ### Instances are unique -/

theorem instances_det {hole : Val → Hole} {allowed : Label → Val → Prop} (ts : List Val)
    (h : ∀ t ∈ ts, ∀ v o o', Instance hole allowed t v o → Instance hole allowed t v o' → o = o') {vs : List Val} {o o' : Occs}
    (h1 : Instances hole allowed ts vs o) (h2 : Instances hole allowed ts vs o') : o = o' := by
  induction ts generalizing vs o o' with
  | nil => cases h1; cases h2; rfl
  | cons t ts ih =>
    cases h1 with
    | cons a b =>
      cases h2 with
      | cons a' b' =>
        rw [h t (by simp) _ _ _ a a', ih (fun t ht => h t (by simp [ht])) b b']

theorem fieldInstances_det {hole : Val → Hole} {allowed : Label → Val → Prop} {ty : Str} (ts : List Val)
    (h : ∀ t ∈ ts, ∀ v o o', Instance hole allowed t v o → Instance hole allowed t v o' → o = o') {ns : List Str} {vs : List Val} {o o' : Occs}
    (h1 : FieldInstances hole allowed ty ns ts vs o) (h2 : FieldInstances hole allowed ty ns ts vs o') : o = o' := by
  induction ts generalizing ns vs o o' with
  | nil => cases h1; cases h2; rfl
  | cons t ts ih =>
    cases h1 with
    | ctx b =>
      cases h2 with
      | ctx b' => exact ih (fun t ht => h t (by simp [ht])) b b'
      | cons hn a' b' => exact absurd ⟨rfl, rfl⟩ hn
    | cons hn a b =>
      cases h2 with
      | ctx b' => exact absurd ⟨rfl, rfl⟩ hn
      | cons _ a' b' => rw [h t (by simp) _ _ _ a a', ih (fun t ht => h t (by simp [ht])) b b']

theorem size_mem {v : Val} {vs : List Val} (h : v ∈ vs) : v.size ≤ Val.sizes vs := by
  induction vs with
  | nil => simp at h
  | cons w vs ih =>
    simp only [Val.sizes]
    rcases List.mem_cons.1 h with rfl | h
    · omega
    · have := ih h; omega

theorem instance_det {hole : Val → Hole} {allowed : Label → Val → Prop} (t v : Val) (o o' : Occs)
    (h1 : Instance hole allowed t v o) (h2 : Instance hole allowed t v o') : o = o' := by
  suffices H : ∀ k (t : Val), t.size ≤ k → ∀ v o o', Instance hole allowed t v o → Instance hole allowed t v o' → o = o' from
    H _ t (Nat.le_refl _) v o o' h1 h2
  intro k
  induction k with
  | zero => intro t ht; have := t.size_pos; omega
  | succ k ih =>
    intro t ht v o o' h1 h2
    cases h1 with
    | named e a =>
      cases h2 with
      | named e' _ => rw [e] at e'; cases e'; rfl
      | anonymous e' => rw [e] at e'; cases e'
      | const e' => rw [e] at e'; cases e'
      | list e' => rw [e] at e'; cases e'
      | node e' => rw [e] at e'; cases e'
    | anonymous e =>
      cases h2 with
      | named e' _ => rw [e] at e'; cases e'
      | anonymous e' => rfl
      | const e' => rfl
      | list e' => rw [e] at e'; cases e'
      | node e' => rw [e] at e'; cases e'
    | const e =>
      cases h2 with
      | named e' _ => rw [e] at e'; cases e'
      | anonymous e' => rfl
      | const e' => rfl
    | list e a =>
      cases h2 with
      | named e' _ => rw [e] at e'; cases e'
      | anonymous e' => rw [e] at e'; cases e'
      | list e' a' =>
        refine instances_det _ (fun t ht' => ih t ?_) a a'
        have := size_mem ht'; simp only [Val.size] at ht; omega
    | node e a =>
      cases h2 with
      | named e' _ => rw [e] at e'; cases e'
      | anonymous e' => rw [e] at e'; cases e'
      | node e' a' =>
        refine fieldInstances_det _ (fun t ht' => ih t ?_) a a'
        have := size_mem ht'; simp only [Val.size] at ht; omega

/-! ### The compiled pattern -/

/-- The compiled submatchers belong to the metavariables of the pattern. -/
def CompiledVars (c : Ctx) (env : Env) (N : Nat) (vars : Dict Str Matcher) (what : Str → Hole) (allowed : Label → Val → Prop) : Prop :=
  ∀ s, match what s with
    | .named x => ∃ m, vars.get? s = some (metaBind x m) ∧ ∀ n, N ≤ n → Restricts c n env m (allowed x)
    | .anonymous => vars.get? s = some .anything
    | .none => vars.get? s = none

/-- A step for a value, which it reports as the match. -/
def PatRun (c : Ctx) (f : List Key → MOut) (v : Val) (I : Occs → Prop) : Prop :=
  ∀ ks, ∃ r, f ks = .ok (r, ks) ∧ Outcome c [] I r ∧ ∀ mi, r = some mi → mi.obj = createMatch c v

theorem PatRun.step {c : Ctx} {f : List Key → MOut} {v : Val} {I : Occs → Prop} (h : PatRun c f v I) : PatStep c f I :=
  fun ks => let ⟨r, h1, h2, _⟩ := h ks; ⟨r, h1, h2⟩

theorem linkedAll_nil : LinkedAll [] := by intro x i a h; simp [Occs.of] at h

theorem boundTo_nil (c : Ctx) : BoundTo c [] [] := by intro x; rfl

theorem outcome_plain {c : Ctx} {I : Occs → Prop} (h : I []) {o : MObj} : Outcome c [] I (some ⟨o, [], []⟩) :=
  ⟨fun mi e => by cases e; exact ⟨rfl, List.nodup_nil, [], h, boundTo_nil c, linkedAll_nil⟩, by simp⟩

theorem outcome_none {c : Ctx} {I : Occs → Prop} (h : ∀ o, ¬ I o) : Outcome c [] I none :=
  ⟨by simp, fun _ o ho => absurd ho (h o)⟩

theorem patRun_named {c : Ctx} {env : Env} {n : Nat} {x : Label} {m : Matcher} {al : Val → Prop} (h : Restricts c n env m al)
    (v : Val) : PatRun c (run c (n + 1) env (metaBind x m) v) v (fun o => al v ∧ o = [(x, v)]) := by
  intro ks
  rcases h v ks with ⟨ha, hr⟩ | ⟨ha, hr⟩
  · have hm : mergeBindings [] [(x, metaValue c v)] = .ok (some [(x, metaValue c v)]) := by
      simp [mergeBindings, mergeBindingsIn, updateFrom, Dict.keys, Dict.has, Dict.get?, Dict.set, pure, Except.pure]
    refine ⟨some ⟨createMatch c v, [(x, metaValue c v)], []⟩, ?_, ⟨?_, by simp⟩, by intro mi e; cases e; rfl⟩
    · simp only [metaBind, run, hr, Option.getD]
      unfold metaValue at hm ⊢
      rw [hm]
    · intro mi e
      cases e
      refine ⟨rfl, by simp [Dict.WF, Dict.keys], [(x, v)], ⟨ha, rfl⟩, ?_, ?_⟩
      · intro y
        by_cases hy : x = y
        · subst hy; simp [Dict.get?, Occs.of]
        · simp [Dict.get?, Occs.of, hy]
      · intro y i a hi hl
        exfalso
        have : (Occs.of ([] ++ [(x, v)]) y).length ≤ 1 := by
          unfold Occs.of; rw [List.length_map]; exact Nat.le_trans (List.length_filter_le ..) (by simp)
        omega
  · refine ⟨none, by simp [metaBind, run, hr], outcome_none (fun o h => ha h.1), by simp⟩

/-- The instances of the items of a list, item by item. -/
def itemIs (I : Val → Val → Occs → Prop) : List Val → List Val → List (Occs → Prop)
  | [], _ => []
  | _ :: ts, [] => (fun _ => False) :: itemIs I ts []
  | t :: ts, v :: vs => I t v :: itemIs I ts vs

theorem inSeq_items {hole : Val → Hole} {allowed : Label → Val → Prop} (ts vs : List Val) (o : Occs) :
    (vs.length ≤ ts.length ∧ InSeq (itemIs (Instance hole allowed) ts vs) o) ↔ Instances hole allowed ts vs o := by
  induction ts generalizing vs o with
  | nil =>
    constructor
    · rintro ⟨h, hs⟩
      have : vs = [] := by cases vs <;> simp_all
      subst this; cases hs; exact .nil
    · intro h; cases h; exact ⟨by simp, .nil⟩
  | cons t ts ih =>
    cases vs with
    | nil =>
      constructor
      · rintro ⟨_, hs⟩; cases hs with | cons h _ => exact h.elim
      · intro h; cases h
    | cons v vs =>
      constructor
      · rintro ⟨h, hs⟩
        cases hs with
        | cons h1 h2 => exact .cons h1 ((ih vs _).1 ⟨by simpa using h, h2⟩)
      · intro h
        cases h with
        | cons h1 h2 => obtain ⟨h3, h4⟩ := (ih vs _).2 h2; exact ⟨by simpa using h3, .cons h1 h4⟩

theorem patRun_rewrap {c : Ctx} {v w : Val} {f : List Key → MOut} {I : Occs → Prop} (h : PatRun c f w I) :
    PatRun c (fun ks => rewrap c v (f ks)) v I := by
  intro ks
  obtain ⟨r, h1, h2, h3⟩ := h ks
  cases r with
  | none => exact ⟨none, by simp [h1, rewrap], h2, by simp⟩
  | some mi =>
    refine ⟨some ⟨createMatch c v, mi.bindings, []⟩, by simp [h1, rewrap, found], ⟨?_, by simp⟩, by intro mi e; cases e; rfl⟩
    intro mi' e; cases e
    obtain ⟨_, g⟩ := h2.hit mi rfl
    exact ⟨rfl, g⟩

theorem steps_items {c : Ctx} {n : Nat} {env : Env} {vars : Dict Str Matcher} {hole : Val → Hole} {allowed : Label → Val → Prop}
    {v : Val} {vs : List Val} (hv : seqItems v = some vs) (ts : List Val) (k : Nat)
    (h : ∀ t ∈ ts, ∀ w ∈ vs, PatRun c (run c n env (astPattern vars t) w) w (Instance hole allowed t w)) :
    StepsFor c ((enumFrom k (astPatterns vars ts)).map fun p => run c (n + 1) env (.hasItem p.1 p.2) v)
      (itemIs (Instance hole allowed) ts (vs.drop k)) := by
  induction ts generalizing k with
  | nil => exact .nil
  | cons t ts ih =>
    have ih := ih (k + 1) (fun t ht => h t (by simp [ht]))
    simp only [astPatterns, enumFrom, List.map_cons]
    have hrun : run c (n + 1) env (.hasItem k (astPattern vars t)) v = fun ks => match vs[k]? with
        | none => .ok (none, ks)
        | some w => rewrap c v (run c n env (astPattern vars t) w ks) := by
      funext ks
      simp only [run, getItem_nat hv]
      cases vs[k]? <;> rfl
    by_cases hk : k < vs.length
    · rw [List.drop_eq_getElem_cons hk]
      refine .cons ?_ (fun o o' => instance_det _ _ o o') ih
      rw [hrun]
      simp only [List.getElem?_eq_getElem hk]
      exact (patRun_rewrap (h t (by simp) _ (List.getElem_mem hk))).step
    · rw [List.drop_eq_nil_of_le (by omega)]
      rw [List.drop_eq_nil_of_le (by omega)] at ih
      refine .cons ?_ (fun o o' h => h.elim) ih
      rw [hrun]
      intro ks
      rw [List.getElem?_eq_none (by omega)]
      exact ⟨none, rfl, outcome_none (fun o h => h)⟩

theorem astPatterns_length (vars : Dict Str Matcher) (ts : List Val) : (astPatterns vars ts).length = ts.length := by
  induction ts with
  | nil => rfl
  | cons t ts ih => simp [astPatterns, ih]

/-- The instances of the fields, field by field. -/
def fieldIs (I : Val → Val → Occs → Prop) (isName : Bool) : List Str → List Val → List Val → List (Occs → Prop)
  | n :: ns, t :: ts, v :: vs =>
    (if n = str "ctx" ∧ isName = true then (fun o => o = []) else I t v) :: fieldIs I isName ns ts vs
  | _, _, _ => []

theorem inSeq_fields {hole : Val → Hole} {allowed : Label → Val → Prop} {ty : Str} (ns : List Str) (ts vs : List Val)
    (h1 : ts.length = ns.length) (h2 : vs.length = ns.length) (o : Occs) :
    InSeq (fieldIs (Instance hole allowed) (decide (ty = str "Name")) ns ts vs) o ↔ FieldInstances hole allowed ty ns ts vs o := by
  induction ns generalizing ts vs o with
  | nil =>
    have : ts = [] := by cases ts <;> simp_all
    have : vs = [] := by cases vs <;> simp_all
    subst_vars
    constructor
    · intro h; cases h; exact .nil
    · intro h; cases h; exact .nil
  | cons n ns ih =>
    cases ts with
    | nil => simp at h1
    | cons t ts =>
      cases vs with
      | nil => simp at h2
      | cons v vs =>
        have ih := fun o => ih ts vs (by simpa using h1) (by simpa using h2) o
        simp only [fieldIs]
        by_cases hc : n = str "ctx" ∧ ty = str "Name"
        · obtain ⟨rfl, rfl⟩ := hc
          rw [if_pos (by simp)]
          constructor
          · intro h
            cases h with
            | cons a b => subst a; exact .ctx ((ih _).1 b)
          · intro h
            cases h with
            | ctx b => exact InSeq.cons (o := []) rfl ((ih _).2 b)
            | cons hn _ _ => exact absurd ⟨rfl, rfl⟩ hn
        · rw [if_neg (by simpa using hc)]
          constructor
          · intro h
            cases h with
            | cons a b => exact .cons (fun e => hc ⟨e.2, e.1⟩) a ((ih _).1 b)
          · intro h
            cases h with
            | ctx b => exact absurd ⟨rfl, rfl⟩ hc
            | cons hn a b => exact .cons a ((ih _).2 b)

theorem steps_fields {c : Ctx} {n : Nat} {env : Env} {vars : Dict Str Matcher} {hole : Val → Hole} {allowed : Label → Val → Prop}
    {v : Val} {isName : Bool} (ns : List Str) (ts vs : List Val) (h1 : ts.length = ns.length) (h2 : vs.length = ns.length)
    (hv : ∀ (k : Nat) s w, ns[k]? = some s → vs[k]? = some w → v.getattr s = w)
    (h : ∀ (k : Nat) t w, ts[k]? = some t → vs[k]? = some w → PatRun c (run c (n + 1) env (astPattern vars t) w) w (Instance hole allowed t w)) :
    StepsFor c ((ns.zip (fieldPatterns vars isName ns ts)).map fun p => run c (n + 1) env p.2 (v.getattr p.1))
      (fieldIs (Instance hole allowed) isName ns ts vs) := by
  induction ns generalizing ts vs with
  | nil => exact .nil
  | cons s ns ih =>
    cases ts with
    | nil => simp at h1
    | cons t ts =>
      cases vs with
      | nil => simp at h2
      | cons w vs =>
        have ih := ih ts vs (by simpa using h1) (by simpa using h2) (fun k s w a b => hv (k + 1) s w (by simpa using a) (by simpa using b))
          (fun k t w a b => h (k + 1) t w (by simpa using a) (by simpa using b))
        simp only [fieldPatterns, fieldIs, List.zip_cons_cons, List.map_cons]
        rw [hv 0 s w rfl rfl]
        by_cases hc : s = str "ctx" ∧ isName = true
        · rw [if_pos hc, if_pos hc]
          refine .cons (fun ks => ⟨_, by rw [run]; rfl, outcome_plain (I := fun o => o = []) rfl⟩) ?_ ih
          intro o o' a b; rw [a, b]
        · rw [if_neg hc, if_neg hc]
          exact .cons (h 0 t w rfl rfl).step (fun o o' => instance_det _ _ o o') ih

theorem Outcome.congr {c : Ctx} {pre : Occs} {I J : Occs → Prop} {r : Option MatchInfo} (h : Outcome c pre I r) (e : ∀ o, I o ↔ J o) :
    Outcome c pre J r :=
  ⟨fun mi hm => let ⟨a, b, occ, d, f⟩ := h.hit mi hm; ⟨a, b, occ, (e occ).1 d, f⟩, fun hr o ho => h.miss hr o ((e o).2 ho)⟩

theorem nameId_hole (what : Str → Hole) (i : Nat) (t : Str) (ns : List Str) (vs : List Val) :
    (∃ s, nameId (.node i t ns vs) = some s ∧ holeAt what (.node i t ns vs) = what s) ∨
    (nameId (.node i t ns vs) = none ∧ holeAt what (.node i t ns vs) = .none) := by
  by_cases ht : t = str "Name"
  · have e1 : nameId (.node i t ns vs) = strField (.node i t ns vs) (str "id") := if_pos ht
    have e2 : holeAt what (.node i t ns vs) = (match (Val.node i t ns vs).getattr (str "id") with
       | .const _ (.str s) => what s
       | _ => .none) := if_pos ht
    rw [e1, e2]
    unfold strField
    generalize (Val.node i t ns vs).getattr (str "id") = u
    cases u with
    | const j d => cases d <;> simp
    | list j us => simp
    | node j t ns us => simp
  · exact Or.inr ⟨if_neg ht, if_neg ht⟩

theorem run_node_same (c : Ctx) (n : Nat) (env : Env) {ty : Str} (ns : List Str) (ms : List Matcher) {v : Val} (h : v.ty = ty)
    (ks : List Key) : run c (n + 1) env (.node ty ns ms) v ks = accumulate c v ((ns.zip ms).map fun p => run c n env p.2 (v.getattr p.1)) ks := by
  rw [run, if_neg (by simp [h])]

theorem run_node_other (c : Ctx) (n : Nat) (env : Env) {ty : Str} (ns : List Str) (ms : List Matcher) {v : Val} (h : v.ty ≠ ty)
    (ks : List Key) : run c (n + 1) env (.node ty ns ms) v ks = .ok (none, ks) := by
  rw [run, if_pos h]

theorem patRun_node {c : Ctx} {env : Env} {n : Nat} {vars : Dict Str Matcher} {hole : Val → Hole} {allowed : Label → Val → Prop}
    {i j : Nat} {ty : Str} {ns : List Str} {ts vs : List Val} (hh : hole (.node i ty ns ts) = .none) (hnd : ns.Nodup)
    (h1 : ts.length = ns.length) (h2 : vs.length = ns.length)
    (h : ∀ (k : Nat) t w, ts[k]? = some t → vs[k]? = some w → PatRun c (run c (n + 1) env (astPattern vars t) w) w (Instance hole allowed t w)) :
    PatRun c (run c (n + 2) env (.node ty ns (fieldPatterns vars (decide (ty = str "Name")) ns ts)) (.node j ty ns vs)) (.node j ty ns vs)
      (Instance hole allowed (.node i ty ns ts) (.node j ty ns vs)) := by
  have hst := steps_fields (isName := decide (ty = str "Name")) (v := .node j ty ns vs) ns ts vs h1 h2
    (fun k s w g1 g2 => by simp only [Val.getattr]; rw [lookup_index ns vs hnd h2 k s w g1 g2]; rfl) h
  intro ks
  obtain ⟨r, g1, g2, g3⟩ := accumulate_steps (v := .node j ty ns vs) hst ks
  refine ⟨r, ?_, g2.congr ?_, g3⟩
  · exact (run_node_same c (n + 1) env (v := .node j ty ns vs) ns _ rfl ks).trans g1
  · intro o
    rw [inSeq_fields ns ts vs h1 h2]
    constructor
    · intro h; exact .node hh h
    · intro h
      cases h with
      | named e _ => rw [hh] at e; cases e
      | anonymous e => rw [hh] at e; cases e
      | node e h => exact h

theorem parsed_same {g : Grammar} {b : Bool} {v : Val} {ty : Str} (hl : ¬ g.nodeType (str "list")) (hv : Parsed g b v) (hty : g.nodeType ty) (h : v.ty = ty) :
    ∃ j vs, v = .node j ty ((g.fields ty).map Prod.fst) vs ∧ vs.length = ((g.fields ty).map Prod.fst).length ∧
      ∀ (k : Nat) f v, (g.fields ty)[k]? = some f → vs[k]? = some v → Parsed g f.2 v := by
  cases hv with
  | const hd => rw [h] at hd; exact absurd hty hd
  | list hvs => subst h; exact absurd hty hl
  | @node j ty' ns' vs hty' hns' hnd' hlen' hfs' =>
    have h : ty' = ty := h
    subst h; subst hns'
    exact ⟨j, vs, rfl, hlen', hfs'⟩

theorem pattern_runs {c : Ctx} {env : Env} {N : Nat} {vars : Dict Str Matcher} {what : Str → Hole} {allowed : Label → Val → Prop}
    (hc : CompiledVars c env N vars what allowed) (g : Grammar) (hg : ¬ g.nodeType (str "list")) (k : Nat) (t : Val) (hk : t.size ≤ k)
    (b b' : Bool) (hb : b = true → b' = true) (v : Val) (ht : Parsed g b t) (hv : Parsed g b' v) (n : Nat) (hn : 2 * k + N + 2 ≤ n) :
    PatRun c (run c n env (astPattern vars t) v) v (Instance (holeAt what) allowed t v) := by
  induction k generalizing t b b' v n with
  | zero => have := t.size_pos; omega
  | succ k ih =>
    cases ht with
    | @const i d hd =>
      obtain ⟨n, rfl⟩ : ∃ m, n = m + 1 := ⟨n - 1, by omega⟩
      intro ks
      simp only [astPattern, run]
      by_cases he : v.pyEq (.const 0 d) = true
      · refine ⟨_, by rw [if_pos he]; rfl, outcome_plain ?_, by intro mi e; cases e; rfl⟩
        cases v with
        | const j d' => exact .const rfl (by simpa [Val.pyEq] using he)
        | list j vs => simp [Val.pyEq] at he
        | node j ty ns vs => simp [Val.pyEq] at he
      · refine ⟨none, by rw [if_neg he], outcome_none ?_, by simp⟩
        intro o ho
        cases ho with
        | named e _ => cases e
        | anonymous e => cases e
        | const e h => exact he (by simpa [Val.pyEq] using h)
    | @list i ts hts =>
      obtain ⟨n, rfl⟩ : ∃ m, n = m + 4 := ⟨n - 4, by omega⟩
      obtain rfl := hb rfl
      cases hv with
      | @list j vs hvs =>
        have hseq : seqItems (.list j vs) = some vs := rfl
        have hitems : ∀ t ∈ ts, ∀ w ∈ vs, PatRun c (run c (n + 2) env (astPattern vars t) w) w (Instance (holeAt what) allowed t w) := by
          intro t ht w hw
          refine ih t ?_ false false (fun h => h) w (hts t ht) (hvs w hw) _ (by omega)
          have := size_mem ht; simp only [Val.size] at hk; omega
        have hst := steps_items hseq ts 0 hitems
        rw [List.drop_zero] at hst
        have hrun : run c (n + 4) env (astPattern vars (.list i ts)) (.list j vs) = fun ks =>
            accumulate c (.list j vs) (run c (n + 3) env (.unlessM (.hasItem (astPatterns vars ts).length .anything)) (.list j vs) ::
              (enumFrom 0 (astPatterns vars ts)).map fun p => run c (n + 3) env (.hasItem p.1 p.2) (.list j vs)) ks := by
          funext ks
          simp only [astPattern]
          rw [run]
        rw [hrun]
        have h0 : PatStep c (run c (n + 3) env (.unlessM (.hasItem (astPatterns vars ts).length .anything)) (.list j vs))
            (fun o => o = [] ∧ vs.length ≤ ts.length) := by
          intro ks
          rw [noItem_step, getItem_nat hseq, astPatterns_length]
          by_cases hl : vs.length ≤ ts.length
          · rw [List.getElem?_eq_none hl]
            exact ⟨_, rfl, outcome_plain ⟨rfl, hl⟩⟩
          · rw [List.getElem?_eq_getElem (by omega)]
            exact ⟨none, rfl, outcome_none (fun o h => hl h.2)⟩
        intro ks
        obtain ⟨r, h1, h2, h3⟩ := accumulate_steps (v := .list j vs) (.cons h0 (fun o o' a b => by rw [a.1, b.1]) hst) ks
        refine ⟨r, h1, h2.congr ?_, h3⟩
        intro o
        constructor
        · intro h
          cases h with
          | cons a b =>
            obtain ⟨rfl, hl⟩ := a
            exact .list rfl ((inSeq_items ts vs _).1 ⟨hl, b⟩)
        · intro h
          cases h with
          | named e _ => cases e
          | anonymous e => cases e
          | list e h =>
            obtain ⟨hl, hs⟩ := (inSeq_items ts vs _).2 h
            exact InSeq.cons (o := []) ⟨rfl, hl⟩ hs
    | @node i ty ns ts hty hns hnd hlen hfs =>
      obtain ⟨n, rfl⟩ : ∃ m, n = m + 2 := ⟨n - 2, by omega⟩
      have hnode : (nameId (.node i ty ns ts)).bind vars.get? = none → holeAt what (.node i ty ns ts) = .none →
          PatRun c (run c (n + 2) env (astPattern vars (.node i ty ns ts)) v) v (Instance (holeAt what) allowed (.node i ty ns ts) v) := by
        intro hnone hhole
        have hpat : astPattern vars (.node i ty ns ts) = .node ty ns (fieldPatterns vars (decide (ty = str "Name")) ns ts) := by
          rw [astPattern, hnone]
        rw [hpat]
        by_cases hvt : v.ty = ty
        · obtain ⟨j, vs, rfl, hlen', hfs'⟩ := parsed_same hg hv hty hvt
          rw [← hns] at hlen' ⊢
          refine patRun_node (hole := holeAt what) hhole hnd hlen hlen' (fun q t w h1 h2 => ?_)
          have htm := List.mem_of_getElem? h1
          have hq : q < (g.fields ty).length := by
            have := (List.getElem?_eq_some_iff.1 h1).1
            rw [hlen, hns, List.length_map] at this; exact this
          refine ih t ?_ ((g.fields ty)[q]).2 _ (fun h => h) w (hfs q _ t (List.getElem?_eq_getElem hq) h1) (hfs' q _ w (List.getElem?_eq_getElem hq) h2) _ (by omega)
          have := size_mem htm; simp only [Val.size] at hk; omega
        · intro ks
          refine ⟨none, run_node_other c (n + 1) env ns _ hvt ks, outcome_none ?_, by simp⟩
          intro o h
          cases h with
          | named e _ => rw [hhole] at e; cases e
          | anonymous e => rw [hhole] at e; cases e
          | node e h => exact hvt rfl
      rcases nameId_hole what i ty ns ts with ⟨s, hs, hh⟩ | ⟨hs, hh⟩
      · have hcs := hc s
        cases hw : what s with
        | named x =>
          rw [hw] at hcs hh
          obtain ⟨m, hm, hr⟩ := hcs
          have hpat : astPattern vars (.node i ty ns ts) = metaBind x m := by
            rw [astPattern, hs]; simp [hm]
          rw [hpat]
          intro ks
          obtain ⟨r, h1, h2, h3⟩ := patRun_named (x := x) (hr (n + 1) (by omega)) v ks
          refine ⟨r, h1, h2.congr ?_, h3⟩
          intro o
          constructor
          · rintro ⟨a, rfl⟩; exact .named hh a
          · intro h
            cases h with
            | named e a => rw [hh] at e; cases e; exact ⟨a, rfl⟩
            | anonymous e => rw [hh] at e; cases e
            | node e => rw [hh] at e; cases e
        | anonymous =>
          rw [hw] at hcs hh
          have hpat : astPattern vars (.node i ty ns ts) = .anything := by
            rw [astPattern, hs]; simp [hcs]
          rw [hpat]
          intro ks
          exact ⟨_, by rw [run]; rfl, outcome_plain (.anonymous hh), by intro mi e; cases e; rfl⟩
        | none =>
          rw [hw] at hcs hh
          exact hnode (by rw [hs]; simpa using hcs) hh
      · exact hnode (by rw [hs]; rfl) hh

/-! ### C47 -/

theorem instances_same {hole : Val → Hole} {allowed : Label → Val → Prop} (ts vs : List Val)
    (h : ∀ t ∈ ts, ∀ v, (∃ o, Instance hole allowed t v o) ↔ SameTree t v) :
    (∃ o, Instances hole allowed ts vs o) ↔
      ts.length = vs.length ∧ ∀ (k : Nat) t v, ts[k]? = some t → vs[k]? = some v → SameTree t v := by
  induction ts generalizing vs with
  | nil =>
    cases vs with
    | nil => exact ⟨fun _ => ⟨rfl, by simp⟩, fun _ => ⟨[], .nil⟩⟩
    | cons v vs => exact ⟨(fun ⟨o, h⟩ => by cases h), fun h => by simp at h⟩
  | cons t ts ih =>
    cases vs with
    | nil => exact ⟨(fun ⟨o, h⟩ => by cases h), fun h => by simp at h⟩
    | cons v vs =>
      have ih := ih vs (fun t ht => h t (by simp [ht]))
      have ht := h t (by simp) v
      constructor
      · rintro ⟨o, hi⟩
        cases hi with
        | cons h1 h2 =>
          obtain ⟨g1, g2⟩ := ih.1 ⟨_, h2⟩
          refine ⟨by simp [g1], fun k t' v' e1 e2 => ?_⟩
          cases k with
          | zero => simp at e1 e2; subst e1 e2; exact ht.1 ⟨_, h1⟩
          | succ k => exact g2 k t' v' (by simpa using e1) (by simpa using e2)
      · rintro ⟨hl, hs⟩
        obtain ⟨o, h1⟩ := ht.2 (hs 0 t v rfl rfl)
        obtain ⟨o', h2⟩ := ih.2 ⟨by simpa using hl, fun k t' v' e1 e2 => hs (k + 1) t' v' (by simpa using e1) (by simpa using e2)⟩
        exact ⟨_, .cons h1 h2⟩

theorem fieldInstances_same {hole : Val → Hole} {allowed : Label → Val → Prop} {ty : Str} (ns : List Str) (ts vs : List Val)
    (h : ∀ t ∈ ts, ∀ v, (∃ o, Instance hole allowed t v o) ↔ SameTree t v) (hl : ts.length = ns.length) :
    (∃ o, FieldInstances hole allowed ty ns ts vs o) ↔
      ts.length = vs.length ∧ ∀ (k : Nat) n t v, ns[k]? = some n → ts[k]? = some t → vs[k]? = some v →
        ¬ (ty = str "Name" ∧ n = str "ctx") → SameTree t v := by
  induction ns generalizing ts vs with
  | nil =>
    have : ts = [] := by cases ts <;> simp_all
    subst this
    cases vs with
    | nil => exact ⟨fun _ => ⟨rfl, by simp⟩, fun _ => ⟨[], .nil⟩⟩
    | cons v vs => exact ⟨(fun ⟨o, h⟩ => by cases h), fun h => by simp at h⟩
  | cons n ns ih =>
    cases ts with
    | nil => simp at hl
    | cons t ts =>
      cases vs with
      | nil => exact ⟨(fun ⟨o, h⟩ => by cases h), fun h => by simp at h⟩
      | cons v vs =>
        have ih := ih ts vs (fun t ht => h t (by simp [ht])) (by simpa using hl)
        have ht := h t (by simp) v
        constructor
        · rintro ⟨o, hi⟩
          cases hi with
          | ctx h2 =>
            obtain ⟨g1, g2⟩ := ih.1 ⟨_, h2⟩
            refine ⟨by simp [g1], fun k n' t' v' e0 e1 e2 hn => ?_⟩
            cases k with
            | zero => simp at e0; subst e0; exact absurd ⟨rfl, rfl⟩ hn
            | succ k => exact g2 k n' t' v' (by simpa using e0) (by simpa using e1) (by simpa using e2) hn
          | cons hnc h1 h2 =>
            obtain ⟨g1, g2⟩ := ih.1 ⟨_, h2⟩
            refine ⟨by simp [g1], fun k n' t' v' e0 e1 e2 hn => ?_⟩
            cases k with
            | zero => simp at e1 e2; subst e1 e2; exact ht.1 ⟨_, h1⟩
            | succ k => exact g2 k n' t' v' (by simpa using e0) (by simpa using e1) (by simpa using e2) hn
        · rintro ⟨hl', hs⟩
          obtain ⟨o', h2⟩ := ih.2 ⟨by simpa using hl', fun k n' t' v' e0 e1 e2 hn =>
            hs (k + 1) n' t' v' (by simpa using e0) (by simpa using e1) (by simpa using e2) hn⟩
          by_cases hc : ty = str "Name" ∧ n = str "ctx"
          · obtain ⟨rfl, rfl⟩ := hc
            exact ⟨_, .ctx h2⟩
          · obtain ⟨o, h1⟩ := ht.2 (hs 0 n t v rfl rfl rfl hc)
            exact ⟨_, .cons hc h1 h2⟩

theorem instance_same {hole : Val → Hole} (hh : ∀ t, hole t = .none) {allowed : Label → Val → Prop} {g : Grammar} (k : Nat) (t : Val)
    (hk : t.size ≤ k) {b : Bool} (ht : Parsed g b t) (v : Val) : (∃ o, Instance hole allowed t v o) ↔ SameTree t v := by
  induction k generalizing t b v with
  | zero => have := t.size_pos; omega
  | succ k ih =>
    have key : ∀ o, Instance hole allowed t v o → ∃ o', Instance hole allowed t v o' := fun o h => ⟨o, h⟩
    cases ht with
    | @const i d _ =>
      constructor
      · rintro ⟨o, h⟩
        cases h with
        | named e => rw [hh] at e; cases e
        | anonymous e => rw [hh] at e; cases e
        | const _ h => exact .const h
      · intro h
        cases h with
        | const h => exact ⟨_, .const (hh _) h⟩
    | @list i ts hts =>
      have hi : ∀ t ∈ ts, ∀ v, (∃ o, Instance hole allowed t v o) ↔ SameTree t v := by
        intro t ht v
        refine ih t ?_ (hts t ht) v
        have := size_mem ht; simp only [Val.size] at hk; omega
      constructor
      · rintro ⟨o, h⟩
        cases h with
        | named e => rw [hh] at e; cases e
        | anonymous e => rw [hh] at e; cases e
        | list _ h =>
          obtain ⟨h1, h2⟩ := (instances_same ts _ hi).1 ⟨_, h⟩
          exact .list h1 h2
      · intro h
        cases h with
        | list h1 h2 =>
          obtain ⟨o, h⟩ := (instances_same ts _ hi).2 ⟨h1, h2⟩
          exact ⟨_, .list (hh _) h⟩
    | @node i ty ns ts hty hns hnd hlen hfs =>
      have hi : ∀ t ∈ ts, ∀ v, (∃ o, Instance hole allowed t v o) ↔ SameTree t v := by
        intro t ht v
        obtain ⟨q, hq⟩ := List.getElem?_of_mem ht
        have hq' : q < (g.fields ty).length := by
          have := (List.getElem?_eq_some_iff.1 hq).1
          rw [hlen, hns, List.length_map] at this; exact this
        refine ih t ?_ (hfs q _ t (List.getElem?_eq_getElem hq') hq) v
        have := size_mem ht; simp only [Val.size] at hk; omega
      constructor
      · rintro ⟨o, h⟩
        cases h with
        | named e => rw [hh] at e; cases e
        | anonymous e => rw [hh] at e; cases e
        | node _ h =>
          obtain ⟨h1, h2⟩ := (fieldInstances_same ns ts _ hi hlen).1 ⟨_, h⟩
          exact .node h1 h2
      · intro h
        cases h with
        | node h1 h2 =>
          obtain ⟨o, h⟩ := (fieldInstances_same ns ts _ hi hlen).2 ⟨h1, h2⟩
          exact ⟨_, .node (hh _) h⟩

theorem instance_no_names {hole : Val → Hole} (hh : ∀ t, hole t = .none) {allowed : Label → Val → Prop} (k : Nat) (t v : Val)
    (hk : t.size ≤ k) (o : Occs) (h : Instance hole allowed t v o) : o = [] := by
  induction k generalizing t v o with
  | zero => have := t.size_pos; omega
  | succ k ih =>
    cases h with
    | named e => rw [hh] at e; cases e
    | anonymous e => rfl
    | const => rfl
    | @list i j ts vs occ _ h =>
      have hi : ∀ t ∈ ts, ∀ v o, Instance hole allowed t v o → o = [] := by
        intro t ht v o h
        refine ih t v ?_ o h
        have := size_mem ht; simp only [Val.size] at hk; omega
      clear hk ih
      induction ts generalizing vs o with
      | nil => cases h; rfl
      | cons t ts ih =>
        cases h with
        | cons h1 h2 => rw [hi t (by simp) _ _ h1, ih _ (hh _) h2 (fun t ht => hi t (by simp [ht]))]; rfl
    | @node i j ty ns ts vs occ _ h =>
      have hi : ∀ t ∈ ts, ∀ v o, Instance hole allowed t v o → o = [] := by
        intro t ht v o h
        refine ih t v ?_ o h
        have := size_mem ht; simp only [Val.size] at hk; omega
      clear hk ih
      induction ts generalizing ns vs o with
      | nil => cases h; rfl
      | cons t ts ih =>
        cases h with
        | ctx h2 => exact ih _ (hh _) h2 (fun t ht => hi t (by simp [ht]))
        | cons _ h1 h2 => rw [hi t (by simp) _ _ h1, ih _ (hh _) h2 (fun t ht => hi t (by simp [ht]))]; rfl

theorem compiled_none (c : Ctx) (env : Env) (allowed : Label → Val → Prop) : CompiledVars c env 0 [] (fun _ => .none) allowed := by
  intro s; rfl

theorem holeAt_none (t : Val) : holeAt (fun _ => .none) t = .none := by
  unfold holeAt
  split
  · split
    · split <;> rfl
    · rfl
  · rfl

/-- **C47**: given enough recursion depth, the matcher for a tree matches exactly the trees that are the same up to
positions, identities and the context of names, leaves compared by `==`; it binds nothing and raises nothing. -/
theorem C47_literal (c : Ctx) (env : Env) (g : Grammar) (hg : ¬ g.nodeType (str "list")) (t : Val) (ht : Parsed g false t)
    (b : Bool) (v : Val) (hv : Parsed g b v) (n : Nat) (hn : 2 * t.size + 2 ≤ n) (ks : List Key) :
    (SameTree t v ∧ ∃ mi, run c n env (exactMatcher t) v ks = .ok (some mi, ks) ∧ mi.obj = createMatch c v ∧
      (∀ x, mi.bindings.get? x = none)) ∨
    (¬ SameTree t v ∧ run c n env (exactMatcher t) v ks = .ok (none, ks)) := by
  obtain ⟨r, h1, h2, h3⟩ := pattern_runs (compiled_none c env (fun _ _ => True)) g hg t.size t (Nat.le_refl _) false b (by simp) v ht hv n
    (by omega) ks
  have hsame := instance_same (allowed := fun _ _ => True) holeAt_none t.size t (Nat.le_refl _) ht v
  cases r with
  | some mi =>
    obtain ⟨_, _, occ, hI, hbt, _⟩ := h2.hit mi rfl
    obtain rfl := instance_no_names holeAt_none t.size t v (Nat.le_refl _) occ hI
    exact Or.inl ⟨hsame.1 ⟨_, hI⟩, mi, h1, h3 mi rfl, fun x => by rw [hbt x]; rfl⟩
  | none =>
    refine Or.inr ⟨fun hs => ?_, h1⟩
    obtain ⟨o, ho⟩ := hsame.2 hs
    obtain rfl := instance_no_names holeAt_none t.size t v (Nat.le_refl _) o ho
    refine h2.miss rfl _ ho ?_
    intro x i j a b _ h; simp [Occs.of] at h

/-- **C47**, refutation: the pattern `1` matches `True`: leaves are compared by `==`. -/
theorem C47_bool_int_false (c : Ctx) (ks : List Key) :
    ∃ mi, run c 10 [] (exactMatcher (.node 1 (str "Constant") [str "value"] [.const 2 (.int 1)]))
      (.node 3 (str "Constant") [str "value"] [.const 4 (.bool true)]) ks = .ok (some mi, ks) := by
  have h := C47_literal c [] ⟨fun t => t = str "Constant", fun _ => [(str "value", false)]⟩ (by decide)
    (.node 1 (str "Constant") [str "value"] [.const 2 (.int 1)])
    (.node rfl rfl (by decide) rfl (fun k f v h1 h2 => by
      match k with
      | 0 => simp at h1 h2; subst h1 h2; exact .const (by change ¬ (str _ = str _); decide)
      | k + 1 => simp at h1)) false
    (.node 3 (str "Constant") [str "value"] [.const 4 (.bool true)])
    (.node rfl rfl (by decide) rfl (fun k f v h1 h2 => by
      match k with
      | 0 => simp at h1 h2; subst h1 h2; exact .const (by change ¬ (str _ = str _); decide)
      | k + 1 => simp at h1)) 10 (by simp [Val.size, Val.sizes]) ks
  rcases h with ⟨_, mi, h, _⟩ | ⟨hn, _⟩
  · exact ⟨mi, h⟩
  · refine absurd (.node rfl (fun k n t v h1 h2 h3 _ => ?_)) hn
    match k with
    | 0 => simp at h2 h3; subst h2 h3; exact .const (by simp [Const.pyEq, Const.whole?])
    | k + 1 => simp at h1

/-! ### C59 -/

theorem get?_foldl_set {α β : Type} (f : α → Str × β) (l : List α) (hn : (l.map (fun a => (f a).1)).Nodup) (d : Dict Str β) (s : Str) :
    (l.foldl (fun d a => d.set (f a).1 (f a).2) d).get? s =
      match l.find? (fun a => decide ((f a).1 = s)) with
      | some a => some (f a).2
      | none => d.get? s := by
  induction l generalizing d with
  | nil => rfl
  | cons a l ih =>
    rw [List.map_cons, List.nodup_cons] at hn
    rw [List.foldl_cons, ih hn.2, List.find?_cons]
    by_cases hs : (f a).1 = s
    · have hnone : l.find? (fun a => decide ((f a).1 = s)) = none := by
        rw [List.find?_eq_none]
        intro b hb hc
        refine hn.1 (List.mem_map.2 ⟨b, hb, ?_⟩)
        rw [of_decide_eq_true hc, hs]
      simp [hs, hnone, Dict.get?_set]
    · have hs' : ¬ s = (f a).1 := fun e => hs e.symm
      simp only [hs, decide_false]
      cases l.find? (fun a => decide ((f a).1 = s)) with
      | some b => rfl
      | none => simp [Dict.get?_set, hs']

theorem get?_foldl_anything (l : List Str) (d : Dict Str Matcher) (s : Str) :
    (l.foldl (fun d a => d.set a .anything) d).get? s = if s ∈ l then some .anything else d.get? s := by
  induction l generalizing d with
  | nil => simp
  | cons a l ih =>
    rw [List.foldl_cons, ih]
    by_cases h : s ∈ l
    · simp [h]
    · by_cases hs : s = a
      · subst hs; simp [h, Dict.get?_set]
      · simp [h, hs, Dict.get?_set]

theorem compiled_submatchers {c : Ctx} {env : Env} {N : Nat} {anonymous : List Str} {variables : List (Label × Str)}
    {restrictions : Dict Label Matcher} {allowed : Label → Val → Prop} (hn : (variables.map Prod.snd).Nodup)
    (hr : RestrictionsAllow c env N restrictions allowed) :
    CompiledVars c env N (submatchers anonymous variables restrictions) (metaNames anonymous variables) allowed := by
  intro s
  have hg := get?_foldl_set (β := Matcher) (fun e : Label × Str => (e.2, metaBind e.1 ((restrictions.get? e.1).getD .anything))) variables hn
    (anonymous.foldl (fun d a => d.set a .anything) []) s
  have hg : (submatchers anonymous variables restrictions).get? s = _ := hg
  unfold metaNames
  cases hf : variables.find? (fun e => decide (e.2 = s)) with
  | some e =>
    rw [hf] at hg
    refine ⟨_, hg, fun n hN => ?_⟩
    cases hres : restrictions.get? e.1 with
    | some m => exact hr.1 e.1 m hres n hN
    | none =>
      intro v ks
      obtain ⟨n, rfl⟩ : ∃ m, n = m + 1 := ⟨n - 1, by have := hr.2.1; omega⟩
      exact Or.inl ⟨hr.2.2 e.1 hres v, by simp only [Option.getD]; rw [run]; rfl⟩
  | none =>
    rw [hf] at hg
    simp only at hg
    rw [get?_foldl_anything] at hg
    by_cases ha : s ∈ anonymous
    · rw [if_pos ha] at hg; simp only [ha, if_true]; exact hg
    · rw [if_neg ha] at hg; simp only [ha, if_false]; exact hg

theorem get?_rebind (b : Bindings) (oc : Option BindConflict) (om : Option BindMerge) (x : Label) :
    Dict.get? (b.map fun e => (e.1, e.2.rebind oc om) : Bindings) x = (b.get? x).map (·.rebind oc om) :=
  Dict.get?_map_val b (fun _ v => v.rebind oc om) x

section C59
variable {c : Ctx} {env : Env} {N : Nat} {anonymous : List Str} {variables : List (Label × Str)} {restrictions : Dict Label Matcher}
  {allowed : Label → Val → Prop}

theorem pattern_outcome (hn : (variables.map Prod.snd).Nodup) (hr : RestrictionsAllow c env N restrictions allowed)
    (g : Grammar) (hg : ¬ g.nodeType (str "list")) (t : Val) (ht : Parsed g false t) (b : Bool) (v : Val) (hv : Parsed g b v)
    (n : Nat) (hd : 2 * t.size + N + 4 ≤ n) (ks : List Key) :
    ∃ r, run c n env (patternMatcher (submatchers anonymous variables restrictions) t) v ks = .ok (r, ks) ∧
      (∀ mi, r = some mi → mi.obj = createMatch c v ∧ mi.bindings.WF ∧
        ∃ occ, Instance (holeAt (metaNames anonymous variables)) allowed t v occ ∧ LinkedAll occ ∧
          ∀ x, mi.bindings.get? x = (occ.of x).getLast?.map fun w => ⟨createMatch c w, .merge, .keepLast⟩) ∧
      (r = none → ∀ occ, Instance (holeAt (metaNames anonymous variables)) allowed t v occ → ¬ AlikeAll occ) := by
  obtain ⟨n, rfl⟩ : ∃ m, n = m + 2 := ⟨n - 2, by omega⟩
  obtain ⟨r, h1, h2, h3⟩ := pattern_runs (compiled_submatchers (anonymous := anonymous) hn hr) g hg t.size t (Nat.le_refl _) false b (by simp) v ht hv n
    (by omega) ks
  cases r with
  | none =>
    refine ⟨none, by simp [patternMatcher, run, h1], by simp, fun _ occ ho => ?_⟩
    exact h2.miss rfl occ ho
  | some mi =>
    refine ⟨some { mi with bindings := mi.bindings.map fun e => (e.1, e.2.rebind (some .merge) (some .keepLast)) },
      by simp [patternMatcher, run, h1], ?_, by simp⟩
    intro mi' e; cases e
    obtain ⟨g1, g2, occ, g3, g4, g5⟩ := h2.hit mi rfl
    have hwf : Dict.WF (mi.bindings.map fun e => (e.1, e.2.rebind (some .merge) (some .keepLast)) : Bindings) := by
      unfold Dict.WF Dict.keys at *
      rw [List.map_map]; exact g2
    refine ⟨h3 mi rfl, hwf, occ, g3, g5, fun x => ?_⟩
    rw [get?_rebind, g4 x, List.nil_append, Option.map_map]
    rfl

/-- **C59**: a match of a pattern is an instance of it, every metavariable bound to its last occurrence; the
occurrences of each are linked by `ast_equivalent`. Nothing is raised. -/
theorem C59_match_is_instance (hn : (variables.map Prod.snd).Nodup) (hr : RestrictionsAllow c env N restrictions allowed)
    (g : Grammar) (hg : ¬ g.nodeType (str "list")) (t : Val) (ht : Parsed g false t) (b : Bool) (v : Val) (hv : Parsed g b v)
    (n : Nat) (hd : 2 * t.size + N + 4 ≤ n) (ks : List Key) :
    (run c n env (patternMatcher (submatchers anonymous variables restrictions) t) v ks = .ok (none, ks)) ∨
    ∃ mi occ, run c n env (patternMatcher (submatchers anonymous variables restrictions) t) v ks = .ok (some mi, ks) ∧
      Instance (holeAt (metaNames anonymous variables)) allowed t v occ ∧ (∀ x, Linked (occ.of x)) ∧
      mi.obj = createMatch c v ∧
      ∀ x, mi.bindings.get? x = (occ.of x).getLast?.map fun w => ⟨createMatch c w, .merge, .keepLast⟩ := by
  obtain ⟨r, h1, h2, _⟩ := pattern_outcome (anonymous := anonymous) hn hr g hg t ht b v hv n hd ks
  cases r with
  | none => exact Or.inl h1
  | some mi =>
    obtain ⟨g1, _, occ, g3, g4, g5⟩ := h2 mi rfl
    exact Or.inr ⟨mi, occ, h1, g3, g4, g1, g5⟩

/-- **C59**: an instance in which all occurrences of the same metavariable are alike is matched. -/
theorem C59_instance_matches (hn : (variables.map Prod.snd).Nodup) (hr : RestrictionsAllow c env N restrictions allowed)
    (g : Grammar) (hg : ¬ g.nodeType (str "list")) (t : Val) (ht : Parsed g false t) (b : Bool) (v : Val) (hv : Parsed g b v)
    (n : Nat) (hd : 2 * t.size + N + 4 ≤ n) (ks : List Key) (occ : Occs)
    (hi : Instance (holeAt (metaNames anonymous variables)) allowed t v occ) (ha : ∀ x, AllAlike (occ.of x)) :
    ∃ mi, run c n env (patternMatcher (submatchers anonymous variables restrictions) t) v ks = .ok (some mi, ks) ∧
      ∀ x, mi.bindings.get? x = (occ.of x).getLast?.map fun w => ⟨createMatch c w, .merge, .keepLast⟩ := by
  obtain ⟨r, h1, h2, h3⟩ := pattern_outcome (anonymous := anonymous) hn hr g hg t ht b v hv n hd ks
  cases r with
  | none => exact absurd ha (h3 rfl occ hi)
  | some mi =>
    obtain ⟨_, _, occ', g3, _, g5⟩ := h2 mi rfl
    obtain rfl := instance_det t v _ _ hi g3
    exact ⟨mi, h1, g5⟩

/-- **C59**: if no metavariable occurs more than twice, a match is exactly an instance with equivalent occurrences. -/
theorem C59_exact_twice (hn : (variables.map Prod.snd).Nodup) (hr : RestrictionsAllow c env N restrictions allowed)
    (g : Grammar) (hg : ¬ g.nodeType (str "list")) (t : Val) (ht : Parsed g false t) (b : Bool) (v : Val) (hv : Parsed g b v)
    (n : Nat) (hd : 2 * t.size + N + 4 ≤ n) (ks : List Key)
    (h2 : ∀ occ, Instance (holeAt (metaNames anonymous variables)) allowed t v occ → ∀ x, (occ.of x).length ≤ 2) :
    (∃ mi, run c n env (patternMatcher (submatchers anonymous variables restrictions) t) v ks = .ok (some mi, ks)) ↔
    ∃ occ, Instance (holeAt (metaNames anonymous variables)) allowed t v occ ∧ ∀ x, AllAlike (occ.of x) := by
  constructor
  · rintro ⟨mi, hm⟩
    rcases C59_match_is_instance (anonymous := anonymous) hn hr g hg t ht b v hv n hd ks with h | ⟨mi', occ, h, hi, hl, _⟩
    · rw [hm] at h; cases h
    · refine ⟨occ, hi, fun x i j a b hij ha hb => ?_⟩
      have hlen := h2 occ hi x
      have hj := (List.getElem?_eq_some_iff.1 hb).1
      obtain ⟨j', b', hij', hb', hab⟩ := hl x i a ha (by omega)
      have hj' := (List.getElem?_eq_some_iff.1 hb').1
      have : j = j' := by omega
      subst this
      rw [hb] at hb'; cases hb'
      exact hab
  · rintro ⟨occ, hi, ha⟩
    obtain ⟨mi, h, _⟩ := C59_instance_matches (anonymous := anonymous) hn hr g hg t ht b v hv n hd ks occ hi ha
    exact ⟨mi, h⟩

end C59

/-! ### Examples -/

/-- Its node types. -/
def exTypes : List Str := [str "Name", str "Load", str "Call", str "Return", str "BinOp"]

/-- A small grammar: names, calls, `+`, and `return`. -/
def exGrammar : Grammar where
  nodeType t := t ∈ exTypes
  fields t :=
    if t = str "Name" then [(str "id", false), (str "ctx", false)]
    else if t = str "Call" then [(str "func", false), (str "args", true), (str "keywords", true)]
    else if t = str "Return" then [(str "value", false)]
    else if t = str "BinOp" then [(str "left", false), (str "right", false)]
    else []

theorem exParsed_name (i : Nat) (s : String) : Parsed exGrammar false (exName i s "Load") := by
  unfold exName
  refine .node (by change _ ∈ exTypes; decide) rfl (by decide) rfl (fun k f v h1 h2 => ?_)
  match k with
  | 0 => simp [exGrammar] at h1 h2; subst h1 h2; exact .const (by change ¬ str "str" ∈ exTypes; decide)
  | 1 =>
    simp at h2
    have : f.2 = false := by
      have h1 : some (str "ctx", false) = some f := h1
      cases h1; rfl
    rw [this]; subst h2
    exact .node (by change _ ∈ exTypes; decide) rfl (by decide) rfl (fun k f v h1 h2 => by simp at h2)
  | k + 2 => simp at h2

theorem exParsed_none (i : Nat) : Parsed exGrammar false (.const i .none) := .const (by change ¬ str "NoneType" ∈ exTypes; decide)

/-- `return <v>`. -/
def exReturn (i : Nat) (v : Val) : Val := .node i (str "Return") [str "value"] [v]

theorem exParsed_return (i : Nat) {v : Val} (hv : Parsed exGrammar false v) : Parsed exGrammar false (exReturn i v) := by
  unfold exReturn
  refine .node (by change _ ∈ exTypes; decide) rfl (by decide) rfl (fun k f w h1 h2 => ?_)
  match k with
  | 0 =>
    have h1 : some (str "value", false) = some f := h1
    cases h1; simp at h2; subst h2; exact hv
  | k + 1 => simp at h2

/-- `<l> + <r>` (the operator left out). -/
def exPlus (i : Nat) (l r : Val) : Val := .node i (str "BinOp") [str "left", str "right"] [l, r]

theorem exParsed_plus (i : Nat) {l r : Val} (hl : Parsed exGrammar false l) (hr : Parsed exGrammar false r) :
    Parsed exGrammar false (exPlus i l r) := by
  unfold exPlus
  refine .node (by change _ ∈ exTypes; decide) rfl (by decide) rfl (fun k f w h1 h2 => ?_)
  match k with
  | 0 =>
    have h1 : some (str "left", false) = some f := h1
    cases h1; simp at h2; subst h2; exact hl
  | 1 =>
    have h1 : some (str "right", false) = some f := h1
    cases h1; simp at h2; subst h2; exact hr
  | k + 2 => simp at h2

theorem exParsed_call (i : Nat) : Parsed exGrammar false (exCall i) := by
  unfold exCall
  refine .node (by change _ ∈ exTypes; decide) rfl (by decide) rfl (fun k f w h1 h2 => ?_)
  match k with
  | 0 =>
    have h1 : some (str "func", false) = some f := h1
    cases h1; simp at h2; subst h2; exact exParsed_name _ _
  | 1 =>
    have h1 : some (str "args", true) = some f := h1
    cases h1; simp at h2; subst h2
    exact .list (by intro v hv; simp at hv; subst hv; exact exParsed_name _ _)
  | 2 =>
    have h1 : some (str "keywords", true) = some f := h1
    cases h1; simp at h2; subst h2
    exact .list (by simp)
  | k + 3 => simp at h2

theorem exGrammar_list : ¬ exGrammar.nodeType (str "list") := by change ¬ str "list" ∈ exTypes; decide

theorem exNoRestrictions (c : Ctx) : RestrictionsAllow c [] 1 [] (fun _ _ => True) :=
  ⟨by intro x m h; simp [Dict.get?] at h, Nat.le_refl _, by intros; trivial⟩

/-- The metavariable `$x`, as remapped. -/
def exMeta (i : Nat) : Val := exName i "gensym_x" "Load"

theorem exMeta_hole (i : Nat) : holeAt (metaNames [] [(str "x", str "gensym_x")]) (exMeta i) = .named (str "x") := by
  have : (Val.node i (str "Name") [str "id", str "ctx"] [.const (i + 1) (.str (str "gensym_x")), .node (i + 2) (str "Load") [] []]).getattr (str "id")
      = .const (i + 1) (.str (str "gensym_x")) := by simp [Val.getattr, Val.lookup]
  simp only [exMeta, exName, holeAt, this, if_true]
  simp [metaNames]

theorem exNotName {what : Str → Hole} {i : Nat} {ty : Str} {ns : List Str} {vs : List Val} (h : ty ≠ str "Name") :
    holeAt what (.node i ty ns vs) = .none := if_neg h

theorem exInstance_return (j : Nat) (v : Val) :
    Instance (holeAt (metaNames [] [(str "x", str "gensym_x")])) (fun _ _ => True) (exReturn 1 (exMeta 2)) (exReturn j v) [(str "x", v)] :=
  .node (exNotName (by decide)) (.cons (o := [(str "x", v)]) (occ := []) (by decide) (.named (exMeta_hole 2) trivial) .nil)

/-- **C59**, refutation: `return $x` also matches `return`, with `$x` bound to no code at all (`None`). -/
theorem C59_absent_false (c : Ctx) (ks : List Key) :
    ∃ mi, run c 30 [] (patternMatcher (submatchers [] [(str "x", str "gensym_x")] []) (exReturn 1 (exMeta 2)))
        (exReturn 10 (.const 0 .none)) ks = .ok (some mi, ks) ∧
      mi.bindings.get? (str "x") = some ⟨.object (.const 0 .none), .merge, .keepLast⟩ := by
  obtain ⟨mi, h1, h2⟩ := C59_instance_matches (anonymous := []) (variables := [(str "x", str "gensym_x")]) (by decide) (exNoRestrictions c) exGrammar exGrammar_list
    (exReturn 1 (exMeta 2)) (exParsed_return _ (exParsed_name _ _)) false (exReturn 10 (.const 0 .none)) (exParsed_return _ (exParsed_none _))
    30 (by decide) ks _ (exInstance_return 10 (.const 0 .none))
    (by
      intro x i j a b hij hi hj
      have hl := (List.getElem?_eq_some_iff.1 hj).1
      have : (Occs.of [(str "x", .const 0 .none)] x).length ≤ 1 := by
        unfold Occs.of; rw [List.length_map]; exact Nat.le_trans (List.length_filter_le ..) (by simp)
      omega)
  refine ⟨mi, h1, ?_⟩
  rw [h2]
  have : Occs.of [(str "x", .const 0 .none)] (str "x") = [Val.const 0 .none] := by simp [Occs.of]
  rw [this]; rfl

theorem exInstance_plus (j : Nat) (l r : Val) :
    Instance (holeAt (metaNames [] [(str "x", str "gensym_x")])) (fun _ _ => True) (exPlus 1 (exMeta 2) (exMeta 5)) (exPlus j l r)
      [(str "x", l), (str "x", r)] :=
  .node (exNotName (by decide)) (.cons (o := [(str "x", l)]) (occ := [(str "x", r)]) (by decide) (.named (exMeta_hole 2) trivial)
    (.cons (o := [(str "x", r)]) (occ := []) (by decide) (.named (exMeta_hole 5) trivial) .nil))

theorem exOf_plus (l r : Val) : Occs.of [(str "x", l), (str "x", r)] (str "x") = [l, r] := by simp [Occs.of]

/-- Whether `$x + $x` matches `l + r`: exactly if they are alike. -/
theorem exPlus_matches (c : Ctx) (l r : Val) (hl : Parsed exGrammar false l) (hr : Parsed exGrammar false r) (ks : List Key) :
    (∃ mi, run c 50 [] (patternMatcher (submatchers [] [(str "x", str "gensym_x")] []) (exPlus 1 (exMeta 2) (exMeta 5)))
        (exPlus 100 l r) ks = .ok (some mi, ks)) ↔ Alike l r := by
  have hlen : ∀ x, (Occs.of [(str "x", l), (str "x", r)] x).length ≤ 2 := by
    intro x; unfold Occs.of; rw [List.length_map]; exact Nat.le_trans (List.length_filter_le ..) (by simp)
  rw [C59_exact_twice (anonymous := []) (variables := [(str "x", str "gensym_x")]) (by decide) (exNoRestrictions c) exGrammar exGrammar_list
    (exPlus 1 (exMeta 2) (exMeta 5)) (exParsed_plus _ (exParsed_name _ _) (exParsed_name _ _)) false (exPlus 100 l r) (exParsed_plus _ hl hr)
    50 (by decide) ks (by intro occ ho; rw [instance_det _ _ _ _ ho (exInstance_plus 100 l r)]; exact hlen)]
  constructor
  · rintro ⟨occ, ho, ha⟩
    rw [instance_det _ _ _ _ ho (exInstance_plus 100 l r)] at ha
    have := ha (str "x")
    rw [exOf_plus] at this
    exact this 0 1 l r (by omega) rfl rfl
  · intro h
    refine ⟨_, exInstance_plus 100 l r, fun x i j a b hij hi hj => ?_⟩
    have h2 := hlen x
    have h3 := (List.getElem?_eq_some_iff.1 hj).1
    by_cases hx : x = str "x"
    · subst hx
      rw [exOf_plus] at hi hj
      obtain rfl : i = 0 := by omega
      obtain rfl : j = 1 := by omega
      simp at hi hj; subst hi hj; exact h
    · have : Occs.of [(str "x", l), (str "x", r)] x = [] := by
        simp [Occs.of, Ne.symm hx]
      rw [this] at h3; simp at h3

/-- **C59**, refutation: `$x + $x` does not match `f(x) + f(x)`: the occurrences are the same code, but lists of nodes
are never equivalent (C46). -/
theorem C59_same_code_false (c : Ctx) (ks : List Key) :
    AstEq (exCall 110) (exCall 130) ∧
    ¬ ∃ mi, run c 50 [] (patternMatcher (submatchers [] [(str "x", str "gensym_x")] []) (exPlus 1 (exMeta 2) (exMeta 5)))
        (exPlus 100 (exCall 110) (exCall 130)) ks = .ok (some mi, ks) := by
  constructor
  · exact exCall_equal 110 130
  · rw [exPlus_matches c _ _ (exParsed_call _) (exParsed_call _) ks]
    intro h
    have h2 : astEquivalent (exCall 110) (exCall 130) = false := by
      unfold astEquivalent exCall exName
      simp [astEqLoop, fieldPairs, Val.ident, Val.getattr, Val.lookup, Val.pyEq, Val.pyEqs, Const.pyEq, Const.whole?, str]
    have h3 := h.2.2
    rw [h2] at h3; cases h3

/-- Non-vacuity of C59 (and C47): `$x + $x` matches `y + y`. -/
example (c : Ctx) (ks : List Key) :
    ∃ mi, run c 50 [] (patternMatcher (submatchers [] [(str "x", str "gensym_x")] []) (exPlus 1 (exMeta 2) (exMeta 5)))
        (exPlus 100 (exName 110 "y" "Load") (exName 120 "y" "Load")) ks = .ok (some mi, ks) := by
  rw [exPlus_matches c _ _ (exParsed_name _ _) (exParsed_name _ _) ks]
  refine ⟨by simp [exName], by simp [exName], ?_⟩
  unfold astEquivalent exName
  simp [astEqLoop, fieldPairs, Val.ident, Val.getattr, Val.lookup, Val.pyEq, Const.pyEq, Const.whole?, str]

/-- **C59**: restrictions are accepted iff every one of them is for a variable of the pattern; one for any other name is refused
(KeyError). -/
theorem C59_restrictions_checked (variables : List (Label × Str)) (restrictions : Dict Label Matcher) :
    checkRestrictions variables restrictions = true ↔ ∀ k m, (k, m) ∈ restrictions → ∃ y, (k, y) ∈ variables := by
  unfold checkRestrictions
  simp only [List.all_eq_true, decide_eq_true_eq]
  constructor
  · intro h k m hk
    obtain ⟨e, he, rfl⟩ := List.mem_map.1 (h k (List.mem_map.2 ⟨(k, m), hk, rfl⟩))
    exact ⟨e.2, he⟩
  · intro h k hk
    obtain ⟨⟨a, m⟩, he, rfl⟩ := List.mem_map.1 hk
    obtain ⟨y, hy⟩ := h a m he
    exact List.mem_map.2 ⟨(a, y), hy, rfl⟩

example : checkRestrictions [(str "x", str "g")] [(str "x", .anything)] = true ∧
    checkRestrictions [(str "x", str "g")] [(str "x", .anything), (str "y", .anything)] = false := by decide

end Refex
