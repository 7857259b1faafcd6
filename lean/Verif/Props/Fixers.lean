import Verif.Props.PySearch
import Verif.Spec.Fixers
/-
Properties C65 (fixers) and C66 (the registry of fixers).
-/
namespace Refex
set_option autoImplicit false

theorem setLit_get (d : Replacements) (l k : Label) (o : Option Str) :
    (setLit d l o).get? k = if k = l then (o.map litCode).or (d.get? k) else d.get? k := by
  cases o with
  | none => simp [setLit]
  | some s =>
    simp only [setLit, Dict.get?_set]
    by_cases h : k = l <;> simp [h]

theorem setLit_wf {d : Replacements} (h : d.WF) (l : Label) (o : Option Str) : (setLit d l o).WF := by
  cases o with
  | none => exact h
  | some s => exact Dict.WF_set h _ _

theorem addMeta_wf (F : Fixer) {d : Replacements} (h : d.WF) : (F.addMeta d).WF := by
  unfold Fixer.addMeta
  simp only
  split
  · exact Dict.WF_set (setLit_wf (setLit_wf (setLit_wf h _ _) _ _) _ _) _ _
  · exact setLit_wf (setLit_wf (setLit_wf h _ _) _ _) _ _

theorem addMeta_other (F : Fixer) (d : Replacements) {l : Label} (hl : l ∉ metadataLabels) : (F.addMeta d).get? l = d.get? l := by
  simp only [metadataLabels, List.mem_cons, List.not_mem_nil, or_false, not_or] at hl
  obtain ⟨h1, h2, h3, h4⟩ := hl
  have h : ((setLit (setLit (setLit d (str "__message") F.message) (str "__url") F.url) (str "__category") F.category).get? l) = d.get? l := by
    rw [setLit_get, if_neg h3, setLit_get, if_neg h2, setLit_get, if_neg h1]
  unfold Fixer.addMeta
  simp only
  split
  · rw [Dict.get?_set, if_neg h4, h]
  · exact h

theorem addMeta_meta (F : Fixer) (d : Replacements) (hd : ∀ l ∈ metadataLabels, d.get? l = none) :
    (F.addMeta d).get? (str "__message") = F.message.map litCode ∧ (F.addMeta d).get? (str "__url") = F.url.map litCode ∧
    (F.addMeta d).get? (str "__category") = F.category.map litCode ∧
    (F.addMeta d).get? (str "__significant") = if F.significant then some (litCode (str "HACK_TRUE")) else none := by
  have e : ∀ l, l ≠ str "__significant" → (F.addMeta d).get? l =
      (setLit (setLit (setLit d (str "__message") F.message) (str "__url") F.url) (str "__category") F.category).get? l := by
    intro l hl
    unfold Fixer.addMeta
    simp only
    split
    · rw [Dict.get?_set, if_neg hl]
    · rfl
  refine ⟨?_, ?_, ?_, ?_⟩
  · rw [e _ (by decide), setLit_get, if_neg (by decide), setLit_get, if_neg (by decide), setLit_get, if_pos rfl, hd _ (by decide)]
    simp
  · rw [e _ (by decide), setLit_get, if_neg (by decide), setLit_get, if_pos rfl, setLit_get, if_neg (by decide), hd _ (by decide)]
    simp
  · rw [e _ (by decide), setLit_get, if_pos rfl, setLit_get, if_neg (by decide), setLit_get, if_neg (by decide), hd _ (by decide)]
    simp
  · unfold Fixer.addMeta
    simp only
    split
    · rw [Dict.get?_set, if_pos rfl]
    · rw [setLit_get, if_neg (by decide), setLit_get, if_neg (by decide), setLit_get, if_neg (by decide), hd _ (by decide)]

theorem buildFixers_heap {env : Templates} {g : Str → List Label} {fs : List Fixer} {heap heap' : MapHeap}
    (h : buildFixers env g fs heap = .ok heap') : heap' = fs.foldl (fun h F => F.build h) heap := by
  induction fs generalizing heap with
  | nil => cases h; rfl
  | cons F fs ih =>
    unfold buildFixers at h
    split at h
    · cases h
    · exact ih h

theorem build_other {F : Fixer} {r : Nat} (h : F.replacement ≠ .mapping r) (heap : MapHeap) : F.build heap r = heap r := by
  unfold Fixer.build
  cases hr : F.replacement with
  | template t => rfl
  | mapping r' =>
    have : r ≠ r' := fun e' => h (e' ▸ hr)
    simp [this]

theorem build_own {F : Fixer} {r : Nat} (h : F.replacement = .mapping r) (heap : MapHeap) : F.build heap r = F.addMeta (heap r) := by
  unfold Fixer.build
  rw [h]
  simp

theorem buildAll_other {fs : List Fixer} {r : Nat} (h : ∀ F ∈ fs, F.replacement ≠ .mapping r) (heap : MapHeap) :
    fs.foldl (fun h F => F.build h) heap r = heap r := by
  induction fs generalizing heap with
  | nil => rfl
  | cons F fs ih =>
    rw [List.foldl_cons, ih (fun G hG => h G (List.mem_cons_of_mem _ hG)), build_other (h F (by simp))]

theorem seen_own {fs : List Fixer} (ho : OwnMappings fs) (heap : MapHeap) {F : Fixer} (hF : F ∈ fs) :
    F.seen (fs.foldl (fun h F => F.build h) heap) = F.addMeta (F.initial heap) := by
  unfold Fixer.seen Fixer.initial
  cases hr : F.replacement with
  | template t => rfl
  | mapping r =>
    simp only
    induction fs generalizing heap with
    | nil => cases hF
    | cons G fs ih =>
      rw [List.foldl_cons]
      unfold OwnMappings at ho
      rw [List.pairwise_cons] at ho
      rcases List.mem_cons.1 hF with rfl | hF
      · rw [buildAll_other (fun G hG => ho.1 G hG r hr), build_own hr]
      · rw [ih ho.2 _ hF, build_other (fun e => ho.1 F hF r e hr)]

theorem pyReports_each {c : Ctx} {tk : TokInfo} {env : Templates} {mis : List MatchInfo} {r : Removed} {fs : List Found}
    (h : pyReports c tk env mis r = .ok fs) :
    ∃ os : List (Option Found), fs = os.filterMap id ∧
      Forall2 (fun mi o => ∃ r r', pyReport c tk env mi r = .ok (o, r')) mis os := by
  induction mis generalizing r fs with
  | nil => cases h; exact ⟨[], rfl, .nil⟩
  | cons mi mis ih =>
    unfold pyReports at h
    split at h
    · cases h
    · rename_i o r' ho
      cases hr : pyReports c tk env mis r' with
      | error e => rw [hr] at h; cases h
      | ok fs' =>
        rw [hr] at h
        cases h
        obtain ⟨os, h1, h2⟩ := ih hr
        refine ⟨o :: os, ?_, .cons ⟨r, r', ho⟩ h2⟩
        cases o <;> simp [h1]

theorem forall2_imp {α β : Type} {R S : α → β → Prop} {as : List α} {bs : List β} (h : Forall2 R as bs)
    (hi : ∀ a ∈ as, ∀ b, R a b → S a b) : Forall2 S as bs := by
  induction h with
  | nil => exact .nil
  | cons hab _ ih => exact .cons (hi _ (by simp) _ hab) (ih fun a ha b => hi a (List.mem_cons_of_mem _ ha) b)

/-- A literal template for a system label that nothing is bound to gives its text. -/
theorem gives_literal {c : Ctx} {env : Templates} (hl : LiteralNames env) {ts : Replacements} {mi : MatchInfo} {ms : Dict MatchKey MatchV}
    (ho : Offered c env ts mi ms) (hu : Unlabelled mi) {l : Label} (hm : l ∈ metadataLabels) (s : Str) :
    (∀ t, ts.get? l = some t → ∃ s', t = litCode s') →
    (Gives env ts ms l s ↔ ts.get? l = some (litCode s) ∨ ∃ s', ts.get? l = some (litCode s') ∧ s' = s) := by
  intro ht
  have hne : l ≠ str "__root" := by intro e; subst e; revert hm; decide
  have hnone : ms.get? (.name l) = none := by
    rw [ho.names l (unlabelled_removes hu hm)]
    unfold LabelOf
    rw [if_neg hne, hu l hm]; rfl
  constructor
  · rintro ⟨t, m, h1, h2, h3⟩
    obtain ⟨s', rfl⟩ := ht t h1
    rw [hl s'] at h3
    simp only [literalTemplate, Except.ok.injEq] at h3
    exact .inr ⟨s', h1, h3⟩
  · intro h
    obtain ⟨s', h1, rfl⟩ : ∃ s', ts.get? l = some (litCode s') ∧ s' = s := by
      rcases h with h | h
      · exact ⟨s, h, rfl⟩
      · exact h
    refine ⟨litCode s', {}, h1, .inr ⟨hnone, rfl, ?_⟩, by rw [hl s']; rfl⟩
    simp only [metadataLabels, List.mem_cons, List.not_mem_nil, or_false] at hm
    rcases hm with rfl | rfl | rfl | rfl <;> exact ⟨_, rfl⟩

theorem litCode_inj {a b : Str} (h : litCode a = litCode b) : a = b := List.append_cancel_left h

theorem fixerFinding_of {c : Ctx} {env : Templates} (hl : LiteralNames env) {F : Fixer} {own : Replacements}
    (hown : ∀ l ∈ metadataLabels, own.get? l = none) {mi : MatchInfo} (hu : Unlabelled mi) {f : Found}
    (h : Finding c env (F.addMeta own) mi f) : FixerFinding c env F own mi f := by
  obtain ⟨m1, m2, m3, m4⟩ := addMeta_meta F own hown
  obtain ⟨ms, ho, _, _, _, _, h1, h2, h3, h4⟩ := h.report
  have opt : ∀ (l : Label) (hm : l ∈ metadataLabels) (o fo : Option Str), (F.addMeta own).get? l = o.map litCode →
      (∀ s, fo = some s ↔ Gives env (F.addMeta own) ms l s) → fo = o := by
    intro l hm o fo hg hf
    have hgive : ∀ s, Gives env (F.addMeta own) ms l s ↔ o = some s := by
      intro s
      rw [gives_literal hl ho hu hm s]
      · rw [hg]
        cases o with
        | none => simp
        | some s' =>
          simp only [Option.map_some, Option.some.injEq]
          constructor
          · rintro (h | ⟨s'', h, rfl⟩) <;> exact litCode_inj h
          · rintro rfl; exact .inl rfl
      · intro t ht
        rw [hg] at ht
        cases o with
        | none => cases ht
        | some s' => exact ⟨s', (Option.some.inj ht).symm⟩
    cases fo with
    | some s => exact ((hgive s).1 ((hf s).1 rfl)).symm
    | none =>
      cases o with
      | none => rfl
      | some s => have := (hf s).2 ((hgive s).2 rfl); cases this
  refine ⟨⟨_, fun l hl' => addMeta_other F own hl', h⟩, opt _ (by decide) _ _ m1 h1, opt _ (by decide) _ _ m2 h2,
    opt _ (by decide) _ _ m3 h3, ?_⟩
  have hs : ∀ s, Gives env (F.addMeta own) ms (str "__significant") s ↔ F.significant = true ∧ s = str "HACK_TRUE" := by
    intro s
    rw [gives_literal hl ho hu (by decide) s]
    · rw [m4]
      split
      · rename_i hsig
        simp only [Option.some.injEq, hsig, true_and]
        constructor
        · rintro (h | ⟨s', h, rfl⟩) <;> exact (litCode_inj h).symm
        · rintro rfl; exact .inl rfl
      · rename_i hsig
        simp [hsig]
    · intro t ht
      rw [m4] at ht
      split at ht
      · exact ⟨_, (Option.some.inj ht).symm⟩
      · cases ht
  have : f.significant = true ↔ F.significant = true := by
    rw [h4]
    constructor
    · rintro ⟨s, _, h⟩; exact ((hs s).1 h).1
    · intro h; exact ⟨str "HACK_TRUE", by decide, (hs _).2 ⟨h, rfl⟩⟩
  cases hf : f.significant <;> cases hF : F.significant <;> simp_all

/-- The first alternative that hits, among alternatives made from fixers. -/
theorem firstHit_fixer {c : Ctx} {n : Nat} {v : Val} {heap : MapHeap} {fs : List Fixer}
    (hord : ∀ F ∈ fs, Ordinary c F.matcher) (hwf : ∀ F ∈ fs, (F.seen heap).WF) {ks ks' : List Key} {mi' : MatchInfo}
    (h : FirstHit (fs.map fun F => run c (n + 2) [] (fromMatcher F.matcher (F.seen heap)) v) ks mi' ks') :
    ∃ F mi, FirstFixer c n fs v F mi ∧ F ∈ fs ∧ Decorated (F.seen heap) mi mi' := by
  have sim : ∀ F ∈ fs, ∀ ks, _ := fun F hF ks => run_fromMatcher c n (ts := F.seen heap) (hord F hF).noTemplates
    (fun hx => ((hord F hF).unreserved _ hx).1 rfl) (hwf F hF) v ks
  generalize hx : (fs.map fun F => run c (n + 2) [] (fromMatcher F.matcher (F.seen heap)) v) = xs at h
  induction h generalizing fs with
  | @hit f fs' ks mi' ks' hh =>
    cases fs with
    | nil => cases hx
    | cons F fs =>
      simp only [List.map_cons, List.cons.injEq] at hx
      obtain ⟨rfl, _⟩ := hx
      have := sim F (by simp) ks
      unfold Hits at hh
      split at this
      · rw [this] at hh; cases hh
      · rw [this] at hh; cases hh
      · rename_i mi ks1 e
        obtain ⟨mi1, h1, h2⟩ := this
        rw [h1] at hh
        cases hh
        exact ⟨F, mi, ⟨[], fs, ks, _, rfl, e, by simp⟩, by simp, h2⟩
  | @miss f fs' ks ks1 mi' ks' hh _ ih =>
    cases fs with
    | nil => cases hx
    | cons F fs =>
      simp only [List.map_cons, List.cons.injEq] at hx
      obtain ⟨rfl, hx⟩ := hx
      obtain ⟨G, mi, ⟨pre, post, k1, k2, e1, e2, e3⟩, hG, hd⟩ := ih (fun F hF => hord F (List.mem_cons_of_mem _ hF))
        (fun F hF => hwf F (List.mem_cons_of_mem _ hF)) (fun F hF => sim F (List.mem_cons_of_mem _ hF)) hx
      refine ⟨G, mi, ⟨F :: pre, post, k1, k2, by rw [e1]; rfl, e2, ?_⟩, List.mem_cons_of_mem _ hG, hd⟩
      intro H hH
      rcases List.mem_cons.1 hH with rfl | hH
      · refine ⟨ks, fun mi0 ks0 e => ?_⟩
        have := sim H (by simp) ks
        rw [e] at this
        obtain ⟨mi1, h1, _⟩ := this
        unfold Misses at hh
        rw [h1] at hh; cases hh
      · exact e3 H hH
  | @never f fs' ks mi' ks' hh _ ih =>
    cases fs with
    | nil => cases hx
    | cons F fs =>
      simp only [List.map_cons, List.cons.injEq] at hx
      obtain ⟨rfl, hx⟩ := hx
      obtain ⟨G, mi, ⟨pre, post, k1, k2, e1, e2, e3⟩, hG, hd⟩ := ih (fun F hF => hord F (List.mem_cons_of_mem _ hF))
        (fun F hF => hwf F (List.mem_cons_of_mem _ hF)) (fun F hF => sim F (List.mem_cons_of_mem _ hF)) hx
      refine ⟨G, mi, ⟨F :: pre, post, k1, k2, by rw [e1]; rfl, e2, ?_⟩, List.mem_cons_of_mem _ hG, hd⟩
      intro H hH
      rcases List.mem_cons.1 hH with rfl | hH
      · refine ⟨ks, fun mi0 ks0 e => ?_⟩
        have := sim H (by simp) ks
        rw [e] at this
        obtain ⟨mi1, h1, _⟩ := this
        exact hh ks mi1 ks0 h1
      · exact e3 H hH

/-- **C65**: a search with combined fixers that ends without an exception reports the outermost places where some fixer's
matcher matches; each finding is made by the first fixer that matches there, with that fixer's own templates, message, url,
category and significance. Holds for fixers that do not share a mapping object. -/
theorem C65_findings (c : Ctx) (tk : TokInfo) (env : Templates) (hl : LiteralNames env) (n k : Nat) (fs : List Fixer) (heap heap' : MapHeap)
    (hord : ∀ F ∈ fs, Ordinary c F.matcher) (hwf : ∀ r, (heap r).WF) (hnometa : ∀ r, ∀ l ∈ metadataLabels, (heap r).get? l = none)
    (hown : OwnMappings fs) (hc : combineFixers env c.rxGroups k fs heap = .ok heap') (found : List Found)
    (h : pySearch c tk env (n + 3) (combinedMatcher fs heap') = .ok found) :
    ∃ (rs : List Report) (os : List (Option Found)),
      Outermost (attempt c (n + 3) (combinedMatcher fs heap')) c.tree c.done rs ∧ found = os.filterMap id ∧
      Forall2 (fun r o => ∃ v done F mi, c.tree.at? r.path = some v ∧ FirstFixer { c with done := done } n fs v F mi ∧
        match o with
        | none => FixerRefuses c env (F.initial heap) mi
        | some f => FixerFinding c env F (F.initial heap) mi f) rs os := by
  unfold combineFixers at hc
  split at hc
  · cases hc
  rename_i h1 hb
  split at hc
  · cases hc
  cases hc
  have hheap := buildFixers_heap hb
  have hini : ∀ F : Fixer, (F.initial heap).WF ∧ ∀ l ∈ metadataLabels, (F.initial heap).get? l = none := by
    intro F
    unfold Fixer.initial
    split
    · refine ⟨by simp [Dict.WF, Dict.keys], fun l hm => ?_⟩
      have hne : l ≠ str "__root" := by intro e; subst e; revert hm; decide
      simp [Dict.get?, Ne.symm hne]
    · exact ⟨hwf _, hnometa _⟩
  have hseen : ∀ F ∈ fs, F.seen heap' = F.addMeta (F.initial heap) := fun F hF => hheap ▸ seen_own hown heap hF
  have hseenwf : ∀ F ∈ fs, (F.seen heap').WF := fun F hF => hseen F hF ▸ addMeta_wf F (hini F).1
  unfold pySearch at h
  split at h
  · cases h
  · rename_i fs' hp hnone
    cases h
    obtain ⟨rs, hr1, hr2⟩ := C45_reports_outermost c (n + 3) (combinedMatcher fs heap') hnone
    obtain ⟨os, ho1, ho2⟩ := pyReports_each hp
    refine ⟨rs, os, hr2, ho1, ?_⟩
    rw [hr1] at ho2
    refine forall2_imp (forall2_map_left ho2) ?_
    rintro r hr o ⟨r0, r0', hrep⟩
    obtain ⟨⟨v, hv, hatt⟩, _⟩ := (hr2.2 r).1 hr
    unfold attempt at hatt
    split at hatt
    · cases hatt
    split at hatt
    · unfold combinedMatcher at hatt
      have hfirst := (C40_anyOf_first _ _ _ _ _ _ _).1 _ hatt
      rw [List.map_map] at hfirst
      obtain ⟨F, mi, hf1, hF, hd⟩ := firstHit_fixer (c := { c with done := c.done ++ keysBefore rs r.path })
        (fun F hF => ⟨(hord F hF).noTemplates, (hord F hF).unreserved⟩) hseenwf hfirst
      have hu : Unlabelled mi := by
        obtain ⟨pre, post, ks, ks', e1, e2, e3⟩ := hf1
        intro l hlm
        cases hg : mi.bindings.get? l with
        | none => rfl
        | some b =>
          have := C38_bound_are_declared _ n F.matcher (noTemplates_noExternal _ (hord F hF).noTemplates) v ks ks' mi e2 l
            (Dict.mem_keys_iff.2 ⟨b, hg⟩)
          exact absurd hlm ((hord F hF).unreserved l this).2
      rw [hseen F hF] at hd
      have hspec := pyReport_spec hd (addMeta_wf F (hini F).1) hu hrep
      refine ⟨v, _, F, mi, hv, hf1, ?_⟩
      cases o with
      | none => exact ⟨_, fun l hl' => addMeta_other F _ hl', hspec⟩
      | some f => exact fixerFinding_of hl (hini F).2 hu hspec.1
    · cases hatt
  · cases h

end Refex
