import Verif.Spec.Iterated
import Verif.Props.MatcherModeMain
/- What a command with iteration reports, given what each of its searches finds. -/
namespace Refex
set_option autoImplicit false

/-- A searcher of the Python files whose path satisfies `inc`, whose results satisfy `P`. -/
structure FindsOn (py : Python) (inc : Str → Prop) (P : Str → List Substitution → Prop) (s : Searcher) : Prop where
  included : ∀ path, inc path → s.included path = .ok ()
  excluded : ∀ path, ¬ inc path → s.included path = .error .skipFile
  skips : ∀ content path, py.file content = none → s.parse content path = .error .skipFile
  parses : ∀ content path p, s.parse content path = .ok p → py.parseAst content path = .ok p
  result : ∀ content path p subs, py.parseAst content path = .ok p → s.find p = .ok subs → P content subs

theorem parseAst_ok {py : Python} {content path : Str} {p : ParsedFile} (h : py.parseAst content path = .ok p) :
    p = ⟨content, path, py.pragmas content⟩ ∧ py.file content ≠ none := by
  unfold Python.parseAst at h
  split at h
  · cases h
  · rename_i c hc; cases h; exact ⟨rfl, by rw [hc]; simp⟩

theorem parseAst_error {py : Python} {content path : Str} {e : Exc} (h : py.parseAst content path = .error e) :
    py.file content = none := by
  unfold Python.parseAst at h
  split at h
  · assumption
  · cases h

theorem zip_finds {py : Python} {inc : Str → Prop} {Ps : List (Str → List Substitution → Prop)} {ss : List Searcher} (h : Forall2 (FindsOn py inc) Ps ss)
    {content path : Str} {p : ParsedFile} (hp : py.parseAst content path = .ok p) {per : List (List Substitution)} (hl : per.length = ss.length)
    (hf : ∀ sr ∈ ss.zip per, sr.1.find p = .ok sr.2) : Forall2 (fun P subs => P content subs) Ps per := by
  induction h generalizing per with
  | nil => cases per with
    | nil => exact .nil
    | cons _ _ => cases hl
  | @cons q s qs ss hqs _ ih =>
    cases per with
    | nil => cases hl
    | cons l per =>
      refine .cons (hqs.result content path p l hp (hf (s, l) ?_)) (ih (by simpa using hl) (fun sr h => hf sr ?_))
      · rw [List.zip_cons_cons]; exact List.mem_cons_self ..
      · rw [List.zip_cons_cons]; exact List.mem_cons_of_mem _ h

theorem whole_found {py : Python} {inc : Str → Prop} {Ps : List (Str → List Substitution → Prop)} {ss : List Searcher} (h : Forall2 (FindsOn py inc) Ps ss)
    {s : Searcher} (hs : Whole ss s) {content path : Str} {p : ParsedFile} (hp : py.parseAst content path = .ok p) {subs : List Substitution}
    (hf : s.find p = .ok subs) : ∃ per, Forall2 (fun P l => P content l) Ps per ∧ Together per subs := by
  cases hs with
  | one =>
    refine ⟨[subs], zip_finds h hp rfl ?_, .one _⟩
    intro sr h
    rw [List.mem_singleton.1 h]; exact hf
  | many s s' ss =>
    obtain ⟨per, h1, h2, ⟨sorted, h3, h4⟩, h5, h6⟩ := C69_combined_find _ p subs hf
    refine ⟨per, zip_finds h hp h1 h2, .many ?_ h3 h4 h5 h6⟩
    rw [h1]; simp

theorem rounds_of {parse : Str → Except Exc ParsedFile} {find : ParsedFile → Except Exc (List Substitution)} {valid : Str → Prop}
    {finds : Str → List Substitution → Prop} (hv : ∀ t p, parse t = .ok p → valid t) (hf : ∀ t p s, parse t = .ok p → find p = .ok s → finds t s)
    {k : Nat} {t t' : Str} {s s' all : List Substitution} (h : Rounds parse find k t s t' s' all) : RoundsOf valid finds k t s t' s' := by
  induction h with
  | stop t s => exact .stop t s
  | round hne happly hparse hfind _ ih => exact .round hne happly (hv _ _ hparse) (hf _ _ _ hparse hfind) ih

theorem iterated_of {parse : Str → Except Exc ParsedFile} {find : ParsedFile → Except Exc (List Substitution)} {valid : Str → Prop}
    {finds : Str → List Substitution → Prop} (hv : ∀ t p, parse t = .ok p → valid t) (hf : ∀ t p s, parse t = .ok p → find p = .ok s → finds t s)
    (he : ∀ t e, parse t = .error e → ¬ valid t) {text : Str} {n : Nat} {g : Option Span × List Substitution} (hne : g.2 ≠ []) {out : List Substitution}
    (h : GroupOutcome parse find text n g out) : Iterated valid finds n text g.1 g.2 out := by
  obtain ⟨key, g⟩ := g
  cases key with
  | none => simp only [GroupOutcome] at h; rw [h]; exact .alone g
  | some ab =>
    obtain ⟨a, b⟩ := ab
    simp only [GroupOutcome] at h
    by_cases hn : n ≤ 1
    · rw [C20_no_iteration parse find text g a b n (.inl hn)] at h
      cases h; exact .once a b _ hn
    · by_cases hb : ∃ s ∈ g, ∃ p ∈ s.matchedSpans, ¬ (a ≤ p.2.1 ∧ p.2.2 ≤ b)
      · rw [C20_no_iteration parse find text g a b n (.inr hb)] at h
        cases h; exact .beyond a b _ hb
      · cases hr : relativeAll a b g with
        | none => exact absurd (relativeAll_none.1 hr) hb
        | some rels =>
          have hrel := relativeAll_some hr
          obtain ⟨k, t, pending, all, h1, h2, h3, h4⟩ := fixedPoint_core parse find text g rels out a b n (by omega) hne hrel h
          have hro := rounds_of hv hf h2
          have hno : NoMoreRounds valid n k t pending := by
            rcases h4 with h4 | h4 | ⟨u, h4, h5⟩
            · exact .inl h4
            · exact .inr (.inl h4)
            · exact .inr (.inr ⟨u, h4, he _ _ h5⟩)
          rcases h3 with ⟨rfl, rfl⟩ | ⟨rfl, rfl⟩ | ⟨hk, s, rfl, hm⟩
          · cases hro
            rcases hno with h | h | ⟨u, h5, h6⟩
            · omega
            · exfalso
              have := congrArg List.length hrel
              rw [h] at this
              simp only [List.length_map, List.length_nil] at this
              exact hne (List.length_eq_zero_iff.1 this)
            · exact .dropped (by omega) hrel h5 h6
          · exact .one (by omega) hrel hro hno
          · exact .more hk h1 hrel hro hno hm

theorem zip_forall2 {α β : Type} {R : α → β → Prop} {as : List α} {bs : List β} (hl : bs.length = as.length) (h : ∀ x ∈ as.zip bs, R x.1 x.2) :
    Forall2 R as bs := by
  induction as generalizing bs with
  | nil => cases bs with
    | nil => exact .nil
    | cons _ _ => cases hl
  | cons a as ih =>
    cases bs with
    | nil => cases hl
    | cons b bs =>
      exact .cons (h (a, b) (by simp)) (ih (by simpa using hl) fun x hx => h x (by rw [List.zip_cons_cons]; exact List.mem_cons_of_mem _ hx))

theorem command_iterates {T : Type} {py : Python} {modes : Modes T} {w : World} {o : Options} {r : Runner}
    (hr : runnerFromOptions w modes o = .ok r) (hw : w.parseAst = py.parseAst) {sm : Str} (hsm : SyntaxInEffect o.mode o.subMode sm)
    (hne : o.searchReplace ≠ []) {ss : List Searcher} (hss : Searchers modes o.mode sm o.searchReplace ss) {inc : Str → Prop}
    {Ps : List (Str → List Substitution → Prop)} (hq : Forall2 (FindsOn py inc) Ps ss) (content path : Str) :
    (¬ inc path → r.find content path = .error .skipFile) ∧
      (inc path → ¬ AlsoHolds o content → r.find content path = .error .skipNoResults) ∧
      (inc path → AlsoHolds o content → py.file content = none → r.find content path = .error .skipFile) ∧
      (∀ out, r.find content path = .ok out → inc path ∧ AlsoHolds o content ∧ py.file content ≠ none ∧
        IteratedResult (fun t => py.file t ≠ none) (FoundBy o.forceEnable py.pragmas Ps) (iterationCount o.mode o.iterate) content out) := by
  have hssne : ∃ s ss', ss = s :: ss' := by
    cases ss with
    | nil =>
      generalize o.searchReplace = srs at hss hne
      cases hss; exact absurd rfl hne
    | cons s ss' => exact ⟨s, ss', rfl⟩
  obtain ⟨s0, ss0, rfl⟩ := hssne
  obtain ⟨s, hs⟩ := whole_of s0 ss0
  have hinc : inc path → s.included path = .ok () := by
    intro hi
    cases hs with
    | one =>
      obtain ⟨q, _, h⟩ := forall2_mem_right hq (List.mem_cons_self ..)
      exact h.included path hi
    | many =>
      rw [C69_combined_included]
      intro s hs
      obtain ⟨q, _, h⟩ := forall2_mem_right hq hs
      exact h.included path hi
  have hexc : ¬ inc path → s.included path = .error .skipFile := by
    intro hi
    obtain ⟨q, _, h⟩ := forall2_mem_right hq (List.mem_cons_self ..)
    have h0 := h.excluded path hi
    cases hs with
    | one => exact h0
    | many => simp only [combined, combinedIncluded, h0]
  have hns := C69_not_searched w modes o sm hsm _ _ hss hs r hr content path
  have hparse : py.file content = none → s.parse content path = .error .skipFile := by
    intro hnone
    obtain ⟨q, _, h⟩ := forall2_mem_right hq (List.mem_cons_self ..)
    cases hs with
    | one => exact h.skips content path hnone
    | many =>
      simp only [combined, combinedParse]
      rw [h.skips content path hnone]
  refine ⟨fun hi => ?_, fun hi => (hns (hinc hi)).1, fun hi ha hnone => (hns (hinc hi)).2.1 ha _ (hparse hnone), fun out hout => ?_⟩
  · have hr' := hr
    rw [← (subModeOf_spec _ _ _).2 hsm] at hss
    have hb := (buildSearchers_ok modes o.mode o.subMode o.searchReplace _).2 hss
    simp only [runnerFromOptions, hb, wholeSearcher_eq hs, Except.ok.injEq] at hr'
    subst hr'
    simp only
    generalize hs1 : (if o.also.isEmpty && o.noalso.isEmpty then s else alsoRegexp s o.also o.noalso) = s1
    have h1 := included_wrapped s o.also o.noalso
    rw [hs1] at h1
    have hinc : (if o.forceEnable then s1 else pragmaSuppressed s1).included path = .error .skipFile := by
      split <;> simp [pragmaSuppressed, h1.1, hexc hi]
    unfold findIter
    rw [hinc]
  · obtain ⟨ha, hi, p, subs, hp, hf⟩ := C69_results_only w modes o sm hsm _ _ hss hs r hr content path out hout
    have hip : inc path := Classical.byContradiction fun h => by rw [hexc h] at hi; cases hi
    have hpall : s0.parse content path = .ok p := by
      cases hs with
      | one => exact hp
      | many => exact (C69_combined_parse _ _ content path p).1 hp _ (List.mem_cons_self ..)
    have hpy : py.parseAst content path = .ok p := by
      obtain ⟨q, _, h⟩ := forall2_mem_right hq (List.mem_cons_self ..)
      exact h.parses content path p hpall
    refine ⟨hip, ha, (parseAst_ok hpy).2, ?_⟩
    have hr' := hr
    have hss' := hss
    rw [← (subModeOf_spec _ _ _).2 hsm] at hss'
    have hb := (buildSearchers_ok modes o.mode o.subMode o.searchReplace _).2 hss'
    simp only [runnerFromOptions, hb, wholeSearcher_eq hs, Except.ok.injEq] at hr'
    subst hr'
    simp only at hout
    generalize hs1 : (if o.also.isEmpty && o.noalso.isEmpty then s else alsoRegexp s o.also o.noalso) = s1 at hout
    have h1 := included_wrapped s o.also o.noalso
    have h2 := parse_wrapped s o content path
    rw [hs1] at h1 h2
    generalize hS : (if o.forceEnable = true then s1 else pragmaSuppressed s1) = S at hout
    have hfind : ∀ t p' l, py.parseAst t path = .ok p' → S.find p' = .ok l → FoundBy o.forceEnable py.pragmas Ps t l := by
      intro t p' l hp' hl
      obtain ⟨hpe, _⟩ := parseAst_ok hp'
      have hall : ∃ all, s.find p' = .ok all ∧ Unsuppressed o.forceEnable (py.pragmas t) all l := by
        cases hfo : o.forceEnable with
        | true =>
          rw [hfo, if_pos rfl] at hS
          subst hS
          rw [h1.2] at hl
          exact ⟨l, hl, fun _ => rfl, fun h => by cases h⟩
        | false =>
          rw [hfo, if_neg (by simp)] at hS
          subst hS
          cases hall : s1.find p' with
          | error e => simp only [pragmaSuppressed, hall] at hl; cases hl
          | ok all =>
            obtain ⟨out', e1, e2, e3⟩ := C24_suppressed_search s1 p' all hall
            rw [hl] at e1
            cases e1
            refine ⟨all, by rw [← h1.2]; exact hall, fun h => (by cases h), fun _ => ⟨e2, ?_⟩⟩
            rw [hpe] at e3
            exact e3
      obtain ⟨all, hall, hun⟩ := hall
      obtain ⟨per, hper, htog⟩ := whole_found hq hs hp' hall
      exact ⟨per, all, hper, htog, hun⟩
    obtain ⟨p2, subs2, gs, outs, k1, k2, k3, k4, k5, k6, k7⟩ := C22_find_iter_by_groups _ _ _ _ _ _ hout
    have hpar : S.parse content path = .ok p := by
      rw [← hS]
      split
      · rw [h2.1 ha]; exact hp
      · simp only [pragmaSuppressed]; rw [h2.1 ha]; exact hp
    rw [hpar] at k2
    cases k2
    obtain ⟨hpe, _⟩ := parseAst_ok hpy
    refine ⟨subs2, gs, outs, hfind _ _ _ hpy k3, k4, ?_, k6⟩
    refine zip_forall2 k5 fun x hx => ?_
    have hgo := k7 x hx
    have hxm : x.1 ∈ gs := by
      obtain ⟨a, b⟩ := x
      exact (List.of_mem_zip hx).1
    rw [hw] at hgo
    have hpath : p.path = path := by rw [hpe]
    have htext : p.text = content := by rw [hpe]
    rw [hpath, htext] at hgo
    exact iterated_of (fun t p h => (parseAst_ok h).2) (fun t p s h => hfind t p s h) (fun t e h => by simp [parseAst_error h]) (k4.2.1 _ hxm).1 hgo

end Refex
