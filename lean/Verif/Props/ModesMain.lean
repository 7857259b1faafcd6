import Verif.Props.ModesExamples
import Verif.Props.MainRun
import Verif.Spec.ModesMain
/- C93: the command line as a whole. -/
namespace Refex
set_option autoImplicit false

/-- **C69**, the other direction: results come from files that satisfy `--also` and `--noalso`, are included, parsed and searched. -/
theorem C69_results_only {T : Type} (w : World) (modes : Modes T) (o : Options) (sm : Str) (hsm : SyntaxInEffect o.mode o.subMode sm)
    (ss : List Searcher) (s : Searcher) (hss : Searchers modes o.mode sm o.searchReplace ss) (hs : Whole ss s) (r : Runner)
    (hr : runnerFromOptions w modes o = .ok r) (content path : Str) (out : List Substitution) (hout : r.find content path = .ok out) :
    AlsoHolds o content ∧ s.included path = .ok () ∧ ∃ p subs, s.parse content path = .ok p ∧ s.find p = .ok subs := by
  rw [← (subModeOf_spec _ _ _).2 hsm] at hss
  have hb := (buildSearchers_ok modes o.mode o.subMode o.searchReplace ss).2 hss
  simp only [runnerFromOptions, hb, wholeSearcher_eq hs, Except.ok.injEq] at hr
  subst hr
  simp only at hout
  generalize hs1 : (if o.also.isEmpty && o.noalso.isEmpty then s else alsoRegexp s o.also o.noalso) = s1 at hout
  have h1 := included_wrapped s o.also o.noalso
  have h2 := parse_wrapped s o content path
  rw [hs1] at h1 h2
  have hinc : (if o.forceEnable then s1 else pragmaSuppressed s1).included path = s.included path := by
    split <;> simp [pragmaSuppressed, h1.1]
  have hpar : (if o.forceEnable then s1 else pragmaSuppressed s1).parse content path = s1.parse content path := by
    split <;> simp [pragmaSuppressed]
  have hfind : ∀ p subs, (if o.forceEnable then s1 else pragmaSuppressed s1).find p = .ok subs → ∃ subs, s.find p = .ok subs := by
    intro p subs h
    split at h
    · rw [h1.2] at h; exact ⟨_, h⟩
    · unfold pragmaSuppressed at h
      simp only at h
      rw [h1.2] at h
      split at h
      · cases h
      · rename_i subs' e; exact ⟨_, e⟩
  unfold findIter at hout
  rw [hinc, hpar] at hout
  split at hout
  · cases hout
  rename_i hi
  split at hout
  · cases hout
  rename_i p hp
  split at hout
  · cases hout
  rename_i subs hf
  obtain ⟨subs', hf'⟩ := hfind p subs hf
  by_cases ha : AlsoHolds o content
  · exact ⟨ha, hi, p, subs', by rw [← h2.1 ha]; exact hp, hf'⟩
  · rw [h2.2 ha] at hp; cases hp

/-- **C69**: a file that is included but not searched. -/
theorem C69_not_searched {T : Type} (w : World) (modes : Modes T) (o : Options) (sm : Str) (hsm : SyntaxInEffect o.mode o.subMode sm)
    (ss : List Searcher) (s : Searcher) (hss : Searchers modes o.mode sm o.searchReplace ss) (hs : Whole ss s) (r : Runner)
    (hr : runnerFromOptions w modes o = .ok r) (content path : Str) (hi : s.included path = .ok ()) :
    (¬ AlsoHolds o content → r.find content path = .error .skipNoResults) ∧
    (AlsoHolds o content → ∀ e, s.parse content path = .error e → r.find content path = .error e) ∧
    (AlsoHolds o content → ∀ p e, s.parse content path = .ok p → s.find p = .error e → r.find content path = .error e) := by
  rw [← (subModeOf_spec _ _ _).2 hsm] at hss
  have hb := (buildSearchers_ok modes o.mode o.subMode o.searchReplace ss).2 hss
  simp only [runnerFromOptions, hb, wholeSearcher_eq hs, Except.ok.injEq] at hr
  subst hr
  simp only
  generalize hs1 : (if o.also.isEmpty && o.noalso.isEmpty then s else alsoRegexp s o.also o.noalso) = s1
  have h1 := included_wrapped s o.also o.noalso
  have h2 := parse_wrapped s o content path
  rw [hs1] at h1 h2
  have hinc : (if o.forceEnable then s1 else pragmaSuppressed s1).included path = .ok () := by
    split <;> simp [pragmaSuppressed, h1.1, hi]
  have hpar : (if o.forceEnable then s1 else pragmaSuppressed s1).parse content path = s1.parse content path := by
    split <;> simp [pragmaSuppressed]
  have hfind : ∀ p e, s.find p = .error e → (if o.forceEnable then s1 else pragmaSuppressed s1).find p = .error e := by
    intro p e h
    split
    · rw [h1.2]; exact h
    · unfold pragmaSuppressed
      simp only
      rw [h1.2, h]
  unfold findIter
  rw [hinc, hpar]
  refine ⟨fun ha => by rw [h2.2 ha], fun ha e he => by rw [h2.1 ha, he], fun ha p e hp he => ?_⟩
  rw [h2.1 ha, hp]
  simp only
  rw [hfind p e he]

theorem templatesParse_keys {T : Type} {template : Str → Except Exc T} {sub : Dict Str Str} {ts : Dict Str T} (h : TemplatesParse template sub ts) :
    ts.keys = sub.keys := by
  induction h with
  | nil => rfl
  | cons _ _ ih => exact congrArg (_ :: ·) ih

/-- The searchers of the two modes. -/
theorem factory_pattern {py : Python} {mode : Str} {kind : PatternKind} (hk : PatternMode mode kind) {pattern : Option Str} {ts : Dict Str CodeTemplate}
    {s : Searcher} (h : py.factory mode pattern ts = .ok s) : ∃ text m, pattern = some text ∧ py.pattern kind text = .ok m ∧ s = py.searcher m ts := by
  have H : (match pattern with
      | none => .error .attributeError
      | some text => (py.pattern kind text).map fun m => py.searcher m ts) = Except.ok s → ∃ text m, pattern = some text ∧ py.pattern kind text = .ok m ∧ s = py.searcher m ts := by
    intro h
    cases pattern with
    | none => cases h
    | some text =>
      simp only at h
      cases hp : py.pattern kind text with
      | error e => rw [hp] at h; cases h
      | ok m => rw [hp] at h; cases h; exact ⟨text, m, rfl, hp, rfl⟩
  cases hk with
  | expr => exact H h
  | stmt => exact H h

/-- **C93**, the command: with mode `py.expr` or `py.stmt` and one pattern, the results in each file are those of the search for the pattern, but
for those that pragmas suppress. -/
theorem C93_command {g : Grammar} {py : Python} (hfit : PythonFits g py) {w : World} {o : Options} {r : Runner}
    (hr : runnerFromOptions w py.modes o = .ok r) {kind : PatternKind} (hkind : PatternMode o.mode kind) {sm : Str} (hsm : SyntaxInEffect o.mode o.subMode sm)
    (hiter : iterationCount o.mode o.iterate ≤ 1) {sr : SearchReplace} (hone : o.searchReplace = [sr]) (hw : sr.sub.WF)
    (hplain : ∀ text toks, sr.pattern = some text → py.tokens (withNewline text) = some toks → ∃ ps, PlainTokens toks ps) :
    ∃ text what t ts, sr.pattern = some text ∧ PatternMeans py kind text what t ∧ TemplatesParse (py.template sm) sr.sub ts ∧
      ∀ content path, (¬ AlsoHolds o content → r.find content path = .error .skipNoResults) ∧
        (AlsoHolds o content → py.file content = none → r.find content path = .error .skipFile) ∧
        (2 * t.size + 7 ≤ py.depth → ∀ out, r.find content path = .ok out → AlsoHolds o content ∧
          ∃ subs, SearchResult py what t ts content subs ∧ Unsuppressed o.forceEnable (py.pragmas content) subs out) := by
  have hmode : py.modes.factory = py.factory := rfl
  have hne : o.searchReplace ≠ [] := by rw [hone]; exact fun h => by cases h
  obtain ⟨ss, hss⟩ := (C69_runner w py.modes o sm hsm hne).1.1 ⟨r, hr⟩
  have hss' := hss
  rw [hone] at hss'
  cases hss' with
  | @cons _ ts s _ ss' htp hfac hrest =>
    cases hrest
    obtain ⟨text, m, htext, hm, rfl⟩ := factory_pattern hkind (py := py) hfac
    have hwts : ts.WF := by
      unfold Dict.WF at hw ⊢
      rw [templatesParse_keys htp]; exact hw
    have htok : ∃ toks, py.tokens (withNewline text) = some toks := by
      unfold Python.pattern at hm
      split at hm
      · cases hm
      · rename_i toks h; exact ⟨toks, h⟩
    obtain ⟨toks, htok⟩ := htok
    obtain ⟨ps, hps⟩ := hplain text toks htext htok
    obtain ⟨what, t, hmean, hsearch⟩ := C93_search hfit htok hps hm hwts
    refine ⟨text, what, t, ts, htext, hmean, htp, fun content path => ?_⟩
    have hns := C69_not_searched w py.modes o sm hsm _ _ hss (.one _) r hr content path rfl
    refine ⟨hns.1, fun ha hnone => hns.2.1 ha _ ?_, fun hd out hout => ?_⟩
    · unfold Python.searcher
      simp only
      unfold Python.parseAst
      rw [hnone]
    · obtain ⟨ha, hi, p, subs, hp, hf⟩ := C69_results_only w py.modes o sm hsm _ _ hss (.one _) r hr content path out hout
      obtain ⟨_, h1, h2⟩ := C69_results w py.modes o sm hsm _ _ hss (.one _) r hr content path p subs (.inl hiter) hi hp hf
      have hprag : p.pragmas = py.pragmas content := by
        unfold Python.searcher at hp
        simp only at hp
        unfold Python.parseAst at hp
        cases hc : py.file content with
        | none => rw [hc] at hp; cases hp
        | some c => rw [hc] at hp; cases hp; rfl
      refine ⟨ha, subs, hsearch hd content path p subs hp hf, fun hfo => ?_, fun hfo => ?_⟩
      · rw [h1 ha hfo] at hout; cases hout; rfl
      · obtain ⟨out', e1, e2, e3⟩ := h2 ha hfo
        rw [hout] at e1; cases e1
        rw [hprag] at e3
        exact ⟨e2, e3⟩

/-- What is known of the searcher of a query. -/
structure Searches (py : Python) (q : Query) (s : Searcher) : Prop where
  included : ∀ path, s.included path = .ok ()
  skips : ∀ content path, py.file content = none → s.parse content path = .error .skipFile
  pragmas : ∀ content path p, s.parse content path = .ok p → p.pragmas = py.pragmas content
  result : 2 * q.tree.size + 7 ≤ py.depth → ∀ content path p subs, s.parse content path = .ok p → s.find p = .ok subs →
    SearchResult py q.what q.tree q.templates content subs

theorem searches_all {g : Grammar} {py : Python} (hfit : PythonFits g py) {mode : Str} {kind : PatternKind} (hkind : PatternMode mode kind) {sm : Str}
    {srs : List SearchReplace} {ss : List Searcher} (h : Searchers py.modes mode sm srs ss) (hw : ∀ sr ∈ srs, sr.sub.WF)
    (hplain : ∀ sr ∈ srs, ∀ text toks, sr.pattern = some text → py.tokens (withNewline text) = some toks → ∃ ps, PlainTokens toks ps) :
    ∃ qs, Forall2 (QueryOf py kind sm) srs qs ∧ Forall2 (Searches py) qs ss := by
  induction h with
  | nil => exact ⟨[], .nil, .nil⟩
  | @cons sr ts s rest ss' htp hfac hrest ih =>
    obtain ⟨qs, h1, h2⟩ := ih (fun sr h => hw sr (List.mem_cons_of_mem _ h)) (fun sr h => hplain sr (List.mem_cons_of_mem _ h))
    obtain ⟨text, m, htext, hm, rfl⟩ := factory_pattern hkind (py := py) hfac
    have hwts : ts.WF := by
      have := hw sr (List.mem_cons_self ..)
      unfold Dict.WF at this ⊢
      rw [templatesParse_keys htp]; exact this
    have htok : ∃ toks, py.tokens (withNewline text) = some toks := by
      unfold Python.pattern at hm
      split at hm
      · cases hm
      · rename_i toks h; exact ⟨toks, h⟩
    obtain ⟨toks, htok⟩ := htok
    obtain ⟨ps, hps⟩ := hplain sr (List.mem_cons_self ..) text toks htext htok
    obtain ⟨what, t, hmean, hsearch⟩ := C93_search hfit htok hps hm hwts
    refine ⟨⟨what, t, ts⟩ :: qs, .cons ⟨text, htext, hmean, htp⟩ h1, .cons ⟨fun _ => rfl, fun content path hnone => ?_, fun content path p hp => ?_, hsearch⟩ h2⟩
    · unfold Python.searcher
      simp only
      unfold Python.parseAst
      rw [hnone]
    · unfold Python.searcher at hp
      simp only at hp
      unfold Python.parseAst at hp
      cases hc : py.file content with
      | none => rw [hc] at hp; cases hp
      | some c => rw [hc] at hp; cases hp; rfl

theorem forall2_length' {α β : Type} {R : α → β → Prop} {l : List α} {l' : List β} (h : Forall2 R l l') : l.length = l'.length := by
  induction h with
  | nil => rfl
  | cons _ _ ih => simp [ih]

theorem results_of_zip {py : Python} {qs : List Query} {ss : List Searcher} (h : Forall2 (Searches py) qs ss) (hd : ∀ q ∈ qs, 2 * q.tree.size + 7 ≤ py.depth)
    {content path : Str} {p : ParsedFile} (hp : ∀ s ∈ ss, s.parse content path = .ok p) {per : List (List Substitution)} (hl : per.length = ss.length)
    (hf : ∀ sr ∈ ss.zip per, sr.1.find p = .ok sr.2) :
    Forall2 (fun q subs => SearchResult py q.what q.tree q.templates content subs) qs per := by
  induction h generalizing per with
  | nil => cases per with
    | nil => exact .nil
    | cons _ _ => cases hl
  | @cons q s qs ss hqs _ ih =>
    cases per with
    | nil => cases hl
    | cons l per =>
      refine .cons (hqs.result (hd q (List.mem_cons_self ..)) content path p l (hp s (List.mem_cons_self ..)) (hf (s, l) ?_)) (ih (fun q h => hd q (List.mem_cons_of_mem _ h))
        (fun s h => hp s (List.mem_cons_of_mem _ h)) (by simpa using hl) (fun sr h => hf sr ?_))
      · rw [List.zip_cons_cons]; exact List.mem_cons_self ..
      · rw [List.zip_cons_cons]; exact List.mem_cons_of_mem _ h

/-- **C93**, the command with any number of patterns. -/
theorem C93_commands {g : Grammar} {py : Python} (hfit : PythonFits g py) {w : World} {o : Options} {r : Runner}
    (hr : runnerFromOptions w py.modes o = .ok r) {kind : PatternKind} (hkind : PatternMode o.mode kind) {sm : Str} (hsm : SyntaxInEffect o.mode o.subMode sm)
    (hiter : iterationCount o.mode o.iterate ≤ 1) (hne : o.searchReplace ≠ []) (hw : ∀ sr ∈ o.searchReplace, sr.sub.WF)
    (hplain : ∀ sr ∈ o.searchReplace, ∀ text toks, sr.pattern = some text → py.tokens (withNewline text) = some toks → ∃ ps, PlainTokens toks ps) :
    ∃ qs, Forall2 (QueryOf py kind sm) o.searchReplace qs ∧
      ∀ content path, (¬ AlsoHolds o content → r.find content path = .error .skipNoResults) ∧
        (AlsoHolds o content → py.file content = none → r.find content path = .error .skipFile) ∧
        ((∀ q ∈ qs, 2 * q.tree.size + 7 ≤ py.depth) → ∀ out, r.find content path = .ok out → AlsoHolds o content ∧
          ∃ per subs, Forall2 (fun q subs => SearchResult py q.what q.tree q.templates content subs) qs per ∧ Together per subs ∧
            Unsuppressed o.forceEnable (py.pragmas content) subs out) := by
  obtain ⟨ss, hss⟩ := (C69_runner w py.modes o sm hsm hne).1.1 ⟨r, hr⟩
  obtain ⟨qs, hqs, hq⟩ := searches_all hfit hkind hss hw hplain
  refine ⟨qs, hqs, fun content path => ?_⟩
  have hlen := forall2_length' hq
  have hssne : ∃ s ss', ss = s :: ss' := by
    cases ss with
    | nil =>
      generalize o.searchReplace = srs at hss hne
      cases hss; exact absurd rfl hne
    | cons s ss' => exact ⟨s, ss', rfl⟩
  obtain ⟨s0, ss0, rfl⟩ := hssne
  obtain ⟨s, hs⟩ := whole_of s0 ss0
  have hinc : s.included path = .ok () := by
    cases hs with
    | one =>
      obtain ⟨q, _, h⟩ := forall2_mem_right hq (List.mem_cons_self ..)
      exact h.included path
    | many =>
      rw [C69_combined_included]
      intro s hs
      obtain ⟨q, _, h⟩ := forall2_mem_right hq hs
      exact h.included path
  have hns := C69_not_searched w py.modes o sm hsm _ _ hss hs r hr content path hinc
  refine ⟨hns.1, fun ha hnone => hns.2.1 ha _ ?_, fun hd out hout => ?_⟩
  · obtain ⟨q, _, h⟩ := forall2_mem_right hq (List.mem_cons_self ..)
    cases hs with
    | one => exact h.skips content path hnone
    | many =>
      simp only [combined, combinedParse]
      rw [h.skips content path hnone]
  · obtain ⟨ha, hi, p, subs, hp, hf⟩ := C69_results_only w py.modes o sm hsm _ _ hss hs r hr content path out hout
    obtain ⟨_, h1, h2⟩ := C69_results w py.modes o sm hsm _ _ hss hs r hr content path p subs (.inl hiter) hi hp hf
    have hpall : ∀ s ∈ s0 :: ss0, s.parse content path = .ok p := by
      cases hs with
      | one => intro s hs; rw [List.mem_singleton.1 hs]; exact hp
      | many => exact (C69_combined_parse _ _ content path p).1 hp
    obtain ⟨per, hper, htog⟩ : ∃ per, Forall2 (fun q subs => SearchResult py q.what q.tree q.templates content subs) qs per ∧ Together per subs := by
      cases hs with
      | one =>
        refine ⟨[subs], results_of_zip hq hd hpall rfl ?_, .one _⟩
        intro sr h
        rw [List.mem_singleton.1 h]; exact hf
      | many s s' ss =>
        obtain ⟨per, h1, h2, ⟨sorted, h3, h4⟩, h5, h6⟩ := C69_combined_find _ p subs hf
        refine ⟨per, results_of_zip hq hd hpall h1 h2, .many ?_ h3 h4 h5 h6⟩
        rw [h1]; simp
    have hprag : p.pragmas = py.pragmas content := by
      obtain ⟨q, _, h⟩ := forall2_mem_right hq (List.mem_cons_self ..)
      exact h.pragmas content path p (hpall _ (List.mem_cons_self ..))
    refine ⟨ha, per, subs, hper, htog, fun hfo => ?_, fun hfo => ?_⟩
    · rw [h1 ha hfo] at hout; cases hout; rfl
    · obtain ⟨out', e1, e2, e3⟩ := h2 ha hfo
      rw [hout] at e1; cases e1
      rw [hprag] at e3
      exact ⟨e2, e3⟩

theorem createMatch_span {c : Ctx} {v w : Val} {sp : Span} (h : createMatch c v = .lexical w sp) : ∃ i, c.tok i = some sp := by
  unfold createMatch at h
  split at h
  · cases h
  · split at h
    · cases h
    · rename_i i _ _ _ _ sp' hi
      have : sp' = sp := by
        split at h
        · split at h
          · cases h; rfl
          · cases h
        · split at h
          · cases h
          · cases h; rfl
      subst this
      exact ⟨i, hi⟩
  · cases h

/-- The spans of reported edits lie in the file. -/
theorem edits_inside {content : Str} {c : Ctx} (hspan : ∀ i sp, c.tok i = some sp → sp.2 ≤ content.length)
    {ts : Dict Str CodeTemplate} (hts : ∀ l u, ts.get? l = some u → u.text ≠ []) {hit : PatternHit} {s : Substitution}
    (hs : Reports c ts (hit.label c) s) : ∀ e ∈ editsOf s, e.stop ≤ content.length := by
  obtain ⟨_, ⟨ms, rs, hoff, hsp, hrs, _⟩, hd⟩ := hs
  have hnd : ∀ x, ¬ Deletes ts (hit.label c) x := by
    rintro x ⟨⟨u, hu, he⟩, _⟩
    exact hts x u hu he
  intro e he
  unfold editsOf at he
  rw [hrs] at he
  obtain ⟨⟨l, sp⟩, hm, he⟩ := List.mem_filterMap.1 he
  have hg := Dict.get?_of_mem hd hm
  rw [hsp l, hoff.names l (hnd l)] at hg
  split at he
  · cases he
    show sp.2 ≤ _
    have key : ∀ v, (matchVOf c.text (createMatch c v)).span = some sp → sp.2 ≤ content.length := by
      intro v h
      cases hc : createMatch c v with
      | lexical w sp' =>
        rw [hc] at h
        cases h
        obtain ⟨i, hi⟩ := createMatch_span hc
        exact hspan i _ hi
      | string => rw [hc] at h; cases h
      | object => rw [hc] at h; cases h
      | bare => rw [hc] at h; cases h
      | span s o =>
        exfalso
        unfold createMatch at hc
        split at hc
        · cases hc
        · split at hc
          · cases hc
          · split at hc
            · split at hc <;> cases hc
            · split at hc <;> cases hc
        · cases hc
    unfold PatternHit.label at hg
    split at hg
    · exact key _ hg
    · cases hl : (hit.occ.of l).getLast? with
      | none => rw [hl] at hg; cases hg
      | some v => rw [hl] at hg; exact key v hg
  · cases he

/-- **C93**, in a file: with templates that have a text, what a run writes into a file is its text (with universal newlines) with the edits of the unsuppressed
reports of the search for the pattern, and nothing else changed. -/
theorem C93_rewritten {g : Grammar} {py : Python} (hfit : PythonFits g py) (hspan : ∀ s c, py.file s = some c → ∀ i sp, c.tok i = some sp → sp.2 ≤ s.length)
    {w : World} {o : Options} {r : Runner}
    (hr : runnerFromOptions w py.modes o = .ok r) {kind : PatternKind} (hkind : PatternMode o.mode kind) {sm : Str} (hsm : SyntaxInEffect o.mode o.subMode sm)
    (hiter : iterationCount o.mode o.iterate ≤ 1) {sr : SearchReplace} (hone : o.searchReplace = [sr]) (hw : sr.sub.WF)
    (hplain : ∀ text toks, sr.pattern = some text → py.tokens (withNewline text) = some toks → ∃ ps, PlainTokens toks ps)
    (hrt : ∀ s x, r.enc.encode s = some x → r.enc.decode x = some s) :
    ∃ text what t ts, sr.pattern = some text ∧ PatternMeans py kind text what t ∧ TemplatesParse (py.template sm) sr.sub ts ∧
      ((∀ l u, ts.get? l = some u → u.text ≠ []) → 2 * t.size + 7 ≤ py.depth → ∀ faults fs q b b' old, fs q = some b → r.enc.decode b = some old →
        Rewritten r faults fs q b' →
          AlsoHolds o (universalNewlines old) ∧ ∃ subs out es new, SearchResult py what t ts (universalNewlines old) subs ∧
            Unsuppressed o.forceEnable (py.pragmas (universalNewlines old)) subs out ∧ es.Perm (allEdits out) ∧
            r.enc.decode b' = some new ∧ Spliced 0 (universalNewlines old) es new) := by
  obtain ⟨text, what, t, ts, h1, h2, h3, h4⟩ := C93_command hfit hr hkind hsm hiter hone hw hplain
  refine ⟨text, what, t, ts, h1, h2, h3, fun hts hd faults fs q b b' old hold hdec hnew => ?_⟩
  have hin : ∀ content ms, r.find content (r.shorten q) = .ok ms → ∀ e ∈ allEdits ms, e.stop ≤ content.length := by
    intro content ms hms e he
    obtain ⟨_, subs, ⟨c, hits, os, hc, hhits, rfl, hall⟩, hun⟩ := (h4 content (r.shorten q)).2.2 hd ms hms
    obtain ⟨s, hs, he⟩ := List.mem_flatMap.1 he
    have hsub : s ∈ os.filterMap id := by
      cases hf : o.forceEnable with
      | true => rw [← hun.1 hf]; exact hs
      | false => exact (hun.2 hf).1.subset hs
    obtain ⟨a, ha, hb⟩ := List.mem_filterMap.1 hsub
    cases a with
    | none => cases hb
    | some a =>
      cases hb
      obtain ⟨hit, _, hrep⟩ := forall2_mem_right hall ha
      exact edits_inside (hspan content c hc) hts hrep e he
  obtain ⟨ms, es, new, e1, e2, e3, e4⟩ := C35_normalised r faults fs q b b' old hrt hold hdec hin hnew
  obtain ⟨ha, subs, hres, hun⟩ := (h4 _ _).2.2 hd ms e1
  exact ⟨ha, subs, ms, es, new, hres, hun, e2, e3, e4⟩

/-- `refex --mode=py.expr '$x % $x' --sub='f($x)' -i a.py` -/
def mdOptions : Options where
  mode := str "py.expr"
  searchReplace := [⟨some (str "$x % $x"), [(str "__root", str "f($x)")]⟩]
  inPlace := true
  files := [exFile]

theorem mdSearchers : Searchers mdPy.modes mdOptions.mode (str "py.expr") mdOptions.searchReplace [mdPy.searcher mdMatcher mdTemplates] :=
  .cons (ts := mdTemplates) (.cons rfl .nil) rfl .nil

/-- The hypotheses of C93_command and C93_rewritten are met; the runner finds `a % a`, and `f(a)` is what is written. -/
example : ∃ r, runnerFromOptions exWorld mdPy.modes mdOptions = .ok r ∧ PatternMode mdOptions.mode .expr ∧
    SyntaxInEffect mdOptions.mode mdOptions.subMode (str "py.expr") ∧ iterationCount mdOptions.mode mdOptions.iterate ≤ 1 ∧
    (∀ text toks, some (str "$x % $x") = some text → mdPy.tokens (withNewline text) = some toks → ∃ ps, PlainTokens toks ps) ∧
    (∀ s c, mdPy.file s = some c → ∀ i sp, c.tok i = some sp → sp.2 ≤ s.length) ∧
    (∀ s x, r.enc.encode s = some x → r.enc.decode x = some s) ∧
    (∀ l u, mdTemplates.get? l = some u → u.text ≠ []) ∧
    r.find (str "a % a") (r.shorten exFile) = .ok [mdSub] ∧
    Rewritten r exNoFaults (exFs "a % a") exFile (exBytes "f(a)") := by
  obtain ⟨r, hr⟩ := (C69_runner exWorld mdPy.modes mdOptions _ (.ofMode _ (by decide)) (by decide)).1.2 ⟨_, mdSearchers⟩
  have hfind : r.find (str "a % a") (r.shorten exFile) = .ok [mdSub] := by
    obtain ⟨_, _, h⟩ := C69_results exWorld mdPy.modes mdOptions _ (.ofMode _ (by decide)) _ _ mdSearchers (.one _) r hr (str "a % a") (r.shorten exFile)
      ⟨str "a % a", r.shorten exFile, []⟩ [mdSub] (.inl (by decide)) rfl rfl mdFind
    obtain ⟨out, h1, h2, h3⟩ := h ⟨(by intro r h; cases h), (by intro r h; cases h)⟩ rfl
    have : mdSub ∈ out := by
      by_cases hm : mdSub ∈ out
      · exact hm
      · obtain ⟨c, ⟨_, h, _⟩, _⟩ := (h3 mdSub (List.mem_singleton.2 rfl)).1 hm
        cases h
    cases h2 with
    | cons _ h => cases h; cases this
    | cons_cons _ h => cases h; exact h1
  have henc : r.enc = exAscii := by
    unfold runnerFromOptions at hr
    split at hr
    · cases hr
    · split at hr
      · cases hr
      · cases hr; rfl
  refine ⟨r, hr, .expr, .ofMode _ (by decide), by decide, ?_, ?_, ?_, ?_, hfind, ?_⟩
  · intro text toks h1 h2
    cases h1
    have : mdPy.tokens (withNewline (str "$x % $x")) = some (mdPat ++ [mdEnd]) := rfl
    rw [this] at h2; cases h2
    exact mdPatPlain
  · intro s c h i sp hi
    have h : mdFile s = some c := h
    unfold mdFile at h
    split at h
    · rename_i hs
      cases h
      subst hs
      simp only at hi
      split at hi
      · cases hi; decide
      · split at hi
        · cases hi; decide
        · split at hi
          · cases hi; decide
          · split at hi
            · cases hi; decide
            · cases hi
    · split at h
      · cases h; cases hi
      · cases h
  · rw [henc]
    exact exAscii_round_trip
  · intro l u h
    unfold mdTemplates at h
    unfold Dict.get? at h
    split at h
    case isFalse => cases h
    cases h; show str "f($x)" ≠ []; decide
  · refine ⟨str "a % a", [mdSub], str "f(a)", ?_, hfind, by decide, by decide +kernel, ?_⟩
    · unfold Runner.read; rw [henc]; decide +kernel
    · rw [henc]; decide

end Refex
