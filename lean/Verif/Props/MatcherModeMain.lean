import Verif.Props.MatcherMode
/- C96: the command line as a whole. -/
namespace Refex
set_option autoImplicit false

/-! ### What is known of a searcher suffices -/

/-- A searcher of Python files whose results satisfy `P`. -/
structure Finds (py : Python) (P : Str → List Substitution → Prop) (s : Searcher) : Prop where
  included : ∀ path, s.included path = .ok ()
  skips : ∀ content path, py.file content = none → s.parse content path = .error .skipFile
  pragmas : ∀ content path p, s.parse content path = .ok p → p.pragmas = py.pragmas content
  result : ∀ content path p subs, s.parse content path = .ok p → s.find p = .ok subs → P content subs

theorem finds_of_zip {py : Python} {Ps : List (Str → List Substitution → Prop)} {ss : List Searcher} (h : Forall2 (Finds py) Ps ss)
    {content path : Str} {p : ParsedFile} (hp : ∀ s ∈ ss, s.parse content path = .ok p) {per : List (List Substitution)} (hl : per.length = ss.length)
    (hf : ∀ sr ∈ ss.zip per, sr.1.find p = .ok sr.2) : Forall2 (fun P subs => P content subs) Ps per := by
  induction h generalizing per with
  | nil => cases per with
    | nil => exact .nil
    | cons _ _ => cases hl
  | @cons q s qs ss hqs _ ih =>
    cases per with
    | nil => cases hl
    | cons l per =>
      refine .cons (hqs.result content path p l (hp s (List.mem_cons_self ..)) (hf (s, l) ?_)) (ih
        (fun s h => hp s (List.mem_cons_of_mem _ h)) (by simpa using hl) (fun sr h => hf sr ?_))
      · rw [List.zip_cons_cons]; exact List.mem_cons_self ..
      · rw [List.zip_cons_cons]; exact List.mem_cons_of_mem _ h

theorem command_finds {T : Type} {py : Python} {modes : Modes T} {w : World} {o : Options} {r : Runner}
    (hr : runnerFromOptions w modes o = .ok r) {sm : Str} (hsm : SyntaxInEffect o.mode o.subMode sm)
    (hiter : iterationCount o.mode o.iterate ≤ 1) (hne : o.searchReplace ≠ []) {ss : List Searcher} (hss : Searchers modes o.mode sm o.searchReplace ss)
    {Ps : List (Str → List Substitution → Prop)} (hq : Forall2 (Finds py) Ps ss) (content path : Str) :
    (¬ AlsoHolds o content → r.find content path = .error .skipNoResults) ∧
      (AlsoHolds o content → py.file content = none → r.find content path = .error .skipFile) ∧
      (∀ out, r.find content path = .ok out → AlsoHolds o content ∧
        ∃ per subs, Forall2 (fun P subs => P content subs) Ps per ∧ Together per subs ∧ Unsuppressed o.forceEnable (py.pragmas content) subs out) := by
  have hssne : ∃ s ss', ss = s :: ss' := by
    cases ss with
    | nil =>
      generalize o.searchReplace = srs at hss hne
      cases hss; exact absurd rfl hne
    | cons s ss' => exact ⟨s, ss', rfl⟩
  obtain ⟨s0, ss0, rfl⟩ := hssne
  obtain ⟨s, hs⟩ := whole_of s0 ss0
  have hinc : s.included path = .ok () := by
    cases hs with
    | one =>
      obtain ⟨q, _, h⟩ := forall2_mem_right hq (List.mem_cons_self ..)
      exact h.included path
    | many =>
      rw [C69_combined_included]
      intro s hs
      obtain ⟨q, _, h⟩ := forall2_mem_right hq hs
      exact h.included path
  have hns := C69_not_searched w modes o sm hsm _ _ hss hs r hr content path hinc
  refine ⟨hns.1, fun ha hnone => hns.2.1 ha _ ?_, fun out hout => ?_⟩
  · obtain ⟨q, _, h⟩ := forall2_mem_right hq (List.mem_cons_self ..)
    cases hs with
    | one => exact h.skips content path hnone
    | many =>
      simp only [combined, combinedParse]
      rw [h.skips content path hnone]
  · obtain ⟨ha, hi, p, subs, hp, hf⟩ := C69_results_only w modes o sm hsm _ _ hss hs r hr content path out hout
    obtain ⟨_, h1, h2⟩ := C69_results w modes o sm hsm _ _ hss hs r hr content path p subs (.inl hiter) hi hp hf
    have hpall : ∀ s ∈ s0 :: ss0, s.parse content path = .ok p := by
      cases hs with
      | one => intro s hs; rw [List.mem_singleton.1 hs]; exact hp
      | many => exact (C69_combined_parse _ _ content path p).1 hp
    obtain ⟨per, hper, htog⟩ : ∃ per, Forall2 (fun P subs => P content subs) Ps per ∧ Together per subs := by
      cases hs with
      | one =>
        refine ⟨[subs], finds_of_zip hq hpall rfl ?_, .one _⟩
        intro sr h
        rw [List.mem_singleton.1 h]; exact hf
      | many s s' ss =>
        obtain ⟨per, h1, h2, ⟨sorted, h3, h4⟩, h5, h6⟩ := C69_combined_find _ p subs hf
        refine ⟨per, finds_of_zip hq hpall h1 h2, .many ?_ h3 h4 h5 h6⟩
        rw [h1]; simp
    have hprag : p.pragmas = py.pragmas content := by
      obtain ⟨q, _, h⟩ := forall2_mem_right hq (List.mem_cons_self ..)
      exact h.pragmas content path p (hpall _ (List.mem_cons_self ..))
    refine ⟨ha, per, subs, hper, htog, fun hfo => ?_, fun hfo => ?_⟩
    · rw [h1 ha hfo] at hout; cases hout; rfl
    · obtain ⟨out', e1, e2, e3⟩ := h2 ha hfo
      rw [hout] at e1; cases e1
      rw [hprag] at e3
      exact ⟨e2, e3⟩

/-! ### The search -/

theorem ofFile_done {c : Ctx} {done : List Key} {v : Val} (h : OfFile { c with done := done } v) : OfFile c v := by
  induction h with
  | part h => exact .part h
  | char _ h ih => exact .char ih h
  | none => exact .none

theorem matchOf_done {c : Ctx} {done : List Key} {o : MObj} (h : MatchOf { c with done := done } o) : MatchOf c o := by
  cases h with
  | node h1 h2 h3 => exact .node (ofFile_done h1) h2 h3
  | object h => exact .object (ofFile_done h)
  | string => exact .string
  | text h => exact .text h
  | absent => exact .absent
  | nothing => exact .nothing

theorem attempt_places {c : Ctx} (hc : FileFits c) {m : Matcher} (hm : m.noExternal = true) {p : Path} {v : Val} (hv : c.tree.at? p = some v) {n : Nat} {done ks : List Key}
    {mi : MatchInfo} (h : attempt c n m done v = .ok (some mi, ks)) : ∀ l o, LabelOf mi l = some o → MatchOf c o := by
  unfold attempt at h
  split at h
  · cases h
  · split at h
    · have hc' : FileFits { c with done := done } := ⟨hc.tokens, hc.fullmatch, hc.search⟩
      obtain ⟨h1, h2⟩ := C95_places hc' hm (p := p) hv h
      intro l o hl
      unfold LabelOf at hl
      split at hl
      · injection hl with hl
        rw [← hl]; exact matchOf_done h1
      · cases hb : mi.bindings.get? l with
        | none => rw [hb] at hl; cases hl
        | some b => rw [hb] at hl; cases hl; exact matchOf_done (h2 l b hb)
    · cases h

/-- **C96**, the search: the results of a search for a matcher of the command line. -/
theorem C96_search {py : Python} {C : Compiler} {input : Str} {m : Matcher} (hm : StandsFor py C input m) (hg : ∀ s c, py.file s = some c → GroupsUnreserved c m)
    (hd : 2 ≤ py.depth) {ts : Dict Str CodeTemplate} (hw : ts.WF) {content path : Str} {p : ParsedFile} {subs : List Substitution}
    (hp : (py.searcher m ts).parse content path = .ok p) (hs : (py.searcher m ts).find p = .ok subs) : MatcherResult py m ts content subs := by
  have hpt : p.text = content := by
    unfold Python.searcher at hp
    simp only at hp
    unfold Python.parseAst at hp
    cases hf : py.file content with
    | none => rw [hf] at hp; cases hp
    | some c => rw [hf] at hp; cases hp; rfl
  unfold Python.searcher at hs
  simp only at hs
  rw [hpt] at hs
  cases hc : py.file content with
  | none => rw [hc] at hs; cases hs
  | some c =>
    rw [hc] at hs
    simp only at hs
    obtain ⟨n, hn⟩ : ∃ n, py.depth = n + 2 := ⟨py.depth - 2, by omega⟩
    have hn' : py.depth - 2 = n := by omega
    rw [hn] at hs
    split at hs
    · cases hs
    · rename_i fs hfs
      cases hs
      have ho := C96_ordinary hm (hg _ _ hc)
      obtain ⟨rs, os, hout, rfl, hrel⟩ := C64_reports_parts c _ _ n m _ ho (wf_map_self hw) fs hfs
      refine ⟨c, rs, os.map (Option.map Found.substitution), hc, by rw [hn']; exact hout, filterMap_map_found os, ?_, ?_⟩
      · clear hfs hout
        induction hrel with
        | nil => exact .nil
        | @cons r o rs os h _ ih =>
          refine .cons ?_ ih
          cases o with
          | none => exact refusedBy (fun _ => rfl) h
          | some f => exact reports_of (fun _ => rfl) h.1 h.2.1 h.2.2
      · intro hfit r hr
        obtain ⟨⟨v, hv, ha⟩, _⟩ := (hout.2 r).1 hr
        exact attempt_places hfit (noTemplates_noExternal m ho.noTemplates) hv ha

/-! ### The command -/

theorem searcher_finds {py : Python} {C : Compiler} {input : Str} {m : Matcher} (hm : StandsFor py C input m) (hg : ∀ s c, py.file s = some c → GroupsUnreserved c m)
    (hd : 2 ≤ py.depth) {ts : Dict Str CodeTemplate} (hw : ts.WF) : Finds py (MatcherResult py m ts) (py.searcher m ts) := by
  refine ⟨fun _ => rfl, fun content path hnone => ?_, fun content path p hp => ?_, fun content path p subs hp hs => C96_search hm hg hd hw hp hs⟩
  · unfold Python.searcher
    simp only
    unfold Python.parseAst
    rw [hnone]
  · unfold Python.searcher at hp
    simp only at hp
    unfold Python.parseAst at hp
    cases hc : py.file content with
    | none => rw [hc] at hp; cases hp
    | some c => rw [hc] at hp; cases hp; rfl

theorem factory_matcher {py : Python} {C : Compiler} (hC : ∀ ty fs, C.fields ty = some fs → fs.Nodup) (hpy : py.matcher = py.compile C) {pattern : Option Str}
    {ts : Dict Str CodeTemplate} {s : Searcher} (h : py.factory (str "py") pattern ts = .ok s) :
    ∃ text m, pattern = some text ∧ StandsFor py C text m ∧ s = py.searcher m ts := by
  have h : (py.matcher pattern).map (fun m => py.searcher m ts) = .ok s := h
  rw [hpy] at h
  cases pattern with
  | none => cases h
  | some text =>
    cases hm : py.compile C (some text) with
    | error e => rw [hm] at h; cases h
    | ok m => rw [hm] at h; cases h; exact ⟨text, m, rfl, (C96_compiles hC).1 hm, rfl⟩

/-- **C96**: without a matcher, the command crashes (it is not refused). -/
theorem C96_missing {py : Python} {C : Compiler} (hpy : py.matcher = py.compile C) (ts : Dict Str CodeTemplate) :
    ∃ e, py.factory (str "py") none ts = .error e ∧ e ≠ .valueError := by
  refine ⟨.typeError, ?_, by decide⟩
  show (py.matcher none).map (fun m => py.searcher m ts) = _
  rw [hpy]; rfl

/-- **C96**, the command: `--mode=py` with any number of matchers: the results in each file are those of the searches for the matchers, but for those
that pragmas suppress. -/
theorem C96_command {py : Python} {C : Compiler} (hC : ∀ ty fs, C.fields ty = some fs → fs.Nodup) (hpy : py.matcher = py.compile C) {w : World} {o : Options} {r : Runner}
    (hr : runnerFromOptions w py.modes o = .ok r) (hmode : o.mode = str "py") {sm : Str} (hsm : SyntaxInEffect o.mode o.subMode sm)
    (hiter : iterationCount o.mode o.iterate ≤ 1) (hne : o.searchReplace ≠ []) (hw : ∀ sr ∈ o.searchReplace, sr.sub.WF) (hd : 2 ≤ py.depth) :
    ∃ qs, Forall2 (MatcherQueryOf py C sm) o.searchReplace qs ∧
      ((∀ q ∈ qs, ∀ s c, py.file s = some c → GroupsUnreserved c q.1) →
        ∀ content path, (¬ AlsoHolds o content → r.find content path = .error .skipNoResults) ∧
          (AlsoHolds o content → py.file content = none → r.find content path = .error .skipFile) ∧
          (∀ out, r.find content path = .ok out → AlsoHolds o content ∧
            ∃ per subs, Forall2 (fun (q : Matcher × Dict Str CodeTemplate) subs => MatcherResult py q.1 q.2 content subs) qs per ∧ Together per subs ∧
              Unsuppressed o.forceEnable (py.pragmas content) subs out)) := by
  obtain ⟨ss, hss⟩ := (C69_runner w py.modes o sm hsm hne).1.1 ⟨r, hr⟩
  have key : ∀ {srs ss}, Searchers py.modes (str "py") sm srs ss → (∀ sr ∈ srs, sr.sub.WF) →
      ∃ qs, Forall2 (MatcherQueryOf py C sm) srs qs ∧ ((∀ q ∈ qs, ∀ s c, py.file s = some c → GroupsUnreserved c q.1) →
        Forall2 (Finds py) (qs.map fun q => MatcherResult py q.1 q.2) ss) := by
    intro srs ss h
    induction h with
    | nil => exact fun _ => ⟨[], .nil, fun _ => .nil⟩
    | @cons sr ts s rest ss' htp hfac _ ih =>
      intro hw
      obtain ⟨qs, h1, h2⟩ := ih fun sr h => hw sr (List.mem_cons_of_mem _ h)
      obtain ⟨text, m, htext, hm, rfl⟩ := factory_matcher hC hpy hfac
      have hwts : ts.WF := by
        have := hw sr (List.mem_cons_self ..)
        unfold Dict.WF at this ⊢
        rw [templatesParse_keys htp]; exact this
      refine ⟨(m, ts) :: qs, .cons ⟨text, htext, hm, htp⟩ h1, fun hg => ?_⟩
      exact .cons (searcher_finds hm (hg _ (List.mem_cons_self ..)) hd hwts) (h2 fun q h => hg q (List.mem_cons_of_mem _ h))
  obtain ⟨qs, h1, h2⟩ := key (hmode ▸ hss) hw
  refine ⟨qs, h1, fun hg content path => ?_⟩
  obtain ⟨e1, e2, e3⟩ := command_finds hr hsm hiter hne hss (h2 hg) content path
  refine ⟨e1, e2, fun out hout => ?_⟩
  obtain ⟨ha, per, subs, hper, h⟩ := e3 out hout
  exact ⟨ha, per, subs, forall2_map_left hper, h⟩

theorem together_mem {per : List (List Substitution)} {subs : List Substitution} (h : Together per subs) : ∀ s ∈ subs, ∃ l ∈ per, s ∈ l := by
  intro s hs
  cases h with
  | one => exact ⟨_, List.mem_singleton.2 rfl, hs⟩
  | many _ hp hsub => exact List.mem_flatten.1 (hp.subset (hsub.subset hs))

theorem edits_in_text {c : Ctx} {ts : Dict Str CodeTemplate} (hts : ∀ l u, ts.get? l = some u → u.text ≠ []) {stands : Label → Option MObj}
    (hst : ∀ l o, stands l = some o → MatchOf c o) {s : Substitution} (hs : Reports c ts stands s) : ∀ e ∈ editsOf s, e.stop ≤ c.text.length := by
  obtain ⟨_, ⟨ms, rs, hoff, hsp, hrs, _⟩, hd⟩ := hs
  have hnd : ∀ x, ¬ Deletes ts stands x := by
    rintro x ⟨⟨u, hu, he⟩, _⟩
    exact hts x u hu he
  intro e he
  unfold editsOf at he
  rw [hrs] at he
  obtain ⟨⟨l, sp⟩, hm, he⟩ := List.mem_filterMap.1 he
  have hg := Dict.get?_of_mem hd hm
  rw [hsp l, hoff.names l (hnd l)] at hg
  split at he
  · cases he
    show sp.2 ≤ _
    cases hl : stands l with
    | none => rw [hl] at hg; cases hg
    | some o =>
      rw [hl] at hg
      have hg : (matchVOf c.text o).span = some sp := hg
      have hsp' : o.span? = some sp := by
        cases o with
        | lexical => exact hg
        | span => exact hg
        | object => cases hg
        | string => cases hg
        | bare => cases hg
      exact ((C95_span (hst l o hl)) sp hsp').1.2
  · cases he

/-- **C96**, in a file: with templates that have a text, what a run writes into a file is its text (with universal newlines) with the edits of the
unsuppressed reports of the searches for the matchers, and nothing else changed. -/
theorem C96_rewritten {py : Python} {C : Compiler} (hC : ∀ ty fs, C.fields ty = some fs → fs.Nodup) (hpy : py.matcher = py.compile C)
    (hfile : ∀ s c, py.file s = some c → c.text = s ∧ FileFits c) {w : World} {o : Options} {r : Runner}
    (hr : runnerFromOptions w py.modes o = .ok r) (hmode : o.mode = str "py") {sm : Str} (hsm : SyntaxInEffect o.mode o.subMode sm)
    (hiter : iterationCount o.mode o.iterate ≤ 1) (hne : o.searchReplace ≠ []) (hw : ∀ sr ∈ o.searchReplace, sr.sub.WF) (hd : 2 ≤ py.depth)
    (hrt : ∀ s x, r.enc.encode s = some x → r.enc.decode x = some s) :
    ∃ qs, Forall2 (MatcherQueryOf py C sm) o.searchReplace qs ∧
      ((∀ q ∈ qs, ∀ s c, py.file s = some c → GroupsUnreserved c q.1) → (∀ q ∈ qs, ∀ l u, q.2.get? l = some u → u.text ≠ []) →
        ∀ faults fs q b b' old, fs q = some b → r.enc.decode b = some old → Rewritten r faults fs q b' →
          AlsoHolds o (universalNewlines old) ∧ ∃ per subs out es new,
            Forall2 (fun (q : Matcher × Dict Str CodeTemplate) subs => MatcherResult py q.1 q.2 (universalNewlines old) subs) qs per ∧ Together per subs ∧
            Unsuppressed o.forceEnable (py.pragmas (universalNewlines old)) subs out ∧ es.Perm (allEdits out) ∧
            r.enc.decode b' = some new ∧ Spliced 0 (universalNewlines old) es new) := by
  obtain ⟨qs, h1, h2⟩ := C96_command hC hpy hr hmode hsm hiter hne hw hd
  refine ⟨qs, h1, fun hg hts faults fs q b b' old hold hdec hnew => ?_⟩
  have h4 := h2 hg
  have hin : ∀ content ms, r.find content (r.shorten q) = .ok ms → ∀ e ∈ allEdits ms, e.stop ≤ content.length := by
    intro content ms hms e he
    obtain ⟨_, per, subs, hper, htog, hun⟩ := (h4 content (r.shorten q)).2.2 ms hms
    obtain ⟨s, hs, he⟩ := List.mem_flatMap.1 he
    have hsub : s ∈ subs := by
      cases hf : o.forceEnable with
      | true => rw [← hun.1 hf]; exact hs
      | false => exact (hun.2 hf).1.subset hs
    obtain ⟨l, hl, hsl⟩ := together_mem htog s hsub
    obtain ⟨mq, hmq, c, rs, os, hc, _, rfl, hall, hplaces⟩ := forall2_mem_right hper hl
    obtain ⟨a, ha, hb⟩ := List.mem_filterMap.1 hsl
    cases a with
    | none => cases hb
    | some a =>
      cases hb
      obtain ⟨rp, hrp, hrep⟩ := forall2_mem_right hall ha
      obtain ⟨htext, hfit⟩ := hfile content c hc
      have := edits_in_text (hts mq hmq) (hplaces hfit rp hrp) hrep e he
      rw [htext] at this
      exact this
  obtain ⟨ms, es, new, e1, e2, e3, e4⟩ := C35_normalised r faults fs q b b' old hrt hold hdec hin hnew
  obtain ⟨ha, per, subs, hper, htog, hun⟩ := (h4 _ _).2.2 ms e1
  exact ⟨ha, per, subs, ms, es, new, hper, htog, hun, e2, e3, e4⟩

end Refex
