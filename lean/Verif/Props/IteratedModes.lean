import Verif.Props.Iterated
/- C98: `--iterate` with Python patterns and matchers. -/
namespace Refex
set_option autoImplicit false

theorem searcher_findsOn {py : Python} {m : Matcher} {ts : Dict Str CodeTemplate} {P : Str → List Substitution → Prop}
    (h : ∀ content path p subs, (py.searcher m ts).parse content path = .ok p → (py.searcher m ts).find p = .ok subs → P content subs) :
    FindsOn py (fun _ => True) P (py.searcher m ts) := by
  have hparse : ∀ content path p, (py.searcher m ts).parse content path = .ok p ↔ py.parseAst content path = .ok p := by
    intro content path p
    unfold Python.searcher
    simp only
    unfold Python.parseAst
    cases py.file content with
    | none => exact ⟨fun h => (by cases h), fun h => (by cases h)⟩
    | some c => exact ⟨id, id⟩
  refine ⟨fun _ _ => rfl, fun _ h => absurd trivial h, fun content path hnone => ?_, fun content path p hp => (hparse content path p).1 hp,
    fun content path p subs hp hs => h content path p subs ((hparse content path p).2 hp) hs⟩
  unfold Python.searcher
  simp only
  unfold Python.parseAst
  rw [hnone]

theorem queries_find {g : Grammar} {py : Python} (hfit : PythonFits g py) {mode : Str} {kind : PatternKind} (hkind : PatternMode mode kind) {sm : Str}
    {srs : List SearchReplace} {ss : List Searcher} (h : Searchers py.modes mode sm srs ss) (hw : ∀ sr ∈ srs, sr.sub.WF)
    (hplain : ∀ sr ∈ srs, ∀ text toks, sr.pattern = some text → py.tokens (withNewline text) = some toks → ∃ ps, PlainTokens toks ps) :
    ∃ qs, Forall2 (QueryOf py kind sm) srs qs ∧ ((∀ q ∈ qs, 2 * q.tree.size + 7 ≤ py.depth) →
      Forall2 (FindsOn py fun _ => True) (qs.map fun q => SearchResult py q.what q.tree q.templates) ss) := by
  induction h with
  | nil => exact ⟨[], .nil, fun _ => .nil⟩
  | @cons sr ts s rest ss' htp hfac hrest ih =>
    obtain ⟨qs, h1, h2⟩ := ih (fun sr h => hw sr (List.mem_cons_of_mem _ h)) (fun sr h => hplain sr (List.mem_cons_of_mem _ h))
    obtain ⟨text, m, htext, hm, rfl⟩ := factory_pattern hkind (py := py) hfac
    have hwts : ts.WF := by
      have := hw sr (List.mem_cons_self ..)
      unfold Dict.WF at this ⊢
      rw [templatesParse_keys htp]; exact this
    have htok : ∃ toks, py.tokens (withNewline text) = some toks := by
      unfold Python.pattern at hm
      split at hm
      · cases hm
      · rename_i toks h; exact ⟨toks, h⟩
    obtain ⟨toks, htok⟩ := htok
    obtain ⟨ps, hps⟩ := hplain sr (List.mem_cons_self ..) text toks htext htok
    obtain ⟨what, t, hmean, hsearch⟩ := C93_search hfit htok hps hm hwts
    refine ⟨⟨what, t, ts⟩ :: qs, .cons ⟨text, htext, hmean, htp⟩ h1, fun hd => ?_⟩
    exact .cons (searcher_findsOn (hsearch (hd _ (List.mem_cons_self ..)))) (h2 fun q h => hd q (List.mem_cons_of_mem _ h))

/-- **C98**, modes `py.expr` and `py.stmt` with `--iterate`: what the patterns find, less what pragmas disable, is put together, grouped by the statements
it belongs to, and each group iterated. -/
theorem C98_patterns {g : Grammar} {py : Python} (hfit : PythonFits g py) {w : World} (hw : w.parseAst = py.parseAst) {o : Options} {r : Runner}
    (hr : runnerFromOptions w py.modes o = .ok r) {kind : PatternKind} (hkind : PatternMode o.mode kind) {sm : Str} (hsm : SyntaxInEffect o.mode o.subMode sm)
    (hne : o.searchReplace ≠ []) (hwf : ∀ sr ∈ o.searchReplace, sr.sub.WF)
    (hplain : ∀ sr ∈ o.searchReplace, ∀ text toks, sr.pattern = some text → py.tokens (withNewline text) = some toks → ∃ ps, PlainTokens toks ps) :
    ∃ qs, Forall2 (QueryOf py kind sm) o.searchReplace qs ∧ ((∀ q ∈ qs, 2 * q.tree.size + 7 ≤ py.depth) →
      ∀ content path, (¬ AlsoHolds o content → r.find content path = .error .skipNoResults) ∧
        (AlsoHolds o content → py.file content = none → r.find content path = .error .skipFile) ∧
        (∀ out, r.find content path = .ok out → AlsoHolds o content ∧ py.file content ≠ none ∧
          IteratedResult (fun t => py.file t ≠ none) (FoundBy o.forceEnable py.pragmas (qs.map fun q => SearchResult py q.what q.tree q.templates))
            (o.iterate.getD 0) content out)) := by
  obtain ⟨ss, hss⟩ := (C69_runner w py.modes o sm hsm hne).1.1 ⟨r, hr⟩
  obtain ⟨qs, h1, h2⟩ := queries_find hfit hkind hss hwf hplain
  refine ⟨qs, h1, fun hd content path => ?_⟩
  obtain ⟨_, e1, e2, e3⟩ := command_iterates hr hw hsm hne hss (h2 hd) content path
  have hit : iterationCount o.mode o.iterate = o.iterate.getD 0 := by
    generalize o.mode = mode at hkind ⊢
    cases hkind <;> (unfold iterationCount; cases o.iterate <;> rfl)
  rw [hit] at e3
  exact ⟨e1 trivial, e2 trivial, fun out hout => (e3 out hout).2⟩

/-- **C98**, mode `py` with `--iterate`. -/
theorem C98_matchers {py : Python} {C : Compiler} (hC : ∀ ty fs, C.fields ty = some fs → fs.Nodup) (hpy : py.matcher = py.compile C) {w : World} (hw : w.parseAst = py.parseAst)
    {o : Options} {r : Runner} (hr : runnerFromOptions w py.modes o = .ok r) (hmode : o.mode = str "py") {sm : Str} (hsm : SyntaxInEffect o.mode o.subMode sm)
    (hne : o.searchReplace ≠ []) (hwf : ∀ sr ∈ o.searchReplace, sr.sub.WF) (hd : 2 ≤ py.depth) :
    ∃ qs, Forall2 (MatcherQueryOf py C sm) o.searchReplace qs ∧
      ((∀ q ∈ qs, ∀ s c, py.file s = some c → GroupsUnreserved c q.1) →
        ∀ content path, (¬ AlsoHolds o content → r.find content path = .error .skipNoResults) ∧
          (AlsoHolds o content → py.file content = none → r.find content path = .error .skipFile) ∧
          (∀ out, r.find content path = .ok out → AlsoHolds o content ∧ py.file content ≠ none ∧
            IteratedResult (fun t => py.file t ≠ none)
              (FoundBy o.forceEnable py.pragmas (qs.map fun (q : Matcher × Dict Str CodeTemplate) => MatcherResult py q.1 q.2)) (o.iterate.getD 0) content out)) := by
  obtain ⟨ss, hss⟩ := (C69_runner w py.modes o sm hsm hne).1.1 ⟨r, hr⟩
  have key : ∀ {srs ss}, Searchers py.modes (str "py") sm srs ss → (∀ sr ∈ srs, sr.sub.WF) →
      ∃ qs, Forall2 (MatcherQueryOf py C sm) srs qs ∧ ((∀ q ∈ qs, ∀ s c, py.file s = some c → GroupsUnreserved c q.1) →
        Forall2 (FindsOn py fun _ => True) (qs.map fun q => MatcherResult py q.1 q.2) ss) := by
    intro srs ss h
    induction h with
    | nil => exact fun _ => ⟨[], .nil, fun _ => .nil⟩
    | @cons sr ts s rest ss' htp hfac _ ih =>
      intro hw
      obtain ⟨qs, h1, h2⟩ := ih fun sr h => hw sr (List.mem_cons_of_mem _ h)
      obtain ⟨text, m, htext, hm, rfl⟩ := factory_matcher hC hpy hfac
      have hwts : ts.WF := by
        have := hw sr (List.mem_cons_self ..)
        unfold Dict.WF at this ⊢
        rw [templatesParse_keys htp]; exact this
      refine ⟨(m, ts) :: qs, .cons ⟨text, htext, hm, htp⟩ h1, fun hg => ?_⟩
      exact .cons (searcher_findsOn fun content path p subs hp hs => C96_search hm (hg _ (List.mem_cons_self ..)) hd hwts hp hs)
        (h2 fun q h => hg q (List.mem_cons_of_mem _ h))
  obtain ⟨qs, h1, h2⟩ := key (hmode ▸ hss) hwf
  refine ⟨qs, h1, fun hg content path => ?_⟩
  obtain ⟨_, e1, e2, e3⟩ := command_iterates hr hw hsm hne hss (h2 hg) content path
  have hit : iterationCount o.mode o.iterate = o.iterate.getD 0 := by
    rw [hmode]; unfold iterationCount; cases o.iterate <;> rfl
  rw [hit] at e3
  exact ⟨e1 trivial, e2 trivial, fun out hout => (e3 out hout).2⟩

end Refex
