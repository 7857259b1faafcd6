import Verif.Props.Searchers
import Verif.Props.Main
/-
C69, C70, C75: the searcher built from the command line, the run, the report.
-/
namespace Refex
set_option autoImplicit false

/-! ### C69 -/

theorem subModeOf_spec (mode sub sm : Str) : subModeOf mode sub = sm ↔ SyntaxInEffect mode sub sm := by
  unfold subModeOf
  constructor
  · intro h
    subst h
    split
    · rename_i h; subst h
      split
      · rename_i h; subst h; exact .fix
      · rename_i h; exact .ofMode _ h
    · rename_i h; exact .asked _ _ h
  · intro h
    cases h with
    | asked _ _ h => rw [if_neg h]
    | fix => decide
    | ofMode _ h => rw [if_pos rfl, if_neg h]

theorem parseTemplates_ok {T : Type} (template : Str → Except Exc T) (d : Dict Str Str) (ts : Dict Str T) :
    parseTemplates template d = .ok ts ↔ TemplatesParse template d ts := by
  induction d generalizing ts with
  | nil =>
    constructor
    · intro h; cases h; exact .nil
    · intro h; cases h; rfl
  | cons e rest ih =>
    obtain ⟨name, sub⟩ := e
    constructor
    · intro h
      simp only [parseTemplates] at h
      split at h
      · cases h
      · rename_i t ht
        split at h
        · cases h
        · rename_i ts' hts
          cases h
          exact .cons ht ((ih _).1 hts)
    · intro h
      cases h with | cons h1 h2 =>
      simp only [parseTemplates, h1, (ih _).2 h2]

theorem parseTemplates_error {T : Type} (template : Str → Except Exc T) (d : Dict Str Str) (e : MainErr) :
    parseTemplates template d = .error e ↔ e = .usage ∧ ∃ name sub x, (name, sub) ∈ d ∧ template sub = .error x := by
  induction d with
  | nil => simp [parseTemplates]
  | cons p rest ih =>
    obtain ⟨name, sub⟩ := p
    simp only [parseTemplates]
    cases ht : template sub with
    | error x =>
      simp only [Except.error.injEq]
      constructor
      · intro h; exact ⟨h.symm, name, sub, x, by simp, ht⟩
      · intro h; exact h.1.symm
    | ok t =>
      simp only
      cases hr : parseTemplates template rest with
      | error e' =>
        rw [hr] at ih
        simp only [ih]
        constructor
        · rintro ⟨h, n, s, x, h1, h2⟩; exact ⟨h, n, s, x, by simp [h1], h2⟩
        · rintro ⟨h, n, s, x, h1, h2⟩
          refine ⟨h, n, s, x, ?_, h2⟩
          rcases List.mem_cons.1 h1 with h1 | h1
          · cases h1; rw [ht] at h2; cases h2
          · exact h1
      | ok ts =>
        rw [hr] at ih
        simp only [reduceCtorEq, false_iff]
        rintro ⟨h, n, s, x, h1, h2⟩
        rcases List.mem_cons.1 h1 with h1 | h1
        · cases h1; rw [ht] at h2; cases h2
        · exact absurd (ih.2 ⟨h, n, s, x, h1, h2⟩) (by simp)

theorem buildSearchers_ok {T : Type} (modes : Modes T) (mode sub : Str) (srs : List SearchReplace) (ss : List Searcher) :
    buildSearchers modes mode sub srs = .ok ss ↔ Searchers modes mode (subModeOf mode sub) srs ss := by
  induction srs generalizing ss with
  | nil =>
    constructor
    · intro h; cases h; exact .nil
    · intro h; cases h; rfl
  | cons sr rest ih =>
    constructor
    · intro h
      simp only [buildSearchers] at h
      split at h
      · cases h
      · rename_i ts hts
        split at h
        · cases h
        · cases h
        · rename_i s hs
          split at h
          · cases h
          · rename_i ss' hss
            cases h
            exact .cons ((parseTemplates_ok _ _ _).1 hts) hs ((ih _).1 hss)
    · intro h
      cases h with | cons h1 h2 h3 =>
      simp only [buildSearchers, (parseTemplates_ok _ _ _).2 h1, h2, (ih _).2 h3]

theorem templatesParse_fun {T : Type} {template : Str → Except Exc T} {d : Dict Str Str} {ts ts' : Dict Str T}
    (h : TemplatesParse template d ts) (h' : TemplatesParse template d ts') : ts = ts' := by
  have := (parseTemplates_ok _ _ _).2 h
  rw [(parseTemplates_ok _ _ _).2 h'] at this
  cases this; rfl

theorem buildSearchers_usage {T : Type} (modes : Modes T) (mode sub : Str) (srs : List SearchReplace) :
    buildSearchers modes mode sub srs = .error .usage ↔ FirstRefused modes mode (subModeOf mode sub) srs := by
  induction srs with
  | nil =>
    constructor
    · intro h; cases h
    · intro h; cases h
  | cons sr rest ih =>
    constructor
    · intro h
      simp only [buildSearchers] at h
      split at h
      · rename_i e he
        obtain ⟨_, n, s, x, h1, h2⟩ := (parseTemplates_error _ _ _).1 he
        exact .template h1 h2
      · rename_i ts hts
        have hts := (parseTemplates_ok _ _ _).1 hts
        split at h
        · rename_i hf; exact .pattern hts hf
        · cases h
        · rename_i s hs
          split at h
          · rename_i e he
            cases h
            exact .later hts hs (ih.1 he)
          · cases h
    · intro h
      cases h with
      | template h1 h2 =>
        simp only [buildSearchers]
        rw [(parseTemplates_error _ _ .usage).2 ⟨rfl, _, _, _, h1, h2⟩]
      | pattern h1 h2 => simp only [buildSearchers, (parseTemplates_ok _ _ _).2 h1, h2]
      | later h1 h2 h3 => simp only [buildSearchers, (parseTemplates_ok _ _ _).2 h1, h2, ih.2 h3]

/-- **C69**: a usage error is reported iff, for the first pattern for which no searcher can be made, a template does not parse
(in the syntax in effect) or the mode raises ValueError. -/
theorem C69_usage_error {T : Type} (w : World) (modes : Modes T) (o : Options) (sm : Str) (hsm : SyntaxInEffect o.mode o.subMode sm) :
    runnerFromOptions w modes o = .error .usage ↔ FirstRefused modes o.mode sm o.searchReplace := by
  rw [← (subModeOf_spec _ _ _).2 hsm, ← buildSearchers_usage]
  unfold runnerFromOptions
  cases hb : buildSearchers modes o.mode o.subMode o.searchReplace with
  | error e => simp
  | ok ss =>
    cases ss with
    | nil => simp [wholeSearcher]
    | cons s ss => simp [wholeSearcher]

theorem whole_of (s : Searcher) (ss : List Searcher) : ∃ s', Whole (s :: ss) s' := by
  cases ss with
  | nil => exact ⟨_, .one s⟩
  | cons s2 ss => exact ⟨_, .many s s2 ss⟩

theorem wholeSearcher_eq {ss : List Searcher} {s : Searcher} (h : Whole ss s) (also noalso : List (Str → Bool)) (force : Bool) :
    wholeSearcher ss also noalso force =
      .ok (if force then (if also.isEmpty && noalso.isEmpty then s else alsoRegexp s also noalso)
        else pragmaSuppressed (if also.isEmpty && noalso.isEmpty then s else alsoRegexp s also noalso)) := by
  cases h <;> rfl

/-- **C69**: a runner is made iff each pattern with its templates gives a searcher; it writes iff `--in-place`, shows diffs unless
`-l`, and shows file names if `-l` or unless `--no-filename`. -/
theorem C69_runner {T : Type} (w : World) (modes : Modes T) (o : Options) (sm : Str) (hsm : SyntaxInEffect o.mode o.subMode sm)
    (hne : o.searchReplace ≠ []) :
    ((∃ r, runnerFromOptions w modes o = .ok r) ↔ ∃ ss, Searchers modes o.mode sm o.searchReplace ss) ∧
    ∀ r, runnerFromOptions w modes o = .ok r → (r.dryRun = false ↔ o.inPlace = true) ∧ (r.showDiff = true ↔ o.listFiles = false) ∧
      (r.showFiles = true ↔ o.listFiles = true ∨ o.printFilename = true) := by
  rw [← (subModeOf_spec _ _ _).2 hsm]
  have hb := buildSearchers_ok modes o.mode o.subMode o.searchReplace
  constructor
  · constructor
    · rintro ⟨r, h⟩
      unfold runnerFromOptions at h
      split at h
      · cases h
      · rename_i ss hss; exact ⟨ss, (hb ss).1 hss⟩
    · rintro ⟨ss, h⟩
      have hss := (hb ss).2 h
      generalize o.searchReplace = srs at h hne
      cases h with
      | nil => exact absurd rfl hne
      | @cons sr ts s rest ss h1 h2 h3 =>
        obtain ⟨s', hw⟩ := whole_of s ss
        exact ⟨_, by simp only [runnerFromOptions, hss, wholeSearcher_eq hw]; rfl⟩
  · intro r h
    unfold runnerFromOptions at h
    split at h
    · cases h
    · split at h
      · cases h
      · cases h
        simp

theorem included_wrapped (s : Searcher) (also noalso : List (Str → Bool)) :
    (if also.isEmpty && noalso.isEmpty then s else alsoRegexp s also noalso).included = s.included ∧
    (if also.isEmpty && noalso.isEmpty then s else alsoRegexp s also noalso).find = s.find := by
  split <;> exact ⟨rfl, rfl⟩

theorem parse_wrapped (s : Searcher) (o : Options) (data path : Str) :
    (AlsoHolds o data → (if o.also.isEmpty && o.noalso.isEmpty then s else alsoRegexp s o.also o.noalso).parse data path = s.parse data path) ∧
    (¬ AlsoHolds o data → (if o.also.isEmpty && o.noalso.isEmpty then s else alsoRegexp s o.also o.noalso).parse data path = .error .skipNoResults) := by
  split
  · rename_i h
    simp only [Bool.and_eq_true, List.isEmpty_iff] at h
    refine ⟨fun _ => rfl, fun hn => absurd ?_ hn⟩
    unfold AlsoHolds
    simp [h.1, h.2]
  · exact ⟨(C28_also s o.also o.noalso data path).1, (C28_also s o.also o.noalso data path).2.1⟩

/-- **C69**, the results of a search without iteration (or of substitutions that are never iterated): in a file that satisfies `--also` and `--noalso` exactly what the patterns'
searcher finds, except, unless `--force-enable`, for what the pragmas of the file disable; other files are skipped. -/
theorem C69_results {T : Type} (w : World) (modes : Modes T) (o : Options) (sm : Str) (hsm : SyntaxInEffect o.mode o.subMode sm)
    (ss : List Searcher) (s : Searcher) (hss : Searchers modes o.mode sm o.searchReplace ss) (hs : Whole ss s) (r : Runner)
    (hr : runnerFromOptions w modes o = .ok r) 
    (content path : Str) (p : ParsedFile) (subs : List Substitution)
    (hiter : iterationCount o.mode o.iterate ≤ 1 ∨ ∀ x ∈ subs, x.keySpan = none)
    (hi : s.included path = .ok ()) (hp : s.parse content path = .ok p) (hf : s.find p = .ok subs) :
    (¬ AlsoHolds o content → r.find content path = .error .skipNoResults) ∧
    (AlsoHolds o content → o.forceEnable = true → r.find content path = .ok subs) ∧
    (AlsoHolds o content → o.forceEnable = false → ∃ out, r.find content path = .ok out ∧ out.Sublist subs ∧
      ∀ x ∈ subs, x ∉ out ↔ ∃ c, InCategory x c ∧ ∃ rg, RangeOf (pragmaExcludedRanges p.pragmas) c rg ∧ Meets x.primarySpan rg) := by
  rw [← (subModeOf_spec _ _ _).2 hsm] at hss
  have hb := (buildSearchers_ok modes o.mode o.subMode o.searchReplace ss).2 hss
  simp only [runnerFromOptions, hb, wholeSearcher_eq hs, Except.ok.injEq] at hr
  subst hr
  simp only
  generalize hs1 : (if o.also.isEmpty && o.noalso.isEmpty then s else alsoRegexp s o.also o.noalso) = s1
  have h1 := included_wrapped s o.also o.noalso
  have h2 := parse_wrapped s o content path
  rw [hs1] at h1 h2
  refine ⟨fun ha => ?_, fun ha hfo => ?_, fun ha hfo => ?_⟩
  · unfold findIter
    have hinc : (if o.forceEnable then s1 else pragmaSuppressed s1).included path = .ok () := by
      split <;> simp [pragmaSuppressed, h1.1, hi]
    have hpar : (if o.forceEnable then s1 else pragmaSuppressed s1).parse content path = .error .skipNoResults := by
      split <;> simp [pragmaSuppressed, h2.2 ha]
    rw [hinc, hpar]
  · rw [hfo]
    exact C22_no_iteration_identity w.parseAst s1 content path _ p subs hiter (by rw [h1.1]; exact hi)
      (by rw [h2.1 ha]; exact hp) (by rw [h1.2]; exact hf)
  · rw [hfo]
    obtain ⟨out, e1, e2, e3⟩ := C24_suppressed_search s1 p subs (by rw [h1.2]; exact hf)
    refine ⟨out, ?_, e2, e3⟩
    exact C22_no_iteration_identity w.parseAst (pragmaSuppressed s1) content path _ p out (hiter.imp_right fun h x hx => h x (e2.subset hx))
      (by simp only [pragmaSuppressed, h1.1]; exact hi)
      (by simp only [pragmaSuppressed]; rw [h2.1 ha]; exact hp) e1

theorem combinedParse_ok (data path : Str) (p : ParsedFile) (ss : List Searcher) :
    combinedParse data path (some p) ss = .ok p ↔ ∀ s ∈ ss, s.parse data path = .ok p := by
  induction ss with
  | nil => simp [combinedParse]
  | cons s ss ih =>
    simp only [combinedParse, List.mem_cons, forall_eq_or_imp]
    cases h : s.parse data path with
    | error e => simp
    | ok q =>
      simp only [Except.ok.injEq]
      by_cases hq : p = q
      · subst hq; simp [ih]
      · simp only [if_neg hq, reduceCtorEq, false_iff]
        intro h'; exact hq h'.1.symm

theorem combinedParse_keeps (data path : Str) (p q : ParsedFile) (ss : List Searcher)
    (h : combinedParse data path (some p) ss = .ok q) : q = p := by
  induction ss with
  | nil => cases h; rfl
  | cons s ss ih =>
    simp only [combinedParse] at h
    split at h
    · cases h
    · split at h
      · exact ih h
      · cases h

/-- **C69**: several patterns are searched together: a file is searched if all of them include it and parse it alike. -/
theorem C69_combined_parse (s : Searcher) (ss : List Searcher) (data path : Str) (p : ParsedFile) :
    (combined (s :: ss)).parse data path = .ok p ↔ ∀ t ∈ s :: ss, t.parse data path = .ok p := by
  simp only [combined, combinedParse, List.mem_cons, forall_eq_or_imp]
  cases h : s.parse data path with
  | error e => simp
  | ok q =>
    simp only [Except.ok.injEq]
    constructor
    · intro h'
      have := combinedParse_keeps _ _ _ _ _ h'
      subst this
      exact ⟨rfl, (combinedParse_ok _ _ _ _).1 h'⟩
    · rintro ⟨rfl, h'⟩; exact (combinedParse_ok _ _ _ _).2 h'

/-- **C69**: a file is included in the search for several patterns exactly when each of them includes it. -/
theorem C69_combined_included (ss : List Searcher) (path : Str) :
    (combined ss).included path = .ok () ↔ ∀ s ∈ ss, s.included path = .ok () := C27_included ss path

/-- **C69**: what several patterns find in a parsed file does not overlap, each of it is found by one of them, and something is found
if one of them finds something. -/
theorem C69_combined_find (ss : List Searcher) (p : ParsedFile) (out : List Substitution) (h : (combined ss).find p = .ok out) :
    ∃ per : List (List Substitution), per.length = ss.length ∧ (∀ sr ∈ ss.zip per, sr.1.find p = .ok sr.2) ∧
      (∃ sorted, sorted.Perm per.flatten ∧ out.Sublist sorted) ∧
      out.Pairwise (fun a b => a.primarySpan.2 ≤ b.primarySpan.1) ∧
      ((∃ l ∈ per, l ≠ []) → out ≠ []) := C27_find ss p out h

/-- **C69**, end to end: without `--in-place` no file is touched, whatever the other options, the files and the faults. -/
theorem C69_dry_run {T : Type} (w : World) (modes : Modes T) (o : Options) (dirAt : Str → Option Entry) (faults : Faults) (fs : FS)
    (rs : RState) (h : o.inPlace = false) :
    (mainRun w modes o dirAt faults fs rs).fs = fs ∧ (mainRun w modes o dirAt faults fs rs).ops = [] := by
  unfold mainRun
  cases hr : runnerFromOptions w modes o with
  | error e => cases e <;> exact ⟨rfl, rfl⟩
  | ok r =>
    have hd : r.dryRun = true := by
      unfold runnerFromOptions at hr
      split at hr
      · cases hr
      · split at hr
        · cases hr
        · cases hr; simp [h]
    have := C32_dry_run r hd faults fs rs (filesFromOptions dirAt o.recursive o.files)
    simp only [Runner.start] at this
    simp only
    split <;> exact ⟨this.2, this.1⟩

/-- **C69**, end to end: every file touched is named on the command line or, with `-R`, lies below a directory that is, and something
was found in it. -/
theorem C69_only_named_files {T : Type} (w : World) (modes : Modes T) (o : Options) (dirAt : Str → Option Entry) (faults : Faults)
    (fs : FS) (rs : RState) : ∀ op ∈ (mainRun w modes o dirAt faults fs rs).ops,
      (op.path ∈ o.files ∨ o.recursive = true ∧ ∃ path ∈ o.files, ∃ d, dirAt path = some d ∧ Below path d op.path) ∧
      ∃ r content ms, runnerFromOptions w modes o = .ok r ∧ r.find content (r.shorten op.path) = .ok ms ∧ ms ≠ [] := by
  intro op hop
  unfold mainRun at hop
  cases hr : runnerFromOptions w modes o with
  | error e => rw [hr] at hop; cases e <;> cases hop
  | ok r =>
    rw [hr] at hop
    simp only at hop
    have hop' : op ∈ (r.rewriteFiles faults (Runner.start fs rs) (filesFromOptions dirAt o.recursive o.files)).1.ops := by
      split at hop <;> exact hop
    obtain ⟨p, hp, h1, content, ms, h2, h3⟩ := C32_only_files_with_matches r faults fs rs _ op hop'
    obtain ⟨e, path, hpath, h⟩ := (C67_files dirAt o.recursive o.files p.1 p.2).1 hp
    refine ⟨?_, r, content, ms, rfl, by rw [h1]; exact h2, h3⟩
    rw [h1, ← e]
    rcases h with ⟨h4, d, h5, h6⟩ | ⟨_, h4⟩
    · exact .inr ⟨h4, path, hpath, d, h5, h6⟩
    · exact .inl (h4 ▸ hpath)

/-! ### C70 -/

theorem rewriteOne_failures (r : Runner) (faults : Faults) (s : RunState) (rd wr : Str) :
    (∃ content, r.read faults s.fs rd = some content ∧ SearchFails r content (r.shorten wr) ∧
      (r.rewriteOne faults s rd wr).1.failures = s.failures.set rd content) ∨
    ((¬ ∃ content, r.read faults s.fs rd = some content ∧ SearchFails r content (r.shorten wr)) ∧
      (r.rewriteOne faults s rd wr).1.failures = s.failures) := by
  unfold Runner.rewriteOne
  cases hread : r.read faults s.fs rd with
  | none => exact .inr ⟨by simp, rfl⟩
  | some content =>
    simp only
    unfold Runner.getMatches
    have ok : ∀ ms, r.find content (r.shorten wr) = .ok ms → ¬ SearchFails r content (r.shorten wr) := by
      rintro ms h ⟨e, h', _⟩; rw [h] at h'; cases h'
    cases hf : r.find content (r.shorten wr) with
    | ok ms =>
      right
      refine ⟨by rintro ⟨c, hc, h⟩; cases hc; exact ok ms hf h, ?_⟩
      simp only
      split
      · rfl
      · split <;> rfl
    | error e =>
      by_cases he : e = .skipFile ∨ e = .skipNoResults
      · right
        refine ⟨?_, ?_⟩
        · rintro ⟨c, hc, e', h1, h2, h3⟩
          cases hc
          rw [hf] at h1; cases h1
          rcases he with he | he <;> contradiction
        · rcases he with rfl | rfl <;> simp [Runner.logChanges]
      · left
        simp only [not_or] at he
        refine ⟨content, rfl, ⟨e, hf, he.1, he.2⟩, ?_⟩
        cases e <;> first | rfl | simp_all

theorem failures_exact (r : Runner) (faults : Faults) (pairs : List (Str × Str)) (s : RunState)
    (h : (r.rewriteFiles faults s pairs).2 = none) (k : Str) :
    (r.rewriteFiles faults s pairs).1.failures.has k = true ↔ s.failures.has k = true ∨ FailsInRun r faults s pairs k := by
  induction pairs generalizing s with
  | nil =>
    simp only [Runner.rewriteFiles]
    constructor
    · exact .inl
    · rintro (h | ⟨pre, wr, post, c, h1, _⟩)
      · exact h
      · simp at h1
  | cons p pairs ih =>
    obtain ⟨rd, wr⟩ := p
    simp only [Runner.rewriteFiles] at h ⊢
    cases ho : (r.rewriteOne faults s rd wr).2 with
    | some e => rw [ho] at h; cases h
    | none =>
      rw [ho] at h
      simp only at h ⊢
      rw [ih _ h]
      have step : ∀ pre, r.rewriteFiles faults s ((rd, wr) :: pre) = r.rewriteFiles faults (r.rewriteOne faults s rd wr).1 pre := by
        intro pre; simp only [Runner.rewriteFiles, ho]
      have split_ : FailsInRun r faults s ((rd, wr) :: pairs) k ↔
          (k = rd ∧ ∃ content, r.read faults s.fs rd = some content ∧ SearchFails r content (r.shorten wr)) ∨
          FailsInRun r faults (r.rewriteOne faults s rd wr).1 pairs k := by
        constructor
        · rintro ⟨pre, wr', post, c, h1, h2, h3⟩
          cases pre with
          | nil => simp at h1; obtain ⟨⟨rfl, rfl⟩, _⟩ := h1; exact .inl ⟨rfl, c, h2, h3⟩
          | cons q pre =>
            simp only [List.cons_append, List.cons.injEq] at h1
            obtain ⟨rfl, h1⟩ := h1
            rw [step] at h2
            exact .inr ⟨pre, wr', post, c, h1, h2, h3⟩
        · rintro (⟨rfl, c, h2, h3⟩ | ⟨pre, wr', post, c, h1, h2, h3⟩)
          · exact ⟨[], wr, pairs, c, rfl, h2, h3⟩
          · exact ⟨(rd, wr) :: pre, wr', post, c, by rw [h1]; rfl, by rw [step]; exact h2, h3⟩
      rw [split_]
      rcases rewriteOne_failures r faults s rd wr with ⟨c, h1, h2, h3⟩ | ⟨h1, h3⟩
      · rw [h3]
        have : (s.failures.set rd c).has k = true ↔ s.failures.has k = true ∨ k = rd := by
          simp only [Dict.has, Dict.get?_set]
          by_cases hk : k = rd <;> simp [hk]
        rw [this]
        constructor
        · rintro ((h | rfl) | h)
          · exact .inl h
          · exact .inr (.inl ⟨rfl, c, h1, h2⟩)
          · exact .inr (.inr h)
        · rintro (h | ⟨rfl, _⟩ | h)
          · exact .inl (.inl h)
          · exact .inl (.inr rfl)
          · exact .inr h
      · rw [h3]
        constructor
        · rintro (h | h)
          · exact .inl h
          · exact .inr (.inr h)
        · rintro (h | ⟨_, h⟩ | h)
          · exact .inl h
          · exact absurd h h1
          · exact .inr h

theorem failures_wf (r : Runner) (faults : Faults) (pairs : List (Str × Str)) (s : RunState) (h : s.failures.WF) :
    (r.rewriteFiles faults s pairs).1.failures.WF := by
  induction pairs generalizing s with
  | nil => exact h
  | cons p pairs ih =>
    have h1 : (r.rewriteOne faults s p.1 p.2).1.failures.WF := by
      rcases rewriteOne_failures r faults s p.1 p.2 with ⟨c, _, _, e⟩ | ⟨_, e⟩
      · rw [e]; exact Dict.WF_set h _ _
      · rw [e]; exact h
    simp only [Runner.rewriteFiles]
    split
    · exact h1
    · exact ih _ h1

/-- **C70**: a run that ends normally reports exactly the files in which searching failed, each once; the number it prints is
theirs; if there are none it reports nothing. -/
theorem C70_report {T : Type} (w : World) (modes : Modes T) (o : Options) (dirAt : Str → Option Entry) (faults : Faults) (fs : FS)
    (rs : RState) (r : Runner) (hr : runnerFromOptions w modes o = .ok r)
    (hend : (r.rewriteFiles faults (Runner.start fs rs) (filesFromOptions dirAt o.recursive o.files)).2 = none) :
    let fails := FailsInRun r faults (Runner.start fs rs) (filesFromOptions dirAt o.recursive o.files)
    ((mainRun w modes o dirAt faults fs rs).report = none ↔ ∀ k, ¬ fails k) ∧
    ∀ rep, (mainRun w modes o dirAt faults fs rs).report = some rep →
      (∀ k, k ∈ rep.dumped.keys ↔ fails k) ∧ rep.dumped.keys.Nodup ∧ rep.count = rep.dumped.keys.length ∧
      rep.printed = if o.verbose then rep.dumped.keys else [] := by
  intro fails
  have hm : (mainRun w modes o dirAt faults fs rs).report =
      reportFailures (r.rewriteFiles faults (Runner.start fs rs) (filesFromOptions dirAt o.recursive o.files)).1.failures o.verbose := by
    unfold mainRun
    rw [hr]
    simp only
    rw [show ({ fs := fs, rstate := rs } : RunState) = Runner.start fs rs from rfl, hend]
  rw [hm]
  have hex := failures_exact r faults _ _ hend
  have hwf := failures_wf r faults (filesFromOptions dirAt o.recursive o.files) (Runner.start fs rs) (by simp [Runner.start, Dict.WF, Dict.keys])
  generalize (r.rewriteFiles faults (Runner.start fs rs) (filesFromOptions dirAt o.recursive o.files)).1.failures = d at hex hwf
  have hkey : ∀ k, k ∈ d.keys ↔ fails k := by
    intro k
    have h0 : (Runner.start fs rs).failures.has k = true ↔ False := by simp [Runner.start, Dict.has, Dict.get?]
    have := hex k
    rw [h0, false_or] at this
    refine Iff.trans ?_ this
    rw [Dict.has_iff]
    exact Dict.mem_keys_iff
  unfold reportFailures
  constructor
  · constructor
    · intro h k hk
      split at h
      · rename_i he
        rw [List.isEmpty_iff] at he
        rw [← hkey, he] at hk; cases hk
      · cases h
    · intro h
      have : d = [] := by
        cases d with
        | nil => rfl
        | cons e d => exact absurd ((hkey e.1).1 (by simp [Dict.keys])) (h _)
      rw [this]; rfl
  · intro rep h
    split at h
    · cases h
    · cases h
      exact ⟨hkey, hwf, by simp [Dict.keys], rfl⟩

/-- **C70**: the exit status is 2 for a usage error, 1 if an exception escapes, and 0 otherwise, also when files failed. -/
theorem C70_status {T : Type} (w : World) (modes : Modes T) (o : Options) (dirAt : Str → Option Entry) (faults : Faults) (fs : FS)
    (rs : RState) :
    ((mainRun w modes o dirAt faults fs rs).status = 2 ↔ runnerFromOptions w modes o = .error .usage) ∧
    ((mainRun w modes o dirAt faults fs rs).status = 0 ↔ ∃ r, runnerFromOptions w modes o = .ok r ∧
      (r.rewriteFiles faults (Runner.start fs rs) (filesFromOptions dirAt o.recursive o.files)).2 = none) ∧
    (mainRun w modes o dirAt faults fs rs).status ≤ 2 := by
  unfold mainRun
  cases hr : runnerFromOptions w modes o with
  | error e => cases e <;> simp
  | ok r =>
    simp only [Except.ok.injEq, exists_eq_left', reduceCtorEq, iff_false]
    rw [show ({ fs := fs, rstate := rs } : RunState) = Runner.start fs rs from rfl]
    cases (r.rewriteFiles faults (Runner.start fs rs) (filesFromOptions dirAt o.recursive o.files)).2 <;> simp

/-! ### C75 -/

/-- **C75**: a searcher that names its files by a regular expression searches a file iff the expression is found in its path (and
the searcher would otherwise search it), and then finds the same; other files give no matches. -/
theorem C75_file_regex (parseAst : Str → Str → Except Exc ParsedFile) (s : Searcher) (rx : Str → Bool) (data path : Str) (n : Nat) :
    (rx path = true → findIter parseAst (fileRegexFiltered s rx) data path n = findIter parseAst s data path n) ∧
    (rx path = false → s.included path = .ok () → findIter parseAst (fileRegexFiltered s rx) data path n = .error .skipFile) ∧
    (∀ e, s.included path = .error e → findIter parseAst (fileRegexFiltered s rx) data path n = .error e) := by
  refine ⟨fun h => ?_, fun h hi => ?_, fun e hi => ?_⟩
  · have hinc : (fileRegexFiltered s rx).included path = s.included path := by
      simp only [fileRegexFiltered, h, if_true]
      cases s.included path <;> rfl
    unfold findIter
    rw [hinc]
    rfl
  · unfold findIter
    simp only [fileRegexFiltered, hi, h]
    rfl
  · unfold findIter
    simp only [fileRegexFiltered, hi]

/-- **C75**: `--excludefile` and `--includefile` have no effect at all. -/
theorem C75_options_ignored {T : Type} (w : World) (modes : Modes T) (o : Options) (ex inc : Option (Str → Bool))
    (dirAt : Str → Option Entry) (faults : Faults) (fs : FS) (rs : RState) :
    mainRun w modes { o with excludefile := ex, includefile := inc } dirAt faults fs rs = mainRun w modes o dirAt faults fs rs := rfl

theorem searchers_fix {T : Type} (modes : Modes T) (fromPattern : Option Str → Except Exc Searcher)
    (hfix : modes.factory (str "fix") = fixFactory fromPattern) (sm : Str) (srs : List SearchReplace) :
    (∃ ss, Searchers modes (str "fix") sm srs ss) ↔ ∀ sr ∈ srs, sr.sub = [] ∧ ∃ s, fromPattern sr.pattern = .ok s := by
  induction srs with
  | nil => exact ⟨fun _ sr h => (by cases h), fun _ => ⟨_, .nil⟩⟩
  | cons sr rest ih =>
    constructor
    · rintro ⟨_, h⟩
      cases h with | @cons _ ts s _ ss h1 h2 h3 =>
      intro x hx
      rcases List.mem_cons.1 hx with rfl | hx
      · rw [hfix] at h2
        unfold fixFactory at h2
        split at h2
        · rename_i ht
          rw [List.isEmpty_iff] at ht
          subst ht
          refine ⟨?_, s, h2⟩
          generalize x.sub = d at h1
          cases h1
          rfl
        · cases h2
      · exact ih.1 ⟨ss, h3⟩ x hx
    · intro h
      obtain ⟨h1, s, h2⟩ := h sr (by simp)
      obtain ⟨ss, h3⟩ := ih.2 fun x hx => h x (List.mem_cons_of_mem _ hx)
      exact ⟨s :: ss, .cons (ts := []) (by rw [h1]; exact .nil) (by rw [hfix]; exact h2) h3⟩

/-- **C69**: `--mode=fix` runs iff no pattern has a substitution and for each there is a fixer; a substitution (that parses) for the
first pattern is a usage error. -/
theorem C69_fix_mode {T : Type} (w : World) (modes : Modes T) (o : Options) (hm : o.mode = str "fix") (hne : o.searchReplace ≠ [])
    (fromPattern : Option Str → Except Exc Searcher) (hfix : modes.factory (str "fix") = fixFactory fromPattern) :
    ((∃ r, runnerFromOptions w modes o = .ok r) ↔ ∀ sr ∈ o.searchReplace, sr.sub = [] ∧ ∃ s, fromPattern sr.pattern = .ok s) ∧
    ∀ sr rest, o.searchReplace = sr :: rest → sr.sub ≠ [] → runnerFromOptions w modes o = .error .usage := by
  have hsm : SyntaxInEffect o.mode o.subMode (if o.subMode = str "auto" then str "sh" else o.subMode) := by
    rw [hm]
    split
    · rename_i h; rw [h]; exact .fix
    · rename_i h; exact .asked _ _ h
  constructor
  · rw [(C69_runner w modes o _ hsm hne).1, hm, searchers_fix modes fromPattern hfix]
  · intro sr rest hs hsub
    rw [C69_usage_error w modes o _ hsm, hm, hs]
    generalize (if o.subMode = str "auto" then str "sh" else o.subMode) = sm
    cases hp : parseTemplates (modes.template sm) sr.sub with
    | error e =>
      obtain ⟨_, n, s, x, h1, h2⟩ := (parseTemplates_error _ _ _).1 hp
      exact .template h1 h2
    | ok ts =>
      have ht := (parseTemplates_ok _ _ _).1 hp
      refine .pattern ht ?_
      rw [hfix]
      unfold fixFactory
      rw [if_neg]
      intro he
      rw [List.isEmpty_iff] at he
      subst he
      generalize sr.sub = d at ht hsub
      cases ht
      exact hsub rfl

/-! ### A concrete command line -/

/-- A searcher that doubles an 'a' at the start of a file. -/
def exDoubling : Searcher where
  included := fun _ => .ok ()
  parse := fun data path => .ok { text := data, path := path }
  find := fun p => match p.text with
    | 'a' :: _ => .ok [{ matchedSpans := [(str "r", (0, 1))], primaryLabel := str "r", replacements := some [(str "r", str "aa")] }]
    | _ => .ok []

def exModes : Modes Str where
  factory := fun _ p ts => if p = some (str "a") ∧ ts = [(rootName, str "aa")] then .ok exDoubling else .error .valueError
  template := fun _ s => .ok s

def exWorld : World where
  parseAst := fun _ _ => .error .parseError
  palette := exPal
  color := false
  format := defaultFormat
  sep := []
  enc := exAscii
  shorten := id

/-- `refex --mode=re a --sub=aa -i -l a.py`, with `--excludefile=.*`. -/
def exOptions : Options where
  mode := str "re"
  searchReplace := [⟨some (str "a"), [(rootName, str "aa")]⟩]
  excludefile := some fun _ => true
  inPlace := true
  listFiles := true
  files := [exFile]

example : ((mainRun exWorld exModes exOptions (fun _ => none) exNoFaults (exFs "ab") {}).fs exFile,
    (mainRun exWorld exModes exOptions (fun _ => none) exNoFaults (exFs "ab") {}).status) = (some (exBytes "aab"), 0) := by decide
example : SyntaxInEffect exOptions.mode exOptions.subMode (str "re") := .ofMode _ (by decide)
example : ∃ ss, Searchers exModes exOptions.mode (str "re") exOptions.searchReplace ss :=
  ⟨_, .cons (.cons rfl .nil) rfl .nil⟩
example : (mainRun exWorld exModes { exOptions with searchReplace := [⟨some (str "b"), []⟩] } (fun _ => none) exNoFaults (exFs "ab") {}).status = 2 := by
  decide

/-- `--mode=fix` with fixers for the pattern `a` only. -/
def exFixModes : Modes Str := { exModes with
  factory := fun m => if m = str "fix" then fixFactory fun p => if p = some (str "a") then .ok exDoubling else .error .valueError else exModes.factory m }
example : ∃ r, runnerFromOptions exWorld exFixModes { exOptions with mode := str "fix", searchReplace := [⟨some (str "a"), []⟩] } = .ok r :=
  (C69_fix_mode exWorld exFixModes _ rfl (by simp) _ rfl).1.2 fun sr h => by
    simp only [List.mem_singleton] at h; subst h; exact ⟨rfl, _, rfl⟩
example : runnerFromOptions exWorld exFixModes { exOptions with mode := str "fix" } = .error .usage :=
  (C69_fix_mode exWorld exFixModes _ rfl (by simp [exOptions]) _ rfl).2 _ _ rfl (by simp)

/-- **C75** is false of the options: a file whose name matches `--excludefile` is rewritten. -/
theorem C75_excluded_false : ¬ ∀ (o : Options) (fs : FS) (path : Str) (ex : Str → Bool), o.excludefile = some ex → ex path = true →
    ∀ op ∈ (mainRun exWorld exModes o (fun _ => none) exNoFaults fs {}).ops, op.path ≠ path := by
  intro h
  have : FsOp.truncate exFile ∈ (mainRun exWorld exModes exOptions (fun _ => none) exNoFaults (exFs "ab") {}).ops := by decide
  exact h exOptions (exFs "ab") exFile (fun _ => true) rfl rfl _ this rfl

/-- A file named twice is rewritten twice: the second time what the first produced. -/
theorem C67_given_twice : (mainRun exWorld exModes exOptions (fun _ => none) exNoFaults (exFs "ab") {}).fs exFile = some (exBytes "aab") ∧
    (mainRun exWorld exModes { exOptions with files := [exFile, exFile] } (fun _ => none) exNoFaults (exFs "ab") {}).fs exFile =
      some (exBytes "aaab") := by
  decide

/-- A failing run: the searcher raises on every file; status 0, and the file is reported. -/
def exFailing : Modes Str := { exModes with factory := fun _ _ _ => .ok { exDoubling with find := fun _ => .error .other } }
example : (mainRun exWorld exFailing { exOptions with verbose := true } (fun _ => none) exNoFaults (exFs "ab") {}).report =
    some ⟨[exFile], [(exFile, str "ab")], 1⟩ ∧
    (mainRun exWorld exFailing exOptions (fun _ => none) exNoFaults (exFs "ab") {}).status = 0 := by decide

end Refex
