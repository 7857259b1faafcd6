import Verif.Spec.RewriteString
import Verif.Props.MainRun
import Verif.Props.ModesMain
import Verif.Props.FixedPoint
import Verif.Props.Apply
import Verif.Props.RegexMode
/-
C100: `rewrite_string`.
-/
namespace Refex
set_option autoImplicit false

theorem rewriteString_ok {parseAst : Str → Str → Except Exc ParsedFile} {s : Searcher} {source path : Str} {n : Nat} {t : Str} :
    rewriteString parseAst s source path n = .ok t ↔
      ∃ subs, findIter parseAst s source path n = .ok subs ∧ applySubstitutions source subs = .ok t := by
  unfold rewriteString
  cases findIter parseAst s source path n with
  | error e => simp
  | ok subs => simp

/-- **C100**: what `rewrite_string` returns is the text with exactly the edits of the substitutions that `find_iter` finds, and everything else kept. -/
theorem C100_edits (parseAst : Str → Str → Except Exc ParsedFile) (s : Searcher) (source path : Str) (n : Nat) (t : Str)
    (h : rewriteString parseAst s source path n = .ok t) :
    ∃ subs, findIter parseAst s source path n = .ok subs ∧ (allEdits subs).Pairwise Apart ∧
      ((∀ e ∈ allEdits subs, e.stop ≤ source.length) → ∃ es, es.Perm (allEdits subs) ∧ Spliced 0 source es t) := by
  obtain ⟨subs, h1, h2⟩ := rewriteString_ok.1 h
  exact ⟨subs, h1, (C02_overlap_refused source subs (by rw [h2]; exact fun h => by cases h)).2, fun hr => C01_apply_splices source subs t hr h2⟩

/-- **C100**: it raises what the search raises, and ValueError if edits of the found substitutions overlap or are not separated; nothing else. -/
theorem C100_raises (parseAst : Str → Str → Except Exc ParsedFile) (s : Searcher) (source path : Str) (n : Nat) :
    (∀ e, findIter parseAst s source path n = .error e → rewriteString parseAst s source path n = .error e) ∧
    (∀ subs, findIter parseAst s source path n = .ok subs →
      (¬ (allEdits subs).Pairwise Apart → rewriteString parseAst s source path n = .error .valueError) ∧
      ((∀ x ∈ subs, editsOf x ≠ []) → (∀ e ∈ allEdits subs, e.start ≤ e.stop) → (∀ x ∈ subs, (editsOf x).Pairwise Apart) →
        subs.Pairwise (fun x y => EditsBefore x y ∨ EditsBefore y x) → ∃ t, rewriteString parseAst s source path n = .ok t) ∧
      ∀ e, rewriteString parseAst s source path n = .error e → e = .valueError) := by
  refine ⟨fun e h => by unfold rewriteString; rw [h], fun subs h => ?_⟩
  have hr : rewriteString parseAst s source path n = applySubstitutions source subs := by unfold rewriteString; rw [h]
  rw [hr]
  refine ⟨fun hn => ?_, fun h1 h2 h3 h4 => C02_disjoint_succeeds source subs h2 h3 h4 (.inl h1), fun e he => C02_only_valueError source subs e he⟩
  cases ha : applySubstitutions source subs with
  | ok t => exact absurd (C02_overlap_refused source subs (by rw [ha]; exact fun h => by cases h)).2 hn
  | error e => rw [C02_only_valueError source subs e ha]

/-- **C100**: a search without replacements, or that finds nothing, leaves the text as it is. -/
theorem C100_unchanged (parseAst : Str → Str → Except Exc ParsedFile) (s : Searcher) (source path : Str) (n : Nat) (subs : List Substitution)
    (h : findIter parseAst s source path n = .ok subs) (hn : ∀ x ∈ subs, x.replacements = none ∨ x.replacements = some []) :
    rewriteString parseAst s source path n = .ok source := by
  have he : allEdits subs = [] := by
    refine List.flatMap_eq_nil_iff.2 fun x hx => ?_
    unfold editsOf
    rcases hn x hx with h | h <;> rw [h]
    exact List.filterMap_eq_nil_iff.2 fun _ _ => rfl
  unfold rewriteString
  rw [h]
  exact C01_no_edits source subs he

/-- **C100**: by default (`max_iterations=1`) the substitutions are those of the searcher: a file that it does not include, cannot parse or fails in raises the
exception of the searcher, and otherwise what it finds is applied. -/
theorem C100_once (parseAst : Str → Str → Except Exc ParsedFile) (s : Searcher) (source path : Str) :
    (∀ e, s.included path = .error e → rewriteString parseAst s source path 1 = .error e) ∧
    (s.included path = .ok () → (∀ e, s.parse source path = .error e → rewriteString parseAst s source path 1 = .error e) ∧
      ∀ p, s.parse source path = .ok p → (∀ e, s.find p = .error e → rewriteString parseAst s source path 1 = .error e) ∧
        ∀ subs, s.find p = .ok subs → findIter parseAst s source path 1 = .ok subs) := by
  refine ⟨fun e h => ?_, fun hi => ⟨fun e h => ?_, fun p hp => ⟨fun e h => ?_, fun subs h => ?_⟩⟩⟩
  · unfold rewriteString findIter; rw [h]
  · unfold rewriteString findIter; rw [hi]; simp only; rw [h]
  · unfold rewriteString findIter; rw [hi]; simp only; rw [hp]; simp only; rw [h]
  · exact C22_no_iteration_identity parseAst s source path 1 p subs (.inl (Nat.le_refl 1)) hi hp h

/-- **C100**: with a regex and a template for the whole match, `rewrite_string` is `re.sub`, whatever `max_iterations`. -/
theorem C100_re_sub {py : Python} {pattern : Str} {c : Compiled} (hc : FindsMatches py pattern c) {template : Str} {ts : Dict Str CodeTemplate}
    (hts : TemplatesParse (py.template (str "re")) [(str "__root", template)] ts) {s : Searcher} (hs : py.regexSearcher pattern ts = .ok s)
    (parseAst : Str → Str → Except Exc ParsedFile) (n : Nat) :
    ∃ items, py.reItems template = some items ∧ (ReItem.group 0 ∉ items → ∀ content path, ∃ new, rewriteString parseAst s content path n = .ok new ∧
      ReSub c (py.finditer pattern content) items content new) := by
  obtain ⟨tpls, h1, _, h3⟩ := C94_search hc (by simp [Dict.WF, Dict.keys]) hts hs
  cases h1 with
  | @cons _ e _ l he hrest =>
    cases hrest
    obtain ⟨l, items⟩ := e
    obtain ⟨he1, he2⟩ := he
    simp only at he1 he2
    subst he1
    refine ⟨items, he2, fun h0 content path => ?_⟩
    obtain ⟨hinc, p, subs, e1, _, e3, e4⟩ := h3 (fun e he => by rw [List.mem_singleton.1 he]; exact h0) content path
    have hkey : ∀ x ∈ subs, x.keySpan = none := by
      intro x hx
      obtain ⟨_, _, h⟩ := forall2_mem_right e4 hx
      exact h.metadata.2.2.2.2
    obtain ⟨new, hnew, hre⟩ := C94_is_re_sub hc e4
    refine ⟨new, ?_, hre⟩
    unfold rewriteString
    rw [C22_no_iteration_identity parseAst s content path n p subs (.inr hkey) hinc e1 e3]
    exact hnew

example : TemplatesParse (rxPy.template (str "re")) [(str "__root", rxTemplate)] rxTemplates ∧ (∃ s, rxPy.regexSearcher rxPattern rxTemplates = .ok s) ∧
    rxPy.reItems rxTemplate = some rxItems ∧ ReItem.group 0 ∉ rxItems :=
  ⟨.cons rfl .nil, ⟨_, rfl⟩, rfl, by decide⟩

theorem alsoRegexp_nil (s : Searcher) : alsoRegexp s [] [] = s := by
  cases s; rfl

theorem wholeSearcher_library {ss : List Searcher} {s : Searcher} (h : Whole ss s) (o : Options) :
    wholeSearcher ss o.also o.noalso o.forceEnable = .ok (librarySearcher o s) := by
  rw [wholeSearcher_eq h]
  unfold librarySearcher
  have : (if (o.also.isEmpty && o.noalso.isEmpty) = true then s else alsoRegexp s o.also o.noalso) = alsoRegexp s o.also o.noalso := by
    split
    · rename_i h
      simp only [Bool.and_eq_true, List.isEmpty_iff] at h
      rw [h.1, h.2, alsoRegexp_nil]
    · rfl
  rw [this]

/-- What one iteration that does not raise leaves in its file. -/
theorem rewriteOne_ends (r : Runner) (hwrite : r.dryRun = false) (faults : Faults) (hf : ∀ p, faults.openWrite p = false ∧ faults.write p = none) (st : RunState) (q : Str)
    (hok : (r.rewriteOne faults st q q).2 = none) :
    (r.read faults st.fs q = none → (r.rewriteOne faults st q q).1.fs = st.fs) ∧
    ∀ content, r.read faults st.fs q = some content →
      EndsAs r.enc content (st.fs q) ((r.rewriteOne faults st q q).1.fs q) (r.find content (r.shorten q))
        (match r.find content (r.shorten q) with | .error e => .error e | .ok subs => applySubstitutions content subs) := by
  unfold Runner.rewriteOne at hok ⊢
  constructor
  · intro h; rw [h]
  · intro content hread
    rw [hread] at hok ⊢
    simp only at hok ⊢
    unfold Runner.getMatches at hok ⊢
    have hnil : applySubstitutions content [] = .ok content := C01_no_edits content [] rfl
    cases hfind : r.find content (r.shorten q) with
    | error e =>
      have hlog : ∀ st : RState, r.logChanges st content [] = (.ok false, st) := fun st => rfl
      rw [hfind] at hok
      cases e <;> simp only [hlog, List.isEmpty_nil, Bool.not_true, Bool.and_false, Bool.false_eq_true, if_false] <;> exact .raised rfl
    | ok ms =>
      rw [hfind] at hok
      simp only at hok ⊢
      split at hok
      · cases hok
      · rename_i c hc
        cases ms with
        | nil =>
          simp only [List.isEmpty_nil, Bool.not_true, Bool.and_false, Bool.false_eq_true, if_false]
          rw [hnil]
          exact .nothing rfl
        | cons m ms =>
          simp only [hwrite, Bool.not_false, List.isEmpty_cons, Bool.and_self, if_true] at hok ⊢
          unfold Runner.write at hok ⊢
          simp only [(hf q).1, (hf q).2, Bool.false_eq_true, if_false] at hok ⊢
          cases ha : applySubstitutions content (m :: ms) with
          | error e => rw [ha] at hok; cases hok
          | ok out =>
            rw [ha] at hok
            simp only at hok ⊢
            cases hb : r.enc.encode out with
            | none => rw [hb] at hok; cases hok
            | some b => exact .rewritten (by simp) hb (by simp [runOps, FsOp.run])

theorem rewriteFiles_ends (r : Runner) (hwrite : r.dryRun = false) (faults : Faults) (hf : ∀ p, faults.openWrite p = false ∧ faults.write p = none) (fs : FS) :
    ∀ (paths : List Str), paths.Nodup → ∀ st : RunState, (∀ p ∈ paths, st.fs p = fs p) →
      (r.rewriteFiles faults st (paths.map fun p => (p, p))).2 = none →
      (∀ q, q ∉ paths → (r.rewriteFiles faults st (paths.map fun p => (p, p))).1.fs q = st.fs q) ∧
      ∀ q ∈ paths, (r.read faults fs q = none → (r.rewriteFiles faults st (paths.map fun p => (p, p))).1.fs q = fs q) ∧
        ∀ content, r.read faults fs q = some content →
          EndsAs r.enc content (fs q) ((r.rewriteFiles faults st (paths.map fun p => (p, p))).1.fs q) (r.find content (r.shorten q))
            (match r.find content (r.shorten q) with | .error e => .error e | .ok subs => applySubstitutions content subs) := by
  intro paths
  induction paths with
  | nil => intro _ st _ _; exact ⟨fun _ _ => rfl, fun q hq => by cases hq⟩
  | cons p paths ih =>
    intro hnd st hs hok
    rw [List.nodup_cons] at hnd
    obtain ⟨new, _, h2, h3⟩ := rewriteOne_ops r faults st p p
    have hother : ∀ x, x ≠ p → (r.rewriteOne faults st p p).1.fs x = st.fs x := fun x hx => by
      rw [h2]
      refine runOps_other _ _ _ fun op hop e => hx ?_
      obtain ⟨c, ms, _, _, _, hn, _⟩ := h3 (List.ne_nil_of_mem hop)
      exact e ▸ write_ops_path r faults p c ms op (hn ▸ hop)
    simp only [List.map_cons, Runner.rewriteFiles] at hok ⊢
    cases ho : (r.rewriteOne faults st p p).2 with
    | some e => rw [ho] at hok; cases hok
    | none =>
      rw [ho] at hok
      simp only at hok ⊢
      obtain ⟨i1, i2⟩ := ih hnd.2 (r.rewriteOne faults st p p).1
        (fun x hx => by rw [hother x (fun e => hnd.1 (e ▸ hx))]; exact hs x (by simp [hx])) hok
      refine ⟨fun q hq => ?_, fun q hq => ?_⟩
      · simp only [List.mem_cons, not_or] at hq
        rw [i1 q hq.2, hother q hq.1]
      · rcases List.mem_cons.1 hq with rfl | hq
        · obtain ⟨o1, o2⟩ := rewriteOne_ends r hwrite faults hf st q ho
          have hsq := hs q (by simp)
          rw [read_congr r faults st.fs fs q hsq] at o1 o2
          rw [i1 q hnd.1]
          rw [hsq] at o2
          exact ⟨fun h => by rw [o1 h, hsq], o2⟩
        · exact i2 q hq

/-- **C100**: a run with `--in-place` that ends normally, the operating system reporting no error, is one call of `rewrite_string` for each of the files (each listed
once): a file that can be read as text holds the encoding of the result, or is as before if nothing is found in it or `rewrite_string` raises; all other
files are as before. -/
theorem C100_command {T : Type} (w : World) (modes : Modes T) (o : Options) {sm : Str} (hsm : SyntaxInEffect o.mode o.subMode sm) {ss : List Searcher} {s : Searcher}
    (hss : Searchers modes o.mode sm o.searchReplace ss) (hs : Whole ss s) (hin : o.inPlace = true) (dirAt : Str → Option Entry) (faults : Faults)
    (hf : ∀ p, faults.openWrite p = false ∧ faults.write p = none) (fs : FS) (rs : RState) (paths : List Str) (hnd : paths.Nodup)
    (hpaths : filesFromOptions dirAt o.recursive o.files = paths.map fun p => (p, p)) (hok : (mainRun w modes o dirAt faults fs rs).status = 0) :
    (∀ q, q ∉ paths → (mainRun w modes o dirAt faults fs rs).fs q = fs q) ∧
    ∀ q ∈ paths, (faults.read q = true ∨ (fs q).bind w.enc.decode = none → (mainRun w modes o dirAt faults fs rs).fs q = fs q) ∧
      (∀ text, faults.read q = false → (fs q).bind w.enc.decode = some text →
        EndsAs w.enc (universalNewlines text) (fs q) ((mainRun w modes o dirAt faults fs rs).fs q)
          (findIter w.parseAst (librarySearcher o s) (universalNewlines text) (w.shorten q) (iterationCount o.mode o.iterate))
          (rewriteString w.parseAst (librarySearcher o s) (universalNewlines text) (w.shorten q) (iterationCount o.mode o.iterate))) := by
  rw [← (subModeOf_spec _ _ _).2 hsm] at hss
  have hb := (buildSearchers_ok modes o.mode o.subMode o.searchReplace ss).2 hss
  obtain ⟨r, hr⟩ : ∃ r, runnerFromOptions w modes o = .ok r := by
    simp only [runnerFromOptions, hb, wholeSearcher_library hs]; exact ⟨_, rfl⟩
  have hrr := hr
  simp only [runnerFromOptions, hb, wholeSearcher_library hs, Except.ok.injEq] at hrr
  have e1 : r.dryRun = false := by rw [← hrr]; simp [hin]
  have e2 : r.enc = w.enc := by rw [← hrr]
  have e3 : r.shorten = w.shorten := by rw [← hrr]
  have e4 : ∀ c p, r.find c p = findIter w.parseAst (librarySearcher o s) c p (iterationCount o.mode o.iterate) := fun c p => by rw [← hrr]
  clear hrr
  unfold mainRun at hok ⊢
  rw [hr] at hok ⊢
  simp only [hpaths] at hok ⊢
  have key := rewriteFiles_ends r e1 faults hf fs paths hnd { fs := fs, rstate := rs } (fun _ _ => rfl)
  generalize r.rewriteFiles faults { fs := fs, rstate := rs } (paths.map fun p => (p, p)) = out at hok key ⊢
  obtain ⟨st, ex⟩ := out
  cases ex with
  | some e => cases hok
  | none =>
    obtain ⟨k1, k2⟩ := key rfl
    refine ⟨k1, fun q hq => ⟨fun h => (k2 q hq).1 ?_, fun text h1 h2 => ?_⟩⟩
    · unfold Runner.read
      rcases h with h | h
      · rw [if_pos h]
      · split
        · rfl
        · rw [e2]
          cases hq : fs q with
          | none => rfl
          | some b =>
            rw [hq] at h
            simp only [Option.bind_some] at h ⊢
            rw [h]; rfl
    · have hread : r.read faults fs q = some (universalNewlines text) := by
        unfold Runner.read
        rw [if_neg (by rw [h1]; decide), e2]
        cases hq : fs q with
        | none => rw [hq] at h2; cases h2
        | some b =>
          rw [hq] at h2
          simp only [Option.bind_some] at h2 ⊢
          rw [h2]; rfl
      have := (k2 q hq).2 _ hread
      rw [e2, e4, e3] at this
      exact this

/-- The hypotheses of `C100_command` are met by `refex --mode=py.expr '$x % $x' --sub='f($x)' -i a.py` on a file `a % a`, for which `rewrite_string` gives `f(a)`. -/
example : SyntaxInEffect mdOptions.mode mdOptions.subMode (str "py.expr") ∧
    Searchers mdPy.modes mdOptions.mode (str "py.expr") mdOptions.searchReplace [mdPy.searcher mdMatcher mdTemplates] ∧ mdOptions.inPlace = true ∧
    filesFromOptions (fun _ => none) mdOptions.recursive mdOptions.files = [exFile].map (fun p => (p, p)) ∧
    (mainRun exWorld mdPy.modes mdOptions (fun _ => none) exNoFaults (exFs "a % a") {}).status = 0 ∧
    rewriteString exWorld.parseAst (librarySearcher mdOptions (mdPy.searcher mdMatcher mdTemplates)) (str "a % a") (exWorld.shorten exFile)
      (iterationCount mdOptions.mode mdOptions.iterate) = .ok (str "f(a)") :=
  ⟨.ofMode _ (by decide), mdSearchers, rfl, rfl, by decide +kernel, by decide +kernel⟩

end Refex
