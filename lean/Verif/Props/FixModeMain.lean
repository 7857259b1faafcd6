import Verif.Props.FixMode
/- C97: the command line as a whole. -/
namespace Refex
set_option autoImplicit false

variable {py : Python} {mangle : Label → Str} {groups : Str → List Label} {digit : Char → Prop} {g : Grammar}

/-- The templates of all built-in fixers can be made. -/
def TemplatesMade (py : Python) (mangle : Label → Str) : Prop :=
  ∀ F ∈ correctnessFixers mangle ++ idiomFixers mangle ++ unittestFixers mangle, ∀ l name, (l, name) ∈ F.initial builtinHeap → ∃ t, py.fixTemplate name = .ok t

theorem made_iff : py.makeTemplates (fixerTemplates (correctnessFixers mangle ++ idiomFixers mangle ++ unittestFixers mangle)) = .ok () ↔ TemplatesMade py mangle := by
  rw [makeTemplates_ok]
  unfold fixerTemplates TemplatesMade
  constructor
  · intro h F hF l name hn
    exact h name (List.mem_flatMap.2 ⟨F, hF, List.mem_map.2 ⟨(l, name), hn, rfl⟩⟩)
  · intro h name hn
    obtain ⟨F, hF, hn⟩ := List.mem_flatMap.1 hn
    obtain ⟨⟨l, name'⟩, hn', rfl⟩ := List.mem_map.1 hn
    exact h F hF l _ hn'

theorem fixGroup_iff {registry : Registry Fixer} (h1 : refexRegistry mangle = .ok registry) {name : Str} {fs : List Fixer} :
    registry.fromPattern name = .ok fs ↔ FixGroup mangle name fs := by
  obtain ⟨r, k1, _, k3⟩ := C66_builtin (correctnessFixers mangle) (idiomFixers mangle) (unittestFixers mangle)
  have : registry = r := by
    have := h1.symm.trans k1
    cases this; rfl
  subst this
  unfold Registry.fromPattern
  rw [k3]
  constructor
  · intro h2
    split at h2
    · rename_i fs' e
      cases h2
      split at e
      · rename_i hn; subst hn; cases e; exact .all
      split at e
      · rename_i hn; subst hn; cases e; exact .correctness
      split at e
      · rename_i hn; subst hn; cases e; exact .idiom
      split at e
      · rename_i hn; subst hn; cases e; exact .unittest
      · cases e
    · cases h2
  · intro h
    cases h with
    | all => rw [if_pos rfl]
    | correctness => rw [if_neg (by decide), if_pos rfl]
    | idiom => rw [if_neg (by decide), if_neg (by decide), if_pos rfl]
    | unittest => rw [if_neg (by decide), if_neg (by decide), if_neg (by decide), if_pos rfl]

theorem fixGroup_name {name : Str} {fs : List Fixer} (h : FixGroup mangle name fs) : name ∈ [str "*", str "correctness", str "idiom", str "unittest"] := by
  cases h <;> simp

theorem fromPattern_error {registry : Registry Fixer} {name : Str} {e : Exc} (h : registry.fromPattern name = .error e) : e = .valueError := by
  unfold Registry.fromPattern at h
  split at h
  · cases h
  · cases h; rfl

theorem isPyPath_iff (path : Str) : isPyPath path = true ↔ PyPath path := by
  unfold isPyPath PyPath
  rw [Bool.or_eq_true, List.isSuffixOf_iff_suffix, List.isSuffixOf_iff_suffix]
  constructor
  · rintro (⟨b, h⟩ | ⟨b, h⟩)
    · exact ⟨b, .inl h.symm⟩
    · exact ⟨b, .inr h.symm⟩
  · rintro ⟨b, h | h⟩
    · exact .inl ⟨b, h.symm⟩
    · exact .inr ⟨b, h.symm⟩

theorem factory_fix (hpy : py.fixer = py.builtinFixer mangle groups) (pattern : Option Str) (ts : Dict Str CodeTemplate) :
    py.factory (str "fix") pattern ts = if ts.isEmpty then py.builtinFixer mangle groups pattern else .error .valueError := by
  unfold Python.factory
  rw [if_pos rfl, hpy]; rfl

/-- **C97**: mode `fix` takes the name of a group of fixers and no templates; anything else is refused with a ValueError (a usage error, C69). -/
theorem C97_accepted (hpy : py.fixer = py.builtinFixer mangle groups) (hmade : TemplatesMade py mangle) (htok : TokensFit py)
    (hm : ∀ r ∈ builtinRules, Mangles mangle r.old) (hd : 8 ≤ py.depth) (pattern : Option Str) (ts : Dict Str CodeTemplate) :
    ((∃ s, py.factory (str "fix") pattern ts = .ok s) ↔ ts = [] ∧ ∃ name ∈ [str "*", str "correctness", str "idiom", str "unittest"], pattern = some name) ∧
    ∀ e, py.factory (str "fix") pattern ts = .error e → e = .valueError := by
  rw [factory_fix hpy]
  cases ts with
  | cons t ts => exact ⟨⟨fun ⟨s, h⟩ => (by cases h), fun ⟨h, _⟩ => (by cases h)⟩, fun e h => by cases h; rfl⟩
  | nil =>
    simp only [List.isEmpty_nil, if_true]
    unfold Python.builtinFixer Python.groupsFixer
    rw [made_iff.2 hmade]
    simp only
    obtain ⟨registry, k1, _⟩ := C66_builtin (correctnessFixers mangle) (idiomFixers mangle) (unittestFixers mangle)
    rw [k1]
    have k1 : refexRegistry mangle = .ok registry := k1
    simp only
    cases pattern with
    | none => exact ⟨⟨fun ⟨s, h⟩ => (by cases h), fun ⟨_, n, _, h⟩ => (by cases h)⟩, fun e h => by cases h; rfl⟩
    | some name =>
      simp only
      by_cases hn : name ∈ [str "*", str "correctness", str "idiom", str "unittest"]
      · obtain ⟨n, hn8⟩ : ∃ n, py.depth = n + 8 := ⟨py.depth - 8, by omega⟩
        obtain ⟨registry', fs, heap, e1, e2, _, _, e3⟩ := combine_group (g := groups) (fixTemplates_variables htok none) hm n hn
        rw [k1] at e1
        cases e1
        rw [e2]
        simp only
        rw [hn8, e3]
        simp only
        exact ⟨⟨fun _ => ⟨trivial, name, hn, rfl⟩, fun _ => ⟨_, rfl⟩⟩, fun e h => by cases h⟩
      · cases hf : registry.fromPattern name with
        | ok fs => exact absurd (fixGroup_name ((fixGroup_iff k1).1 hf)) hn
        | error e =>
          simp only
          refine ⟨⟨fun ⟨s, h⟩ => (by cases h), fun ⟨_, n, h1, h2⟩ => absurd (by cases h2; exact h1) hn⟩, fun e' h => ?_⟩
          cases h
          exact fromPattern_error hf

/-- **C97**: the search: only files whose names end with `.py` are searched (others are skipped, as are those that are not Python), and what is found in
them is what the fixers of the group find. -/
theorem C97_search (hpy : py.fixer = py.builtinFixer mangle groups) (htok : TokensFit py) (hfile : ∀ s c, py.file s = some c → ∃ ss, PythonFile mangle digit g ss c)
    (hd : 58 ≤ py.depth) {pattern : Option Str} {ts : Dict Str CodeTemplate} {s : Searcher} (h : py.factory (str "fix") pattern ts = .ok s) :
    ts = [] ∧ ∃ name fs, pattern = some name ∧ FixGroup mangle name fs ∧
      (∀ path, s.included path = if isPyPath path then .ok () else .error .skipFile) ∧
      (∀ content path, s.parse content path = match py.file content with
        | none => .error .skipFile
        | some _ => .ok ⟨content, path, py.pragmas content⟩) ∧
      ∀ content path subs, s.find ⟨content, path, py.pragmas content⟩ = .ok subs → FixResult py mangle digit fs content subs := by
  rw [factory_fix hpy] at h
  split at h
  · rename_i hts
    refine ⟨List.isEmpty_iff.1 hts, ?_⟩
    unfold Python.builtinFixer Python.groupsFixer at h
    split at h
    · cases h
    rename_i hmade
    split at h
    · cases h
    rename_i registry hreg
    have hreg : refexRegistry mangle = .ok registry := hreg
    split at h
    · cases h
    rename_i name
    split at h
    · cases h
    rename_i fs hfs
    split at h
    · cases h
    rename_i heap hcomb
    cases h
    have hg := (fixGroup_iff hreg).1 hfs
    refine ⟨name, fs, rfl, hg, fun path => ?_, fun content path => ?_, fun content path subs hfind => ?_⟩
    · simp only [fileRegexFiltered]
    · simp only [fileRegexFiltered, Python.parseAst]
      cases py.file content <;> rfl
    · simp only [fileRegexFiltered] at hfind
      split at hfind
      · cases hfind
      rename_i c hc
      split at hfind
      · cases hfind
      rename_i found hfound
      cases hfind
      obtain ⟨ss, hpf⟩ := hfile _ _ hc
      obtain ⟨n, hn8⟩ : ∃ n, py.depth = n + 8 := ⟨py.depth - 8, by omega⟩
      obtain ⟨registry', fs', heap', e1, e2, _, _, e3⟩ := combine_group (g := c.rxGroups) (fixTemplates_variables htok (some c)) hpf.mangles n (fixGroup_name hg)
      rw [hreg] at e1
      cases e1
      rw [hfs] at e2
      cases e2
      rw [← hn8] at e3
      cases combine_heap hcomb e3
      obtain ⟨ps, os, k1, k2, rfl, k4⟩ := fix_search hpf htok hmade hreg hfs e3 hd _ hfound
      refine ⟨c, ss, ps, os.map (Option.map Found.substitution), hc, hpf.file, k1, k2, filterMap_map_found os, ?_⟩
      exact forall2_to_map k4 fun _ _ _ _ h => h
  · cases h

theorem fix_finds (hpy : py.fixer = py.builtinFixer mangle groups) (htok : TokensFit py) (hfile : ∀ s c, py.file s = some c → ∃ ss, PythonFile mangle digit g ss c)
    (hd : 58 ≤ py.depth) {pattern : Option Str} {ts : Dict Str CodeTemplate} {s : Searcher} (h : py.factory (str "fix") pattern ts = .ok s) :
    ts = [] ∧ ∃ name fs, pattern = some name ∧ FixGroup mangle name fs ∧ FindsOn py PyPath (FixResult py mangle digit fs) s := by
  obtain ⟨h0, name, fs, h1, h2, h3, h4, h5⟩ := C97_search hpy htok hfile hd h
  refine ⟨h0, name, fs, h1, h2, fun path hp => ?_, fun path hp => ?_, fun content path hn => ?_, fun content path p hp => ?_, fun content path p subs hp hf => ?_⟩
  · rw [h3, (isPyPath_iff path).2 hp]; rfl
  · rw [h3, if_neg fun h => hp ((isPyPath_iff path).1 h)]
  · rw [h4, hn]
  · rw [h4] at hp
    unfold Python.parseAst
    cases hc : py.file content with
    | none => rw [hc] at hp; cases hp
    | some c => rw [hc] at hp; exact hp
  · obtain ⟨rfl, _⟩ := parseAst_ok hp
    exact h5 content path subs hf

/-- **C97**, the command `--mode=fix` with any number of groups of fixers: files with other names are skipped, and so are those that do not satisfy
`--also` and `--noalso` or are not Python; in the others, what the groups find, less what pragmas disable, is put together, grouped by the statements it
belongs to, and iterated up to ten times (or as often as `--iterate` says). -/
theorem C97_command (hpy : py.fixer = py.builtinFixer mangle groups) (htok : TokensFit py) (hfile : ∀ s c, py.file s = some c → ∃ ss, PythonFile mangle digit g ss c)
    (hd : 58 ≤ py.depth) {w : World} (hw : w.parseAst = py.parseAst) {o : Options} {r : Runner} (hr : runnerFromOptions w py.modes o = .ok r) (hmode : o.mode = str "fix")
    (hne : o.searchReplace ≠ []) :
    ∃ fss, Forall2 (FixersOf mangle) o.searchReplace fss ∧ ∀ content path,
      (¬ PyPath path → r.find content path = .error .skipFile) ∧
      (PyPath path → ¬ AlsoHolds o content → r.find content path = .error .skipNoResults) ∧
      (PyPath path → AlsoHolds o content → py.file content = none → r.find content path = .error .skipFile) ∧
      (∀ out, r.find content path = .ok out → PyPath path ∧ AlsoHolds o content ∧ py.file content ≠ none ∧
        IteratedResult (fun t => py.file t ≠ none) (FoundBy o.forceEnable py.pragmas (fss.map (FixResult py mangle digit))) (o.iterate.getD 10) content out) := by
  have hsm : SyntaxInEffect o.mode o.subMode (if o.subMode = str "auto" then str "sh" else o.subMode) := by
    rw [hmode]
    split
    · rename_i h; rw [h]; exact .fix
    · rename_i h; exact .asked _ _ h
  obtain ⟨ss, hss⟩ := (C69_runner w py.modes o _ hsm hne).1.1 ⟨r, hr⟩
  have key : ∀ {sm : Str} {srs ss}, Searchers py.modes (str "fix") sm srs ss →
      ∃ fss, Forall2 (FixersOf mangle) srs fss ∧ Forall2 (FindsOn py PyPath) (fss.map (FixResult py mangle digit)) ss := by
    intro sm srs ss h
    induction h with
    | nil => exact ⟨[], .nil, .nil⟩
    | @cons sr ts s rest ss' htp hfac _ ih =>
      obtain ⟨fss, h1, h2⟩ := ih
      obtain ⟨rfl, name, fs, k1, k2, k3⟩ := fix_finds hpy htok hfile hd hfac
      have hsub : sr.sub = [] := by
        generalize sr.sub = sub at htp
        cases htp; rfl
      exact ⟨fs :: fss, .cons ⟨hsub, name, k1, k2⟩ h1, .cons k3 h2⟩
  obtain ⟨fss, h1, h2⟩ := key (hmode ▸ hss)
  refine ⟨fss, h1, fun content path => ?_⟩
  have hit : iterationCount o.mode o.iterate = o.iterate.getD 10 := by
    rw [hmode]; unfold iterationCount; cases o.iterate <;> rfl
  have := command_iterates hr hw hsm hne hss h2 content path
  rw [hit] at this
  exact this

/-! ### What is written -/

theorem fixReport_edits {c : Ctx} {ss : List TopStmt} {p : Path} {v : Val} {F : Fixer} {mi : MatchInfo} (hm : FixerMarks mangle digit c ss p v F mi) {s : Substitution}
    (hs : FixReport py mangle c F mi s) : ∀ e ∈ editsOf s, ∃ i, c.tok i = some (e.start, e.stop) := by
  obtain ⟨ms, rs, ho, hrs, hed⟩ := hs.edits
  intro e he
  unfold editsOf at he
  rw [hrs] at he
  obtain ⟨⟨l, sp⟩, hmem, he⟩ := List.mem_filterMap.1 he
  have hg := Dict.get?_of_mem hs.distinct hmem
  rw [hs.spans] at hg
  split at he
  · rename_i new hnew
    cases he
    obtain ⟨t, m, hw, _, _, _⟩ := (hed l new).1 hnew
    have span : ∀ u, (matchVOf c.text (createMatch c u)).span = some sp → ∃ i, c.tok i = some sp := by
      intro u hu
      cases ho : createMatch c u with
      | lexical w sp' =>
        rw [ho] at hu
        cases hu
        exact createMatch_span ho
      | string => rw [ho] at hu; cases hu
      | object => rw [ho] at hu; cases hu
      | bare => rw [ho] at hu; cases hu
      | span s' sp' =>
        exfalso
        unfold createMatch at ho
        repeat' split at ho
        all_goals cases ho
    have marks : ∀ x w, str x ≠ str "__root" → Marks c mi x w → (LabelOf mi (str x)).bind (fun o => (matchVOf c.text o).span) = some sp → ∃ i, c.tok i = some sp := by
      rintro x w hx ⟨b, hb, hv⟩ hg
      rw [LabelOf, if_neg hx, hb] at hg
      have hg : (matchVOf c.text b.value).span = some sp := hg
      rw [hv] at hg
      exact span w hg
    cases hw with
    | rule =>
      rw [LabelOf, if_pos rfl] at hg
      have hg : (matchVOf c.text mi.obj).span = some sp := hg
      rw [marks_obj hm] at hg
      exact span v hg
    | @attrib i d text t hi _ =>
      generalize hF : attribFixer mangle i d = F at hm
      cases hm with
      | rule => simp only [attribFixer, Rule.fixer] at hF; injection hF with _ h2; cases h2
      | attrib _ _ _ h => exact marks _ _ (by decide) h hg
      | loggingError => injection hF with _ _ h3; exfalso; revert h3; decide +kernel
      | loggingException => injection hF with _ _ h3; exfalso; revert h3; decide +kernel
    | loggingError =>
      generalize hF : loggingErrorFixer mangle 3 = F at hm
      cases hm with
      | rule => simp only [loggingErrorFixer, Rule.fixer] at hF; injection hF with _ h2; cases h2
      | attrib => injection hF with _ _ h3; exfalso; revert h3; decide +kernel
      | loggingError _ _ h => exact marks _ _ (by decide) h hg
      | loggingException => injection hF with _ _ h3; exfalso; revert h3; decide +kernel
    | loggingException =>
      generalize hF : loggingExceptionFixer mangle 4 = F at hm
      cases hm with
      | rule => simp only [loggingExceptionFixer, Rule.fixer] at hF; injection hF with _ h2; cases h2
      | attrib => injection hF with _ _ h3; exfalso; revert h3; decide +kernel
      | loggingError => injection hF with _ _ h3; exfalso; revert h3; decide +kernel
      | loggingException _ _ h _ => exact marks _ _ (by decide) h hg
  · cases he

theorem foundBy_mem {force : Bool} {pragmas : Str → List Pragma} {Ps : List (Str → List Substitution → Prop)} {t : Str} {subs : List Substitution}
    (h : FoundBy force pragmas Ps t subs) : ∀ s ∈ subs, ∃ P ∈ Ps, ∃ l, P t l ∧ s ∈ l := by
  obtain ⟨per, all, hper, htog, hun⟩ := h
  intro s hs
  have hall : s ∈ all := by
    cases hf : force with
    | true => rw [← hun.1 hf]; exact hs
    | false => exact (hun.2 hf).1.subset hs
  obtain ⟨l, hl, hsl⟩ := together_mem htog s hall
  obtain ⟨P, hP, h⟩ := forall2_mem_right hper hl
  exact ⟨P, hP, l, h, hsl⟩

/-- Everything that a fixer reports has a place in the file: its edits replace tokens of nodes, and so does what iterating it leads to. -/
theorem fixResult_places {fs : List Fixer} {content : Str} {subs : List Substitution} (h : FixResult py mangle digit fs content subs) :
    ∃ c, py.file content = some c ∧ ∀ s ∈ subs, (∀ e ∈ editsOf s, ∃ i, c.tok i = some (e.start, e.stop)) ∧ ∀ sp, s.keySpan = some sp → ∃ i, c.tok i = some sp := by
  obtain ⟨c, ss, ps, os, hc, _, _, _, rfl, hall⟩ := h
  refine ⟨c, hc, fun s hs => ?_⟩
  obtain ⟨a, ha, hb⟩ := List.mem_filterMap.1 hs
  cases a with
  | none => cases hb
  | some a =>
    cases hb
    obtain ⟨p, _, v, F, mi, _, _, hm, hrep⟩ := forall2_mem_right hall ha
    exact ⟨fixReport_edits hm hrep, hrep.part.1⟩

theorem merged_edits {s : Substitution} {a b : Nat} {t : Str} (h : MergedInto s a b t) : editsOf s = [⟨t, a, b⟩] := by
  obtain ⟨_, _, hm, hr⟩ := h
  unfold editsOf
  rw [hr, hm]
  simp [Dict.get?]

theorem iterated_edits {valid : Str → Prop} {finds : Str → List Substitution → Prop} {n : Nat} {text : Str} {k : Option Span} {g out : List Substitution}
    (h : Iterated valid finds n text k g out) {s : Substitution} (hs : s ∈ out) {e : Repl} (he : e ∈ editsOf s) :
    s ∈ g ∨ k = some (e.start, e.stop) := by
  cases h with
  | alone => exact .inl hs
  | once => exact .inl hs
  | beyond => exact .inl hs
  | dropped => cases hs
  | one => exact .inl hs
  | more _ _ _ _ _ hm =>
    rw [List.mem_singleton.1 hs, merged_edits hm] at he
    rw [List.mem_singleton.1 he]
    exact .inr rfl

/-- **C97**, in a file: what a run writes into a file is its text (with universal newlines) with the edits of the iterated reports of the fixers, and
nothing else changed. -/
theorem C97_rewritten (hpy : py.fixer = py.builtinFixer mangle groups) (htok : TokensFit py) (hfile : ∀ s c, py.file s = some c → ∃ ss, PythonFile mangle digit g ss c)
    (hspan : ∀ s c, py.file s = some c → ∀ i sp, c.tok i = some sp → sp.2 ≤ s.length)
    (hd : 58 ≤ py.depth) {w : World} (hw : w.parseAst = py.parseAst) {o : Options} {r : Runner} (hr : runnerFromOptions w py.modes o = .ok r) (hmode : o.mode = str "fix")
    (hne : o.searchReplace ≠ []) (hrt : ∀ s x, r.enc.encode s = some x → r.enc.decode x = some s) :
    ∃ fss, Forall2 (FixersOf mangle) o.searchReplace fss ∧
      ∀ faults fs q b b' old, fs q = some b → r.enc.decode b = some old → Rewritten r faults fs q b' →
        PyPath (r.shorten q) ∧ AlsoHolds o (universalNewlines old) ∧ ∃ out es new,
          IteratedResult (fun t => py.file t ≠ none) (FoundBy o.forceEnable py.pragmas (fss.map (FixResult py mangle digit))) (o.iterate.getD 10)
            (universalNewlines old) out ∧
          es.Perm (allEdits out) ∧ r.enc.decode b' = some new ∧ Spliced 0 (universalNewlines old) es new := by
  obtain ⟨fss, h1, h2⟩ := C97_command hpy htok hfile hd hw hr hmode hne
  refine ⟨fss, h1, fun faults fs q b b' old hold hdec hnew => ?_⟩
  have hin : ∀ content ms, r.find content (r.shorten q) = .ok ms → ∀ e ∈ allEdits ms, e.stop ≤ content.length := by
    intro content ms hms e he
    obtain ⟨_, _, _, subs, gs, outs, hfound, ⟨hg1, hg2, _⟩, hit, rfl⟩ := (h2 content (r.shorten q)).2.2.2 ms hms
    obtain ⟨s, hs, he⟩ := List.mem_flatMap.1 he
    obtain ⟨out, hout, hs⟩ := List.mem_flatten.1 hs
    obtain ⟨gr, hgr, hiter⟩ := forall2_mem_right hit hout
    have hsubs : ∀ x ∈ gr.2, x ∈ subs := fun x hx => hg1 ▸ List.mem_flatMap.2 ⟨gr, hgr, hx⟩
    have place : ∀ x ∈ subs, ∃ c, py.file content = some c ∧ (∀ e ∈ editsOf x, ∃ i, c.tok i = some (e.start, e.stop)) ∧
        ∀ sp, x.keySpan = some sp → ∃ i, c.tok i = some sp := by
      intro x hx
      obtain ⟨P, hP, l, hPl, hxl⟩ := foundBy_mem hfound x hx
      obtain ⟨F, _, rfl⟩ := List.mem_map.1 hP
      obtain ⟨c, hc, h⟩ := fixResult_places hPl
      exact ⟨c, hc, h x hxl⟩
    rcases iterated_edits hiter hs he with h | h
    · obtain ⟨c, hc, h3, _⟩ := place s (hsubs s h)
      obtain ⟨i, hi⟩ := h3 e he
      exact hspan content c hc i _ hi
    · obtain ⟨hne', hk⟩ := hg2 gr hgr
      cases hx : gr.2 with
      | nil => exact absurd hx hne'
      | cons x xs =>
        have hxm : x ∈ gr.2 := hx ▸ List.mem_cons_self ..
        obtain ⟨c, hc, _, h4⟩ := place x (hsubs x hxm)
        obtain ⟨i, hi⟩ := h4 _ ((hk x hxm).trans h)
        exact hspan content c hc i _ hi
  obtain ⟨ms, es, new, e1, e2, e3, e4⟩ := C35_normalised r faults fs q b b' old hrt hold hdec hin hnew
  obtain ⟨k1, k2, _, k3⟩ := (h2 _ _).2.2.2 ms e1
  exact ⟨k1, k2, ms, es, new, k3, e2, e3, e4⟩

end Refex
