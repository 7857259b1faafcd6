import Verif.Spec.Output
import Verif.Props.Cli
/- C76: what is printed. -/
namespace Refex
set_option autoImplicit false

theorem renderWith_isDiff {p : Palette} {color : Bool} {format : Str → Str → Str → Except Exc Str} {σ : List Label → Str} {contents : Str}
    {sub : Substitution} {d : Bool × Str} (h : renderWith p color format σ contents sub = .ok d) :
    d.1 = !(sub.replacements.getD []).isEmpty := by
  unfold renderWith at h
  split at h
  · cases h
  · simp only at h
    split at h
    · rename_i he
      split at h
      · cases h
      · cases h; simp [he]
    · rename_i he
      cases h; simp at he ⊢; exact he

theorem any_isDiff {p : Palette} {color : Bool} {format : Str → Str → Str → Except Exc Str} {σ : List Label → Str} {contents : Str}
    {ms : List Substitution} {parts : List (Bool × Str)}
    (h : Forall2 (fun m d => renderWith p color format σ contents m = .ok d) ms parts) :
    (parts.map Prod.fst).any id = true ↔ ∃ m ∈ ms, m.replacements.getD [] ≠ [] := by
  induction h with
  | nil => simp
  | cons a b ih =>
    have := renderWith_isDiff a
    simp only [List.map_cons, List.any_cons, Bool.or_eq_true, id, ih, this, List.mem_cons, exists_eq_or_imp]
    exact or_congr (by simp) Iff.rfl

theorem diffSubstitutions_spec (p : Palette) (color : Bool) (format : Str → Str → Str → Except Exc Str) (sep contents : Str)
    (ms : List Substitution) (st : RState) (last : Bool) :
    Grows st (diffSubstitutions p color format sep contents st last ms).2.2 ∧
    ((diffSubstitutions p color format sep contents st last ms).2.1 = none →
      ∀ σ, Agrees σ (diffSubstitutions p color format sep contents st last ms).2.2 →
      ∃ parts, Forall2 (fun m d => renderWith p color format σ contents m = .ok d) ms parts ∧
        (diffSubstitutions p color format sep contents st last ms).1.flatMap Prod.snd =
          (if last ∧ ms ≠ [] then sep else []) ++ separated sep parts ∧
        (diffSubstitutions p color format sep contents st last ms).1.map Prod.fst = parts.map Prod.fst) := by
  induction ms generalizing st last with
  | nil => exact ⟨fun _ _ h => h, fun _ σ _ => ⟨[], .nil, by simp [diffSubstitutions, separated], rfl⟩⟩
  | cons m ms ih =>
    obtain ⟨g1, f1⟩ := render_spec p color format st contents m
    simp only [diffSubstitutions]
    cases hr : (render p color format st contents m).1 with
    | error e => exact ⟨g1, fun h => by simp at h⟩
    | ok d =>
      obtain ⟨isD, disp⟩ := d
      simp only
      obtain ⟨g2, f2⟩ := ih (render p color format st contents m).2 isD
      refine ⟨g1.trans g2, fun hn σ hσ => ?_⟩
      obtain ⟨parts, hp, ht, hd⟩ := f2 hn σ hσ
      have h1 := f1 σ (hσ.of_grows g2)
      rw [hr] at h1
      refine ⟨(isD, disp) :: parts, .cons h1.symm hp, ?_, by simp [hd]⟩
      rw [List.flatMap_cons, ht]
      cases hp with
      | nil => cases last <;> simp [separated]
      | cons _ _ => cases last <;> cases isD <;> simp [separated]

theorem getMatches_cases (r : Runner) (content name : Str) :
    (∃ ms, r.find content name = .ok ms ∧ r.getMatches content name = .ok ms) ∨
    ((∀ ms, r.find content name ≠ .ok ms) ∧ (r.getMatches content name = .ok [] ∨ ∃ e, r.getMatches content name = .error e)) := by
  unfold Runner.getMatches
  cases h : r.find content name with
  | ok ms => exact .inl ⟨ms, rfl, rfl⟩
  | error e =>
    refine .inr ⟨fun ms => by simp, ?_⟩
    cases e <;> first | exact .inl rfl | exact .inr ⟨_, rfl⟩

theorem FoundIn.unique {r : Runner} {faults : Faults} {fs : FS} {pair : Str × Str} {c c' : Str} {ms ms' : List Substitution}
    (h : FoundIn r faults fs pair c ms) (h' : FoundIn r faults fs pair c' ms') : c = c' ∧ ms = ms' := by
  obtain ⟨h1, h2⟩ := h
  obtain ⟨h3, h4⟩ := h'
  rw [h1] at h3; cases h3
  rw [h2] at h4; cases h4
  exact ⟨rfl, rfl⟩

theorem rewriteOne_fs (r : Runner) (faults : Faults) (s : RunState) (rd wr q : Str) (h : r.dryRun = true ∨ q ≠ wr) :
    (r.rewriteOne faults s rd wr).1.fs q = s.fs q := by
  rcases h with h | h
  · have := (C32_dry_run r h faults s.fs s.rstate [(rd, wr)])
    unfold Runner.rewriteOne
    split
    · rfl
    · split
      · rfl
      · simp only [h, Bool.not_true, Bool.false_and, Bool.false_eq_true, if_false]
        split <;> rfl
  · obtain ⟨new, _, h2, h3⟩ := rewriteOne_ops r faults s rd wr
    rw [h2]
    refine runOps_other _ _ _ fun op hop => ?_
    obtain ⟨c, ms, _, _, _, hn, _⟩ := h3 (List.ne_nil_of_mem hop)
    rw [hn] at hop
    rw [write_ops_path r faults wr c ms op hop]
    exact fun e => h e.symm

/-- One file. -/
theorem printsOne_spec (r : Runner) (faults : Faults) (s : RunState) (rd wr : Str) (hok : (r.rewriteOne faults s rd wr).2 = none) :
    Grows s.rstate (r.rewriteOne faults s rd wr).1.rstate ∧
    (∀ σ, Agrees σ (r.rewriteOne faults s rd wr).1.rstate → PairOutput r faults s.fs σ (rd, wr) (r.printsOne faults s rd wr)) ∧
    ((r.rewriteOne faults s rd wr).1.hasChanges = true ↔ s.hasChanges = true ∨
      (r.showDiff = true ∧ ChangesFound r faults s.fs [(rd, wr)])) := by
  have quiet : (∀ content ms, FoundIn r faults s.fs (rd, wr) content ms → ms = []) →
      ¬ ChangesFound r faults s.fs [(rd, wr)] := by
    rintro h ⟨pair, hp, c, ms, hf, m, hm, _⟩
    simp only [List.mem_singleton] at hp
    subst hp
    rw [h c ms hf] at hm
    cases hm
  unfold Runner.rewriteOne at hok ⊢
  unfold Runner.printsOne
  cases hread : r.read faults s.fs rd with
  | none =>
    have hq : ∀ content ms, FoundIn r faults s.fs (rd, wr) content ms → ms = [] := by
      rintro c ms ⟨h1, _⟩
      rw [hread] at h1; cases h1
    exact ⟨fun _ _ h => h, fun σ _ => .quiet hq, by simp [quiet hq]⟩
  | some content =>
    simp only [hread] at hok
    rcases getMatches_cases r content (r.shorten wr) with ⟨ms, hf, hg⟩ | ⟨hno, hg⟩
    · simp only [hg] at hok ⊢
      have hfi : FoundIn r faults s.fs (rd, wr) content ms := ⟨hread, hf⟩
      by_cases hms : ms = []
      · subst hms
        have hq : ∀ c ms, FoundIn r faults s.fs (rd, wr) c ms → ms = [] := fun c ms h => (h.unique hfi).2
        refine ⟨?_, fun σ _ => ?_, ?_⟩
        · intro l x hl; simpa [Runner.logChanges] using hl
        · simpa [Runner.logged] using PairOutput.quiet hq
        · simp [Runner.logChanges, quiet hq]
      · have hcf : ChangesFound r faults s.fs [(rd, wr)] ↔ ∃ m ∈ ms, m.replacements.getD [] ≠ [] := by
          constructor
          · rintro ⟨pair, hp, c, ms', hf', m, hm, hr⟩
            simp only [List.mem_singleton] at hp
            subst hp
            rw [(hf'.unique hfi).2] at hm
            exact ⟨m, hm, hr⟩
          · rintro ⟨m, hm, hr⟩
            exact ⟨(rd, wr), by simp, content, ms, hfi, m, hm, hr⟩
        have hms' : ms.isEmpty = false := by simpa using hms
        cases hsd : r.showDiff with
        | false =>
          simp only [Runner.logChanges, Runner.logged, hsd, hms', Bool.not_false, Bool.or_true, if_true, Bool.true_and,
            Bool.false_eq_true, if_false]
          refine ⟨?_, fun σ _ => ?_, ?_⟩
          · split <;> exact fun _ _ h => h
          · refine .found hfi hms ?_
            cases hsf : r.showFiles with
            | false => simpa using FileOutput.nothing hsd hsf
            | true => simpa using FileOutput.nameOnly hsd hsf
          · split <;> simp
        | true =>
          obtain ⟨g, f⟩ := diffSubstitutions_spec r.palette r.color r.format r.sep content ms s.rstate false
          simp only [Runner.logChanges, Runner.logged, hsd, hms', Bool.not_true, Bool.or_false, Bool.false_and,
            Bool.false_eq_true, if_false] at hok ⊢
          cases hexc : (diffSubstitutions r.palette r.color r.format r.sep content s.rstate false ms).2.1 with
          | some e => rw [hexc] at hok; cases hok
          | none =>
            have f := f hexc
            simp only [hexc] at hok ⊢
            refine ⟨?_, fun σ hσ => ?_, ?_⟩
            · split <;> exact g
            · have hσ : Agrees σ (diffSubstitutions r.palette r.color r.format r.sep content s.rstate false ms).2.2 := by
                revert hσ
                split <;> exact id
              obtain ⟨parts, h1, h2, _⟩ := f σ hσ
              rw [h2]
              simpa using PairOutput.found hfi hms (FileOutput.displays hsd h1)
            · obtain ⟨parts, h1, h2, h3⟩ := f
                (fun l => (styleOf (diffSubstitutions r.palette r.color r.format r.sep content s.rstate false ms).2.2.labelStyle l).getD [])
                (fun l x hl => by simp [hl])
              have key : (diffSubstitutions r.palette r.color r.format r.sep content s.rstate false ms).1.any Prod.fst = true ↔
                  ∃ m ∈ ms, m.replacements.getD [] ≠ [] := by
                have : (diffSubstitutions r.palette r.color r.format r.sep content s.rstate false ms).1.any Prod.fst =
                    (parts.map Prod.fst).any id := by
                  rw [← h3, List.any_map]; rfl
                rw [this]
                exact any_isDiff h1
              rw [hcf, ← key]
              split <;> simp
    · have hq : ∀ c ms, FoundIn r faults s.fs (rd, wr) c ms → ms = [] := by
        rintro c ms ⟨h1, h2⟩
        rw [hread] at h1; cases h1
        exact absurd h2 (hno ms)
      rcases hg with hg | ⟨e, hg⟩
      · simp only [hg] at hok ⊢
        refine ⟨?_, fun σ _ => ?_, ?_⟩
        · intro l x hl; simpa [Runner.logChanges] using hl
        · simpa [Runner.logged] using PairOutput.quiet hq
        · simp [Runner.logChanges, quiet hq]
      · simp only [hg] at hok ⊢
        exact ⟨fun _ _ h => h, fun σ _ => .quiet hq, by simp [quiet hq]⟩

theorem prints_spec (r : Runner) (faults : Faults) (fs : FS) (pairs : List (Str × Str)) (s : RunState)
    (hfs : ∀ p ∈ pairs, s.fs p.1 = fs p.1) (hd : r.dryRun = true ∨ pairs.Pairwise (fun a b => b.1 ≠ a.2))
    (hok : (r.rewriteFiles faults s pairs).2 = none) :
    Grows s.rstate (r.rewriteFiles faults s pairs).1.rstate ∧
    ∀ σ, Agrees σ (r.rewriteFiles faults s pairs).1.rstate →
      ∃ outs note, Forall2 (PairOutput r faults fs σ) pairs outs ∧ r.prints faults s pairs = outs.flatten ++ note ∧
        ((r.dryRun = true ∧ (s.hasChanges = true ∨ r.showDiff = true ∧ ChangesFound r faults fs pairs)) ∧ note = dryRunNote ∨
         ¬ (r.dryRun = true ∧ (s.hasChanges = true ∨ r.showDiff = true ∧ ChangesFound r faults fs pairs)) ∧ note = []) := by
  induction pairs generalizing s with
  | nil =>
    refine ⟨fun _ _ h => h, fun σ _ => ⟨[], r.prints faults s [], .nil, rfl, ?_⟩⟩
    have : ¬ ChangesFound r faults fs [] := by rintro ⟨p, hp, _⟩; cases hp
    simp only [this, and_false, or_false, Runner.prints]
    cases s.hasChanges <;> cases r.dryRun <;> simp
  | cons pair pairs ih =>
    obtain ⟨rd, wr⟩ := pair
    simp only [Runner.rewriteFiles] at hok ⊢
    cases ho : (r.rewriteOne faults s rd wr).2 with
    | some e => rw [ho] at hok; cases hok
    | none =>
      simp only [ho] at hok ⊢
      obtain ⟨g1, p1, c1⟩ := printsOne_spec r faults s rd wr ho
      have hrd : s.fs rd = fs rd := hfs (rd, wr) (by simp)
      have hfs' : ∀ p ∈ pairs, (r.rewriteOne faults s rd wr).1.fs p.1 = fs p.1 := by
        intro p hp
        rw [rewriteOne_fs]
        · exact hfs p (by simp [hp])
        · rcases hd with h | h
          · exact .inl h
          · exact .inr ((List.pairwise_cons.1 h).1 p hp)
      obtain ⟨g2, p2⟩ := ih _ hfs' (hd.imp id fun h => (List.pairwise_cons.1 h).2) hok
      refine ⟨g1.trans g2, fun σ hσ => ?_⟩
      obtain ⟨outs, note, hf, hp, hn⟩ := p2 σ hσ
      have hfoundin : ∀ c ms, FoundIn r faults s.fs (rd, wr) c ms ↔ FoundIn r faults fs (rd, wr) c ms := by
        intro c ms
        unfold FoundIn
        rw [read_congr r faults s.fs fs rd hrd]
      refine ⟨r.printsOne faults s rd wr :: outs, note, .cons ?_ hf, ?_, ?_⟩
      · have := p1 σ (hσ.of_grows g2)
        revert this
        generalize r.printsOne faults s rd wr = text
        intro this
        cases this with
        | quiet h => exact .quiet fun c ms h' => h c ms ((hfoundin c ms).2 h')
        | found h h' h'' => exact .found ((hfoundin _ _).1 h) h' h''
      · simp only [Runner.prints, ho, hp, List.flatten_cons, List.append_assoc]
      · have hch : ((r.rewriteOne faults s rd wr).1.hasChanges = true ∨ r.showDiff = true ∧ ChangesFound r faults fs pairs) ↔
            (s.hasChanges = true ∨ r.showDiff = true ∧ ChangesFound r faults fs ((rd, wr) :: pairs)) := by
          have : ChangesFound r faults fs ((rd, wr) :: pairs) ↔ ChangesFound r faults s.fs [(rd, wr)] ∨ ChangesFound r faults fs pairs := by
            constructor
            · rintro ⟨p, hp, c, ms, h, h'⟩
              rcases List.mem_cons.1 hp with rfl | hp
              · exact .inl ⟨_, by simp, c, ms, (hfoundin c ms).2 h, h'⟩
              · exact .inr ⟨p, hp, c, ms, h, h'⟩
            · rintro (⟨p, hp, c, ms, h, h'⟩ | ⟨p, hp, c, ms, h, h'⟩)
              · simp only [List.mem_singleton] at hp
                subst hp
                exact ⟨_, by simp, c, ms, (hfoundin c ms).1 h, h'⟩
              · exact ⟨p, by simp [hp], c, ms, h, h'⟩
          rw [this, c1]
          constructor
          · rintro ((h | ⟨h, h'⟩) | ⟨h, h'⟩)
            · exact .inl h
            · exact .inr ⟨h, .inl h'⟩
            · exact .inr ⟨h, .inr h'⟩
          · rintro (h | ⟨h, h' | h'⟩)
            · exact .inl (.inl h)
            · exact .inl (.inr ⟨h, h'⟩)
            · exact .inr ⟨h, h'⟩
        rw [hch] at hn
        exact hn

/-- C76. A run that ends normally prints, file by file in the order given, exactly what `PairOutput` prescribes for what the
file contained when the run began, and then the note about the dry run, if and only if it is a dry run with diffs shown and some
match comes with replacements. One assignment of styles to labels serves for the whole run. No file is read after it was written
(a dry run writes none). -/
theorem C76_output (r : Runner) (faults : Faults) (fs : FS) (rs : RState) (pairs : List (Str × Str))
    (hd : r.dryRun = true ∨ pairs.Pairwise (fun a b => b.1 ≠ a.2))
    (hok : (r.rewriteFiles faults (Runner.start fs rs) pairs).2 = none) :
    ∃ σ outs note, Forall2 (PairOutput r faults fs σ) pairs outs ∧
      r.prints faults (Runner.start fs rs) pairs = outs.flatten ++ note ∧
      ((r.dryRun = true ∧ r.showDiff = true ∧ ChangesFound r faults fs pairs) ∧ note = noteText ∨
       ¬ (r.dryRun = true ∧ r.showDiff = true ∧ ChangesFound r faults fs pairs) ∧ note = []) := by
  obtain ⟨_, h⟩ := prints_spec r faults fs pairs (Runner.start fs rs) (fun _ _ => rfl) hd hok
  obtain ⟨outs, note, h1, h2, h3⟩ := h
    (fun l => (styleOf (r.rewriteFiles faults (Runner.start fs rs) pairs).1.rstate.labelStyle l).getD [])
    (fun l x hl => by simp [hl])
  have hnote : dryRunNote = noteText := by decide
  rw [hnote] at h3
  refine ⟨_, outs, note, h1, h2, ?_⟩
  have : (Runner.start fs rs).hasChanges = false := rfl
  simpa [this] using h3

/-- C76, `-l`: with only names wanted, the output is the names, one on a line, of the files with at least one match, in order. -/
theorem C76_names_only (r : Runner) (hsd : r.showDiff = false) (hsf : r.showFiles = true) (faults : Faults) (fs : FS) (rs : RState)
    (pairs : List (Str × Str)) (hd : r.dryRun = true ∨ pairs.Pairwise (fun a b => b.1 ≠ a.2))
    (hok : (r.rewriteFiles faults (Runner.start fs rs) pairs).2 = none) :
    ∃ listed : List (Str × Str), listed.Sublist pairs ∧
      (∀ p ∈ pairs, p ∈ listed ↔ ∃ content ms, FoundIn r faults fs p content ms ∧ ms ≠ []) ∧
      r.prints faults (Runner.start fs rs) pairs = listed.flatMap fun p => r.shorten p.2 ++ ['\n'] := by
  obtain ⟨σ, outs, note, h1, h2, h3⟩ := C76_output r faults fs rs pairs hd hok
  have hnote : note = [] := by
    rcases h3 with ⟨⟨_, h, _⟩, _⟩ | ⟨_, h⟩
    · rw [hsd] at h; cases h
    · exact h
  classical
  refine ⟨pairs.filter fun p => decide (∃ content ms, FoundIn r faults fs p content ms ∧ ms ≠ []), List.filter_sublist, ?_, ?_⟩
  · intro p hp
    simp [List.mem_filter, hp]
  · rw [h2, hnote, List.append_nil]
    clear h2 h3 hd hok
    induction h1 with
    | nil => rfl
    | cons a b ih =>
      rename_i p out ps os
      rw [List.flatten_cons, ih, List.filter_cons]
      cases a with
      | quiet h =>
        rw [if_neg]
        · rfl
        · simp only [decide_eq_true_eq]
          rintro ⟨c, ms, h1, h2⟩
          exact h2 (h c ms h1)
      | found h h' h'' =>
        rw [if_pos]
        · cases h'' with
          | nothing _ h => rw [hsf] at h; cases h
          | nameOnly _ _ => rfl
          | displays h _ => rw [hsd] at h; cases h
        · simp only [decide_eq_true_eq]
          exact ⟨_, _, h, h'⟩

-- A dry run over three files: nothing for the file that cannot be searched nor for the missing one; two diffs with a separator
-- between them; the note at the end.
def exShow : Runner :=
  { exRunner exFirst with find := fun _ name => if name = exFail then .error .other else .ok [exFirst, exFirst], dryRun := true, showDiff := true, sep := str "---\n" }
example : exShow.prints exNoFaults (Runner.start (exFs "ab") {}) [(exFail, exFail), (exFile, exFile), (str "no", str "no")] =
    headerLine exFile ++ str "-ab\n+xb\n---\n-ab\n+xb\n" ++ noteText := by decide
example : (exShow.rewriteFiles exNoFaults (Runner.start (exFs "ab") {}) [(exFail, exFail), (exFile, exFile), (str "no", str "no")]).2 = none := by
  decide
example : (exRunner exFirst).prints exNoFaults (Runner.start (exFs "ab") {}) [(exFail, exFail), (exFile, exFile)] = str "a.py\n" ∧
    (exRunner exFirst).showDiff = false ∧ (exRunner exFirst).showFiles = true := by decide

/-- The help text of `-l` says that with substitutions it lists the changed files only. It does not: a file that its
substitutions leave as it was is listed too. -/
theorem C76_listed_changed_false :
    ¬ ∀ (r : Runner) (fs : FS) (path : Str), r.showDiff = false → r.showFiles = true → r.dryRun = false →
      (∀ c n ms, r.find c n = .ok ms → ∀ m ∈ ms, m.replacements.getD [] ≠ []) →
      (r.rewriteFiles exNoFaults (Runner.start fs {}) [(path, path)]).2 = none →
      r.prints exNoFaults (Runner.start fs {}) [(path, path)] = r.shorten path ++ ['\n'] →
      (r.rewriteFiles exNoFaults (Runner.start fs {}) [(path, path)]).1.fs path ≠ fs path := by
  intro h
  refine h (exRunner exFirst) (exFs "xb") exFile rfl rfl rfl ?_ (by decide) (by decide) (by decide)
  intro c n ms hf m hm
  have : ms = [exFirst] := by
    simp only [exRunner] at hf
    split at hf
    · cases hf
    · cases hf; rfl
  rw [this] at hm
  simp only [List.mem_singleton] at hm
  rw [hm]; decide

end Refex
