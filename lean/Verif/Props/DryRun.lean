import Verif.Props.Output
import Verif.Props.MainRun
/-! # C108: a dry run shows what a run with `-i` shows -/
namespace Refex
set_option autoImplicit false

/-- Two states of runs, one of which may have written to files that are not read any more. -/
structure SameSoFar (reads : List Str) (s t : RunState) : Prop where
  files : ∀ p ∈ reads, s.fs p = t.fs p
  failures : s.failures = t.failures
  changes : s.hasChanges = t.hasChanges
  styles : s.rstate = t.rstate

theorem one_same (r r' : Runner) (hdry : r.dryRun = true) (hr : r' = { r with dryRun := false }) (faults : Faults) (s t : RunState) (rd wr : Str) (rest : List Str)
    (h : SameSoFar (rd :: rest) s t) (hrest : ∀ p ∈ rest, p ≠ wr) :
    SameSoFar rest (r.rewriteOne faults s rd wr).1 (r'.rewriteOne faults t rd wr).1 ∧ r.printsOne faults s rd wr = r'.printsOne faults t rd wr ∧
      ((r'.rewriteOne faults t rd wr).2 = none → (r.rewriteOne faults s rd wr).2 = none) ∧
      (∀ e, (r.rewriteOne faults s rd wr).2 = some e → (r'.rewriteOne faults t rd wr).2 = some e) := by
  subst hr
  have hread : r.read faults s.fs rd = Runner.read { r with dryRun := false } faults t.fs rd := by
    unfold Runner.read
    rw [h.files rd (by simp)]
  have hfiles : ∀ p ∈ rest, s.fs p = t.fs p := fun p hp => h.files p (by simp [hp])
  unfold Runner.rewriteOne Runner.printsOne
  rw [← hread]
  cases r.read faults s.fs rd with
  | none => exact ⟨⟨hfiles, h.failures, h.changes, h.styles⟩, rfl, fun h => h, fun e h => h⟩
  | some content =>
    simp only
    have hget : Runner.getMatches { r with dryRun := false } content (r.shorten wr) = r.getMatches content (r.shorten wr) := rfl
    rw [hget]
    cases r.getMatches content (r.shorten wr) with
    | error e => exact ⟨⟨hfiles, by simp only; rw [h.failures], h.changes, h.styles⟩, rfl, fun h => h, fun e h => h⟩
    | ok ms =>
      simp only
      have hlog : Runner.logChanges { r with dryRun := false } t.rstate content ms = r.logChanges s.rstate content ms := by rw [← h.styles]; rfl
      have hlogged : r.logged s.rstate content ms (r.shorten wr) = Runner.logged { r with dryRun := false } t.rstate content ms (r.shorten wr) := by rw [← h.styles]; rfl
      rw [hlog]
      cases hl : (r.logChanges s.rstate content ms).1 with
      | error e => exact ⟨⟨hfiles, h.failures, h.changes, rfl⟩, hlogged, fun h => h, fun e h => h⟩
      | ok c =>
        simp only [hdry, Bool.not_true, Bool.false_and, Bool.false_eq_true, if_false, Bool.not_false, Bool.true_and]
        refine ⟨?_, hlogged, fun _ => trivial, fun e h => by cases h⟩
        split
        · refine ⟨fun p hp => ?_, h.failures, by simp only; rw [h.changes], rfl⟩
          simp only
          rw [runOps_other _ _ p fun op hop => ?_]
          · exact hfiles p hp
          · rw [write_ops_path _ faults wr content ms op hop]
            exact fun e => hrest p hp e.symm
        · exact ⟨hfiles, h.failures, by simp only; rw [h.changes], rfl⟩

theorem all_same (r r' : Runner) (hdry : r.dryRun = true) (hr : r' = { r with dryRun := false }) (faults : Faults) (pairs : List (Str × Str))
    (hd : pairs.Pairwise (fun a b => b.1 ≠ a.2)) (s t : RunState) (h : SameSoFar (pairs.map Prod.fst) s t) :
    ((r'.rewriteFiles faults t pairs).2 = none →
      (r.rewriteFiles faults s pairs).2 = none ∧ SameSoFar [] (r.rewriteFiles faults s pairs).1 (r'.rewriteFiles faults t pairs).1 ∧
      r.prints faults s pairs = r'.prints faults t pairs ++ (if (r.rewriteFiles faults s pairs).1.hasChanges then dryRunNote else [])) ∧
    r'.prints faults t pairs <+: r.prints faults s pairs ∧
    (∀ e, (r.rewriteFiles faults s pairs).2 = some e → ∃ e', (r'.rewriteFiles faults t pairs).2 = some e') := by
  induction pairs generalizing s t with
  | nil =>
    have h0 : r'.dryRun = false := by rw [hr]
    simp only [Runner.rewriteFiles, Runner.prints, hdry, h0, Bool.and_true, Bool.and_false, Bool.false_eq_true, if_false, List.nil_append]
    exact ⟨fun _ => ⟨trivial, ⟨by simp, h.failures, h.changes, h.styles⟩, rfl⟩, List.nil_prefix, fun e he => by cases he⟩
  | cons p pairs ih =>
    rw [List.pairwise_cons] at hd
    obtain ⟨h1, h2, h3, h4⟩ := one_same r r' hdry hr faults s t p.1 p.2 (pairs.map Prod.fst) h
      (fun q hq => by obtain ⟨x, hx, rfl⟩ := List.mem_map.1 hq; exact hd.1 x hx)
    simp only [Runner.rewriteFiles, Runner.prints]
    cases hw : (r'.rewriteOne faults t p.1 p.2).2 with
    | some e =>
      simp only
      refine ⟨fun h => by simp at h, ?_, fun e' _ => ⟨e, rfl⟩⟩
      rw [h2, List.append_nil]
      exact List.prefix_append _ _
    | none =>
      simp only [h3 hw]
      obtain ⟨g1, g2, g3⟩ := ih hd.2 _ _ h1
      refine ⟨fun h => ?_, ?_, g3⟩
      · obtain ⟨k1, k2, k3⟩ := g1 h
        exact ⟨k1, k2, by rw [k3, h2, List.append_assoc]⟩
      · rw [h2]
        exact (List.prefix_append_right_inj _).2 g2

/-- **C108**. Two runs over the same files, one dry and one with `-i`, in which no file is read after it was written (so the files
are different ones): the output of the run with `-i` is the beginning of that of the dry run; and if the run with `-i` ends without an
exception then so does the dry run, with the same output but for the note at its end, and the same failures. -/
theorem C108_same_output (r : Runner) (hdry : r.dryRun = true) (faults : Faults) (fs : FS) (rs : RState) (pairs : List (Str × Str))
    (hd : pairs.Pairwise (fun a b => b.1 ≠ a.2)) :
    let dry := r.rewriteFiles faults (Runner.start fs rs) pairs
    let inPlace := Runner.rewriteFiles { r with dryRun := false } faults (Runner.start fs rs) pairs
    let shown := Runner.prints { r with dryRun := false } faults (Runner.start fs rs) pairs
    shown <+: r.prints faults (Runner.start fs rs) pairs ∧
    (inPlace.2 = none → dry.2 = none ∧ dry.1.failures = inPlace.1.failures ∧
      (r.prints faults (Runner.start fs rs) pairs = shown ∨ r.prints faults (Runner.start fs rs) pairs = shown ++ noteText)) := by
  obtain ⟨h1, h2, _⟩ := all_same r { r with dryRun := false } hdry rfl faults pairs hd (Runner.start fs rs) (Runner.start fs rs) ⟨fun _ _ => rfl, rfl, rfl, rfl⟩
  refine ⟨h2, fun h => ?_⟩
  obtain ⟨k1, k2, k3⟩ := h1 h
  refine ⟨k1, k2.failures, ?_⟩
  have hnote : dryRunNote = noteText := by decide
  rw [k3, hnote]
  split
  · exact .inr rfl
  · exact .inl (List.append_nil _)

/-- The two commands, without and with `-i`, run the same search and differ in whether they write. -/
theorem C108_command {T : Type} (w : World) (modes : Modes T) (o : Options) (r : Runner)
    (h : runnerFromOptions w modes { o with inPlace := false } = .ok r) :
    r.dryRun = true ∧ runnerFromOptions w modes { o with inPlace := true } = .ok { r with dryRun := false } := by
  unfold runnerFromOptions at h ⊢
  simp only at h ⊢
  split at h
  · cases h
  · rename_i ss hss
    split at h
    · cases h
    · rename_i s hs
      cases h
      exact ⟨rfl, rfl⟩

-- The files of this run are different ones; the run with `-i` shows the diff, the dry run the same diff and the note.
def drShow : Runner := { exShow with find := fun _ name => if name = exFail then .error .other else .ok [exFirst] }
def drPairs : List (Str × Str) := [(exFail, exFail), (exFile, exFile), (str "no", str "no")]
example : drShow.dryRun = true ∧ drPairs.Pairwise (fun a b => b.1 ≠ a.2) := by decide
example : (Runner.rewriteFiles { drShow with dryRun := false } exNoFaults (Runner.start (exFs "ab") {}) drPairs).2 = none ∧
    Runner.prints { drShow with dryRun := false } exNoFaults (Runner.start (exFs "ab") {}) drPairs = headerLine exFile ++ str "-ab\n+xb\n" := by decide
example : drShow.prints exNoFaults (Runner.start (exFs "ab") {}) drPairs = headerLine exFile ++ str "-ab\n+xb\n" ++ noteText := by decide
-- If a file is given twice then the second time the run with `-i` reads what it wrote, and shows another diff than the dry run.
example : Runner.prints { drShow with dryRun := false } exNoFaults (Runner.start (exFs "ab") {}) [(exFile, exFile), (exFile, exFile)] =
      headerLine exFile ++ str "-ab\n+xb\n" ++ headerLine exFile ++ str "-xb\n+xb\n" ∧
    drShow.prints exNoFaults (Runner.start (exFs "ab") {}) [(exFile, exFile), (exFile, exFile)] =
      headerLine exFile ++ str "-ab\n+xb\n" ++ headerLine exFile ++ str "-ab\n+xb\n" ++ noteText := by decide
example : ∃ r, runnerFromOptions exWorld exModes { exOptions with inPlace := false } = .ok r := ⟨_, rfl⟩

end Refex
