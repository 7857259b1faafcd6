import Verif.Props.DryRun
/-! # C109: files can be given in any order, and to several runs -/
namespace Refex
set_option autoImplicit false

theorem runOps_local (fs fs' : FS) (ops : List FsOp) (q : Str) (h : fs q = fs' q) : runOps fs ops q = runOps fs' ops q := by
  induction ops generalizing fs fs' with
  | nil => exact h
  | cons op ops ih =>
    refine ih _ _ ?_
    cases op with
    | truncate p => simp only [FsOp.run]; split <;> first | rfl | exact h
    | append p b =>
      simp only [FsOp.run]
      split
      · rename_i hq; rw [← hq, h]
      · exact h

/-- What the loop body makes of the contents of one file, if it does not raise. -/
def fileAfter (r : Runner) (faults : Faults) (q : Str) (old : Option Bytes) : Option Bytes :=
  match r.read faults (fun _ => old) q with
  | none => old
  | some c =>
    match r.getMatches c (r.shorten q) with
    | .error _ => old
    | .ok ms => if !r.dryRun && !ms.isEmpty then runOps (fun _ => old) (r.write faults q c ms).1 q else old

/-- What is recorded as failure of one file. -/
def failsWith (r : Runner) (faults : Faults) (q : Str) (old : Option Bytes) : Option Str :=
  match r.read faults (fun _ => old) q with
  | none => none
  | some c =>
    match r.getMatches c (r.shorten q) with
    | .error _ => some c
    | .ok _ => none

theorem read_local (r : Runner) (faults : Faults) (fs : FS) (q : Str) : r.read faults fs q = r.read faults (fun _ => fs q) q := rfl

theorem one_after (r : Runner) (faults : Faults) (s : RunState) (q : Str) (h : (r.rewriteOne faults s q q).2 = none) :
    (r.rewriteOne faults s q q).1.fs q = fileAfter r faults q (s.fs q) ∧ (∀ p, p ≠ q → (r.rewriteOne faults s q q).1.fs p = s.fs p) ∧
    ∀ k, (r.rewriteOne faults s q q).1.failures.get? k = if k = q then (failsWith r faults q (s.fs q)).or (s.failures.get? q) else s.failures.get? k := by
  unfold fileAfter failsWith
  rw [← read_local]
  unfold Runner.rewriteOne at h ⊢
  cases hr : r.read faults s.fs q with
  | none => exact ⟨rfl, fun _ _ => rfl, fun k => by simp only [Option.none_or]; split <;> simp_all⟩
  | some c =>
    rw [hr] at h
    simp only at h ⊢
    cases hm : r.getMatches c (r.shorten q) with
    | error e => exact ⟨rfl, fun _ _ => rfl, fun k => by simp only; rw [Dict.get?_set]; split <;> simp_all⟩
    | ok ms =>
      rw [hm] at h
      simp only at h ⊢
      cases hl : (r.logChanges s.rstate c ms).1 with
      | error e => rw [hl] at h; cases h
      | ok ch =>
        simp only
        split
        · refine ⟨runOps_local _ _ _ _ rfl, fun p hp => ?_, fun k => by simp only [Option.none_or]; split <;> simp_all⟩
          exact runOps_other _ _ p fun op hop => by rw [write_ops_path _ _ _ _ _ op hop]; exact fun e => hp e.symm
        · exact ⟨rfl, fun _ _ => rfl, fun k => by simp only [Option.none_or]; split <;> simp_all⟩

theorem run_after (r : Runner) (faults : Faults) (s : RunState) (paths : List Str) (hnd : paths.Nodup)
    (h : (r.rewriteFiles faults s (paths.map fun p => (p, p))).2 = none) (k : Str) :
    (r.rewriteFiles faults s (paths.map fun p => (p, p))).1.fs k = (if k ∈ paths then fileAfter r faults k (s.fs k) else s.fs k) ∧
    (r.rewriteFiles faults s (paths.map fun p => (p, p))).1.failures.get? k =
      if k ∈ paths then (failsWith r faults k (s.fs k)).or (s.failures.get? k) else s.failures.get? k := by
  induction paths generalizing s with
  | nil => exact ⟨by simp [Runner.rewriteFiles], by simp [Runner.rewriteFiles]⟩
  | cons q paths ih =>
    rw [List.nodup_cons] at hnd
    simp only [List.map_cons, Runner.rewriteFiles] at h ⊢
    cases hw : (r.rewriteOne faults s q q).2 with
    | some e => rw [hw] at h; cases h
    | none =>
      rw [hw] at h
      obtain ⟨h1, h2, h3⟩ := one_after r faults s q hw
      obtain ⟨g1, g2⟩ := ih _ hnd.2 h
      simp only
      rw [g1, g2, h3 k]
      by_cases hk : k = q
      · subst hk
        rw [if_neg hnd.1, if_neg hnd.1, if_pos (by simp), if_pos rfl, if_pos (by simp), h1]
        exact ⟨rfl, rfl⟩
      · rw [h2 k hk, if_neg hk]
        simp only [List.mem_cons, hk, false_or]
        exact ⟨trivial, trivial⟩

/-- **C109**. Two runs over the same files in different orders (each file listed once) that end without an exception leave every file
with the same content, and record the same files as failed, with the same contents. -/
theorem C109_order (r : Runner) (faults : Faults) (fs : FS) (rs rs' : RState) (paths paths' : List Str) (hnd : paths.Nodup) (hp : paths.Perm paths')
    (h : (r.rewriteFiles faults (Runner.start fs rs) (paths.map fun p => (p, p))).2 = none)
    (h' : (r.rewriteFiles faults (Runner.start fs rs') (paths'.map fun p => (p, p))).2 = none) (k : Str) :
    (r.rewriteFiles faults (Runner.start fs rs) (paths.map fun p => (p, p))).1.fs k =
      (r.rewriteFiles faults (Runner.start fs rs') (paths'.map fun p => (p, p))).1.fs k ∧
    (r.rewriteFiles faults (Runner.start fs rs) (paths.map fun p => (p, p))).1.failures.get? k =
      (r.rewriteFiles faults (Runner.start fs rs') (paths'.map fun p => (p, p))).1.failures.get? k := by
  obtain ⟨a1, a2⟩ := run_after r faults _ paths hnd h k
  obtain ⟨b1, b2⟩ := run_after r faults _ paths' (hp.nodup_iff.1 hnd) h' k
  have hm : k ∈ paths ↔ k ∈ paths' := hp.mem_iff
  rw [a1, a2, b1, b2]
  simp only [hm]
  exact ⟨rfl, rfl⟩

/-- **C109**. One run over some files and a second run over other files leave every file as one run over all of them does. -/
theorem C109_two_runs (r : Runner) (faults : Faults) (fs : FS) (rs rs' rs'' : RState) (paths more : List Str) (hnd : (paths ++ more).Nodup)
    (first : FS) (hf : first = (r.rewriteFiles faults (Runner.start fs rs) (paths.map fun p => (p, p))).1.fs)
    (h : (r.rewriteFiles faults (Runner.start fs rs) (paths.map fun p => (p, p))).2 = none)
    (h' : (r.rewriteFiles faults (Runner.start first rs') (more.map fun p => (p, p))).2 = none)
    (h'' : (r.rewriteFiles faults (Runner.start fs rs'') ((paths ++ more).map fun p => (p, p))).2 = none) (k : Str) :
    (r.rewriteFiles faults (Runner.start first rs') (more.map fun p => (p, p))).1.fs k =
      (r.rewriteFiles faults (Runner.start fs rs'') ((paths ++ more).map fun p => (p, p))).1.fs k := by
  rw [List.nodup_append] at hnd
  have a1 := (run_after r faults _ paths hnd.1 h k).1
  have b1 := (run_after r faults _ more hnd.2.1 h' k).1
  have c1 := (run_after r faults _ (paths ++ more) (List.nodup_append.2 hnd) h'' k).1
  rw [← hf] at a1
  rw [b1, c1]
  simp only [Runner.start] at a1 ⊢
  rw [a1]
  by_cases hk : k ∈ paths
  · have : k ∉ more := fun hm => hnd.2.2 k hk k hm rfl
    simp [hk, this]
  · simp [hk]

theorem mainRun_fs {T : Type} (w : World) (modes : Modes T) (o : Options) (dirAt : Str → Option Entry) (faults : Faults) (fs : FS) (rs : RState) (r : Runner)
    (hr : runnerFromOptions w modes o = .ok r) :
    (mainRun w modes o dirAt faults fs rs).fs = (r.rewriteFiles faults (Runner.start fs rs) (filesFromOptions dirAt o.recursive o.files)).1.fs := by
  unfold mainRun
  rw [hr]
  simp only
  rw [show ({ fs := fs, rstate := rs } : RunState) = Runner.start fs rs from rfl]
  cases (r.rewriteFiles faults (Runner.start fs rs) (filesFromOptions dirAt o.recursive o.files)).2 <;> rfl

/-- **C109**, for the command: the names of the files can be given in any order. -/
theorem C109_command {T : Type} (w : World) (modes : Modes T) (o : Options) (dirAt : Str → Option Entry) (faults : Faults) (fs : FS) (rs rs' : RState)
    (files paths paths' : List Str) (hnd : paths.Nodup) (hp : paths.Perm paths')
    (hpaths : filesFromOptions dirAt o.recursive o.files = paths.map fun p => (p, p))
    (hpaths' : filesFromOptions dirAt o.recursive files = paths'.map fun p => (p, p))
    (h : (mainRun w modes o dirAt faults fs rs).status = 0) (h' : (mainRun w modes { o with files := files } dirAt faults fs rs').status = 0) (k : Str) :
    (mainRun w modes o dirAt faults fs rs).fs k = (mainRun w modes { o with files := files } dirAt faults fs rs').fs k := by
  obtain ⟨r, hr, e⟩ := (C70_status w modes o dirAt faults fs rs).2.1.1 h
  obtain ⟨r', hr', e'⟩ := (C70_status w modes { o with files := files } dirAt faults fs rs').2.1.1 h'
  have hsame : runnerFromOptions w modes { o with files := files } = runnerFromOptions w modes o := rfl
  rw [hsame, hr] at hr'
  cases hr'
  have e1 := mainRun_fs w modes o dirAt faults fs rs r hr
  have e2 := mainRun_fs w modes { o with files := files } dirAt faults fs rs' r hr
  simp only at e' e2
  rw [hpaths] at e e1
  rw [hpaths'] at e' e2
  rw [e1, e2]
  exact (C109_order r faults fs rs rs' paths paths' hnd hp e e' k).1

-- Three files in two orders: the runs end normally, and the file is rewritten.
example : drPairs = [exFail, exFile, str "no"].map (fun p => (p, p)) ∧ [exFail, exFile, str "no"].Nodup ∧
    [exFail, exFile, str "no"].Perm [str "no", exFile, exFail] := ⟨rfl, by decide, by decide⟩
example : (Runner.rewriteFiles { drShow with dryRun := false } exNoFaults (Runner.start (exFs "ab") {}) ([exFail, exFile, str "no"].map fun p => (p, p))).2 = none ∧
    (Runner.rewriteFiles { drShow with dryRun := false } exNoFaults (Runner.start (exFs "ab") {}) ([str "no", exFile, exFail].map fun p => (p, p))).2 = none ∧
    (Runner.rewriteFiles { drShow with dryRun := false } exNoFaults (Runner.start (exFs "ab") {}) ([exFail, exFile, str "no"].map fun p => (p, p))).1.fs exFile =
      some (exBytes "xb") := by decide
example : (mainRun exWorld exModes { exOptions with files := [str "no", exFile] } (fun _ => none) exNoFaults (exFs "ab") {}).status = 0 ∧
    (mainRun exWorld exModes { exOptions with files := [exFile, str "no"] } (fun _ => none) exNoFaults (exFs "ab") {}).status = 0 ∧
    filesFromOptions (fun _ => none) exOptions.recursive [exFile, str "no"] = [exFile, str "no"].map (fun p => (p, p)) := by decide

end Refex
