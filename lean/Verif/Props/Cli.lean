import Verif.Spec.Options
import Verif.Props.Apply
import Verif.Lemmas.Dict
/-
C32-C36, C58: running refex on files; options.
-/
namespace Refex
set_option autoImplicit false

/-- The state `rewrite_files` starts with. -/
def Runner.start (fs : FS) (rs : RState) : RunState := { fs := fs, rstate := rs }

theorem runOps_append (fs : FS) (a b : List FsOp) : runOps fs (a ++ b) = runOps (runOps fs a) b := by
  simp [runOps]

/-! ### C32 -/

/-- C32: a dry run touches no file, whatever is found and whatever fails. -/
theorem C32_dry_run (r : Runner) (hdry : r.dryRun = true) (faults : Faults) (fs : FS) (rs : RState)
    (pairs : List (Str × Str)) :
    (r.rewriteFiles faults (Runner.start fs rs) pairs).1.ops = [] ∧
    (r.rewriteFiles faults (Runner.start fs rs) pairs).1.fs = fs := by
  have one : ∀ s rd wr, (r.rewriteOne faults s rd wr).1.ops = s.ops ∧ (r.rewriteOne faults s rd wr).1.fs = s.fs := by
    intro s rd wr
    unfold Runner.rewriteOne
    split
    · exact ⟨rfl, rfl⟩
    · split
      · exact ⟨rfl, rfl⟩
      · simp only [hdry, Bool.not_true, Bool.false_and, Bool.false_eq_true, if_false]
        split <;> exact ⟨rfl, rfl⟩
  have all : ∀ pairs s, (r.rewriteFiles faults s pairs).1.ops = s.ops ∧ (r.rewriteFiles faults s pairs).1.fs = s.fs := by
    intro pairs
    induction pairs with
    | nil => exact fun s => ⟨rfl, rfl⟩
    | cons p pairs ih =>
      intro s
      have h := one s p.1 p.2
      simp only [Runner.rewriteFiles]
      split
      · exact h
      · have := ih (r.rewriteOne faults s p.1 p.2).1
        exact ⟨this.1.trans h.1, this.2.trans h.2⟩
  exact all pairs _

/-- The operations one iteration adds. -/
theorem rewriteOne_ops (r : Runner) (faults : Faults) (s : RunState) (rd wr : Str) :
    ∃ new, (r.rewriteOne faults s rd wr).1.ops = s.ops ++ new ∧ (r.rewriteOne faults s rd wr).1.fs = runOps s.fs new ∧
      (new ≠ [] → ∃ content ms, r.read faults s.fs rd = some content ∧ r.find content (r.shorten wr) = .ok ms ∧ ms ≠ [] ∧
        new = (r.write faults wr content ms).1 ∧ (r.rewriteOne faults s rd wr).2 = (r.write faults wr content ms).2) := by
  unfold Runner.rewriteOne
  split
  · exact ⟨[], by simp, rfl, by simp⟩
  · rename_i content hread
    split
    · exact ⟨[], by simp, rfl, by simp⟩
    · rename_i ms hms
      simp only
      split
      · exact ⟨[], by simp, rfl, by simp⟩
      · split
        · rename_i hw
          refine ⟨(r.write faults wr content ms).1, rfl, rfl, fun _ => ⟨content, ms, hread, ?_, ?_, rfl, rfl⟩⟩
          · unfold Runner.getMatches at hms
            simp only [Bool.and_eq_true, Bool.not_eq_true', List.isEmpty_eq_false_iff] at hw
            split at hms
            · rename_i h; simp only [Except.ok.injEq] at hms; rw [h, hms]
            · simp only [Except.ok.injEq] at hms; exact absurd hms.symm hw.2
            · simp only [Except.ok.injEq] at hms; exact absurd hms.symm hw.2
            · cases hms
          · simp only [Bool.and_eq_true, Bool.not_eq_true', List.isEmpty_eq_false_iff] at hw
            exact hw.2
        · exact ⟨[], by simp, rfl, by simp⟩

theorem write_ops_path (r : Runner) (faults : Faults) (p d : Str) (ms : List Substitution) :
    ∀ op ∈ (r.write faults p d ms).1, op.path = p := by
  unfold Runner.write
  intro op hop
  split at hop
  · simp at hop
  · split at hop
    · simp only [List.mem_singleton] at hop; rw [hop]; rfl
    · split at hop
      · simp only [List.mem_singleton] at hop; rw [hop]; rfl
      · split at hop <;>
        · simp only [List.mem_cons, List.not_mem_nil, or_false] at hop
          rcases hop with rfl | rfl <;> rfl

/-- C32, writing runs: the only files touched are the write paths of files in which something was found. -/
theorem C32_only_files_with_matches (r : Runner) (faults : Faults) (fs : FS) (rs : RState) (pairs : List (Str × Str)) :
    ∀ op ∈ (r.rewriteFiles faults (Runner.start fs rs) pairs).1.ops,
      ∃ p ∈ pairs, op.path = p.2 ∧ ∃ content ms, r.find content (r.shorten p.2) = .ok ms ∧ ms ≠ [] := by
  have all : ∀ pairs s, ∀ op ∈ (r.rewriteFiles faults s pairs).1.ops, op ∈ s.ops ∨
      ∃ p ∈ pairs, op.path = p.2 ∧ ∃ content ms, r.find content (r.shorten p.2) = .ok ms ∧ ms ≠ [] := by
    intro pairs
    induction pairs with
    | nil => exact fun s op h => .inl h
    | cons p pairs ih =>
      intro s op hop
      obtain ⟨new, h1, _, h3⟩ := rewriteOne_ops r faults s p.1 p.2
      have here : op ∈ (r.rewriteOne faults s p.1 p.2).1.ops → op ∈ s.ops ∨
          ∃ q ∈ p :: pairs, op.path = q.2 ∧ ∃ content ms, r.find content (r.shorten q.2) = .ok ms ∧ ms ≠ [] := by
        intro h
        rw [h1] at h
        rcases List.mem_append.1 h with h | h
        · exact .inl h
        · obtain ⟨c, ms, _, hf, hne, hn, _⟩ := h3 (List.ne_nil_of_mem h)
          exact .inr ⟨p, by simp, write_ops_path r faults p.2 c ms op (hn ▸ h), c, ms, hf, hne⟩
      simp only [Runner.rewriteFiles] at hop
      split at hop
      · exact here hop
      · rcases ih _ op hop with h | ⟨q, hq, h⟩
        · exact here h
        · exact .inr ⟨q, by simp [hq], h⟩
  intro op hop
  rcases all pairs _ op hop with h | h
  · simp [Runner.start] at h
  · exact h

/-! ### C33 -/

theorem rewriteFiles_append (r : Runner) (faults : Faults) (s : RunState) (a b : List (Str × Str)) :
    r.rewriteFiles faults s (a ++ b) =
      match (r.rewriteFiles faults s a).2 with
      | some e => ((r.rewriteFiles faults s a).1, some e)
      | none => r.rewriteFiles faults (r.rewriteFiles faults s a).1 b := by
  induction a generalizing s with
  | nil => rfl
  | cons p a ih =>
    simp only [List.cons_append, Runner.rewriteFiles]
    split
    · rename_i e he; simp
    · rename_i he; rw [ih]

/-- Everything but the recorded failures. -/
structure SameButFailures (s t : RunState) : Prop where
  fs : s.fs = t.fs
  ops : s.ops = t.ops
  hasChanges : s.hasChanges = t.hasChanges
  rstate : s.rstate = t.rstate

theorem rewriteOne_same (r : Runner) (faults : Faults) {s t : RunState} (h : SameButFailures s t) (rd wr : Str) :
    SameButFailures (r.rewriteOne faults s rd wr).1 (r.rewriteOne faults t rd wr).1 ∧
    (r.rewriteOne faults s rd wr).2 = (r.rewriteOne faults t rd wr).2 ∧
    ((∃ c, (r.rewriteOne faults s rd wr).1.failures = s.failures.set rd c ∧
        (r.rewriteOne faults t rd wr).1.failures = t.failures.set rd c) ∨
      ((r.rewriteOne faults s rd wr).1.failures = s.failures ∧ (r.rewriteOne faults t rd wr).1.failures = t.failures)) := by
  obtain ⟨h1, h2, h3, h4⟩ := h
  unfold Runner.rewriteOne
  rw [h1, h4, h3, h2]
  split
  · exact ⟨⟨h1, h2, h3, h4⟩, rfl, .inr ⟨rfl, rfl⟩⟩
  · rename_i content _
    split
    · exact ⟨⟨rfl, rfl, rfl, rfl⟩, rfl, .inl ⟨content, rfl, rfl⟩⟩
    · simp only
      split
      · exact ⟨⟨rfl, rfl, rfl, rfl⟩, rfl, .inr ⟨rfl, rfl⟩⟩
      · split
        · exact ⟨⟨rfl, rfl, rfl, rfl⟩, rfl, .inr ⟨rfl, rfl⟩⟩
        · exact ⟨⟨rfl, rfl, rfl, rfl⟩, rfl, .inr ⟨rfl, rfl⟩⟩

theorem rewriteFiles_same (r : Runner) (faults : Faults) (pairs : List (Str × Str)) {s t : RunState}
    (h : SameButFailures s t) (x c : Str) (hx : x ∉ pairs.map Prod.fst)
    (hf : ∀ k, s.failures.get? k = if k = x then some c else t.failures.get? k) :
    SameButFailures (r.rewriteFiles faults s pairs).1 (r.rewriteFiles faults t pairs).1 ∧
    (r.rewriteFiles faults s pairs).2 = (r.rewriteFiles faults t pairs).2 ∧
    ∀ k, (r.rewriteFiles faults s pairs).1.failures.get? k =
      if k = x then some c else (r.rewriteFiles faults t pairs).1.failures.get? k := by
  induction pairs generalizing s t with
  | nil => exact ⟨h, rfl, hf⟩
  | cons p pairs ih =>
    obtain ⟨h1, h2, h3⟩ := rewriteOne_same r faults h p.1 p.2
    simp only [List.map_cons, List.mem_cons, not_or] at hx
    have hf' : ∀ k, (r.rewriteOne faults s p.1 p.2).1.failures.get? k =
        if k = x then some c else (r.rewriteOne faults t p.1 p.2).1.failures.get? k := by
      intro k
      rcases h3 with ⟨c', e1, e2⟩ | ⟨e1, e2⟩
      · rw [e1, e2, Dict.get?_set, Dict.get?_set, hf]
        by_cases hk : k = x
        · simp [hk, hx.1]
        · simp [hk]
      · rw [e1, e2, hf]
    simp only [Runner.rewriteFiles]
    rw [h2]
    split
    · exact ⟨h1, rfl, hf'⟩
    · exact ih h1 hx.2 hf'

/-- C33: a file whose search fails (with anything but the two skip exceptions) is recorded as a failure; all other files are
processed exactly as if it were not in the list. -/
theorem C33_failure_isolated (r : Runner) (faults : Faults) (fs : FS) (rs : RState) (pre post : List (Str × Str))
    (rd wr content : Str) (e : Exc) (hpost : rd ∉ post.map Prod.fst)
    (hread : r.read faults (r.rewriteFiles faults (Runner.start fs rs) pre).1.fs rd = some content)
    (hfind : r.find content (r.shorten wr) = .error e) (he : e ≠ .skipFile ∧ e ≠ .skipNoResults)
    (hreach : (r.rewriteFiles faults (Runner.start fs rs) pre).2 = none) :
    let with_ := r.rewriteFiles faults (Runner.start fs rs) (pre ++ (rd, wr) :: post)
    let without := r.rewriteFiles faults (Runner.start fs rs) (pre ++ post)
    with_.1.fs = without.1.fs ∧ with_.1.ops = without.1.ops ∧ with_.1.hasChanges = without.1.hasChanges ∧
      with_.2 = without.2 ∧
      ∀ k, with_.1.failures.get? k = if k = rd then some content else without.1.failures.get? k := by
  intro with_ without
  have hone : r.rewriteOne faults (r.rewriteFiles faults (Runner.start fs rs) pre).1 rd wr =
      ({ (r.rewriteFiles faults (Runner.start fs rs) pre).1 with
          failures := (r.rewriteFiles faults (Runner.start fs rs) pre).1.failures.set rd content }, none) := by
    unfold Runner.rewriteOne
    rw [hread]
    simp only
    have : r.getMatches content (r.shorten wr) = .error e := by
      unfold Runner.getMatches; rw [hfind]
      cases e <;> simp_all
    rw [this]
  have e1 : with_ = r.rewriteFiles faults { (r.rewriteFiles faults (Runner.start fs rs) pre).1 with
          failures := (r.rewriteFiles faults (Runner.start fs rs) pre).1.failures.set rd content } post := by
    show r.rewriteFiles faults (Runner.start fs rs) (pre ++ (rd, wr) :: post) = _
    rw [rewriteFiles_append, hreach]
    simp only [Runner.rewriteFiles, hone]
  have e2 : without = r.rewriteFiles faults (r.rewriteFiles faults (Runner.start fs rs) pre).1 post := by
    show r.rewriteFiles faults (Runner.start fs rs) (pre ++ post) = _
    rw [rewriteFiles_append, hreach]
  obtain ⟨h1, h2, h3⟩ := rewriteFiles_same r faults post
    (s := { (r.rewriteFiles faults (Runner.start fs rs) pre).1 with
          failures := (r.rewriteFiles faults (Runner.start fs rs) pre).1.failures.set rd content })
    (t := (r.rewriteFiles faults (Runner.start fs rs) pre).1) ⟨rfl, rfl, rfl, rfl⟩ rd content hpost
    (fun k => by simp only [Dict.get?_set])
  rw [e1, e2]
  exact ⟨h1.fs, h1.ops, h1.hasChanges, h2, h3⟩

/-- C33: a file that cannot be read, or whose search asks for it to be skipped, changes nothing at all. -/
theorem C33_skipped_file (r : Runner) (faults : Faults) (fs : FS) (rs : RState) (pre post : List (Str × Str)) (rd wr : Str)
    (h : ∀ content, r.read faults (r.rewriteFiles faults (Runner.start fs rs) pre).1.fs rd = some content →
      r.find content (r.shorten wr) = .error .skipFile ∨ r.find content (r.shorten wr) = .error .skipNoResults) :
    r.rewriteFiles faults (Runner.start fs rs) (pre ++ (rd, wr) :: post) =
      r.rewriteFiles faults (Runner.start fs rs) (pre ++ post) := by
  rw [rewriteFiles_append, rewriteFiles_append]
  split
  · rfl
  · rename_i hn
    have hone : r.rewriteOne faults (r.rewriteFiles faults (Runner.start fs rs) pre).1 rd wr =
        ((r.rewriteFiles faults (Runner.start fs rs) pre).1, none) := by
      unfold Runner.rewriteOne
      split
      · rfl
      · rename_i content hc
        have : r.getMatches content (r.shorten wr) = .ok [] := by
          unfold Runner.getMatches
          rcases h content hc with h | h <;> rw [h]
        rw [this]
        simp [Runner.logChanges]
    simp only [Runner.rewriteFiles, hone]

/-! ### C34 -/

/-- `b` is the complete new content of the file `q`: what was found in it is applied to its text, and the result is encoded. -/
def Rewritten (r : Runner) (faults : Faults) (fs : FS) (q : Str) (b : Bytes) : Prop :=
  ∃ content ms out, r.read faults fs q = some content ∧ r.find content (r.shorten q) = .ok ms ∧ ms ≠ [] ∧
    applySubstitutions content ms = .ok out ∧ r.enc.encode out = some b

theorem runOps_other (fs : FS) (ops : List FsOp) (q : Str) (h : ∀ op ∈ ops, op.path ≠ q) : runOps fs ops q = fs q := by
  induction ops generalizing fs with
  | nil => rfl
  | cons op ops ih =>
    have : runOps fs (op :: ops) = runOps (op.run fs) ops := rfl
    rw [this, ih _ fun o ho => h o (by simp [ho])]
    have := h op (by simp)
    cases op <;> simp only [FsOp.path] at this <;> simp only [FsOp.run] <;> rw [if_neg fun e : q = _ => this e.symm]

theorem read_congr (r : Runner) (faults : Faults) (fs fs' : FS) (q : Str) (h : fs q = fs' q) :
    r.read faults fs q = r.read faults fs' q := by
  unfold Runner.read; rw [h]

/-- C34, for runs that are not interrupted: if what is found can always be applied and encoded, and the operating system reports
no error in the middle of a write, then in the end (whether `rewrite_files` returns or raises) every file has its old or its
complete new content. The files are rewritten in place, each listed once.
For interrupted runs, failing writes and matches that cannot be applied see below and `C34_stopped`. -/
theorem C34_old_or_new (r : Runner) (faults : Faults) (fs : FS) (rs : RState) (paths : List Str)
    (hnd : paths.Nodup) (hnofault : ∀ p, faults.write p = none)
    (happly : ∀ content name ms, r.find content name = .ok ms →
      ∃ out b, applySubstitutions content ms = .ok out ∧ r.enc.encode out = some b) (q : Str) :
    let final := (r.rewriteFiles faults (Runner.start fs rs) (paths.map fun p => (p, p))).1.fs
    final q = fs q ∨ ∃ b, final q = some b ∧ Rewritten r faults fs q b := by
  intro final
  have all : ∀ (paths : List Str), paths.Nodup → ∀ s : RunState, (∀ p ∈ paths, s.fs p = fs p) →
      let t := (r.rewriteFiles faults s (paths.map fun p => (p, p))).1
      t.fs q = s.fs q ∨ ∃ b, t.fs q = some b ∧ Rewritten r faults fs q b := by
    intro paths
    induction paths with
    | nil => exact fun _ s _ => .inl rfl
    | cons p paths ih =>
      intro hnd s hs
      rw [List.nodup_cons] at hnd
      obtain ⟨new, _, h2, h3⟩ := rewriteOne_ops r faults s p p
      have hpath : ∀ op ∈ new, op.path = p := fun op hop => by
        obtain ⟨c, ms, _, _, _, hn, _⟩ := h3 (List.ne_nil_of_mem hop)
        exact write_ops_path r faults p c ms op (hn ▸ hop)
      have hother : ∀ x, x ≠ p → (r.rewriteOne faults s p p).1.fs x = s.fs x := fun x hx => by
        rw [h2]; exact runOps_other _ _ _ fun op hop e => hx (e ▸ hpath op hop)
      have hone : (r.rewriteOne faults s p p).1.fs q = s.fs q ∨
          ∃ b, (r.rewriteOne faults s p p).1.fs q = some b ∧ Rewritten r faults fs q b := by
        by_cases hq : q = p
        · subst hq
          by_cases hn : new = []
          · left; rw [h2, hn]; rfl
          · obtain ⟨c, ms, hread, hfind, hne, hnew, _⟩ := h3 hn
            obtain ⟨out, b, ha, hb⟩ := happly c _ ms hfind
            unfold Runner.write at hnew
            split at hnew
            · exact absurd hnew hn
            · rw [ha] at hnew
              simp only [hb, hnofault] at hnew
              right
              refine ⟨b, ?_, c, ms, out, ?_, hfind, hne, ha, hb⟩
              · rw [h2, hnew]; simp [runOps, FsOp.run]
              · rw [← hread]; exact read_congr r faults _ _ _ (hs q (by simp)).symm
        · exact .inl (hother q hq)
      simp only [List.map_cons, Runner.rewriteFiles]
      split
      · exact hone
      · rcases ih hnd.2 (r.rewriteOne faults s p p).1 (fun x hx => by
          rw [hother x (fun e => hnd.1 (e ▸ hx))]; exact hs x (by simp [hx])) with h | h
        · rcases hone with h' | ⟨b, h', hb⟩
          · exact .inl (h.trans h')
          · exact .inr ⟨b, h.trans h', hb⟩
        · exact .inr h
  exact all paths hnd _ (fun _ _ => rfl)

/-! An example: ASCII files, and a searcher that replaces the first character. -/

/-- ASCII. -/
def exAscii : Encoding where
  decode b := if b.all (fun x => decide (x < 128)) then some (b.map fun x => Char.ofNat x.toNat) else none
  encode s := if s.all (fun c => decide (c.toNat < 128)) then some (s.map fun c => UInt8.ofNat c.toNat) else none

theorem exAscii_round_trip : ∀ s x, exAscii.encode s = some x → exAscii.decode x = some s := by
  intro s x hx
  simp only [exAscii] at hx ⊢
  split at hx
  · rename_i hall
    simp only [Option.some.injEq] at hx
    subst hx
    rw [List.all_eq_true] at hall
    have hlt : ∀ c ∈ s, c.toNat < 128 := fun c hc => by simpa using hall c hc
    have h1 : (s.map fun c => UInt8.ofNat c.toNat).all (fun x => decide (x < 128)) = true := by
      rw [List.all_eq_true]
      intro x hx
      obtain ⟨c, hc, rfl⟩ := List.mem_map.1 hx
      have := hlt c hc
      simp only [decide_eq_true_eq, UInt8.lt_iff_toNat_lt, UInt8.toNat_ofNat']
      show c.toNat % 256 < 128
      omega
    rw [if_pos h1, Option.some.injEq, List.map_map]
    have : ∀ c ∈ s, ((fun x : UInt8 => Char.ofNat x.toNat) ∘ fun c : Char => UInt8.ofNat c.toNat) c = c := by
      intro c hc
      have := hlt c hc
      simp only [Function.comp_apply, UInt8.toNat_ofNat']
      rw [Nat.mod_eq_of_lt (by omega)]
      exact Char.ofNat_toNat c
    exact (List.map_congr_left this).trans (List.map_id' s)
  · cases hx

def exNoFaults : Faults := ⟨fun _ => false, fun _ => false, fun _ => none⟩

def exPal : Palette := ⟨[], [], [], [], [], fun _ => []⟩

/-- Replace the first character by `x`. -/
def exFirst : Substitution :=
  { matchedSpans := [(str "r", (0, 1))], primaryLabel := str "r", replacements := some [(str "r", str "x")] }

/-- Two labels that overlap, both replaced, as with nested bound names and two --named-sub. -/
def exOverlap : Substitution :=
  { matchedSpans := [(str "r", (0, 2)), (str "s", (1, 2))], primaryLabel := str "r",
    replacements := some [(str "r", str "x"), (str "s", str "y")] }

def exFail : Str := str "bad"

/-- A runner that finds `sub` in every file, except that searching `bad` fails; it lists files (`-l`) and writes (`-i`). -/
def exRunner (sub : Substitution) : Runner where
  find := fun _ name => if name = exFail then .error .other else .ok [sub]
  palette := exPal
  color := false
  format := defaultFormat
  sep := []
  dryRun := false
  showDiff := false
  showFiles := true
  enc := exAscii
  shorten := id

def exFile : Str := str "a.py"
def exBytes (s : String) : Bytes := s.toList.map fun c => UInt8.ofNat c.toNat
def exFs (s : String) : FS := fun p => if p = exFile ∨ p = exFail then some (exBytes s) else none

-- a run over a failing and a good file
example : ((exRunner exFirst).rewriteFiles exNoFaults (Runner.start (exFs "ab") {}) [(exFail, exFail), (exFile, exFile)]).1.fs exFile =
    some (exBytes "xb") := by decide
example : ((exRunner exFirst).rewriteFiles exNoFaults (Runner.start (exFs "ab") {}) [(exFail, exFail), (exFile, exFile)]).1.failures =
    [(exFail, str "ab")] := by decide
example : ((exRunner exFirst).rewriteFiles exNoFaults (Runner.start (exFs "ab") {}) [(exFile, exFile)]).1.ops =
    [.truncate exFile, .append exFile (exBytes "xb")] := by decide
-- the same as a dry run
example : ({ exRunner exFirst with dryRun := true }.rewriteFiles exNoFaults (Runner.start (exFs "ab") {})
    [(exFile, exFile)]).1.fs exFile = some (exBytes "ab") := by decide

/-- C34 is false when the substitutions found cannot be applied: the file was already emptied when `apply_substitutions` raises.
There is no fault of the operating system and no interruption. -/
theorem C34_not_applicable_false :
    ¬ ∀ (r : Runner) (fs : FS) (rs : RState) (paths : List Str) (q : Str), paths.Nodup →
      let final := (r.rewriteFiles exNoFaults (Runner.start fs rs) (paths.map fun p => (p, p))).1.fs
      final q = fs q ∨ ∃ b, final q = some b ∧ Rewritten r exNoFaults fs q b := by
  intro h
  have hf : ((exRunner exOverlap).rewriteFiles exNoFaults (Runner.start (exFs "ab") {})
    ([exFile].map fun p => (p, p))).1.fs exFile = some [] := by decide
  rcases h (exRunner exOverlap) (exFs "ab") {} [exFile] exFile (by decide) with h | ⟨b, h1, c, ms, out, hread, hfind, _, ha, hb⟩
  · rw [hf] at h; exact absurd h (by decide)
  · have hc : (exRunner exOverlap).read exNoFaults (exFs "ab") exFile = some (str "ab") := by decide
    rw [hc, Option.some.injEq] at hread
    have hm : (exRunner exOverlap).find (str "ab") ((exRunner exOverlap).shorten exFile) = .ok [exOverlap] := by decide
    rw [← hread, hm, Except.ok.injEq] at hfind
    rw [← hread, ← hfind] at ha
    exact absurd ha (by
      have : applySubstitutions (str "ab") [exOverlap] = .error .valueError := by decide
      rw [this]; simp)

/-- C34 is false for interrupted runs, even when everything could be applied: between emptying the file and writing it, its content
is lost. -/
theorem C34_interrupted_false :
    ¬ ∀ (r : Runner) (fs : FS) (rs : RState) (paths : List Str) (q : Str) (n : Nat), paths.Nodup →
      (∀ content name ms, r.find content name = .ok ms → ∀ sub ∈ ms, sub = exFirst) →
      let crashed := runOps fs ((r.rewriteFiles exNoFaults (Runner.start fs rs) (paths.map fun p => (p, p))).1.ops.take n)
      crashed q = fs q ∨ ∃ b, crashed q = some b ∧ Rewritten r exNoFaults fs q b := by
  intro h
  have hf : runOps (exFs "ab") (((exRunner exFirst).rewriteFiles exNoFaults (Runner.start (exFs "ab") {})
    ([exFile].map fun p => (p, p))).1.ops.take 1) exFile = some [] := by decide
  have hfirst : ∀ content name ms, (exRunner exFirst).find content name = .ok ms → ∀ sub ∈ ms, sub = exFirst := by
    intro content name ms hms sub hsub
    simp only [exRunner] at hms
    split at hms
    · cases hms
    · simp only [Except.ok.injEq] at hms; rw [← hms] at hsub; simpa using hsub
  rcases h (exRunner exFirst) (exFs "ab") {} [exFile] exFile 1 (by decide) hfirst with
    h | ⟨b, h1, c, ms, out, hread, hfind, _, ha, hb⟩
  · rw [hf] at h; exact absurd h (by decide)
  · rw [hf, Option.some.injEq] at h1
    have hc : (exRunner exFirst).read exNoFaults (exFs "ab") exFile = some (str "ab") := by decide
    rw [hc, Option.some.injEq] at hread
    have hm : (exRunner exFirst).find (str "ab") ((exRunner exFirst).shorten exFile) = .ok [exFirst] := by decide
    rw [← hread, hm, Except.ok.injEq] at hfind
    have hr : applySubstitutions (str "ab") [exFirst] = .ok (str "xb") := by decide
    rw [← hread, ← hfind, hr, Except.ok.injEq] at ha
    rw [← ha, ← h1] at hb
    exact absurd hb (by decide)

/-! ### C35 -/

theorem universalNewlines_id (s : Str) (h : '\r' ∉ s) : universalNewlines s = s := by
  fun_induction universalNewlines s with
  | case1 => rfl
  | case2 s ih => simp at h
  | case3 s _ ih => simp at h
  | case4 c s _ _ ih =>
    simp only [List.mem_cons, not_or] at h
    rw [ih h.2]

/-- C35, in general: the new content is the old text with its line ends normalised and the edits spliced in. The spans found lie in
the text. -/
theorem C35_normalised (r : Runner) (faults : Faults) (fs : FS) (q : Str) (b b' : Bytes) (t : Str)
    (hrt : ∀ s x, r.enc.encode s = some x → r.enc.decode x = some s)
    (hold : fs q = some b) (hdec : r.enc.decode b = some t)
    (hspans : ∀ content ms, r.find content (r.shorten q) = .ok ms → ∀ e ∈ allEdits ms, e.stop ≤ content.length)
    (hnew : Rewritten r faults fs q b') :
    ∃ ms es out, r.find (universalNewlines t) (r.shorten q) = .ok ms ∧ es.Perm (allEdits ms) ∧ r.enc.decode b' = some out ∧
      Spliced 0 (universalNewlines t) es out := by
  obtain ⟨content, ms, out, hread, hfind, _, ha, hb⟩ := hnew
  have hc : content = universalNewlines t := by
    unfold Runner.read at hread
    split at hread
    · cases hread
    · simp only [hold, Option.bind_some, hdec, Option.map_some, Option.some.injEq] at hread
      exact hread.symm
  subst hc
  obtain ⟨es, h1, h2⟩ := C01_apply_splices _ ms out (hspans _ ms hfind) ha
  exact ⟨ms, es, out, hfind, h1, hrt _ _ hb, h2⟩

/-- C35 for files without carriage returns: the new content is the old text with the edits spliced in, nothing else changes. -/
theorem C35_no_cr (r : Runner) (faults : Faults) (fs : FS) (q : Str) (b b' : Bytes) (t : Str)
    (hrt : ∀ s x, r.enc.encode s = some x → r.enc.decode x = some s)
    (hold : fs q = some b) (hdec : r.enc.decode b = some t) (hcr : '\r' ∉ t)
    (hspans : ∀ content ms, r.find content (r.shorten q) = .ok ms → ∀ e ∈ allEdits ms, e.stop ≤ content.length)
    (hnew : Rewritten r faults fs q b') :
    ∃ ms es out, r.find t (r.shorten q) = .ok ms ∧ es.Perm (allEdits ms) ∧ r.enc.decode b' = some out ∧ Spliced 0 t es out := by
  have := C35_normalised r faults fs q b b' t hrt hold hdec hspans hnew
  rwa [universalNewlines_id t hcr] at this

def exCrlf : Bytes := exBytes "a\r\nb"

example : Rewritten (exRunner exFirst) exNoFaults (exFs "ab") exFile (exBytes "xb") :=
  ⟨str "ab", [exFirst], str "xb", by decide, by decide, by decide, by decide, by decide⟩

/-- C35 is false of files with other line ends: replacing one character before a CRLF also drops the CR. -/
theorem C35_line_ends_false :
    ¬ ∀ (r : Runner) (faults : Faults) (fs : FS) (q : Str) (b b' : Bytes) (t : Str),
      (∀ s x, r.enc.encode s = some x → r.enc.decode x = some s) → fs q = some b → r.enc.decode b = some t →
      (∀ content ms, r.find content (r.shorten q) = .ok ms → ∀ e ∈ allEdits ms, e.stop ≤ 1) →
      Rewritten r faults fs q b' →
      ∃ ms es out, es.Perm (allEdits ms) ∧ (∃ content, r.find content (r.shorten q) = .ok ms) ∧
        r.enc.decode b' = some out ∧ Spliced 0 t es out := by
  intro h
  have hfind : ∀ content ms, (exRunner exFirst).find content ((exRunner exFirst).shorten exFile) = .ok ms → ms = [exFirst] := by
    intro content ms hms
    have : (exRunner exFirst).find content ((exRunner exFirst).shorten exFile) = .ok [exFirst] := by
      simp only [exRunner, id]
      rw [if_neg (by decide)]
    rw [this, Except.ok.injEq] at hms
    exact hms.symm
  have hrt : ∀ s x, (exRunner exFirst).enc.encode s = some x → (exRunner exFirst).enc.decode x = some s := exAscii_round_trip
  obtain ⟨ms, es, out, hp, ⟨c, hc⟩, hd, hs⟩ := h (exRunner exFirst) exNoFaults (fun _ => some exCrlf) exFile exCrlf (exBytes "x\nb")
    (str "a\r\nb") hrt rfl (by decide) (fun content ms hms => by rw [hfind content ms hms]; decide)
    ⟨str "a\nb", [exFirst], str "x\nb", by decide, by decide, by decide, by decide, by decide⟩
  rw [hfind c ms hc] at hp
  have hd' : (exRunner exFirst).enc.decode (exBytes "x\nb") = some (str "x\nb") := by decide
  rw [hd', Option.some.injEq] at hd
  have hes : es = [⟨str "x", 0, 1⟩] := by
    have : allEdits [exFirst] = [⟨str "x", 0, 1⟩] := by decide
    rw [this] at hp
    exact List.perm_singleton.1 hp
  subst hes
  have hlen : ∀ pos rest es out, Spliced pos rest es out → es = [⟨str "x", 0, 1⟩] → out.length = rest.length := by
    intro pos rest es out hs he
    cases hs with
    | done => cases he
    | edit _ e es keep old rest out hk ho h =>
      simp only [List.cons.injEq] at he
      obtain ⟨rfl, rfl⟩ := he
      have hd : ∀ pos rest es out, Spliced pos rest es out → es = [] → out = rest := by
        intro pos rest es out hs he
        cases hs with
        | done => rfl
        | edit => cases he
      rw [hd _ _ _ _ h rfl]
      simp only [List.length_append] at hk ho ⊢
      have : (str "x").length = 1 := rfl
      simp only [this]; omega
  have := hlen _ _ _ _ hs rfl
  rw [← hd] at this
  exact absurd this (by decide)

end Refex
