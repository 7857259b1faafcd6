import Verif.Spec.Crash
import Verif.Props.Cli
/- C34 for runs that are stopped at any point, with any faults. -/
namespace Refex
set_option autoImplicit false

/-- How a file is written, if it is: emptied and given its complete new content; or emptied and given the first bytes of it
before the operating system reports an error; or emptied, and the run ends with an exception. -/
inductive WrittenAs (r : Runner) (faults : Faults) (fs : FS) (q : Str) : List FsOp → List FsOp → Prop
  | not {pre : List FsOp} : (∀ op ∈ pre, op.path ≠ q) → WrittenAs r faults fs q pre []
  | whole {pre post : List FsOp} {b : Bytes} : (∀ op ∈ pre, op.path ≠ q) → (∀ op ∈ post, op.path ≠ q) → Rewritten r faults fs q b →
      faults.write q = none → WrittenAs r faults fs q pre (.truncate q :: .append q b :: post)
  | begun {pre post : List FsOp} {b : Bytes} {k : Nat} : (∀ op ∈ pre, op.path ≠ q) → (∀ op ∈ post, op.path ≠ q) → Rewritten r faults fs q b →
      faults.write q = some k → WrittenAs r faults fs q pre (.truncate q :: .append q (b.take k) :: post)
  | raised {pre : List FsOp} : (∀ op ∈ pre, op.path ≠ q) → WrittenAs r faults fs q pre [.truncate q]

theorem WrittenAs.prepend {r : Runner} {faults : Faults} {fs : FS} {q : Str} {pre ops : List FsOp} (h : WrittenAs r faults fs q pre ops)
    {a : List FsOp} (ha : ∀ op ∈ a, op.path ≠ q) : WrittenAs r faults fs q (a ++ pre) ops := by
  have H : ∀ {pre : List FsOp}, (∀ op ∈ pre, op.path ≠ q) → ∀ op ∈ a ++ pre, op.path ≠ q := fun h op hop =>
    (List.mem_append.1 hop).elim (ha op) (h op)
  cases h with
  | not h => exact .not (H h)
  | whole h1 h2 h3 h4 => exact .whole (H h1) h2 h3 h4
  | begun h1 h2 h3 h4 => exact .begun (H h1) h2 h3 h4
  | raised h => exact .raised (H h)

/-- Every file is written as said, at most once. -/
theorem written_as (r : Runner) (faults : Faults) (fs : FS) (q : Str) : ∀ (paths : List Str), paths.Nodup → ∀ s : RunState,
    (∀ p ∈ paths, s.fs p = fs p) → ∃ pre ops, (r.rewriteFiles faults s (paths.map fun p => (p, p))).1.ops = s.ops ++ (pre ++ ops) ∧
      (WrittenAs r faults fs q pre ops) ∧ (q ∉ paths → ops = []) := by
  intro paths
  induction paths with
  | nil => intro _ s _; exact ⟨[], [], by simp [Runner.rewriteFiles], .not (by simp), fun _ => rfl⟩
  | cons p paths ih =>
    intro hnd s hs
    rw [List.nodup_cons] at hnd
    obtain ⟨new, h1, h2, h3⟩ := rewriteOne_ops r faults s p p
    have hpath : ∀ op ∈ new, op.path = p := fun op hop => by
      obtain ⟨c, ms, _, _, _, hn, _⟩ := h3 (List.ne_nil_of_mem hop)
      exact write_ops_path r faults p c ms op (hn ▸ hop)
    have hother : ∀ x, x ≠ p → (r.rewriteOne faults s p p).1.fs x = s.fs x := fun x hx => by
      rw [h2]; exact runOps_other _ _ _ fun op hop e => hx (e ▸ hpath op hop)
    -- what follows, if anything
    have hrest : ∃ pre ops, (r.rewriteFiles faults s ((p :: paths).map fun p => (p, p))).1.ops = s.ops ++ (new ++ (pre ++ ops)) ∧
        WrittenAs r faults fs q pre ops ∧ (q ∉ paths → ops = []) ∧ ((r.rewriteOne faults s p p).2 ≠ none → pre = [] ∧ ops = []) := by
      simp only [List.map_cons, Runner.rewriteFiles]
      cases he : (r.rewriteOne faults s p p).2 with
      | some e => exact ⟨[], [], by simp [h1], .not (by simp), fun _ => rfl, fun _ => ⟨rfl, rfl⟩⟩
      | none =>
        obtain ⟨pre, ops, g1, g2, g3⟩ := ih hnd.2 (r.rewriteOne faults s p p).1 (fun x hx => by
          rw [hother x (fun e => hnd.1 (e ▸ hx))]; exact hs x (by simp [hx]))
        exact ⟨pre, ops, by simp only [g1, h1, List.append_assoc], g2, g3, fun h => absurd rfl h⟩
    obtain ⟨pre, ops, g1, g2, g3, g4⟩ := hrest
    by_cases hq : q = p
    · subst hq
      have hops := g3 hnd.1
      subst hops
      have hpre : ∀ op ∈ pre, op.path ≠ q := by cases g2 with | not h => exact h
      by_cases hn : new = []
      · subst hn
        exact ⟨pre, [], by simpa using g1, .not hpre, fun _ => rfl⟩
      · obtain ⟨c, ms, hread, hfind, hne, hnew, hexc⟩ := h3 hn
        rw [read_congr r faults _ fs q (hs q (by simp))] at hread
        refine ⟨[], new ++ pre, by simpa using g1, ?_, by simp⟩
        unfold Runner.write at hnew hexc
        split at hnew
        · exact absurd hnew hn
        · rename_i ho
          rw [if_neg ho] at hexc
          split at hnew
          · rename_i e ha
            simp only [ha] at hexc
            obtain ⟨rfl, _⟩ := g4 (by rw [hexc]; simp)
            rw [hnew]; exact .raised (by simp)
          · rename_i out ha
            simp only [ha] at hexc
            split at hnew
            · rename_i hb
              simp only [hb] at hexc
              obtain ⟨rfl, _⟩ := g4 (by rw [hexc]; simp)
              rw [hnew]; exact .raised (by simp)
            · rename_i b hb
              split at hnew
              · rename_i k hk
                rw [hnew]; exact .begun (by simp) hpre ⟨c, ms, out, hread, hfind, hne, ha, hb⟩ hk
              · rename_i hk
                rw [hnew]; exact .whole (by simp) hpre ⟨c, ms, out, hread, hfind, hne, ha, hb⟩ hk
    · refine ⟨new ++ pre, ops, by rw [g1]; simp, g2.prepend fun op hop e => hq (e.symm.trans (hpath op hop)), fun h => g3 fun hc => h (by simp [hc])⟩

/-- What a run of operations does to a file that only the middle ones concern. -/
theorem runOps_middle (fs : FS) (a b c : List FsOp) (q : Str) (ha : ∀ op ∈ a, op.path ≠ q) (hc : ∀ op ∈ c, op.path ≠ q) :
    runOps fs (a ++ b ++ c) q = runOps (runOps fs a) b q := by
  rw [runOps_append, runOps_append, runOps_other _ c q hc]

/-- **C34**: wherever a run is stopped, by an exception, an interruption or otherwise, and whatever the operating system reports,
every file is as it was or has its complete new content, except possibly the one that was begun to be written to last and
those for which the operating system reported an error in the middle of writing: these may be empty or have the first bytes of
their new content. The files are rewritten in place, each listed once. -/
theorem C34_stopped (r : Runner) (faults : Faults) (fs : FS) (rs : RState) (paths : List Str) (hnd : paths.Nodup)
    {last : Option Str} {fs' : FS}
    (h : Stopped fs (r.rewriteFiles faults (Runner.start fs rs) (paths.map fun p => (p, p))).1.ops last fs') (q : Str) :
    (fs' q = fs q ∨ ∃ b, fs' q = some b ∧ Rewritten r faults fs q b) ∨
    ((last = some q ∨ faults.write q ≠ none) ∧ (fs' q = some [] ∨ ∃ b k, Rewritten r faults fs q b ∧ fs' q = some (b.take k))) := by
  obtain ⟨pre, ops, h1, h2, _⟩ := written_as r faults fs q paths hnd (Runner.start fs rs) (fun _ _ => rfl)
  simp only [Runner.start, List.nil_append] at h1
  simp only [Runner.start] at h
  rw [h1] at h
  clear h1
  -- a stop in the middle of the two operations on `q`
  have prefixes : ∀ (ops : List FsOp) (n : Nat), (∀ op ∈ pre, op.path ≠ q) →
      runOps fs ((pre ++ ops).take n) q = runOps (runOps fs pre) (ops.take (n - pre.length)) q := by
    intro ops n hp
    rw [List.take_append, runOps_append]
    by_cases hn : pre.length ≤ n
    · rw [List.take_of_length_le hn]
    · have : n - pre.length = 0 := by omega
      rw [this, List.take_zero]
      show runOps fs (pre.take n) q = runOps fs pre q
      rw [runOps_other fs pre q hp, runOps_other fs _ q fun op hop => hp op (List.mem_of_mem_take hop)]
  have lasts : ∀ (ops : List FsOp) (n : Nat) op, (ops.take (n - pre.length)).getLast? = some op → ((pre ++ ops).take n).getLast? = some op := by
    intro ops n op ho
    rw [List.take_append, List.getLast?_append, ho]; rfl
  have hpre0 : (∀ op ∈ pre, op.path ≠ q) → runOps fs pre q = fs q := runOps_other fs pre q
  cases h with
  | between n =>
    cases h2 with
    | not hp => left; left; rw [prefixes _ _ hp]; simpa [runOps] using hpre0 hp
    | raised hp =>
      rw [prefixes _ _ hp]
      cases hm : n - pre.length with
      | zero => left; left; simpa [runOps] using hpre0 hp
      | succ m =>
        right
        refine ⟨.inl ?_, .inl (by simp [runOps, FsOp.run])⟩
        rw [lasts _ n (.truncate q) (by rw [hm]; simp)]; rfl
    | @whole post b hp hpost hr hf =>
      rw [prefixes _ _ hp]
      match hm : n - pre.length with
      | 0 => left; left; simpa [runOps] using hpre0 hp
      | 1 =>
        right
        refine ⟨.inl ?_, .inl (by simp [runOps, FsOp.run])⟩
        rw [lasts _ n (.truncate q) (by rw [hm]; simp)]; rfl
      | m + 2 =>
        left; right
        refine ⟨b, ?_, hr⟩
        have := runOps_middle (runOps fs pre) [] [.truncate q, .append q b] (post.take m) q (by simp) fun op hop => hpost op (List.mem_of_mem_take hop)
        simp only [List.nil_append] at this
        exact this.trans (by simp [runOps, FsOp.run])
    | @begun post b k hp hpost hr hf =>
      rw [prefixes _ _ hp]
      match hm : n - pre.length with
      | 0 => left; left; simpa [runOps] using hpre0 hp
      | 1 =>
        right
        exact ⟨.inr (by rw [hf]; simp), .inl (by simp [runOps, FsOp.run])⟩
      | m + 2 =>
        right
        refine ⟨.inr (by rw [hf]; simp), .inr ⟨b, k, hr, ?_⟩⟩
        have := runOps_middle (runOps fs pre) [] [.truncate q, .append q (b.take k)] (post.take m) q (by simp)
          fun op hop => hpost op (List.mem_of_mem_take hop)
        simp only [List.nil_append] at this
        exact this.trans (by simp [runOps, FsOp.run])
  | @writing pre' post' p b' k' he =>
    -- only `q` itself, or a file before or after it, is being written
    by_cases hpq : p = q
    · subst hpq
      right
      refine ⟨.inl rfl, .inr ?_⟩
      have key : ∀ (pre ops : List FsOp), WrittenAs r faults fs p pre ops → pre ++ ops = pre' ++ .append p b' :: post' →
          ∃ b k, Rewritten r faults fs p b ∧ b' = b.take k ∧ runOps fs pre' p = some [] := by
        intro pre ops hw he
        -- the operation is the one in `ops`
        have hlen : (∀ op ∈ pre, op.path ≠ p) → ∃ a, pre' = pre ++ a ∧ ops = a ++ .append p b' :: post' := by
          intro hp
          rw [List.append_eq_append_iff] at he
          rcases he with ⟨a, e1, e2⟩ | ⟨a, e1, e2⟩
          · exact ⟨a, e1, e2⟩
          · cases a with
            | nil => exact ⟨[], by simpa using e1.symm, by simpa using e2.symm⟩
            | cons x a =>
              simp only [List.cons_append, List.cons.injEq] at e2
              exact absurd rfl (hp (.append p b') (by rw [e1, ← e2.1]; simp))
        cases hw with
        | not hp =>
          obtain ⟨a, _, e⟩ := hlen hp
          simp at e
        | raised hp =>
          obtain ⟨a, _, e⟩ := hlen hp
          cases a with
          | nil => simp at e
          | cons x a => simp at e
        | whole hp hpost hr hf =>
          obtain ⟨a, e0, e⟩ := hlen hp
          cases a with
          | nil => simp at e
          | cons x a =>
            simp only [List.cons_append, List.cons.injEq] at e
            obtain ⟨rfl, e⟩ := e
            cases a with
            | nil =>
              simp only [List.nil_append, List.cons.injEq, FsOp.append.injEq] at e
              exact ⟨_, b'.length, hr, by rw [e.1.2]; simp, by rw [e0, runOps_append]; simp [runOps, FsOp.run]⟩
            | cons y a =>
              simp only [List.cons_append, List.cons.injEq] at e
              exact absurd rfl (hpost (.append p b') (by rw [e.2]; simp))
        | begun hp hpost hr hf =>
          obtain ⟨a, e0, e⟩ := hlen hp
          cases a with
          | nil => simp at e
          | cons x a =>
            simp only [List.cons_append, List.cons.injEq] at e
            obtain ⟨rfl, e⟩ := e
            cases a with
            | nil =>
              simp only [List.nil_append, List.cons.injEq, FsOp.append.injEq] at e
              exact ⟨_, _, hr, e.1.2.symm, by rw [e0, runOps_append]; simp [runOps, FsOp.run]⟩
            | cons y a =>
              simp only [List.cons_append, List.cons.injEq] at e
              exact absurd rfl (hpost (.append p b') (by rw [e.2]; simp))
      obtain ⟨b, k, g1, g2, g3⟩ := key pre ops h2 he
      refine ⟨b, min k' k, g1, ?_⟩
      rw [runOps_append]
      simp [runOps, FsOp.run] at g3 ⊢
      rw [g3, g2, List.take_take]; simp
    · -- then `q` is as after the operations before
      have hq : runOps fs (pre' ++ [.append p (b'.take k')]) q = runOps fs (pre' ++ [.append p b']) q := by
        have hne : ∀ x : Bytes, ∀ op ∈ [FsOp.append p x], op.path ≠ q := by
          intro x op hop; rw [List.mem_singleton.1 hop]; exact hpq
        rw [runOps_append, runOps_append, runOps_other _ _ q (hne _), runOps_other _ _ q (hne _)]
      have htake : pre' ++ [.append p b'] = (pre ++ ops).take (pre'.length + 1) := by
        rw [he, List.take_append, List.take_of_length_le (Nat.le_succ _)]; simp
      have hlast : ((pre ++ ops).take (pre'.length + 1)).getLast?.map FsOp.path = some p := by rw [← htake]; simp [FsOp.path]
      rw [hq, htake]
      generalize pre'.length + 1 = n at hlast
      cases h2 with
      | not hp => left; left; rw [prefixes _ _ hp]; simpa [runOps] using hpre0 hp
      | raised hp =>
        rw [prefixes _ _ hp]
        cases hm : n - pre.length with
        | zero => left; left; simpa [runOps] using hpre0 hp
        | succ m =>
          rw [lasts _ n (.truncate q) (by rw [hm]; simp)] at hlast
          exact absurd (Option.some.inj hlast).symm hpq
      | @whole post b hp hpost hr hf =>
        rw [prefixes _ _ hp]
        match hm : n - pre.length with
        | 0 => left; left; simpa [runOps] using hpre0 hp
        | 1 =>
          rw [lasts _ n (.truncate q) (by rw [hm]; simp)] at hlast
          exact absurd (Option.some.inj hlast).symm hpq
        | m + 2 =>
          left; right
          refine ⟨b, ?_, hr⟩
          have := runOps_middle (runOps fs pre) [] [.truncate q, .append q b] (post.take m) q (by simp) fun op hop => hpost op (List.mem_of_mem_take hop)
          simp only [List.nil_append] at this
          exact this.trans (by simp [runOps, FsOp.run])
      | @begun post b k hp hpost hr hf =>
        rw [prefixes _ _ hp]
        match hm : n - pre.length with
        | 0 => left; left; simpa [runOps] using hpre0 hp
        | 1 => right; exact ⟨.inr (by rw [hf]; simp), .inl (by simp [runOps, FsOp.run])⟩
        | m + 2 =>
          right
          refine ⟨.inr (by rw [hf]; simp), .inr ⟨b, k, hr, ?_⟩⟩
          have := runOps_middle (runOps fs pre) [] [.truncate q, .append q (b.take k)] (post.take m) q (by simp)
            fun op hop => hpost op (List.mem_of_mem_take hop)
          simp only [List.nil_append] at this
          exact this.trans (by simp [runOps, FsOp.run])

/-- **C34**: without errors of the operating system in the middle of writing, at most one file is left with anything but its old or its
complete new content, wherever the run is stopped. -/
theorem C34_at_most_one (r : Runner) (faults : Faults) (hf : ∀ p, faults.write p = none) (fs : FS) (rs : RState) (paths : List Str)
    (hnd : paths.Nodup) {last : Option Str} {fs' : FS}
    (h : Stopped fs (r.rewriteFiles faults (Runner.start fs rs) (paths.map fun p => (p, p))).1.ops last fs') (q q' : Str)
    (hq : ¬ (fs' q = fs q ∨ ∃ b, fs' q = some b ∧ Rewritten r faults fs q b))
    (hq' : ¬ (fs' q' = fs q' ∨ ∃ b, fs' q' = some b ∧ Rewritten r faults fs q' b)) : q = q' := by
  have h1 := ((C34_stopped r faults fs rs paths hnd h q).resolve_left hq).1.resolve_right (fun h => h (hf q))
  have h2 := ((C34_stopped r faults fs rs paths hnd h q').resolve_left hq').1.resolve_right (fun h => h (hf q'))
  exact Option.some.inj (h1.symm.trans h2)

/-- Two files, stopped in the middle of writing the second: the first has its new content. -/
def exTwoFs : FS := fun p => if p = exFile ∨ p = str "b.py" then some (exBytes "ab") else none

example : ∃ fs', Stopped exTwoFs ((exRunner exFirst).rewriteFiles exNoFaults (Runner.start exTwoFs {})
      ([exFile, str "b.py"].map fun p => (p, p))).1.ops (some (str "b.py")) fs' ∧
    fs' exFile = some (exBytes "xb") ∧ fs' (str "b.py") = some (exBytes "x") := by
  have he : ((exRunner exFirst).rewriteFiles exNoFaults (Runner.start exTwoFs {}) ([exFile, str "b.py"].map fun p => (p, p))).1.ops =
      [.truncate exFile, .append exFile (exBytes "xb"), .truncate (str "b.py")] ++ .append (str "b.py") (exBytes "xb") :: [] := by decide
  exact ⟨_, .writing 1 he, by decide, by decide⟩

end Refex
