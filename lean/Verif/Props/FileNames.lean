import Verif.Spec.FileNames
import Verif.Props.Names
import Verif.Props.FixModeMain
import Verif.Props.MainRun
/-! # C106: the name shown for a file is one for a file of the same name, and `--mode=fix` goes by it -/
namespace Refex
set_option autoImplicit false

theorem joinWith_last (cs : List Str) (n : Str) :
    ∃ dir, joinWith ['/'] (cs ++ [n]) = dir ++ n ∧ (dir = [] ∨ ∃ d, dir = d ++ ['/']) := by
  induction cs with
  | nil => exact ⟨[], rfl, .inl rfl⟩
  | cons c cs ih =>
    obtain ⟨dir, h, hd⟩ := ih
    refine ⟨c ++ '/' :: dir, ?_, .inr ?_⟩
    · have : joinWith ['/'] (c :: cs ++ [n]) = c ++ '/' :: joinWith ['/'] (cs ++ [n]) := by
        cases cs <;> simp [joinWith]
      rw [this, h]; simp
    · rcases hd with rfl | ⟨d, rfl⟩
      · exact ⟨c, rfl⟩
      · exact ⟨c ++ '/' :: d, by simp⟩

theorem endsIn_proper {p n : Str} (h : EndsIn p n) : Proper n := by
  obtain ⟨_, _, _, h1, h2, h3, h4⟩ := h
  exact ⟨h2, h3, h4, h1⟩

theorem endsIn_location {cwd p n : Str} (h : EndsIn p n) : ∃ dir, location cwd p = n :: dir := by
  have hp := endsIn_proper h
  obtain ⟨dir, rfl, hd, h1, h2, h3, h4⟩ := h
  have walk : ∀ start, ∃ rest, (splitOn '/' (dir ++ n)).foldl stepInto start = n :: rest := by
    intro start
    rcases hd with rfl | ⟨d, rfl⟩
    · exact ⟨start, by rw [List.nil_append, splitOn_free _ _ h1]; exact stepInto_proper hp⟩
    · rw [List.append_assoc, List.singleton_append, splitOn_append_sep, splitOn_free _ _ h1, List.foldl_append]
      exact ⟨_, stepInto_proper hp⟩
  unfold location absLocation
  split
  · exact walk _
  · exact walk _

theorem endsIn_abspath {cwd p n : Str} (hcwd : cwd.head? = some '/') (h : EndsIn p n) : EndsIn (abspath cwd p) n := by
  obtain ⟨k, hk, ha⟩ := abspath_spec cwd p hcwd
  obtain ⟨dir, hl⟩ := endsIn_location (cwd := cwd) h
  obtain ⟨_, _, _, hn⟩ := h
  obtain ⟨d, hj, hd⟩ := joinWith_last dir.reverse n
  rw [hl, List.reverse_cons, hj] at ha
  refine ⟨List.replicate k '/' ++ d, by rw [ha, List.append_assoc], .inr ?_, hn⟩
  rcases hd with rfl | ⟨d, rfl⟩
  · rcases hk with rfl | rfl
    · exact ⟨[], rfl⟩
    · exact ⟨['/'], rfl⟩
  · exact ⟨List.replicate k '/' ++ d, by simp⟩

theorem commonLength_le (a b : List Str) : commonLength a b ≤ b.length := by
  induction a generalizing b with
  | nil => cases b <;> simp [commonLength]
  | cons x a ih =>
    cases b with
    | nil => simp [commonLength]
    | cons y b =>
      simp only [commonLength]
      split
      · have := ih b
        simp only [List.length_cons]
        omega
      · simp

theorem endsIn_relpath {cwd p n rel : Str} (hcwd : cwd.head? = some '/') (h : EndsIn p n) (hu : ¬ LeadsUp cwd p) (hr : relpath cwd p = .ok rel) :
    EndsIn rel n := by
  unfold relpath at hr
  split at hr
  · cases hr
  · obtain ⟨k, _, hs⟩ := abspath_spec cwd ['.'] hcwd
    obtain ⟨m, _, ht⟩ := abspath_spec cwd p hcwd
    have hdot : location cwd ['.'] = absLocation cwd := by
      unfold location
      rw [if_neg (by simp)]
      rfl
    have prS : ∀ c ∈ (absLocation cwd).reverse, Proper c := fun c hc => absLocation_proper cwd c (List.mem_reverse.1 hc)
    have prP : ∀ c ∈ (location cwd p).reverse, Proper c := fun c hc => location_proper cwd p c (List.mem_reverse.1 hc)
    rw [hdot] at hs
    rw [hs, ht, components_normal k _ prS, components_normal m _ prP] at hr
    obtain ⟨hc1, hc2⟩ := commonLength_take (absLocation cwd).reverse (location cwd p).reverse
    have hc3 := commonLength_le (absLocation cwd).reverse (location cwd p).reverse
    obtain ⟨dir, hl⟩ := endsIn_location (cwd := cwd) h
    simp only at hr
    revert hr hc1 hc2 hc3
    generalize commonLength (absLocation cwd).reverse (location cwd p).reverse = i
    simp only [Except.ok.injEq]
    intro hr hc1 hc2 hc3
    have hi : i ≤ dir.reverse.length := by
      rw [hl] at hc3
      simp only [List.length_reverse, List.length_cons] at hc3 ⊢
      rcases Nat.lt_or_ge dir.length i with hlt | hge
      · refine absurd ?_ hu
        have hall : (location cwd p).reverse.take i = (location cwd p).reverse := List.take_of_length_le (by rw [hl]; simp; omega)
        rw [hall] at hc1
        refine ⟨((absLocation cwd).reverse.drop i).reverse, ?_⟩
        have := List.take_append_drop i (absLocation cwd).reverse
        rw [hc1] at this
        have := congrArg List.reverse this
        rw [List.reverse_append, List.reverse_reverse, List.reverse_reverse] at this
        exact this.symm
      · exact hge
    rw [hl, List.reverse_cons, List.drop_append_of_le_length hi, ← List.append_assoc, if_neg (by simp)] at hr
    obtain ⟨d, hj, hd⟩ := joinWith_last (List.replicate ((absLocation cwd).reverse.length - i) ['.', '.'] ++ dir.reverse.drop i) n
    obtain ⟨_, _, _, hn⟩ := h
    exact ⟨d, by rw [← hr, hj], hd, hn⟩

/-- **C106**. Whatever the current directory and whatever the path of a file is (one that ends in a name and does not lead to the
current directory or one above it): the name shown for it, which is also what searchers are told, ends in the same name. -/
theorem C106_name (cwd p n name : Str) (hcwd : cwd.head? = some '/') (hp : EndsIn p n) (hu : ¬ LeadsUp cwd p)
    (h : shortenPath cwd p = .ok name) : EndsIn name n := by
  cases hr : relpath cwd p with
  | error e => unfold shortenPath at h; rw [hr] at h; cases h
  | ok rel =>
    rcases (C77_shortest cwd p rel name hr h).1 with rfl | rfl | rfl
    · exact hp
    · exact endsIn_abspath hcwd hp
    · exact endsIn_relpath hcwd hp hu hr

theorem suffix_of_name {p n x : Str} (hp : EndsIn p n) (hx : '/' ∉ x) :
    (∃ base, p = base ++ x) ↔ ∃ base, n = base ++ x := by
  obtain ⟨dir, rfl, hd, hn, _⟩ := hp
  constructor
  · rintro ⟨base, h⟩
    rcases List.append_eq_append_iff.1 h with ⟨m, h1, h2⟩ | ⟨m, h1, h2⟩
    · exact ⟨m, h2⟩
    · rcases hd with rfl | ⟨d, rfl⟩
      · have h1 := h1.symm
        simp only [List.append_eq_nil_iff] at h1
        rw [h1.2] at h2
        exact ⟨[], by simpa using h2.symm⟩
      · cases hm : m.reverse with
        | nil =>
          have : m = [] := by simpa using hm
          rw [this] at h2
          exact ⟨[], by simpa using h2.symm⟩
        | cons c m' =>
          have hm2 : m = m'.reverse ++ [c] := by
            have := congrArg List.reverse hm
            simpa using this
          rw [hm2, ← List.append_assoc] at h1
          have := List.append_inj' h1 rfl
          have hc : c = '/' := by
            have := this.2
            simp only [List.cons.injEq, and_true] at this
            exact this.symm
          refine absurd ?_ hx
          rw [h2, hm2, hc]
          simp
  · rintro ⟨base, h⟩
    exact ⟨dir ++ base, by rw [h, List.append_assoc]⟩

theorem pyPath_name {p n : Str} (hp : EndsIn p n) : PyPath p ↔ PyPath n := by
  have h1 := suffix_of_name (x := str ".py") hp (by decide)
  have h2 := suffix_of_name (x := str ".py\n") hp (by decide)
  unfold PyPath
  constructor
  · rintro ⟨base, h | h⟩
    · exact (h1.1 ⟨base, h⟩).elim fun b hb => ⟨b, .inl hb⟩
    · exact (h2.1 ⟨base, h⟩).elim fun b hb => ⟨b, .inr hb⟩
  · rintro ⟨base, h | h⟩
    · exact (h1.2 ⟨base, h⟩).elim fun b hb => ⟨b, .inl hb⟩
    · exact (h2.2 ⟨base, h⟩).elim fun b hb => ⟨b, .inr hb⟩

/-- Whether a file counts as a Python file is settled by the end of its name, wherever the command is run from and however the path
is written. -/
theorem C106_python (cwd p n name : Str) (hcwd : cwd.head? = some '/') (hp : EndsIn p n) (hu : ¬ LeadsUp cwd p)
    (h : shortenPath cwd p = .ok name) : PyPath name ↔ PyPath n := pyPath_name (C106_name cwd p n name hcwd hp hu h)

theorem rewriteFiles_run (r : Runner) (faults : Faults) (fs : FS) (rs : RState) (pairs : List (Str × Str)) :
    (r.rewriteFiles faults (Runner.start fs rs) pairs).1.fs = runOps fs (r.rewriteFiles faults (Runner.start fs rs) pairs).1.ops := by
  have all : ∀ pairs s, s.fs = runOps fs s.ops → (r.rewriteFiles faults s pairs).1.fs = runOps fs (r.rewriteFiles faults s pairs).1.ops := by
    intro pairs
    induction pairs with
    | nil => exact fun s h => h
    | cons p pairs ih =>
      intro s h
      obtain ⟨new, h1, h2, _⟩ := rewriteOne_ops r faults s p.1 p.2
      have here : (r.rewriteOne faults s p.1 p.2).1.fs = runOps fs (r.rewriteOne faults s p.1 p.2).1.ops := by
        rw [h1, h2, runOps_append, h]
      simp only [Runner.rewriteFiles]
      split
      · exact here
      · exact ih _ here
  exact all pairs _ rfl

theorem mainRun_run {T : Type} (w : World) (modes : Modes T) (o : Options) (dirAt : Str → Option Entry) (faults : Faults) (fs : FS) (rs : RState) :
    (mainRun w modes o dirAt faults fs rs).fs = runOps fs (mainRun w modes o dirAt faults fs rs).ops := by
  unfold mainRun
  cases hr : runnerFromOptions w modes o with
  | error e => cases e <;> rfl
  | ok r =>
    have := rewriteFiles_run r faults fs rs (filesFromOptions dirAt o.recursive o.files)
    simp only [Runner.start] at this
    simp only
    split <;> exact this

theorem runner_shorten {T : Type} {w : World} {modes : Modes T} {o : Options} {r : Runner} (h : runnerFromOptions w modes o = .ok r) :
    r.shorten = w.shorten := by
  unfold runnerFromOptions at h
  split at h
  · cases h
  · split at h
    · cases h
    · cases h; rfl

section
variable {py : Python} {mangle : Label → Str} {groups : Str → List Label} {digit : Char → Prop} {g : Grammar}

/-- For whole runs of `refex --mode=fix`, from any directory, on any files and directories, whatever the operating system reports:
a file whose name does not end in '.py' is never written to, and is afterwards what it was. -/
theorem C106_command (hpy : py.fixer = py.builtinFixer mangle groups) (htok : TokensFit py) (hfile : ∀ s c, py.file s = some c → ∃ ss, PythonFile mangle digit g ss c)
    (hd : 58 ≤ py.depth) (cwd : Str) (hcwd : cwd.head? = some '/') {w : World} (hw : w.parseAst = py.parseAst)
    (hname : ∀ p name, shortenPath cwd p = .ok name → w.shorten p = name) {o : Options} (hmode : o.mode = str "fix")
    (hne : o.searchReplace ≠ []) (dirAt : Str → Option Entry) (faults : Faults) (fs : FS) (rs : RState)
    (q n : Str) (hq : EndsIn q n) (hu : ¬ LeadsUp cwd q) (hn : ¬ PyPath n) :
    (∀ op ∈ (mainRun w py.modes o dirAt faults fs rs).ops, op.path ≠ q) ∧ (mainRun w py.modes o dirAt faults fs rs).fs q = fs q := by
  have key : ∀ op ∈ (mainRun w py.modes o dirAt faults fs rs).ops, op.path ≠ q := by
    rintro op hop rfl
    obtain ⟨_, r, content, ms, hr, hfind, _⟩ := C69_only_named_files w py.modes o dirAt faults fs rs op hop
    have hp : op.path ≠ [] := by
      obtain ⟨dir, h, _, _, h2, _⟩ := hq
      intro e
      rw [e] at h
      exact h2 (List.append_eq_nil_iff.1 h.symm).2
    obtain ⟨name, hs, _⟩ := C77_name_shown cwd op.path hcwd hp
    have hsh : r.shorten op.path = name := by rw [runner_shorten hr]; exact hname _ _ hs
    obtain ⟨fss, _, h⟩ := C97_command hpy htok hfile hd hw hr hmode hne
    rw [hsh] at hfind
    exact hn ((C106_python cwd op.path n name hcwd hq hu hs).1 ((h content name).2.2.2 ms hfind).1)
  exact ⟨key, by rw [mainRun_run]; exact runOps_other _ _ _ key⟩

end

/-! ### Cases -/

-- From /a/b: paths as they may be written, their names, and that they do not lead up.
example : EndsIn (str "../b/./c/../d.py") (str "d.py") := ⟨str "../b/./c/../", rfl, .inr ⟨str "../b/./c/..", rfl⟩, by decide, by decide, by decide, by decide⟩
example : EndsIn (str "d.py") (str "d.py") := ⟨[], rfl, .inl rfl, by decide, by decide, by decide, by decide⟩

theorem fnNotUp : ¬ LeadsUp (str "/a/b") (str "../b/./c/../d.py") := by
  rintro ⟨inner, h⟩
  have := congrArg List.length h
  rw [List.length_append, show location (str "/a/b") (str "../b/./c/../d.py") = [str "d.py", str "b", str "a"] by decide,
    show absLocation (str "/a/b") = [str "b", str "a"] by decide] at this
  simp at this

example : PyPath (str "d.py") := ⟨str "d", .inl rfl⟩

/-- For a path that leads to the current directory the name is lost: from the directory /a/b.py, the path ../b.py is shown as '.'. -/
theorem C106_up_false : ¬ ∀ cwd p n name : Str, cwd.head? = some '/' → EndsIn p n → shortenPath cwd p = .ok name → EndsIn name n := by
  intro h
  obtain ⟨dir, h1, h2, _⟩ := h (str "/a/b.py") (str "../b.py") (str "b.py") (str ".") rfl
    ⟨str "../", rfl, .inr ⟨str "..", rfl⟩, by decide, by decide, by decide, by decide⟩ (by decide)
  have := congrArg List.length h1
  rw [List.length_append] at this
  have h3 : (str "b.py").length = 4 := by decide
  have h4 : (str ".").length = 1 := by decide
  omega

end Refex
