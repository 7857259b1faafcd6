import Verif.Spec.Main
import Verif.Props.Cli
import Verif.Props.Pragmas
import Verif.Props.Searchers
import Verif.Props.FixedPoint
/-
C67-C70, C75: the command line: which files are searched, with what, and what is reported.
-/
namespace Refex
set_option autoImplicit false

/-! ### C68: arguments -/

theorem splitUnknown_spec (args : List Str) : Leftovers args (splitUnknown args).1 (splitUnknown args).2 := by
  induction args with
  | nil => exact Leftovers.plain (args := []) (by simp)
  | cons a rest ih =>
    unfold splitUnknown
    by_cases h1 : a = str "--"
    · subst h1
      rw [if_pos rfl]
      exact Leftovers.escaped (pre := []) (by simp)
    · rw [if_neg h1]
      generalize hs : splitUnknown rest = sp at ih ⊢
      obtain ⟨fl, wo⟩ := sp
      simp only at ih
      cases ih with
      | @escaped pre post hn =>
        have hn' : str "--" ∉ a :: pre := by
          simp only [List.mem_cons, not_or]; exact ⟨fun h => h1 h.symm, hn⟩
        have := Leftovers.escaped (pre := a :: pre) (post := post) hn'
        by_cases h2 : a.head? = some '-'
        · simpa [List.filter_cons, h2] using this
        · simpa [List.filter_cons, h2] using this
      | @plain hn =>
        have hn' : str "--" ∉ a :: rest := by
          simp only [List.mem_cons, not_or]; exact ⟨fun h => h1 h.symm, ‹_›⟩
        have := Leftovers.plain (args := a :: rest) hn'
        by_cases h2 : a.head? = some '-'
        · simpa [List.filter_cons, h2] using this
        · simpa [List.filter_cons, h2] using this

theorem leftovers_split_unique {pre pre' post post' : List Str} {x : Str} (h1 : x ∉ pre) (h2 : x ∉ pre')
    (h : pre ++ x :: post = pre' ++ x :: post') : pre = pre' ∧ post = post' := by
  induction pre generalizing pre' with
  | nil =>
    cases pre' with
    | nil => simp at h; exact ⟨rfl, h⟩
    | cons b pre' => simp at h; exact absurd h.1 (fun e => h2 (e ▸ List.mem_cons_self ..))
  | cons a pre ih =>
    cases pre' with
    | nil => simp at h; exact absurd h.1 (fun e => h1 (e ▸ List.mem_cons_self ..))
    | cons b pre' =>
      simp only [List.cons_append, List.cons.injEq] at h
      simp only [List.mem_cons, not_or] at h1 h2
      obtain ⟨e1, e2⟩ := ih h1.2 h2.2 h.2
      exact ⟨by rw [h.1, e1], e2⟩

theorem leftovers_unique {args f w f' w' : List Str} (h : Leftovers args f w) (h' : Leftovers args f' w') : f = f' ∧ w = w' := by
  cases h with
  | @escaped pre post hn =>
    generalize hg : pre ++ str "--" :: post = args at h'
    cases h' with
    | @escaped pre' post' hn' =>
      obtain ⟨rfl, rfl⟩ := leftovers_split_unique hn hn' hg
      exact ⟨rfl, rfl⟩
    | plain hn' => exact absurd (hg ▸ by simp) hn'
  | plain hn =>
    cases h' with
    | @escaped pre' post' hn' => exact absurd (by simp) hn
    | plain hn' => exact ⟨rfl, rfl⟩

/-- **C68**: the words that are not options are the arguments before the first `--` that do not begin with '-' and all
arguments after it, in order. -/
theorem C68_words (args words : List Str) : leftovers args = some words ↔ Leftovers args [] words := by
  unfold leftovers
  have h := splitUnknown_spec args
  constructor
  · intro hl
    split at hl
    · rename_i he
      cases hl
      rw [List.isEmpty_iff] at he
      rw [he] at h; exact h
    · cases hl
  · intro hl
    obtain ⟨e1, e2⟩ := leftovers_unique h hl
    rw [e1, e2]; rfl

/-- **C68**: the command line is refused iff an argument before the first `--` that begins with '-' is not an option. -/
theorem C68_refused (args : List Str) : leftovers args = none ↔ ∃ f fs words, Leftovers args (f :: fs) words := by
  unfold leftovers
  have h := splitUnknown_spec args
  constructor
  · intro hl
    split at hl
    · cases hl
    · rename_i he
      cases hs : (splitUnknown args).1 with
      | nil => simp [hs] at he
      | cons f fs => exact ⟨f, fs, _, hs ▸ h⟩
  · rintro ⟨f, fs, words, hl⟩
    obtain ⟨e1, _⟩ := leftovers_unique h hl
    rw [e1]; rfl

/-- A lone '-' is refused as an unknown flag, unless escaped. -/
example : leftovers [str "a", str "-"] = none ∧ leftovers [str "a", str "--", str "-", str "--"] = some [str "a", str "-", str "--"] := by
  decide

/-! ### C67: files -/

theorem mem_filesIn (top p : Str) (es : Entries) : p ∈ filesIn top es ↔ ∃ n, es.Has n .file ∧ p = pathJoin top n := by
  induction es using Entries.rec (motive_1 := fun _ => True) with
  | file => trivial
  | linkToDir => trivial
  | dir => trivial
  | nil => simp [filesIn]; intro n h; cases h
  | cons n e rest _ ih =>
    cases e with
    | file =>
      simp only [filesIn, List.mem_cons, ih]
      constructor
      · rintro (h | ⟨m, h1, h2⟩)
        · exact ⟨n, .head .., h⟩
        · exact ⟨m, .tail h1, h2⟩
      · rintro ⟨m, h1, h2⟩
        cases h1 with
        | head => exact .inl h2
        | tail h1 => exact .inr ⟨m, h1, h2⟩
    | linkToDir =>
      simp only [filesIn, ih]
      constructor
      · rintro ⟨m, h1, h2⟩; exact ⟨m, .tail h1, h2⟩
      · rintro ⟨m, h1, h2⟩; cases h1 with | tail h1 => exact ⟨m, h1, h2⟩
    | dir r es =>
      simp only [filesIn, ih]
      constructor
      · rintro ⟨m, h1, h2⟩; exact ⟨m, .tail h1, h2⟩
      · rintro ⟨m, h1, h2⟩; cases h1 with | tail h1 => exact ⟨m, h1, h2⟩

theorem mem_walkSubdirs (top p : Str) (es : Entries) :
    p ∈ walkSubdirs top es ↔ ∃ n e, es.Has n e ∧ p ∈ walkFiles (pathJoin top n) e := by
  induction es using Entries.rec (motive_1 := fun _ => True) with
  | file => trivial
  | linkToDir => trivial
  | dir => trivial
  | nil => simp [walkSubdirs]; intro n e h; cases h
  | cons n e rest _ ih =>
    simp only [walkSubdirs, List.mem_append, ih]
    constructor
    · rintro (h | ⟨m, e', h1, h2⟩)
      · exact ⟨n, e, .head .., h⟩
      · exact ⟨m, e', .tail h1, h2⟩
    · rintro ⟨m, e', h1, h2⟩
      cases h1 with
      | head => exact .inl h2
      | tail h1 => exact .inr ⟨m, e', h1, h2⟩

mutual
theorem below_of_walk : ∀ (e : Entry) (top p : Str), p ∈ walkFiles top e → Below top e p
  | .file, _, _, h => by simp [walkFiles] at h
  | .linkToDir, _, _, h => by simp [walkFiles] at h
  | .dir false _, _, _, h => by simp [walkFiles] at h
  | .dir true es, top, p, h => by
    simp only [walkFiles, List.mem_append] at h
    rcases h with h | h
    · obtain ⟨n, h1, rfl⟩ := (mem_filesIn top p es).1 h
      exact .here h1
    · obtain ⟨n, e, h1, h2⟩ := below_of_walkSub es top p h
      exact .deeper h1 h2
theorem below_of_walkSub : ∀ (es : Entries) (top p : Str), p ∈ walkSubdirs top es → ∃ n e, es.Has n e ∧ Below (pathJoin top n) e p
  | .nil, _, _, h => by simp [walkSubdirs] at h
  | .cons n e rest, top, p, h => by
    simp only [walkSubdirs, List.mem_append] at h
    rcases h with h | h
    · exact ⟨n, e, .head .., below_of_walk e _ p h⟩
    · obtain ⟨m, e', h1, h2⟩ := below_of_walkSub rest top p h
      exact ⟨m, e', .tail h1, h2⟩
end

/-- **C67**: `-R` comes upon exactly the files in the directory and in the directories below it. -/
theorem C67_recursive (top p : Str) (e : Entry) : p ∈ walkFiles top e ↔ Below top e p := by
  constructor
  · exact below_of_walk e top p
  · intro h
    induction h with
    | here h => simp only [walkFiles, List.mem_append]; exact .inl ((mem_filesIn _ _ _).2 ⟨_, h, rfl⟩)
    | deeper h _ ih => simp only [walkFiles, List.mem_append]; exact .inr ((mem_walkSubdirs _ _ _).2 ⟨_, _, h, ih⟩)

/-- A path with a slash at its end. -/
def slashed (p : Str) : Str := if p = [] ∨ p.getLast? = some '/' then p else p ++ ['/']

theorem pathJoin_valid {top n : Str} (h : ValidName n) : pathJoin top n = slashed top ++ n := by
  unfold pathJoin slashed
  have h0 : n.head? ≠ some '/' := fun e => h.2 (by
    cases n with
    | nil => cases e
    | cons c n => simp at e; simp [e])
  rw [if_neg h0]
  split <;> simp

theorem slashed_join {top n : Str} (h : ValidName n) : slashed (slashed top ++ n) = slashed top ++ n ++ ['/'] := by
  conv => lhs; unfold slashed
  rw [if_neg]
  · rfl
  · rintro (e | e)
    · exact h.1 (List.append_eq_nil_iff.1 e).2
    · rw [List.getLast?_append] at e
      cases hn : n.getLast? with
      | none => exact h.1 (by simpa using hn)
      | some c => rw [hn] at e; simp at e; exact h.2 (e ▸ List.mem_of_getLast? hn)

theorem has_valid {es : Entries} {n : Str} {e : Entry} (h : es.Has n e) (hv : es.Valid) : ValidName n ∧ e.Valid := by
  induction h with
  | head => cases hv with | cons h1 _ h2 _ => exact ⟨h1, h2⟩
  | tail _ ih => cases hv with | cons _ _ _ h => exact ih h

theorem below_prefix {top p : Str} {e : Entry} (h : Below top e p) (hv : e.Valid) : ∃ r, p = slashed top ++ r := by
  induction h with
  | here h =>
    cases hv with | dir _ hv =>
    exact ⟨_, pathJoin_valid (has_valid h hv).1⟩
  | deeper h _ ih =>
    cases hv with | dir _ hv =>
    obtain ⟨h1, h2⟩ := has_valid h hv
    obtain ⟨r, hr⟩ := ih h2
    rw [hr, pathJoin_valid h1, slashed_join h1]
    exact ⟨_, by rw [List.append_assoc, List.append_assoc]⟩

theorem below_name {top n p : Str} {e : Entry} (hn : ValidName n) (hv : e.Valid) (h : Below (pathJoin top n) e p) :
    ∃ r, p = slashed top ++ (n ++ '/' :: r) := by
  obtain ⟨r, hr⟩ := below_prefix h hv
  refine ⟨r, ?_⟩
  rw [hr, pathJoin_valid hn, slashed_join hn]
  simp

theorem name_unique {n m r s : Str} (hn : '/' ∉ n) (hm : '/' ∉ m) (h : n ++ '/' :: r = m ++ '/' :: s) : n = m := by
  induction n generalizing m with
  | nil =>
    cases m with
    | nil => rfl
    | cons c m => simp at h; exact absurd (by rw [h.1]; exact List.mem_cons_self ..) hm
  | cons c n ih =>
    cases m with
    | nil => simp at h; exact absurd (by rw [h.1]; exact List.mem_cons_self ..) hn
    | cons d m =>
      simp only [List.cons_append, List.cons.injEq] at h
      simp only [List.mem_cons, not_or] at hn hm
      rw [h.1, ih hn.2 hm.2 h.2]

theorem filesIn_nodup (top : Str) (es : Entries) (hv : es.Valid) : (filesIn top es).Nodup := by
  induction es using Entries.rec (motive_1 := fun _ => True) with
  | file => trivial
  | linkToDir => trivial
  | dir => trivial
  | nil => simp [filesIn]
  | cons n e rest _ ih =>
    cases hv with | cons h1 h2 h3 h4 =>
    cases e with
    | file =>
      simp only [filesIn, List.nodup_cons]
      refine ⟨?_, ih h4⟩
      intro h
      obtain ⟨m, hm, he⟩ := (mem_filesIn _ _ _).1 h
      rw [pathJoin_valid h1, pathJoin_valid (has_valid hm h4).1] at he
      exact h2 .file (List.append_cancel_left he ▸ hm)
    | linkToDir => exact ih h4
    | dir => exact ih h4

mutual
theorem walkFiles_nodup : ∀ (e : Entry) (top : Str), e.Valid → (walkFiles top e).Nodup
  | .file, _, _ => by simp [walkFiles]
  | .linkToDir, _, _ => by simp [walkFiles]
  | .dir false _, _, _ => by simp [walkFiles]
  | .dir true es, top, hv => by
    cases hv with | dir _ hv =>
    simp only [walkFiles]
    rw [List.nodup_append]
    refine ⟨filesIn_nodup top es hv, walkSubdirs_nodup es top hv, ?_⟩
    intro a ha b hb hab
    subst hab
    obtain ⟨n, h1, h2⟩ := (mem_filesIn _ _ _).1 ha
    obtain ⟨m, e, h3, h4⟩ := below_of_walkSub _ _ _ hb
    obtain ⟨hn, _⟩ := has_valid h1 hv
    obtain ⟨hm, he⟩ := has_valid h3 hv
    obtain ⟨r, hr⟩ := below_name hm he h4
    rw [h2, pathJoin_valid hn] at hr
    have := List.append_cancel_left hr
    exact hn.2 (this ▸ by simp)
theorem walkSubdirs_nodup : ∀ (es : Entries) (top : Str), es.Valid → (walkSubdirs top es).Nodup
  | .nil, _, _ => by simp [walkSubdirs]
  | .cons n e rest, top, hv => by
    cases hv with | cons h1 h2 h3 h4 =>
    simp only [walkSubdirs]
    rw [List.nodup_append]
    refine ⟨walkFiles_nodup e _ h3, walkSubdirs_nodup rest top h4, ?_⟩
    intro a ha b hb hab
    subst hab
    obtain ⟨r, hr⟩ := below_name h1 h3 (below_of_walk _ _ _ ha)
    obtain ⟨m, e', h5, h6⟩ := below_of_walkSub _ _ _ hb
    obtain ⟨hm, he⟩ := has_valid h5 h4
    obtain ⟨r', hr'⟩ := below_name hm he h6
    rw [hr] at hr'
    have := name_unique h1.2 hm.2 (List.append_cancel_left hr')
    exact h2 e' (this ▸ h5)
end

/-- **C67**: `-R` comes upon each file once. -/
theorem C67_once (top : Str) (e : Entry) (hv : e.Valid) : (walkFiles top e).Nodup := walkFiles_nodup e top hv

/-- **C67**: the files directly in a directory come before those in its subdirectories. -/
theorem C67_top_down (top : Str) (r : Bool) (es : Entries) : ∃ direct deeper, walkFiles top (.dir r es) = direct ++ deeper ∧
    (∀ p ∈ direct, ∃ n, es.Has n .file ∧ p = pathJoin top n) ∧
    (∀ p ∈ deeper, ∃ n e, es.Has n e ∧ Below (pathJoin top n) e p) := by
  cases r with
  | false => exact ⟨[], [], rfl, by simp, by simp⟩
  | true => exact ⟨_, _, rfl, fun p h => (mem_filesIn _ _ _).1 h, fun p h => below_of_walkSub _ _ _ h⟩

/-- **C67**: what is processed: with `-R` the files below the named directories, and otherwise the named paths themselves; each
is read from and written to the same path. -/
theorem C67_files (dirAt : Str → Option Entry) (recursive : Bool) (files : List Str) (a b : Str) :
    (a, b) ∈ filesFromOptions dirAt recursive files ↔
      a = b ∧ ∃ path ∈ files, (recursive = true ∧ ∃ d, dirAt path = some d ∧ Below path d a) ∨
        (¬ (recursive = true ∧ ∃ d, dirAt path = some d) ∧ a = path) := by
  induction files with
  | nil => simp [filesFromOptions]
  | cons path rest ih =>
    simp only [filesFromOptions, List.mem_append, ih]
    have key : (a, b) ∈ (match dirAt path with
        | some d => if recursive then (walkFiles path d).map fun f => (f, f) else [(path, path)]
        | none => [(path, path)]) ↔ a = b ∧ ((recursive = true ∧ ∃ d, dirAt path = some d ∧ Below path d a) ∨
        (¬ (recursive = true ∧ ∃ d, dirAt path = some d) ∧ a = path)) := by
      cases hd : dirAt path with
      | none =>
        simp only [List.mem_singleton, Prod.mk.injEq]
        constructor
        · rintro ⟨rfl, rfl⟩; exact ⟨rfl, .inr ⟨by simp, rfl⟩⟩
        · rintro ⟨rfl, h⟩
          rcases h with ⟨_, d, h, _⟩ | ⟨_, rfl⟩
          · cases h
          · exact ⟨rfl, rfl⟩
      | some d =>
        cases recursive with
        | false => simp; constructor <;> (rintro ⟨rfl, rfl⟩; exact ⟨rfl, rfl⟩)
        | true =>
          simp only [if_true, List.mem_map, Prod.mk.injEq, C67_recursive]
          constructor
          · rintro ⟨p, h, rfl, rfl⟩; exact ⟨rfl, .inl ⟨trivial, d, rfl, h⟩⟩
          · rintro ⟨rfl, h⟩
            rcases h with ⟨_, d', h, hb⟩ | ⟨h, _⟩
            · cases h; exact ⟨a, hb, rfl, rfl⟩
            · exact absurd ⟨trivial, d, rfl⟩ h
    refine (or_congr key Iff.rfl).trans ?_
    constructor
    · rintro (⟨h1, h2⟩ | ⟨h1, p, hp, h2⟩)
      · exact ⟨h1, path, by simp, h2⟩
      · exact ⟨h1, p, by simp [hp], h2⟩
    · rintro ⟨h1, p, hp, h2⟩
      rcases List.mem_cons.1 hp with rfl | hp
      · exact .inl ⟨h1, h2⟩
      · exact .inr ⟨h1, p, hp, h2⟩

/-- **C67**: the paths named are processed one after the other, in the order given. -/
theorem C67_in_order (dirAt : Str → Option Entry) (recursive : Bool) (xs ys : List Str) :
    filesFromOptions dirAt recursive (xs ++ ys) = filesFromOptions dirAt recursive xs ++ filesFromOptions dirAt recursive ys := by
  induction xs with
  | nil => rfl
  | cons x xs ih => simp only [List.cons_append, filesFromOptions, ih, List.append_assoc]

/-- The directory `d` with a file, a directory with two files, an unreadable directory and a link. -/
def exDir : Entry :=
  .dir true (.cons (str "s") (.dir true (.cons (str "b") .file (.cons (str "c") .file .nil))) (.cons (str "a") .file
    (.cons (str "u") (.dir false (.cons (str "x") .file .nil)) (.cons (str "l") .linkToDir .nil))))
example : walkFiles (str "d") exDir = [str "d/a", str "d/s/b", str "d/s/c"] := by decide
example : exDir.Valid := by
  have v : ∀ s : Str, s ≠ [] → '/' ∉ s → ValidName s := fun s h1 h2 => ⟨h1, h2⟩
  refine .dir _ (.cons (v _ (by decide) (by decide)) ?_ (.dir _ (.cons (v _ (by decide) (by decide)) ?_ .file (.cons (v _ (by decide) (by decide)) ?_ .file .nil)))
    (.cons (v _ (by decide) (by decide)) ?_ .file (.cons (v _ (by decide) (by decide)) ?_ (.dir _ (.cons (v _ (by decide) (by decide)) ?_ .file .nil))
      (.cons (v _ (by decide) (by decide)) ?_ .linkToDir .nil)))) <;>
  · intro e' _
    repeat cases ‹Entries.Has _ _ _›

end Refex
