import Verif.Spec.Output
/- C77: the names shown for files. -/
namespace Refex
set_option autoImplicit false

/-! ### Splitting and joining -/

theorem splitOn_nonempty (c : Char) (s : Str) : ∃ p ps, splitOn c s = p :: ps := by
  have := splitOn_ne c s
  cases h : splitOn c s with
  | nil => exact absurd h this
  | cons p ps => exact ⟨p, ps, rfl⟩

theorem splitOn_append_sep (c : Char) (a b : Str) : splitOn c (a ++ c :: b) = splitOn c a ++ splitOn c b := by
  induction a with
  | nil => simp [splitOn]
  | cons x a ih =>
    simp only [List.cons_append, splitOn]
    split
    · rw [ih]; rfl
    · obtain ⟨p, ps, hp⟩ := splitOn_nonempty c a
      rw [ih, hp]; rfl

theorem splitOn_free (c : Char) (a : Str) (h : c ∉ a) : splitOn c a = [a] := by
  induction a with
  | nil => rfl
  | cons x a ih =>
    simp only [List.mem_cons, not_or] at h
    simp only [splitOn, ih h.2]
    rw [if_neg fun e => h.1 e.symm]

theorem splitOn_mem_free (c : Char) (s : Str) : ∀ p ∈ splitOn c s, c ∉ p := by
  induction s with
  | nil => simp [splitOn]
  | cons x s ih =>
    obtain ⟨p, ps, hp⟩ := splitOn_nonempty c s
    rw [hp] at ih
    simp only [splitOn, hp]
    intro q hq
    split at hq
    · rcases List.mem_cons.1 hq with rfl | hq
      · simp
      · exact ih q hq
    · rename_i hx
      rcases List.mem_cons.1 hq with rfl | hq
      · simp only [List.mem_cons, not_or]
        exact ⟨fun e => hx e.symm, ih p (by simp)⟩
      · exact ih q (by simp [hq])

theorem splitOn_joinWith (cs : List Str) (h : ∀ c ∈ cs, '/' ∉ c) (hne : cs ≠ []) : splitOn '/' (joinWith ['/'] cs) = cs := by
  induction cs with
  | nil => exact absurd rfl hne
  | cons a cs ih =>
    cases cs with
    | nil => exact splitOn_free _ _ (h a (by simp))
    | cons b cs =>
      have : joinWith ['/'] (a :: b :: cs) = a ++ '/' :: joinWith ['/'] (b :: cs) := by simp [joinWith]
      rw [this, splitOn_append_sep, splitOn_free _ _ (h a (by simp)), ih (fun c hc => h c (by simp [hc])) (by simp)]
      rfl

/-! ### Where paths lead -/

/-- A component that names something below. -/
def Proper (c : Str) : Prop := c ≠ [] ∧ c ≠ ['.'] ∧ c ≠ ['.', '.'] ∧ '/' ∉ c

theorem stepInto_proper {dir : List Str} {c : Str} (h : Proper c) : stepInto dir c = c :: dir := by
  unfold stepInto
  rw [if_neg (fun e => e.elim h.1 h.2.1), if_neg h.2.2.1]

theorem walk_proper (cs dir : List Str) (h : ∀ c ∈ cs, Proper c) : cs.foldl stepInto dir = cs.reverse ++ dir := by
  induction cs generalizing dir with
  | nil => rfl
  | cons c cs ih =>
    rw [List.foldl_cons, stepInto_proper (h c (by simp)), ih _ fun c hc => h c (by simp [hc])]
    simp

theorem walk_stays_proper (cs dir : List Str) (hc : ∀ c ∈ cs, '/' ∉ c) (h : ∀ c ∈ dir, Proper c) :
    ∀ c ∈ cs.foldl stepInto dir, Proper c := by
  induction cs generalizing dir with
  | nil => exact h
  | cons c cs ih =>
    refine ih _ (fun c h => hc c (by simp [h])) ?_
    unfold stepInto
    split
    · exact h
    · rename_i h1
      split
      · exact fun c hc => h c (List.mem_of_mem_tail hc)
      · rename_i h2
        intro d hd
        rcases List.mem_cons.1 hd with rfl | hd
        · exact ⟨fun e => h1 (.inl e), fun e => h1 (.inr e), h2, hc d (by simp)⟩
        · exact h d hd

theorem walk_up (n : Nat) (dir : List Str) : (List.replicate n ['.', '.']).foldl stepInto dir = dir.drop n := by
  induction n generalizing dir with
  | zero => rfl
  | succ n ih =>
    rw [List.replicate_succ, List.foldl_cons, ih]
    have : stepInto dir ['.', '.'] = dir.tail := by
      unfold stepInto
      rw [if_neg (by simp), if_pos rfl]
    rw [this]
    cases dir <;> simp

theorem absLocation_proper (p : Str) : ∀ c ∈ absLocation p, Proper c :=
  walk_stays_proper _ _ (splitOn_mem_free '/' p) (by simp)

theorem location_proper (cwd p : Str) : ∀ c ∈ location cwd p, Proper c := by
  unfold location
  split
  · exact absLocation_proper p
  · exact walk_stays_proper _ _ (splitOn_mem_free '/' p) (absLocation_proper cwd)

/-! ### `normpath`, `abspath`, `relpath` -/

theorem normLoop_absolute (cs acc : List Str) (h : ∀ c ∈ acc, c ≠ ['.', '.']) :
    normLoop true acc cs = cs.foldl stepInto acc := by
  induction cs generalizing acc with
  | nil => rfl
  | cons c cs ih =>
    simp only [normLoop, List.foldl_cons, stepInto]
    split
    · exact ih acc h
    · by_cases hc : c = ['.', '.']
      · rw [if_neg, if_pos hc, ih _ fun c hc => h c (List.mem_of_mem_tail hc)]
        rintro (e | e | e)
        · exact e hc
        · simp at e
        · cases acc with
          | nil => simp at e
          | cons a acc => simp only [List.head?_cons, Option.some.injEq] at e; exact h a (by simp) e
      · rw [if_pos (.inl hc), if_neg hc]
        refine ih _ fun d hd => ?_
        rcases List.mem_cons.1 hd with rfl | hd
        · exact hc
        · exact h d hd

theorem normpath_absolute (p : Str) (h : p.head? = some '/') :
    ∃ n, (n = 1 ∨ n = 2) ∧ normpath p = List.replicate n '/' ++ joinWith ['/'] (absLocation p).reverse := by
  have hn : initialSlashes p = 1 ∨ initialSlashes p = 2 := by
    cases p with
    | nil => simp at h
    | cons a p =>
      simp only [List.head?_cons, Option.some.injEq] at h
      subst h
      unfold initialSlashes
      split
      · exact .inl rfl
      · exact .inr rfl
      · exact .inl rfl
      · rename_i h; exact absurd rfl (h p)
  refine ⟨initialSlashes p, hn, ?_⟩
  unfold normpath
  rw [if_neg (by rintro rfl; simp at h)]
  have h0 : decide (initialSlashes p ≠ 0) = true := by rcases hn with e | e <;> simp [e]
  simp only [h0]
  rw [normLoop_absolute _ _ (by simp), if_neg]
  · rfl
  · rcases hn with e | e <;> simp [e, List.replicate_succ]

theorem splitOn_replicate (n : Nat) (s : Str) : splitOn '/' (List.replicate n '/' ++ s) = List.replicate n [] ++ splitOn '/' s := by
  induction n with
  | zero => rfl
  | succ n ih => rw [List.replicate_succ, List.replicate_succ, List.cons_append, List.cons_append, ← ih]; simp [splitOn]

theorem splitOn_join_proper (cs : List Str) (h : ∀ c ∈ cs, Proper c) :
    splitOn '/' (joinWith ['/'] cs) = cs ∨ (cs = [] ∧ splitOn '/' (joinWith ['/'] cs) = [[]]) := by
  cases cs with
  | nil => exact .inr ⟨rfl, rfl⟩
  | cons c cs => exact .inl (splitOn_joinWith _ (fun d hd => (h d hd).2.2.2) (by simp))

theorem components_normal (n : Nat) (cs : List Str) (h : ∀ c ∈ cs, Proper c) :
    components (List.replicate n '/' ++ joinWith ['/'] cs) = cs := by
  unfold components
  rw [splitOn_replicate, List.filter_append]
  have : (List.replicate n ([] : Str)).filter (fun c => decide (c ≠ [])) = [] := by
    rw [List.filter_eq_nil_iff]
    intro c hc
    simp [(List.mem_replicate.1 hc).2]
  rw [this, List.nil_append]
  rcases splitOn_join_proper cs h with e | ⟨rfl, e⟩
  · rw [e, List.filter_eq_self]
    intro c hc
    simpa using (h c hc).1
  · rw [e]; rfl

theorem walk_normal (n : Nat) (cs : List Str) (h : ∀ c ∈ cs, Proper c) :
    (splitOn '/' (List.replicate n '/' ++ joinWith ['/'] cs)).foldl stepInto [] = cs.reverse := by
  rw [splitOn_replicate, List.foldl_append]
  have : ∀ n, (List.replicate n ([] : Str)).foldl stepInto [] = [] := by
    intro n
    induction n with
    | zero => rfl
    | succ n ih => rw [List.replicate_succ, List.foldl_cons]; exact ih
  rw [this]
  rcases splitOn_join_proper cs h with e | ⟨rfl, e⟩
  · rw [e, walk_proper _ _ h, List.append_nil]
  · rw [e]; rfl

theorem absLocation_join (cwd p : Str) (hp : p.head? ≠ some '/') (hcwd : cwd.head? = some '/') :
    absLocation (pathJoin cwd p) = location cwd p ∧ (pathJoin cwd p).head? = some '/' := by
  have hne : cwd ≠ [] := by rintro rfl; simp at hcwd
  unfold location
  rw [if_neg hp]
  unfold pathJoin
  rw [if_neg hp]
  by_cases hl : cwd.getLast? = some '/'
  · rw [if_pos (.inr hl)]
    obtain ⟨d, hd⟩ : ∃ d, cwd = d ++ ['/'] := by
      refine ⟨cwd.dropLast, ?_⟩
      have := List.dropLast_concat_getLast hne
      rw [List.getLast?_eq_some_getLast hne, Option.some.injEq] at hl
      rw [hl] at this
      exact this.symm
    constructor
    · rw [hd]
      unfold absLocation
      rw [List.append_assoc, List.singleton_append, splitOn_append_sep, splitOn_append_sep, List.foldl_append, List.foldl_append]
      rfl
    · rw [List.head?_append, hcwd]; rfl
  · rw [if_neg (fun e => e.elim hne hl)]
    constructor
    · unfold absLocation
      rw [splitOn_append_sep, List.foldl_append]
    · rw [List.head?_append, hcwd]; rfl

theorem abspath_spec (cwd p : Str) (hcwd : cwd.head? = some '/') :
    ∃ n, (n = 1 ∨ n = 2) ∧ abspath cwd p = List.replicate n '/' ++ joinWith ['/'] (location cwd p).reverse := by
  unfold abspath
  by_cases hp : p.head? = some '/'
  · rw [if_pos hp]
    have := normpath_absolute p hp
    unfold location
    rw [if_pos hp]
    exact this
  · rw [if_neg hp]
    obtain ⟨h1, h2⟩ := absLocation_join cwd p hp hcwd
    have := normpath_absolute (pathJoin cwd p) h2
    rw [h1] at this
    exact this

theorem location_abspath (cwd p : Str) (hcwd : cwd.head? = some '/') : location cwd (abspath cwd p) = location cwd p := by
  obtain ⟨n, hn, h⟩ := abspath_spec cwd p hcwd
  have hh : (abspath cwd p).head? = some '/' := by
    rw [h]; rcases hn with rfl | rfl <;> simp [List.replicate_succ]
  have hpr : ∀ c ∈ (location cwd p).reverse, Proper c := fun c hc => location_proper cwd p c (List.mem_reverse.1 hc)
  have : location cwd (abspath cwd p) = absLocation (abspath cwd p) := by
    conv => lhs; unfold location
    rw [if_pos hh]
  rw [this, h]
  unfold absLocation
  rw [walk_normal n _ hpr, List.reverse_reverse]

theorem commonLength_take (a b : List Str) : a.take (commonLength a b) = b.take (commonLength a b) ∧ commonLength a b ≤ a.length := by
  induction a generalizing b with
  | nil => cases b <;> simp [commonLength]
  | cons x a ih =>
    cases b with
    | nil => simp [commonLength]
    | cons y b =>
      simp only [commonLength]
      split
      · rename_i h
        subst h
        have := ih b
        simp only [List.take_succ_cons, List.length_cons]
        exact ⟨by rw [this.1], by omega⟩
      · simp

theorem joinWith_head (cs : List Str) (h : ∀ c ∈ cs, c ≠ [] ∧ '/' ∉ c) : (joinWith ['/'] cs).head? ≠ some '/' := by
  cases cs with
  | nil => simp [joinWith]
  | cons a cs =>
    obtain ⟨h1, h2⟩ := h a (by simp)
    cases a with
    | nil => exact absurd rfl h1
    | cons x a =>
      have : (joinWith ['/'] ((x :: a) :: cs)).head? = some x := by cases cs <;> simp [joinWith]
      rw [this]
      intro e
      cases e
      simp at h2

theorem location_relpath (cwd p rel : Str) (hcwd : cwd.head? = some '/') (h : relpath cwd p = .ok rel) :
    location cwd rel = location cwd p := by
  unfold relpath at h
  split at h
  · cases h
  · rename_i hp
    obtain ⟨n, _, hs⟩ := abspath_spec cwd ['.'] hcwd
    obtain ⟨m, _, ht⟩ := abspath_spec cwd p hcwd
    have hdot : location cwd ['.'] = absLocation cwd := by
      unfold location
      rw [if_neg (by simp)]
      rfl
    have prS : ∀ c ∈ (absLocation cwd).reverse, Proper c := fun c hc => absLocation_proper cwd c (List.mem_reverse.1 hc)
    have prP : ∀ c ∈ (location cwd p).reverse, Proper c := fun c hc => location_proper cwd p c (List.mem_reverse.1 hc)
    rw [hdot] at hs
    rw [hs, ht, components_normal n _ prS, components_normal m _ prP] at h
    obtain ⟨hc1, hc2⟩ := commonLength_take (absLocation cwd).reverse (location cwd p).reverse
    simp only at h
    revert h hc1 hc2
    generalize hi : commonLength (absLocation cwd).reverse (location cwd p).reverse = i
    simp only [Except.ok.injEq]
    intro h hc1 hc2
    have walk : (List.replicate ((absLocation cwd).reverse.length - i) ['.', '.'] ++ (location cwd p).reverse.drop i).foldl stepInto
        (absLocation cwd) = location cwd p := by
      rw [List.foldl_append, walk_up, walk_proper _ _ fun c hc => prP c (List.mem_of_mem_drop hc)]
      have : (absLocation cwd).drop ((absLocation cwd).reverse.length - i) = ((location cwd p).reverse.take i).reverse := by
        rw [← hc1, List.reverse_take, List.reverse_reverse]
      rw [this, ← List.reverse_append, List.take_append_drop, List.reverse_reverse]
    have free : ∀ c ∈ List.replicate ((absLocation cwd).reverse.length - i) ['.', '.'] ++ (location cwd p).reverse.drop i, c ≠ [] ∧ '/' ∉ c := by
      intro c hc
      rcases List.mem_append.1 hc with hc | hc
      · rw [(List.mem_replicate.1 hc).2]; decide
      · have := prP c (List.mem_of_mem_drop hc)
        exact ⟨this.1, this.2.2.2⟩
    revert h walk free
    generalize (List.replicate ((absLocation cwd).reverse.length - i) ['.', '.'] ++ (location cwd p).reverse.drop i) = r
    intro h walk free
    split at h
    · rename_i he
      subst he
      rw [← h, hdot]
      exact walk
    · rename_i he
      rw [← h]
      have : location cwd (joinWith ['/'] r) = (splitOn '/' (joinWith ['/'] r)).foldl stepInto (absLocation cwd) := by
        unfold location
        rw [if_neg (joinWith_head r free)]
      rw [this, splitOn_joinWith r (fun c hc => (free c hc).2) he, walk]

theorem shortest_spec (best : Str) (l : List Str) :
    shortest best l ∈ best :: l ∧ ∀ p ∈ best :: l, (shortest best l).length ≤ p.length := by
  induction l generalizing best with
  | nil => simp [shortest]
  | cons p l ih =>
    simp only [shortest]
    split
    · rename_i h
      obtain ⟨h1, h2⟩ := ih p
      refine ⟨by simp only [List.mem_cons] at h1 ⊢; exact .inr h1, fun q hq => ?_⟩
      have hp := h2 p (by simp)
      simp only [List.mem_cons] at hq
      rcases hq with rfl | rfl | hq
      · omega
      · exact hp
      · exact h2 q (by simp [hq])
    · rename_i h
      obtain ⟨h1, h2⟩ := ih best
      refine ⟨?_, fun q hq => ?_⟩
      · simp only [List.mem_cons] at h1 ⊢
        rcases h1 with h1 | h1
        · exact .inl h1
        · exact .inr (.inr h1)
      · have hb := h2 best (by simp)
        simp only [List.mem_cons] at hq
        rcases hq with rfl | rfl | hq
        · exact hb
        · omega
        · exact h2 q (by simp [hq])

/-- C77. Whatever path is given (other than the empty one) and whatever the current directory: the name shown leads to the same
place as the path (as far as names tell: symbolic links are not looked at), and is not longer than the path. -/
theorem C77_name_shown (cwd p : Str) (hcwd : cwd.head? = some '/') (hp : p ≠ []) :
    ∃ name, shortenPath cwd p = .ok name ∧ location cwd name = location cwd p ∧ name.length ≤ p.length := by
  unfold shortenPath
  cases hr : relpath cwd p with
  | error e => unfold relpath at hr; rw [if_neg hp] at hr; cases hr
  | ok rel =>
    refine ⟨_, rfl, ?_, ?_⟩
    · have := (shortest_spec p [abspath cwd p, rel]).1
      simp only [List.mem_cons, List.not_mem_nil, or_false] at this
      rcases this with h | h | h <;> rw [h]
      · exact location_abspath cwd p hcwd
      · exact location_relpath cwd p rel hcwd hr
    · exact (shortest_spec p [abspath cwd p, rel]).2 p (by simp)

/-- The path itself is shown unless another name is strictly shorter, and among names no other of the three is shorter. -/
theorem C77_shortest (cwd p rel name : Str) (hr : relpath cwd p = .ok rel) (h : shortenPath cwd p = .ok name) :
    (name = p ∨ name = abspath cwd p ∨ name = rel) ∧ name.length ≤ (abspath cwd p).length ∧ name.length ≤ rel.length := by
  unfold shortenPath at h
  rw [hr] at h
  simp only [Except.ok.injEq] at h
  have := shortest_spec p [abspath cwd p, rel]
  rw [h] at this
  exact ⟨by simpa using this.1, this.2 _ (by simp), this.2 _ (by simp)⟩

/-- The empty path is an error, and ends the run. -/
theorem C77_empty_false : ¬ ∀ cwd p : Str, cwd.head? = some '/' → ∃ name, shortenPath cwd p = .ok name := by
  intro h
  obtain ⟨name, hn⟩ := h ['/'] [] rfl
  cases hn

-- From /a/b, the path ../b/./c/../d.py is shown as d.py, /a/x as ../x or /a/x (of the same length the path itself), /x as it is.
example : shortenPath (str "/a/b") (str "../b/./c/../d.py") = .ok (str "d.py") ∧ shortenPath (str "/a/b") (str "/a/xyz") = .ok (str "/a/xyz") ∧
    shortenPath (str "/a/b") (str "/x") = .ok (str "/x") ∧ shortenPath (str "/a/b") (str "//a//b//c") = .ok (str "c") ∧
    shortenPath (str "/") (str "./a") = .ok (str "a") ∧ shortenPath (str "/a/b") (str "../../a/b") = .ok (str ".") := by decide
example : location (str "/a/b") (str "../b/./c/../d.py") = [str "d.py", str "b", str "a"] := by decide

end Refex
