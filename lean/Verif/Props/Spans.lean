import Verif.Lemmas.AsDiff
/-
Properties C08 (labeled_spans), C09 (as_diff), C12 (line_expanded_span).
-/
namespace Refex
set_option autoImplicit false

theorem nodup_of_map {α β : Type} {f : α → β} {l : List α} (h : (l.map f).Nodup) : l.Nodup :=
  (List.pairwise_map.1 h).imp (fun hn he => hn (by rw [he]))

/-! ### C08 -/

/-- C08. For a substitution with at least one span, all with start ≤ end: `labeled_spans` succeeds; the yielded spans
tile the extent of the match in order; the labels of the span covering a character are exactly the labels whose matched
span contains that character; and (also for empty yielded spans) a label is only attached to spans it encloses. -/
theorem C08_labeled_spans (s : Substitution) (hwf : s.matchedSpans.WF) (hne : s.matchedSpans ≠ [])
    (hsp : ∀ p ∈ s.matchedSpans, p.2.1 ≤ p.2.2) :
    ∃ lo hi out, labeledSpans s = .ok out ∧ IsExtent s lo hi ∧ Contig lo hi out ∧
      (∀ ls ∈ out, ∀ i, ls.span.1 ≤ i → i < ls.span.2 →
        ∀ l, l ∈ ls.labels ↔ ∃ p ∈ s.matchedSpans, p.1 = l ∧ p.2.1 ≤ i ∧ i < p.2.2) ∧
      (∀ ls ∈ out, ∀ l ∈ ls.labels, ∃ p ∈ s.matchedSpans, p.1 = l ∧ p.2.1 ≤ ls.span.1 ∧ ls.span.2 ≤ p.2.2) ∧
      (∀ p ∈ s.matchedSpans, ∃ ls ∈ out, p.1 ∈ ls.labels) := by
  obtain ⟨lo, hi, out, h1, h2, h3, h4, h5, h6, h7, _, h9⟩ := labeledSpans_facts s hwf hne hsp
  refine ⟨lo, hi, out, h1, ⟨h2, h3, h4⟩, h5, h6, ?_, ?_⟩
  · intro ls hls l hl
    obtain ⟨p, a, b, c, d, _⟩ := h7 ls hls l hl
    exact ⟨p, a, b, c, d⟩
  · intro p hp
    obtain ⟨ls, a, _, b⟩ := h9 p hp
    exact ⟨ls, a, b⟩

/-- What tiling means for characters: each one of the extent is in exactly one yielded span. -/
theorem C08_tiling_covers_once {lo hi : Nat} {out : List LabeledSpan} (h : Contig lo hi out) (i : Nat)
    (h1 : lo ≤ i) (h2 : i < hi) :
    ∃ pre ls post, out = pre ++ ls :: post ∧ (ls.span.1 ≤ i ∧ i < ls.span.2) ∧
      ∀ x ∈ pre ++ post, ¬ (x.span.1 ≤ i ∧ i < x.span.2) := by
  induction out generalizing lo with
  | nil => have h : lo = hi := h; omega
  | cons x rest ih =>
    obtain ⟨a1, a2, a3⟩ := h
    by_cases hx : i < x.span.2
    · refine ⟨[], x, rest, rfl, ⟨by omega, hx⟩, ?_⟩
      intro y hy
      have := (a3.bounds y (by simpa using hy)).1
      omega
    · obtain ⟨pre, ls, post, rfl, hb, hn⟩ := ih a3 (by omega)
      refine ⟨x :: pre, ls, post, rfl, hb, ?_⟩
      intro y hy
      simp only [List.cons_append, List.mem_cons] at hy
      rcases hy with rfl | hy
      · omega
      · exact hn y hy

/-- C08, the error branch: a span with start after its end that outlives all others is the AssertionError of line 342. -/
example : labeledSpans { matchedSpans := [(str "a", (7, 3))], primaryLabel := str "a" } = .error .assertionError := by decide

/-- Example: nested, touching and empty spans. -/
def exSpans : Substitution :=
  { matchedSpans := [(str "r", (0, 10)), (str "a", (1, 3)), (str "b", (3, 3)), (str "c", (6, 12))],
    primaryLabel := str "r" }
example : exSpans.matchedSpans.WF ∧ exSpans.matchedSpans ≠ [] ∧ ∀ p ∈ exSpans.matchedSpans, p.2.1 ≤ p.2.2 := by decide

/-! ### C09 -/

/-- The full statement of C09 for one substitution. -/
def DiffFaithful (data : Str) (s : Substitution) : Prop :=
  ∃ items lo hi out, asDiff s = .ok items ∧ IsExtent s lo hi ∧ applySubstitutions data [s] = .ok out ∧
    items.flatMap (DiffItem.before data) = slice data lo hi ∧
    data.take lo ++ items.flatMap (DiffItem.after' data) ++ data.drop hi = out

/-- C09: for valid substitutions with pairwise disjoint replaced spans, the diff is faithful provided
no replaced span ends exactly where another matched span starts.
Not so: replaced spans that end where another span starts, for which it is false, see
`C09_diff_faithful_false`. -/
theorem C09_diff_faithful (data : Str) (s : Substitution) (hwf : s.matchedSpans.WF)
    (hval : s.validate = .ok ()) (hsp : ∀ p ∈ s.matchedSpans, p.2.1 ≤ p.2.2)
    (hdis : ∀ p ∈ s.matchedSpans, ∀ q ∈ s.matchedSpans, p.1 ≠ q.1 →
      (s.replacements.getD []).has p.1 = true → (s.replacements.getD []).has q.1 = true →
      p.2.2 ≤ q.2.1 ∨ q.2.2 ≤ p.2.1)
    (hnt : ∀ p ∈ s.matchedSpans, (s.replacements.getD []).has p.1 = true →
      ∀ q ∈ s.matchedSpans, q.1 ≠ p.1 → q.2.1 ≠ p.2.2) :
    DiffFaithful data s := by
  have hne : s.matchedSpans ≠ [] := by
    intro h
    unfold Substitution.validate at hval
    rw [h] at hval
    simp only [Dict.has, Dict.get?, Option.isSome_none, Bool.not_false, if_true] at hval
    split at hval <;> cases hval
  obtain ⟨lo, hi, lss, h1, h2, h3, h4, h5, h6, h7, h8, h9⟩ := labeledSpans_facts s hwf hne hsp
  have hperm := stableSort_perm (fun a b : Label × Span => spanLe a.2 b.2) s.matchedSpans
  have hmem : ∀ p, p ∈ sortedReplaced s ↔ p ∈ s.matchedSpans ∧ (s.replacements.getD []).has p.1 = true := by
    intro p
    unfold sortedReplaced
    rw [List.mem_filter, hperm.mem_iff]
  have hnodup : (stableSort (fun a b : Label × Span => spanLe a.2 b.2) s.matchedSpans).Nodup :=
    hperm.nodup_iff.2 (nodup_of_map hwf)
  have hndR : (sortedReplaced s).Nodup := hnodup.filter _
  have hpw : (sortedReplaced s).Pairwise (fun a b => a.2.2 ≤ b.2.1) := by
    have hs : (sortedReplaced s).Pairwise (fun a b => spanLe a.2 b.2 = true) :=
      (stableSort_sorted (le := fun a b : Label × Span => spanLe a.2 b.2)
        (fun a b => spanLe_total _ _) (fun a b c => spanLe_trans _ _ _) _).filter _
    refine List.Pairwise.imp_of_mem ?_ (hs.and hndR)
    intro a b ha hb hab
    obtain ⟨hle, hne'⟩ := hab
    obtain ⟨ha1, ha2⟩ := (hmem a).1 ha
    obtain ⟨hb1, hb2⟩ := (hmem b).1 hb
    have hk : a.1 ≠ b.1 := fun h => hne' (nodup_map_inj (f := Prod.fst) hwf ha1 hb1 h)
    have := hdis a ha1 b hb1 hk ha2 hb2
    have := hsp a ha1; have := hsp b hb1
    rw [spanLe_iff] at hle
    omega
  have hio : InOrder 0 (sortedEdits s) := by
    rw [sortedEdits_eq]
    refine InOrder.of_pairwise (by simp) ?_ ?_
    · intro e he
      obtain ⟨p, hp, rfl⟩ := List.mem_map.1 he
      exact hsp p ((hmem p).1 hp).1
    · rw [List.pairwise_map]; exact hpw
  obtain ⟨g1, g2⟩ := asDiff_main data s (s.replacements.getD []) hwf hi hnt lss.length lo 0 lss (sortedReplaced s)
    (Nat.le_refl _) (Nat.zero_le _) h5 h6 h7 h8 (fun p hp => h9 p ((hmem p).1 hp).1)
    (fun ls hls l hl hlr => by
      obtain ⟨p, hp, hpl, _⟩ := h7 ls hls l hl
      exact ⟨p, (hmem p).2 ⟨hp, by rw [hpl]; exact hlr⟩, hpl⟩)
    hpw hndR
    (fun p hp => by
      obtain ⟨a, b⟩ := (hmem p).1 hp
      exact ⟨a, b, hsp p a, (h4 p a).2⟩)
  refine ⟨_, lo, hi, splice data 0 (sortedEdits s), by unfold asDiff; rw [h1], ⟨h2, h3, h4⟩,
    by rw [apply_single, if_pos hio], g2, ?_⟩
  rw [List.append_assoc, g1, sortedEdits_eq, splice_advance data 0 lo _ (Nat.zero_le _)]
  · simp [slice]
  · intro e he
    cases hR : sortedReplaced s with
    | nil => rw [hR] at he; simp at he
    | cons p ps =>
      rw [hR] at he
      simp only [List.map_cons, List.head?_cons, Option.some.injEq] at he
      subst he
      exact (h4 p ((hmem p).1 (by rw [hR]; simp)).1).1

/-- A replaced span ending where an unreplaced one starts: the replacement is displayed twice. -/
def exTwice : Substitution :=
  { matchedSpans := [(str "r", (0, 6)), (str "a", (1, 3)), (str "b", (3, 5))], primaryLabel := str "r",
    replacements := some [(str "a", str "X")] }
/-- An insertion right before another replaced span: the insertion is not displayed. -/
def exLost : Substitution :=
  { matchedSpans := [(str "r", (0, 6)), (str "a", (3, 3)), (str "b", (3, 5))], primaryLabel := str "r",
    replacements := some [(str "a", str "X"), (str "b", str "Y")] }

/-- C09 is false as stated: two valid substitutions with disjoint replaced spans whose displayed diff is not the rewrite:
in the first the replacement text appears twice, in the second an insertion is missing. -/
theorem C09_diff_faithful_false :
    (exTwice.validate = .ok () ∧ (∃ out, applySubstitutions (str "012345") [exTwice] = .ok out) ∧
      ¬ DiffFaithful (str "012345") exTwice) ∧
    (exLost.validate = .ok () ∧ (∃ out, applySubstitutions (str "012345") [exLost] = .ok out) ∧
      ¬ DiffFaithful (str "012345") exLost) := by
  have ext : ∀ (s : Substitution) (lo hi : Nat), IsExtent s lo hi →
      (∃ p ∈ s.matchedSpans, p.2 = (0, 6)) → (∀ p ∈ s.matchedSpans, p.2.2 ≤ 6) → lo = 0 ∧ hi = 6 := by
    rintro s lo hi ⟨⟨p, hp, h1⟩, ⟨q, hq, h2⟩, h3⟩ ⟨r, hr, h4⟩ h5
    have ha := h3 r hr
    have hb := h5 q hq
    rw [h4] at ha
    simp only at ha
    omega
  refine ⟨⟨by decide, ⟨str "0X345", by decide⟩, ?_⟩, ⟨by decide, ⟨str "012XY5", by decide⟩, ?_⟩⟩
  · rintro ⟨items, lo, hi, out, h1, h2, h3, h4, h5⟩
    obtain ⟨rfl, rfl⟩ := ext _ _ _ h2 (by decide) (by decide)
    have e1 : asDiff exTwice = .ok [.labeled ⟨(0, 1), [str "r"]⟩, .diff (1, 3) (str "a") (str "X"),
      .diff (1, 3) (str "a") (str "X"), .labeled ⟨(3, 5), [str "r", str "b"]⟩, .labeled ⟨(5, 6), [str "r"]⟩] := by decide
    rw [e1] at h1
    cases h1
    have e2 : applySubstitutions (str "012345") [exTwice] = .ok (str "0X345") := by decide
    rw [e2] at h3
    cases h3
    revert h5; decide
  · rintro ⟨items, lo, hi, out, h1, h2, h3, h4, h5⟩
    obtain ⟨rfl, rfl⟩ := ext _ _ _ h2 (by decide) (by decide)
    have e1 : asDiff exLost = .ok [.labeled ⟨(0, 3), [str "r"]⟩, .diff (3, 5) (str "b") (str "Y"),
      .labeled ⟨(5, 6), [str "r"]⟩] := by decide
    rw [e1] at h1
    cases h1
    have e2 : applySubstitutions (str "012345") [exLost] = .ok (str "012XY5") := by decide
    rw [e2] at h3
    cases h3
    revert h5; decide

/-- Hypotheses of `C09_diff_faithful` on a non-trivial case: two replaced spans, one overlapped by an
unreplaced one. -/
def exFaithful : Substitution :=
  { matchedSpans := [(str "r", (0, 9)), (str "a", (1, 3)), (str "u", (2, 4)), (str "b", (5, 5))], primaryLabel := str "r",
    replacements := some [(str "b", str "YY"), (str "a", str "")] }
example : exFaithful.validate = .ok () ∧ exFaithful.matchedSpans.WF ∧
    (∀ p ∈ exFaithful.matchedSpans, p.2.1 ≤ p.2.2) ∧
    (∀ p ∈ exFaithful.matchedSpans, ∀ q ∈ exFaithful.matchedSpans, p.1 ≠ q.1 →
      (exFaithful.replacements.getD []).has p.1 = true → (exFaithful.replacements.getD []).has q.1 = true →
      p.2.2 ≤ q.2.1 ∨ q.2.2 ≤ p.2.1) ∧
    (∀ p ∈ exFaithful.matchedSpans, (exFaithful.replacements.getD []).has p.1 = true →
      ∀ q ∈ exFaithful.matchedSpans, q.1 ≠ p.1 → q.2.1 ≠ p.2.2) := by decide

/-! ### C12 -/

theorem firstNl_some {s : Str} {i : Nat} (h : firstNl s = some i) : s[i]? = some '\n' ∧ ∀ j < i, s[j]? ≠ some '\n' := by
  induction s generalizing i with
  | nil => simp [firstNl] at h
  | cons c cs ih =>
    simp only [firstNl] at h
    split at h
    · rename_i hc; cases h; simp [hc]
    · rename_i hc
      obtain ⟨k, hk, rfl⟩ := Option.map_eq_some_iff.1 h
      obtain ⟨a, b⟩ := ih hk
      refine ⟨by simpa using a, ?_⟩
      intro j hj
      cases j with
      | zero => simpa using hc
      | succ j => simpa using b j (by omega)

theorem firstNl_none {s : Str} (h : firstNl s = none) : ∀ j : Nat, s[j]? ≠ some '\n' := by
  induction s with
  | nil => simp
  | cons c cs ih =>
    simp only [firstNl] at h
    split at h
    · cases h
    · rename_i hc
      have := ih (Option.map_eq_none_iff.1 h)
      intro j
      cases j with
      | zero => simpa using hc
      | succ j => simpa using this j

theorem lastNl_none {s : Str} (h : lastNl s = none) : ∀ j : Nat, s[j]? ≠ some '\n' := by
  induction s with
  | nil => simp
  | cons c cs ih =>
    simp only [lastNl] at h
    split at h
    · cases h
    · rename_i hn
      split at h
      · cases h
      · rename_i hc
        intro j
        cases j with
        | zero => simpa using hc
        | succ j => simpa using ih hn j

theorem lastNl_some {s : Str} {i : Nat} (h : lastNl s = some i) :
    s[i]? = some '\n' ∧ ∀ j, i < j → s[j]? ≠ some '\n' := by
  induction s generalizing i with
  | nil => simp [lastNl] at h
  | cons c cs ih =>
    simp only [lastNl] at h
    split at h
    · rename_i k hk
      cases h
      obtain ⟨a, b⟩ := ih hk
      refine ⟨by simpa using a, ?_⟩
      intro j hj
      cases j with
      | zero => omega
      | succ j => simpa using b j (by omega)
    · rename_i hn
      split at h
      · rename_i hc
        cases h
        refine ⟨by simp [hc], ?_⟩
        intro j hj
        cases j with
        | zero => omega
        | succ j => simpa using lastNl_none hn j
      · cases h

/-- The whole-line expansion of `[start, stop)` in `s`: begins at 0 or after a newline, ends at the end or before a
newline, and adds no newline on either side. -/
def WholeLines (s : Str) (start stop : Nat) (r : Span) : Prop :=
  r.1 ≤ start ∧ stop ≤ r.2 ∧ r.2 ≤ s.length ∧
  (r.1 = 0 ∨ s[r.1 - 1]? = some '\n') ∧ (r.2 = s.length ∨ s[r.2]? = some '\n') ∧
  (∀ j, r.1 ≤ j → j < start → s[j]? ≠ some '\n') ∧ (∀ j, stop ≤ j → j < r.2 → s[j]? ≠ some '\n')

/-- C12 for ordinary offsets. -/
theorem C12_whole_lines (s : Str) (start stop : Nat) (h1 : start ≤ stop) (h2 : stop ≤ s.length) :
    WholeLines s start stop (lineExpandedSpan s (some start) (some stop)) := by
  have e : lineExpandedSpan s (some start) (some stop) = (lineExpandedLeft s start, lineExpandedRight s stop) := by
    have a1 : ¬ ((start : Int) < 0) := by omega
    have a2 : ¬ ((stop : Int) < 0) := by omega
    have a3 : ¬ ((stop : Int) < start) := by omega
    simp [lineExpandedSpan, a1, a2, a3]
  rw [e]
  have hl : lineExpandedLeft s start ≤ start ∧
      (lineExpandedLeft s start = 0 ∨ s[lineExpandedLeft s start - 1]? = some '\n') ∧
      (∀ j, lineExpandedLeft s start ≤ j → j < start → s[j]? ≠ some '\n') := by
    unfold lineExpandedLeft
    cases hn : lastNl (s.take start) with
    | none =>
      refine ⟨Nat.zero_le _, Or.inl rfl, ?_⟩
      intro j _ hj
      have := lastNl_none hn j
      rwa [List.getElem?_take_of_lt hj] at this
    | some i =>
      obtain ⟨a, b⟩ := lastNl_some hn
      have hi : i < start := by
        have := (List.getElem?_eq_some_iff.1 a).1
        simp only [List.length_take] at this; omega
      have hmin : min start (i + 1) = i + 1 := by omega
      simp only [hmin]
      refine ⟨by omega, Or.inr ?_, ?_⟩
      · rw [List.getElem?_take_of_lt hi] at a; simpa using a
      · intro j h1 h2
        have := b j (by omega)
        rwa [List.getElem?_take_of_lt h2] at this
  have hr : stop ≤ lineExpandedRight s stop ∧ lineExpandedRight s stop ≤ s.length ∧
      (lineExpandedRight s stop = s.length ∨ s[lineExpandedRight s stop]? = some '\n') ∧
      (∀ j, stop ≤ j → j < lineExpandedRight s stop → s[j]? ≠ some '\n') := by
    unfold lineExpandedRight
    cases hn : firstNl (s.drop stop) with
    | none =>
      refine ⟨h2, Nat.le_refl _, Or.inl rfl, ?_⟩
      intro j hj _
      have := firstNl_none hn (j - stop)
      rw [List.getElem?_drop] at this
      rwa [show stop + (j - stop) = j by omega] at this
    | some i =>
      obtain ⟨a, b⟩ := firstNl_some hn
      rw [List.getElem?_drop] at a
      have hi := (List.getElem?_eq_some_iff.1 a).1
      refine ⟨by simp, by simp only; omega, Or.inr a, ?_⟩
      intro j h1 h2
      have := b (j - stop) (by simp only at h2; omega)
      rw [List.getElem?_drop] at this
      rwa [show stop + (j - stop) = j by omega] at this
  exact ⟨hl.1, hr.1, hr.2.1, hl.2.1, hr.2.2.1, hl.2.2, hr.2.2.2⟩

/-- `WholeLines` determines the span: it is the only, hence the smallest, such span. -/
theorem C12_unique (s : Str) (start stop : Nat) (r r' : Span)
    (h : WholeLines s start stop r) (h' : WholeLines s start stop r') : r = r' := by
  obtain ⟨a1, a2, a3, a4, a5, a6, a7⟩ := h
  obtain ⟨b1, b2, b3, b4, b5, b6, b7⟩ := h'
  have e1 : r.1 = r'.1 := by
    rcases Nat.lt_trichotomy r.1 r'.1 with hlt | heq | hgt
    · rcases b4 with b4 | b4
      · omega
      · exact absurd b4 (a6 _ (by omega) (by omega))
    · exact heq
    · rcases a4 with a4 | a4
      · omega
      · exact absurd a4 (b6 _ (by omega) (by omega))
  have e2 : r.2 = r'.2 := by
    rcases Nat.lt_trichotomy r.2 r'.2 with hlt | heq | hgt
    · rcases a5 with a5 | a5
      · omega
      · exact absurd a5 (b7 _ (by omega) (by omega))
    · exact heq
    · rcases b5 with b5 | b5
      · omega
      · exact absurd b5 (a7 _ (by omega) (by omega))
  exact Prod.ext e1 e2

/-- Spec: the position a Python offset denotes in a text of length `n`; `dflt` is used for None. -/
def pyOffset (n dflt : Int) : Option Int → Int
  | none => dflt
  | some i => if i < 0 then n + i else i

theorem pyOffset_nat (n : Nat) (dflt : Int) (o : Option Int) (hd : 0 ≤ dflt ∧ dflt ≤ n)
    (h : ∀ i, o = some i → -(n : Int) ≤ i ∧ i ≤ n) : ∃ a : Nat, (a : Int) = pyOffset n dflt o ∧ a ≤ n := by
  cases o with
  | none => exact ⟨dflt.toNat, by simp only [pyOffset]; omega, by omega⟩
  | some i =>
    have := h i rfl
    by_cases hi : i < 0
    · exact ⟨(n + i).toNat, by simp only [pyOffset, hi, if_true]; omega, by omega⟩
    · exact ⟨i.toNat, by simp only [pyOffset, hi, if_false]; omega, by omega⟩

/-- C12 for Python offsets: None means the end in question, negative ones count from the end of the text, and an end before
the start is moved to the start. -/
theorem C12_python_offsets (s : Str) (start stop : Option Int)
    (h1 : ∀ i, start = some i → -(s.length : Int) ≤ i ∧ i ≤ s.length)
    (h2 : ∀ i, stop = some i → -(s.length : Int) ≤ i ∧ i ≤ s.length) :
    ∃ a b : Nat, (a : Int) = pyOffset s.length 0 start ∧ (b : Int) = pyOffset s.length s.length stop ∧
      WholeLines s a (max a b) (lineExpandedSpan s start stop) := by
  obtain ⟨a, ha, hal⟩ := pyOffset_nat s.length 0 start (by omega) h1
  obtain ⟨b, hb, hbl⟩ := pyOffset_nat s.length s.length stop (by omega) h2
  refine ⟨a, b, ha, hb, ?_⟩
  have e1 : (if start.getD 0 < 0 then (s.length : Int) + start.getD 0 else start.getD 0) = a := by
    rw [ha]; cases start <;> simp [pyOffset]
  have e2 : (if stop.getD s.length < 0 then (s.length : Int) + stop.getD s.length else stop.getD s.length) = b := by
    rw [hb]; cases stop
    · have : ¬ ((s.length : Int) < 0) := by omega
      simp only [pyOffset, Option.getD_none, this, if_false]
    · simp [pyOffset]
  have f1 : (if (b : Int) < a then (a : Int) else b) = ((max a b : Nat) : Int) := by split <;> omega
  have g1 : ¬ ((a : Int) < 0) := by omega
  have g2 : ¬ (((max a b : Nat) : Int) < 0) := by omega
  have g3 : ¬ (((max a b : Nat) : Int) < a) := by omega
  have e : lineExpandedSpan s start stop = lineExpandedSpan s (some (a : Int)) (some ((max a b : Nat) : Int)) := by
    unfold lineExpandedSpan
    simp only [Option.getD_some]
    rw [e1, e2, f1, if_neg g1, if_neg g2, if_neg g3]
  rw [e]
  exact C12_whole_lines s a (max a b) (by omega) (by omega)

example : lineExpandedSpan (str "ab\ncd\nef") (some 4) (some (-3)) = (3, 5) := by decide

end Refex
