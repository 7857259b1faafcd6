import Verif.Props.Pragmas
import Verif.Props.AstEq
/- C57: pragmas and iteration, for every iteration limit. -/
namespace Refex
set_option autoImplicit false

/-- A pragma of the parsed file disables a category of the finding where the finding is. -/
def DisabledIn (p : ParsedFile) (x : Substitution) : Prop :=
  ∃ c, InCategory x c ∧ ∃ r, RangeOf (pragmaExcludedRanges p.pragmas) c r ∧ Meets x.primarySpan r

/-- `ParsedFile.pragmas` of the pieces that are searched again: every round of the iteration looks at `p` with
`parse u = .ok p`, and what it finds is not disabled in `p`. -/
theorem pragma_find_ok {s : Searcher} {p : ParsedFile} {out : List Substitution} (h : (pragmaSuppressed s).find p = .ok out) :
    ∃ subs, s.find p = .ok subs ∧ ∀ x, x ∈ out ↔ x ∈ subs ∧ ¬ DisabledIn p x := by
  cases hf : s.find p with
  | error e => simp only [pragmaSuppressed, hf] at h; cases h
  | ok subs =>
    obtain ⟨out', h1, h2, h3⟩ := C24_suppressed_search s p subs hf
    rw [h1] at h; cases h
    refine ⟨subs, rfl, fun x => ⟨fun hx => ⟨h2.subset hx, fun hd => ?_⟩, fun hx => ?_⟩⟩
    · exact ((h3 x (h2.subset hx)).2 hd) hx
    · exact Classical.byContradiction (fun hn => hx.2 ((h3 x hx.1).1 hn))

/-- The findings applied after the first round were reported for a piece of code in which no pragma disables them. -/
theorem rounds_not_disabled {parse : Str → Except Exc ParsedFile} {s : Searcher} {k : Nat} {t t' : Str} {new pending all : List Substitution}
    (h : Rounds parse (pragmaSuppressed s).find k t new t' pending all) :
    ∀ x ∈ all, x ∈ new ∨ ∃ u p subs, parse u = .ok p ∧ s.find p = .ok subs ∧ x ∈ subs ∧ ¬ DisabledIn p x := by
  induction h with
  | stop t s => simp
  | round hne happly hparse hfind rest ih =>
    intro x hx
    rcases List.mem_append.1 hx with hx | hx
    · exact Or.inl hx
    · right
      rcases ih x hx with h | h
      · obtain ⟨subs, h1, h2⟩ := pragma_find_ok hfind
        exact ⟨_, _, subs, hparse, h1, (h2 x).1 h⟩
      · exact h

theorem fixedPoint_cases {parse : Str → Except Exc ParsedFile} {find : ParsedFile → Except Exc (List Substitution)} {text : Str}
    {initial out : List Substitution} {a b n : Nat} (hne : initial ≠ []) (h : fixedPoint parse find text initial a b n = .ok out) :
    out = [] ∨ out = initial ∨ ∃ y k rels t pending all, 2 ≤ k ∧ k ≤ n ∧ out = [y] ∧ MergedInto y a b t ∧
      initial.map (fun s => s.relativeToSpan a b) = rels.map some ∧ Rounds parse find k (slice text a b) rels t pending all := by
  by_cases hn : n ≤ 1
  · rw [C20_no_iteration parse find text initial a b n (Or.inl hn)] at h; cases h; exact Or.inr (Or.inl rfl)
  · by_cases hs : ∃ s ∈ initial, ∃ p ∈ s.matchedSpans, ¬ (a ≤ p.2.1 ∧ p.2.2 ≤ b)
    · rw [C20_no_iteration parse find text initial a b n (Or.inr hs)] at h; cases h; exact Or.inr (Or.inl rfl)
    · cases hr : relativeAll a b initial with
      | none => exact absurd (relativeAll_none.1 hr) hs
      | some rels =>
        have hrel := relativeAll_some hr
        obtain ⟨k, t, pending, all, h1, h2, h3, _⟩ := fixedPoint_core parse find text initial rels out a b n (by omega) hne hrel h
        rcases h3 with ⟨_, h3⟩ | ⟨_, h3⟩ | ⟨h3, y, h4, h5⟩
        · exact Or.inl h3
        · exact Or.inr (Or.inl h3)
        · exact Or.inr (Or.inr ⟨y, k, rels, t, pending, all, h3, h1, h4, h5, hrel, h2⟩)

/-- **C57**: whatever the iteration limit, each result is a finding in the file that none of its pragmas disables there,
or a merged result that replaces exactly the key span of such a finding by the outcome of at most `n` rounds, in which
every further finding was reported for a piece of code in which no pragma of that piece disables it. -/
theorem C57_confined (parseAst : Str → Str → Except Exc ParsedFile) (s : Searcher) (source path : Str) (n : Nat) (out : List Substitution)
    (h : findIter parseAst (pragmaSuppressed s) source path n = .ok out) :
    ∃ file subs, s.parse source path = .ok file ∧ s.find file = .ok subs ∧
      ∀ y ∈ out, (y ∈ subs ∧ ¬ DisabledIn file y) ∨
        ∃ a b t first all k pending, 2 ≤ k ∧ k ≤ n ∧ MergedInto y a b t ∧
          (∃ x ∈ subs, ¬ DisabledIn file x ∧ x.keySpan = some (a, b)) ∧
          (∀ r ∈ first, ∃ x ∈ subs, ¬ DisabledIn file x ∧ x.keySpan = some (a, b) ∧ x.relativeToSpan a b = some r) ∧
          Rounds (fun u => parseAst u file.path) (pragmaSuppressed s).find k (slice file.text a b) first t pending all ∧
          ∀ r ∈ all, r ∈ first ∨ ∃ u p more, parseAst u file.path = .ok p ∧ s.find p = .ok more ∧ r ∈ more ∧ ¬ DisabledIn p r := by
  obtain ⟨file, kept, gs, outs, h1, h2, h3, ⟨g1, g2, _⟩, h5, h6, h7⟩ := C22_find_iter_by_groups parseAst _ source path n out h
  obtain ⟨subs, f1, f2⟩ := pragma_find_ok h3
  refine ⟨file, subs, h2, f1, ?_⟩
  intro y hy
  rw [h6] at hy
  obtain ⟨o, ho, hyo⟩ := List.mem_flatten.1 hy
  obtain ⟨i, hi, e⟩ := List.getElem_of_mem ho
  have hgi : i < gs.length := by omega
  have hz := h7 (gs[i], o) (by
    have := index_mem_zip (l := gs) (r := outs) (List.getElem?_eq_getElem hgi) (List.getElem?_eq_getElem hi)
    rw [e] at this; exact this)
  have hg := g2 gs[i] (List.getElem_mem hgi)
  have hin : ∀ x ∈ gs[i].2, x ∈ subs ∧ ¬ DisabledIn file x := by
    intro x hx
    refine (f2 x).1 ?_
    rw [← g1]
    exact List.mem_flatMap.2 ⟨gs[i], List.getElem_mem hgi, hx⟩
  generalize gs[i] = g at hz hg hin
  obtain ⟨key, g⟩ := g
  cases key with
  | none =>
    simp only [GroupOutcome] at hz
    subst hz
    exact Or.inl (hin y hyo)
  | some sp =>
    obtain ⟨a, b⟩ := sp
    simp only [GroupOutcome] at hz
    rcases fixedPoint_cases hg.1 hz with h' | h' | ⟨y', k, rels, t, pending, all, r1, r2, r3, r4, r5, r6⟩
    · subst h'; simp at hyo
    · subst h'; exact Or.inl (hin y hyo)
    · right
      subst r3
      simp only [List.mem_singleton] at hyo
      subst hyo
      obtain ⟨x, xs, hx⟩ := List.exists_cons_of_ne_nil hg.1
      refine ⟨a, b, t, rels, all, k, pending, r1, r2, r4, ⟨x, (hin x (by simp only at hx; simp [hx])).1, (hin x (by simp only at hx; simp [hx])).2, hg.2 x (by simp only at hx; simp [hx])⟩, ?_, r6, ?_⟩
      · intro r hr
        have : some r ∈ g.map (fun s => s.relativeToSpan a b) := by rw [r5]; exact List.mem_map.2 ⟨r, hr, rfl⟩
        obtain ⟨x, hx, he⟩ := List.mem_map.1 this
        exact ⟨x, (hin x hx).1, (hin x hx).2, hg.2 x hx, he⟩
      · exact rounds_not_disabled r6

/-- **C57**: a file all of whose findings are disabled where they are is left alone, whatever the iteration limit. -/
theorem C57_all_disabled (parseAst : Str → Str → Except Exc ParsedFile) (s : Searcher) (source path : Str) (n : Nat) (file : ParsedFile)
    (subs : List Substitution) (hi : s.included path = .ok ()) (hp : s.parse source path = .ok file) (hf : s.find file = .ok subs)
    (hd : ∀ x ∈ subs, DisabledIn file x) :
    findIter parseAst (pragmaSuppressed s) source path n = .ok [] ∧
      rewriteString parseAst (pragmaSuppressed s) source path n = .ok source := by
  obtain ⟨out, h1, h2, h3⟩ := C24_suppressed_search s file subs hf
  have h0 : out = [] := by
    cases out with
    | nil => rfl
    | cons x xs =>
      have hx : x ∈ subs := h2.subset (by simp)
      exact absurd (by simp) ((h3 x hx).2 (hd x hx))
  subst h0
  have h4 := C22_no_iteration_identity parseAst (pragmaSuppressed s) source path n file [] (Or.inr (by simp)) hi hp h1
  refine ⟨h4, ?_⟩
  unfold rewriteString
  rw [h4]
  rfl

/-- The example of the refutation, without the pragma wrapper. -/
def exPlain57 : Searcher := ⟨fun _ => .ok (), ex57Parse, ex57Find⟩

/-- Non-vacuity of C57: under a file-wide `disable=two` the only finding in `#B` is disabled; the finding in `#A` is not,
and with iteration it is merged into one result for its key span. -/
example : (∃ file subs, exPlain57.parse (str "#B") [] = .ok file ∧ exPlain57.find file = .ok subs ∧ subs ≠ [] ∧ ∀ x ∈ subs, DisabledIn file x) ∧
    ∃ y, findIter ex57Parse (pragmaSuppressed exPlain57) (str "#A") [] 10 = .ok [y] ∧ MergedInto y 1 2 (str "C") := by
  refine ⟨⟨_, _, rfl, rfl, by simp, ?_⟩, ?_⟩
  · simp only [List.mem_singleton, forall_eq]
    refine ⟨str "two", ?_, (0, 2), ⟨[(0, 2)], by decide, by simp⟩, ?_⟩
    · exact ⟨_, rfl, Or.inl rfl⟩
    · unfold Meets; decide
  · exact ⟨_, rfl, by unfold MergedInto; decide⟩

end Refex
