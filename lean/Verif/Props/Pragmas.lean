import Verif.Lemmas.Dict
import Verif.Lemmas.LabeledSpans
import Verif.Spec.FixedPoint
import Verif.Spec.Pragma
import Verif.Props.Substitution
import Verif.Props.FixedPoint
/-
Properties C24 (pragma scopes) and C57 (pragmas and iteration).
-/
namespace Refex
set_option autoImplicit false

theorem rangeOf_pushTo (d : Dict Str (List Span)) (k c : Str) (v r : Span) :
    RangeOf (pushTo d k v) c r ↔ RangeOf d c r ∨ (c = k ∧ r = v) := by
  unfold RangeOf
  rw [get?_pushTo]
  by_cases h : c = k
  · subst h
    simp only [if_true, Option.some.injEq, exists_eq_left', List.mem_append, List.mem_singleton, true_and]
    cases d.get? c <;> simp
  · simp [h]

theorem rangeOf_foldl (cs : List Str) (d : Dict Str (List Span)) (c : Str) (v r : Span) :
    RangeOf (cs.foldl (fun acc c => pushTo acc c v) d) c r ↔ RangeOf d c r ∨ (c ∈ cs ∧ r = v) := by
  induction cs generalizing d with
  | nil => simp
  | cons k ks ih =>
    simp only [List.foldl_cons]
    rw [ih, rangeOf_pushTo]
    simp only [List.mem_cons]
    constructor
    · rintro ((h | h) | h)
      · exact Or.inl h
      · exact Or.inr ⟨Or.inl h.1, h.2⟩
      · exact Or.inr ⟨Or.inr h.1, h.2⟩
    · rintro (h | ⟨h | h, h'⟩)
      · exact Or.inl (Or.inl h)
      · exact Or.inl (Or.inr ⟨h, h'⟩)
      · exact Or.inr ⟨h, h'⟩

theorem rangeOf_addPragma (key : String) (d : Dict Str (List Span)) (p : Pragma) (c : Str) (r : Span) :
    RangeOf (addPragma (str key) d p) c r ↔ RangeOf d c r ∨ (Names key p c ∧ r = (p.start, p.stop)) := by
  unfold addPragma Names
  cases hv : p.data.get? (str key) with
  | none => simp
  | some v =>
    simp only [Option.some.injEq, exists_eq_left']
    unfold tagPrefix
    by_cases h1 : p.tag = str "pylint"
    · have h2 : ¬ (str "pylint" = str "refex") := by decide
      simp only [h1, if_true]
      rw [rangeOf_foldl]
      simp only [h2, false_and, false_or, true_and, mem_dedup, List.mem_map]
      constructor
      · rintro (h | ⟨⟨i, hi, h⟩, h'⟩)
        · exact Or.inl h
        · exact Or.inr ⟨⟨i, hi, h.symm⟩, h'⟩
      · rintro (h | ⟨⟨i, hi, h⟩, h'⟩)
        · exact Or.inl h
        · exact Or.inr ⟨⟨i, hi, h.symm⟩, h'⟩
    · by_cases h2 : p.tag = str "refex"
      · have h3 : ¬ (str "refex" = str "pylint") := by decide
        simp only [h2, h3, if_false, if_true]
        rw [rangeOf_foldl]
        simp only [false_and, or_false, true_and, mem_dedup, List.mem_map, List.nil_append]
        constructor
        · rintro (h | ⟨⟨i, hi, h⟩, h'⟩)
          · exact Or.inl h
          · exact Or.inr ⟨⟨i, hi, h.symm⟩, h'⟩
        · rintro (h | ⟨⟨i, hi, h⟩, h'⟩)
          · exact Or.inl h
          · exact Or.inr ⟨⟨i, hi, h.symm⟩, h'⟩
      · simp [h1, h2]

theorem rangeOf_pragmaRanges (key : String) (ps : List Pragma) (c : Str) (r : Span) :
    RangeOf (pragmaRanges ps (str key)) c r ↔ ∃ p ∈ ps, Names key p c ∧ r = (p.start, p.stop) := by
  have : ∀ d, RangeOf (ps.foldl (addPragma (str key)) d) c r ↔
      RangeOf d c r ∨ ∃ p ∈ ps, Names key p c ∧ r = (p.start, p.stop) := by
    induction ps with
    | nil => simp
    | cons p ps ih =>
      intro d
      simp only [List.foldl_cons]
      rw [ih, rangeOf_addPragma, or_assoc]
      simp only [List.mem_cons, exists_eq_or_imp]
  unfold pragmaRanges
  rw [this]
  simp [RangeOf, Dict.get?]

theorem truncateRange_spec (ds de : Nat) (es : List Span) (i : Nat) (hi : ds ≤ i) :
    i < truncateRange ds de es ↔ i < de ∧ ∀ e ∈ es, ¬ (ds ≤ e.1 ∧ e.1 ≤ i) := by
  induction es generalizing de with
  | nil => simp [truncateRange]
  | cons e es ih =>
    obtain ⟨e1, e2⟩ := e
    simp only [truncateRange]
    rw [ih]
    simp only [List.mem_cons, forall_eq_or_imp]
    split
    · rename_i h
      constructor
      · rintro ⟨h1, h2⟩; exact ⟨by omega, by omega, h2⟩
      · rintro ⟨h1, h2, h3⟩; exact ⟨by omega, h3⟩
    · rename_i h
      constructor
      · rintro ⟨h1, h2⟩; exact ⟨by omega, by omega, h2⟩
      · rintro ⟨h1, h2, h3⟩; exact ⟨by omega, h3⟩

theorem excluded_get (ps : List Pragma) (c : Str) :
    (pragmaExcludedRanges ps).get? c = ((pragmaRanges ps (str "disable")).get? c).map fun ranges =>
      match (pragmaRanges ps (str "enable")).get? c with
      | none => ranges
      | some es => ranges.map fun r => (r.1, truncateRange r.1 r.2 es) := by
  have e : pragmaExcludedRanges ps = (pragmaRanges ps (str "disable")).map fun e => (e.1,
      match (pragmaRanges ps (str "enable")).get? e.1 with
      | none => e.2
      | some es => e.2.map fun r => (r.1, truncateRange r.1 r.2 es)) := by
    unfold pragmaExcludedRanges
    apply List.map_congr_left
    rintro ⟨k, rs⟩ _
    simp only
    split <;> simp_all
  rw [e]
  exact Dict.get?_map_val _ (fun k (ranges : List Span) => match (pragmaRanges ps (str "enable")).get? k with
      | none => ranges
      | some es => ranges.map fun (r : Span) => (r.1, truncateRange r.1 r.2 es)) c

/-- C24, the exact meaning of the excluded ranges: position `i` is excluded for category `c` iff some disable pragma for
`c` covers it and no enable pragma for `c` starts between the start of that pragma and `i`. -/
theorem C24_excluded_positions (ps : List Pragma) (c : Str) (i : Nat) :
    (∃ r, RangeOf (pragmaExcludedRanges ps) c r ∧ r.1 ≤ i ∧ i < r.2) ↔
      ∃ d ∈ ps, Names "disable" d c ∧ d.covers i ∧
        ¬ ∃ e ∈ ps, Names "enable" e c ∧ d.start ≤ e.start ∧ e.start ≤ i := by
  have hd := fun r => rangeOf_pragmaRanges "disable" ps c r
  have he := fun r => rangeOf_pragmaRanges "enable" ps c r
  constructor
  · rintro ⟨r, ⟨rs, h1, h2⟩, h3, h4⟩
    rw [excluded_get] at h1
    obtain ⟨ranges, hr, rfl⟩ := Option.map_eq_some_iff.1 h1
    cases hen : (pragmaRanges ps (str "enable")).get? c with
    | none =>
      rw [hen] at h2
      obtain ⟨d, hd1, hd2, rfl⟩ := (hd r).1 ⟨ranges, hr, h2⟩
      refine ⟨d, hd1, hd2, ⟨h3, h4⟩, ?_⟩
      rintro ⟨e, he1, he2, _⟩
      obtain ⟨rs, h5, _⟩ := (he (e.start, e.stop)).2 ⟨e, he1, he2, rfl⟩
      rw [hen] at h5; cases h5
    | some es =>
      rw [hen] at h2
      obtain ⟨q, hq, rfl⟩ := List.mem_map.1 h2
      obtain ⟨d, hd1, hd2, rfl⟩ := (hd q).1 ⟨ranges, hr, hq⟩
      simp only at h3 h4
      rw [truncateRange_spec _ _ _ _ h3] at h4
      refine ⟨d, hd1, hd2, ⟨h3, h4.1⟩, ?_⟩
      rintro ⟨e, he1, he2, h5, h6⟩
      obtain ⟨rs, h7, h8⟩ := (he (e.start, e.stop)).2 ⟨e, he1, he2, rfl⟩
      rw [hen] at h7
      cases h7
      exact h4.2 _ h8 ⟨h5, h6⟩
  · rintro ⟨d, hd1, hd2, ⟨h3, h4⟩, h5⟩
    obtain ⟨ranges, hr, hq⟩ := (hd (d.start, d.stop)).2 ⟨d, hd1, hd2, rfl⟩
    cases hen : (pragmaRanges ps (str "enable")).get? c with
    | none =>
      refine ⟨(d.start, d.stop), ⟨ranges, ?_, hq⟩, h3, h4⟩
      rw [excluded_get, hr, hen]; rfl
    | some es =>
      refine ⟨(d.start, truncateRange d.start d.stop es), ⟨ranges.map fun r => (r.1, truncateRange r.1 r.2 es), ?_,
        List.mem_map.2 ⟨_, hq, rfl⟩⟩, h3, ?_⟩
      · rw [excluded_get, hr, hen]; rfl
      · rw [truncateRange_spec _ _ _ _ h3]
        refine ⟨h4, ?_⟩
        rintro q hq ⟨h6, h7⟩
        obtain ⟨e, he1, he2, rfl⟩ := (he q).1 ⟨es, hen, hq⟩
        exact h5 ⟨e, he1, he2, h6, h7⟩

/-- The full statement of C24 at a position: the category is suppressed there iff, among the pragmas for it in scope, a
disable starts after all enables. -/
def ScopeRule (ps : List Pragma) (c : Str) (i : Nat) : Prop :=
  (∃ r, RangeOf (pragmaExcludedRanges ps) c r ∧ r.1 ≤ i ∧ i < r.2) ↔
    ∃ d ∈ ps, Names "disable" d c ∧ d.covers i ∧ ∀ e ∈ ps, Names "enable" e c → e.covers i → e.start < d.start

/-- C24: if every enable pragma inside the scope of a disable pragma for the same category lasts to
the end of that scope (e.g. both are in the same block), the scope rule holds everywhere. Not so: an enable with a
smaller scope, after which the disable does not resume, see `C24_scope_rule_false`. -/
theorem C24_scope_rule (ps : List Pragma) (c : Str)
    (h : ∀ d ∈ ps, ∀ e ∈ ps, Names "disable" d c → Names "enable" e c → d.start ≤ e.start → e.start < d.stop →
      d.stop ≤ e.stop) (i : Nat) : ScopeRule ps c i := by
  unfold ScopeRule
  rw [C24_excluded_positions]
  constructor
  · rintro ⟨d, h1, h2, h3, h4⟩
    refine ⟨d, h1, h2, h3, fun e he1 he2 he3 => ?_⟩
    by_cases hlt : e.start < d.start
    · exact hlt
    · exact absurd ⟨e, he1, he2, by omega, he3.1⟩ h4
  · rintro ⟨d, h1, h2, h3, h4⟩
    refine ⟨d, h1, h2, h3, ?_⟩
    rintro ⟨e, he1, he2, h5, h6⟩
    have := h d h1 e he1 h2 he2 h5 (by have := h3.2; omega)
    have := h4 e he1 he2 ⟨h6, by have := h3.2; omega⟩
    omega

/-- A disable over `[0, 100)` and an enable over the inner block `[10, 20)`. -/
def exInner : List Pragma :=
  [⟨str "refex", [(str "disable", str "x")], 0, 100⟩, ⟨str "refex", [(str "enable", str "x")], 10, 20⟩]

/-- C24 is false as stated: after the inner block the disable does not resume. -/
theorem C24_scope_rule_false : ¬ ScopeRule exInner (str "x") 50 := by
  intro h
  have h1 : Names "disable" ⟨str "refex", [(str "disable", str "x")], 0, 100⟩ (str "x") :=
    ⟨str "x", by decide, str "x", by decide, Or.inl ⟨rfl, by decide⟩⟩
  have h2 : Names "enable" ⟨str "refex", [(str "enable", str "x")], 10, 20⟩ (str "x") :=
    ⟨str "x", by decide, str "x", by decide, Or.inl ⟨rfl, by decide⟩⟩
  have h3 : ∃ r, RangeOf (pragmaExcludedRanges exInner) (str "x") r ∧ r.1 ≤ 50 ∧ 50 < r.2 := by
    refine h.2 ⟨_, List.mem_cons_self .., h1, ⟨Nat.zero_le _, by decide⟩, ?_⟩
    intro e he hn hc
    rcases List.mem_cons.1 he with rfl | he
    · obtain ⟨v, hv, _⟩ := hn
      simp [Dict.get?, str] at hv
    · rw [List.mem_singleton.1 he] at hc
      exact absurd hc.2 (by decide)
  rw [C24_excluded_positions] at h3
  obtain ⟨d, hd, hdn, _, hno⟩ := h3
  apply hno
  refine ⟨_, List.mem_cons_of_mem _ (List.mem_cons_self ..), h2, ?_, by decide⟩
  rcases List.mem_cons.1 hd with rfl | hd
  · exact Nat.zero_le _
  · rw [List.mem_singleton.1 hd] at hdn
    obtain ⟨v, hv, _⟩ := hdn
    simp [Dict.get?, str] at hv

/-- Hypothesis of `C24_scope_rule` on a non-trivial case: disable, then enable to the end of the same block, then a
disable in a sub-block. -/
example : pragmaExcludedRanges
    [⟨str "refex", [(str "disable", str "x")], 0, 100⟩, ⟨str "refex", [(str "enable", str "x")], 10, 100⟩,
     ⟨str "pylint", [(str "disable", str "y")], 5, 9⟩, ⟨str "refex", [(str "disable", str "x")], 30, 40⟩] =
    [(str "x", [(0, 10), (30, 40)]), (str "pylint.y", [(5, 9)])] := by decide

theorem get?_map_some (d : Dict Str (List Span)) (k : Option Str) :
    Dict.get? (d.map fun e => ((some e.1 : Option Str), e.2)) k = k.bind d.get? := by
  induction d with
  | nil => cases k <;> rfl
  | cons e d ih =>
    simp only [List.map_cons, Dict.get?, ih]
    cases k with
    | none => simp
    | some c => simp [Dict.get?]

/-- C24, the effect on the search: a substitution is dropped iff its primary span meets an excluded range of one of its
own categories; the others are yielded unchanged and in order. -/
theorem C24_suppressed_search (s : Searcher) (p : ParsedFile) (subs : List Substitution) (hf : s.find p = .ok subs) :
    ∃ out, (pragmaSuppressed s).find p = .ok out ∧ out.Sublist subs ∧
      ∀ x ∈ subs, x ∉ out ↔ ∃ c, InCategory x c ∧ ∃ r, RangeOf (pragmaExcludedRanges p.pragmas) c r ∧ Meets x.primarySpan r := by
  refine ⟨_, by simp only [pragmaSuppressed, hf]; rfl, ?_, ?_⟩
  · rw [C07_suppress_exact]; exact List.filter_sublist
  intro x hx
  rw [C07_suppress_exact, List.mem_filter]
  simp only [hx, true_and, decide_eq_true_eq]
  unfold Suppressed
  constructor
  · intro h
    have h := Classical.not_not.1 h
    obtain ⟨k, hk, rs, hrs, r, hr, hm⟩ := h
    rw [get?_map_some] at hrs
    rcases hk with rfl | ⟨c, rfl, hc⟩
    · cases hrs
    · exact ⟨c, hc, r, ⟨rs, hrs, hr⟩, hm⟩
  · rintro ⟨c, hc, r, ⟨rs, hrs, hr⟩, hm⟩ h
    exact h ⟨some c, Or.inr ⟨c, rfl, hc⟩, rs, by rw [get?_map_some]; exact hrs, r, hr, hm⟩

/-- A disable and an enable starting at the same place: no position is excluded, yet a substitution around that place is
dropped (the empty range `(3, 3)` still meets it). -/
def exEmptyRange : List Pragma :=
  [⟨str "refex", [(str "disable", str "x")], 3, 5⟩, ⟨str "refex", [(str "enable", str "x")], 3, 5⟩]
def exAround : Substitution :=
  { matchedSpans := [(str "r", (2, 6))], primaryLabel := str "r", category := some (str "x.y") }
/-- C24, second deviation: a substitution is dropped although none of the positions it covers is excluded. -/
theorem C24_empty_range_suppresses :
    (∀ i, ¬ ∃ r, RangeOf (pragmaExcludedRanges exEmptyRange) (str "x") r ∧ r.1 ≤ i ∧ i < r.2) ∧
    ∃ s : Searcher, s.find ⟨[], [], exEmptyRange⟩ = .ok [exAround] ∧
      (pragmaSuppressed s).find ⟨[], [], exEmptyRange⟩ = .ok [] := by
  have e : pragmaExcludedRanges exEmptyRange = [(str "x", [(3, 3)])] := by decide
  refine ⟨?_, ⟨fun _ => .ok (), fun _ _ => .error .other, fun _ => .ok [exAround]⟩, rfl, ?_⟩
  · rw [e]
    rintro i ⟨r, ⟨rs, h1, h2⟩, h3, h4⟩
    simp only [Dict.get?, if_true, Option.some.injEq] at h1
    subst h1
    rw [List.mem_singleton.1 h2] at h3 h4
    simp only at h3 h4
    omega
  · simp only [pragmaSuppressed, e]; decide

/-! ### C57 -/

/-- The substitution that replaces the character at `i` (in the chunk `[i, i+1)`). -/
def ex57Sub (i : Nat) (c : Char) (cat : String) : Substitution :=
  { matchedSpans := [(str "r", (i, i + 1))], primaryLabel := str "r", replacements := some [(str "r", [c])],
    category := some (str cat), keySpan := some (i, i + 1) }
/-- A searcher with two fixers: category `one` turns A into B, category `two` turns B into C. -/
def ex57Find (p : ParsedFile) : Except Exc (List Substitution) :=
  match p.text with
  | ['#', 'A'] => .ok [ex57Sub 1 'B' "one"]
  | ['#', 'B'] => .ok [ex57Sub 1 'C' "two"]
  | ['A'] => .ok [ex57Sub 0 'B' "one"]
  | ['B'] => .ok [ex57Sub 0 'C' "two"]
  | _ => .ok []
/-- The parser: a leading '#' stands for a comment that disables category `two` in the whole file. -/
def ex57Parse (t path : Str) : Except Exc ParsedFile :=
  match t with
  | '#' :: _ => .ok ⟨t, path, [⟨str "refex", [(str "disable", str "two")], 0, t.length⟩]⟩
  | _ => .ok ⟨t, path, []⟩
def ex57 : Searcher := pragmaSuppressed ⟨fun _ => .ok (), ex57Parse, ex57Find⟩

/-- The full statement of C57: whatever the iteration limit, a rewrite by the pragma-honouring searcher never changes text
the way a fixer of a disabled category would. Formulated by its consequence for a searcher: if the file as it stands
after the allowed fixes has only suppressed findings left, iterating does not go further. -/
def PragmaStable (parseAst : Str → Str → Except Exc ParsedFile) (s : Searcher) (source path : Str) : Prop :=
  ∀ t, rewriteString parseAst s source path 1 = .ok t → findIter parseAst s t path 1 = .ok [] →
    ∀ n, rewriteString parseAst s source path n = .ok t

/-- C57 is false as stated: with iteration, text under a file-wide `disable=two` is rewritten by the fixer of category
`two`, because the chunk is re-parsed without the pragmas around it. -/
theorem C57_pragmas_ignored_when_iterating : ¬ PragmaStable ex57Parse ex57 (str "#A") [] := by
  intro h
  have h1 : rewriteString ex57Parse ex57 (str "#A") [] 1 = .ok (str "#B") := by decide
  have h2 : findIter ex57Parse ex57 (str "#B") [] 1 = .ok [] := by decide
  have h3 : rewriteString ex57Parse ex57 (str "#A") [] 10 = .ok (str "#C") := by decide
  have := h _ h1 h2 10
  rw [h3] at this
  exact absurd this (by decide)

/-- C57: without iteration the rewrite applies exactly the findings that are not suppressed by the pragmas of the file.
(With iteration see `C57_confined`.) -/
theorem C57_pragmas_honoured (parseAst : Str → Str → Except Exc ParsedFile) (s : Searcher) (source path : Str)
    (n : Nat) (hn : n ≤ 1) (p : ParsedFile) (subs : List Substitution)
    (hi : s.included path = .ok ()) (hp : s.parse source path = .ok p) (hf : s.find p = .ok subs) :
    ∃ kept, findIter parseAst (pragmaSuppressed s) source path n = .ok kept ∧ kept.Sublist subs ∧
      (∀ x ∈ subs, x ∉ kept ↔ ∃ c, InCategory x c ∧
        ∃ r, RangeOf (pragmaExcludedRanges p.pragmas) c r ∧ Meets x.primarySpan r) ∧
      rewriteString parseAst (pragmaSuppressed s) source path n = applySubstitutions source kept := by
  obtain ⟨out, h1, h2, h3⟩ := C24_suppressed_search s p subs hf
  have h4 := C22_no_iteration_identity parseAst (pragmaSuppressed s) source path n p out (Or.inl hn) hi hp h1
  exact ⟨out, h4, h2, h3, by unfold rewriteString; rw [h4]⟩

end Refex
