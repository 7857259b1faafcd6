import Verif.Spec.CommentScopes
import Verif.Props.PragmaText
import Verif.Props.PragmaScopes
import Verif.Props.Pragmas
import Verif.Props.FixModeMain
import Verif.Props.Names
/- C102: comments in a Python file disable findings, from the comment to the edits. -/
namespace Refex
set_option autoImplicit false

variable {uw : Char → Bool}

theorem lastValue_valid {decls : List Decl} (hv : ∀ d ∈ decls, d.Valid uw) {k v : Str} (h : lastValue decls k = some v) :
    v ≠ [] ∧ ∀ c ∈ v, isValueChar uw c = true := by
  induction decls with
  | nil => cases h
  | cons d ds ih =>
    unfold lastValue at h
    cases hl : lastValue ds k with
    | some w =>
      rw [hl] at h
      simp only [Option.some.injEq] at h
      exact ih (fun d hd => hv d (List.mem_cons_of_mem _ hd)) (h ▸ hl)
    | none =>
      rw [hl] at h
      simp only at h
      split at h
      · cases h; exact (hv d (List.mem_cons_self ..)).value
      · cases h

theorem strip_value {v : Str} (h : v ≠ [] ∧ ∀ c ∈ v, isValueChar uw c = true) : splitOn ',' v = [v] ∧ stripStr v = v := by
  constructor
  · refine splitOn_single _ _ fun hc => ?_
    have h1 := h.2 _ hc
    have h2 := sep_not (uw := uw) ',' (by simp)
    have h3 : isValueChar uw ',' = false := by
      revert h2; unfold isValueChar; intro h2; simp_all
    rw [h3] at h1; cases h1
  · have := strip_blank (a := []) (b := []) (w := v) (by intro c hc; cases hc) (by intro c hc; cases hc) h.1 (fun c hc => value_not_space (h.2 c hc))
    simpa using this

/-- What the pragma read from a comment names is what the comment says. -/
theorem names_says (key : String) {text : Str} {a b : Nat} {p : Pragma} (h : pragmaFromText uw text a b = some p) (c : Str) :
    Names key p c ↔ Says uw key text c := by
  obtain ⟨tag, decls, ht⟩ := (C25_recognised_iff text a b).1 ⟨p, h⟩
  constructor
  · rintro ⟨v, hv, item, hi, hc⟩
    obtain ⟨p', h', h1, _, _, h4⟩ := C25_faithful text tag decls ht a b
    rw [h] at h'; cases h'
    rw [h4] at hv
    obtain ⟨e1, e2⟩ := strip_value (lastValue_valid ht.declsValid.2 hv)
    rw [e1, List.mem_singleton] at hi
    subst hi
    rw [e2, h1] at hc
    exact ⟨tag, decls, _, ht, hv, hc⟩
  · rintro ⟨tag', decls', v, ht', hv, hc⟩
    obtain ⟨p', h', h1, _, _, h4⟩ := C25_faithful text tag' decls' ht' a b
    rw [h] at h'; cases h'
    obtain ⟨e1, e2⟩ := strip_value (lastValue_valid ht'.declsValid.2 hv)
    refine ⟨v, (h4 _).trans hv, v, by rw [e1]; exact List.mem_singleton.2 rfl, ?_⟩
    rw [e2, h1]
    exact hc

/-- What a comment says is read as a pragma. -/
theorem says_read {key : String} {text c : Str} (h : Says uw key text c) (a b : Nat) :
    ∃ p, pragmaFromText uw text a b = some p ∧ p.start = a ∧ p.stop = b ∧ Names key p c := by
  obtain ⟨tag, decls, v, ht, hv, hc⟩ := h
  obtain ⟨p, h1, _, h3, h4, _⟩ := C25_faithful text tag decls ht a b
  exact ⟨p, h1, h3, h4, (names_says key h1 c).2 ⟨tag, decls, v, ht, hv, hc⟩⟩

theorem truncate_iff (ds de : Nat) (es : List Span) (m : Nat) :
    m = truncateRange ds de es ↔ m ≤ de ∧ (∀ e ∈ es, ds ≤ e.1 → m ≤ e.1) ∧ (m = de ∨ ∃ e ∈ es, e.1 = m ∧ ds ≤ m) := by
  induction es generalizing de with
  | nil => simp only [truncateRange, List.not_mem_nil, false_and, exists_false, or_false]; constructor <;> intro h <;> (try simp_all) <;> omega
  | cons e es ih =>
    obtain ⟨e1, e2⟩ := e
    simp only [truncateRange]
    rw [ih]
    simp only [List.mem_cons, forall_eq_or_imp, exists_eq_or_imp]
    split
    · rename_i h
      constructor
      · rintro ⟨h1, h2, h3⟩
        exact ⟨by omega, ⟨fun _ => h1, h2⟩, h3.elim (fun h3 => .inr (.inl ⟨h3.symm, by omega⟩)) (fun h3 => .inr (.inr h3))⟩
      · rintro ⟨h1, ⟨h2, h3⟩, h4⟩
        have h5 := h2 h.1
        refine ⟨h5, h3, ?_⟩
        rcases h4 with h4 | h4 | h4
        · omega
        · exact .inl h4.1.symm
        · exact .inr h4
    · rename_i h
      constructor
      · rintro ⟨h1, h2, h3⟩
        exact ⟨h1, ⟨fun _ => by omega, h2⟩, h3.elim .inl (fun h3 => .inr (.inr h3))⟩
      · rintro ⟨h1, ⟨h2, h3⟩, h4⟩
        refine ⟨h1, h3, ?_⟩
        rcases h4 with h4 | h4 | h4
        · exact .inl h4
        · exact .inl (by omega)
        · exact .inr h4

/-- A range that pragmas exclude. -/
theorem excluded_range (ps : List Pragma) (c : Str) (r : Span) : RangeOf (pragmaExcludedRanges ps) c r ↔
    ∃ d ∈ ps, Names "disable" d c ∧ d.start = r.1 ∧ r.2 ≤ d.stop ∧ (∀ e ∈ ps, Names "enable" e c → r.1 ≤ e.start → r.2 ≤ e.start) ∧
      (r.2 = d.stop ∨ ∃ e ∈ ps, Names "enable" e c ∧ e.start = r.2 ∧ r.1 ≤ r.2) := by
  have hd := fun r => rangeOf_pragmaRanges "disable" ps c r
  have he := fun r => rangeOf_pragmaRanges "enable" ps c r
  have step : RangeOf (pragmaExcludedRanges ps) c r ↔ ∃ q, RangeOf (pragmaRanges ps (str "disable")) c q ∧ r.1 = q.1 ∧
      r.2 = truncateRange q.1 q.2 (((pragmaRanges ps (str "enable")).get? c).getD []) := by
    unfold RangeOf
    rw [excluded_get]
    cases h1 : (pragmaRanges ps (str "disable")).get? c with
    | none => simp
    | some ranges =>
      cases h2 : (pragmaRanges ps (str "enable")).get? c with
      | none =>
        simp only [Option.map_some, Option.some.injEq, exists_eq_left', Option.getD_none, truncateRange]
        constructor
        · intro h; exact ⟨r, h, rfl, rfl⟩
        · rintro ⟨q, h, e1, e2⟩
          have : r = q := by rw [Prod.ext_iff]; exact ⟨e1, e2⟩
          rw [this]; exact h
      | some es =>
        simp only [Option.map_some, Option.some.injEq, exists_eq_left', Option.getD_some, List.mem_map]
        constructor
        · rintro ⟨q, h, rfl⟩; exact ⟨q, h, rfl, rfl⟩
        · rintro ⟨q, h, e1, e2⟩; exact ⟨q, h, by rw [Prod.ext_iff]; exact ⟨e1.symm, e2.symm⟩⟩
  have hes : ∀ q, q ∈ ((pragmaRanges ps (str "enable")).get? c).getD [] ↔ ∃ e ∈ ps, Names "enable" e c ∧ q = (e.start, e.stop) := by
    intro q
    rw [← he]
    unfold RangeOf
    cases (pragmaRanges ps (str "enable")).get? c <;> simp
  rw [step]
  constructor
  · rintro ⟨q, h1, h2, h3⟩
    obtain ⟨d, k1, k2, rfl⟩ := (hd q).1 h1
    rw [truncate_iff] at h3
    obtain ⟨h3, h4, h5⟩ := h3
    refine ⟨d, k1, k2, h2.symm, h3, fun e e1 e2 e3 => h4 _ ((hes _).2 ⟨e, e1, e2, rfl⟩) (h2 ▸ e3), ?_⟩
    rcases h5 with h5 | ⟨q, h5, h6, h7⟩
    · exact .inl h5
    · obtain ⟨e, e1, e2, rfl⟩ := (hes q).1 h5
      exact .inr ⟨e, e1, e2, h6, h2 ▸ h7⟩
  · rintro ⟨d, k1, k2, h2, h3, h4, h5⟩
    refine ⟨(d.start, d.stop), (hd _).2 ⟨d, k1, k2, rfl⟩, h2.symm, (truncate_iff _ _ _ _).2 ⟨h3, fun q hq hle => ?_, ?_⟩⟩
    · obtain ⟨e, e1, e2, rfl⟩ := (hes q).1 hq
      exact h4 e e1 e2 (h2 ▸ hle)
    · rcases h5 with h5 | ⟨e, e1, e2, h6, h7⟩
      · exact .inl h5
      · exact .inr ⟨_, (hes _).2 ⟨e, e1, e2, rfl⟩, h6, by rw [← h2] at h7; exact h7⟩

/-- The pragmas of a file are those read from its comments. -/
theorem filePragmas_mem {prog : List Elem} {endm : Tok} (h : FileBlocks prog endm) (p : Pragma) :
    p ∈ filePragmas (pragmaFromText uw) (blockToks prog ++ [endm]) ↔
      ∃ text a b, (text, a, b) ∈ fileScopes (prog, endm) ∧ pragmaFromText uw text a b = some p := by
  rw [(C26_file_pragmas _ _).1.mem_iff, (C26_token_blocks _ prog endm h.valid h.endm h.lines).mem_iff, List.mem_filterMap]
  constructor
  · rintro ⟨⟨t, a, b⟩, h1, h2⟩; exact ⟨t, a, b, h1, h2⟩
  · rintro ⟨t, a, b, h1, h2⟩; exact ⟨⟨t, a, b⟩, h1, h2⟩

/-- Each pragma of a file, for the comment that says it. -/
theorem filePragmas_names {prog : List Elem} {endm : Tok} (h : FileBlocks prog endm) (key : String) (c : Str) (a b : Nat) :
    (∃ p ∈ filePragmas (pragmaFromText uw) (blockToks prog ++ [endm]), Names key p c ∧ p.start = a ∧ p.stop = b) ↔
      ∃ text, (text, a, b) ∈ fileScopes (prog, endm) ∧ Says uw key text c := by
  constructor
  · rintro ⟨p, h1, h2, rfl, rfl⟩
    obtain ⟨text, a, b, h3, h4⟩ := (filePragmas_mem h p).1 h1
    have hs := (names_says key h4 c).1 h2
    obtain ⟨p', e1, e2, e3, _⟩ := says_read hs a b
    rw [h4] at e1; cases e1
    rw [e2, e3]
    exact ⟨text, h3, hs⟩
  · rintro ⟨text, h1, h2⟩
    obtain ⟨p, e1, e2, e3, e4⟩ := says_read h2 a b
    exact ⟨p, (filePragmas_mem h p).2 ⟨text, a, b, h1, e1⟩, e4, e2, e3⟩

/-- **C102**, the parts of a file for which its comments disable a category: those in which findings are left out. -/
theorem C102_parts {prog : List Elem} {endm : Tok} (h : FileBlocks prog endm) (c : Str) (r : Span) :
    RangeOf (pragmaExcludedRanges (filePragmas (pragmaFromText uw) (blockToks prog ++ [endm]))) c r ↔
      DisabledPart uw (fileScopes (prog, endm)) c r := by
  rw [excluded_range]
  constructor
  · rintro ⟨d, h1, h2, h3, h4, h5, h6⟩
    obtain ⟨text, k1, k2⟩ := (filePragmas_names h "disable" c r.1 d.stop).1 ⟨d, h1, h2, h3, rfl⟩
    refine ⟨text, d.stop, k1, k2, h4, fun t' a' b' q1 q2 q3 => ?_, ?_⟩
    · obtain ⟨e, e1, e2, e3, _⟩ := (filePragmas_names h "enable" c a' b').2 ⟨t', q1, q2⟩
      rw [← e3] at q3 ⊢
      exact h5 e e1 e2 q3
    · rcases h6 with h6 | ⟨e, e1, e2, e3, e4⟩
      · exact .inl h6
      · obtain ⟨t', q1, q2⟩ := (filePragmas_names h "enable" c r.2 e.stop).1 ⟨e, e1, e2, e3, rfl⟩
        exact .inr ⟨t', _, q1, q2, e4⟩
  · rintro ⟨text, b, k1, k2, h4, h5, h6⟩
    obtain ⟨d, h1, h2, h3, rfl⟩ := (filePragmas_names h "disable" c r.1 b).2 ⟨text, k1, k2⟩
    refine ⟨d, h1, h2, h3, h4, fun e e1 e2 e3 => ?_, ?_⟩
    · obtain ⟨t', q1, q2⟩ := (filePragmas_names h "enable" c e.start e.stop).1 ⟨e, e1, e2, rfl, rfl⟩
      exact h5 t' _ _ q1 q2 e3
    · rcases h6 with h6 | ⟨t', b', q1, q2, q3⟩
      · exact .inl h6
      · obtain ⟨e, e1, e2, e3, _⟩ := (filePragmas_names h "enable" c r.2 b').2 ⟨t', q1, q2⟩
        exact .inr ⟨e, e1, e2, e3, q3⟩

/-- **C102**, position by position: a category is disabled at a position if it is in the scope of a comment that disables the category, and no comment
enables it whose scope begins between there and the position. -/
theorem C102_positions {prog : List Elem} {endm : Tok} (h : FileBlocks prog endm) (c : Str) (i : Nat) :
    (∃ r, DisabledPart uw (fileScopes (prog, endm)) c r ∧ r.1 ≤ i ∧ i < r.2) ↔
      ∃ text a b, (text, a, b) ∈ fileScopes (prog, endm) ∧ Says uw "disable" text c ∧ a ≤ i ∧ i < b ∧
        ¬ ∃ text' a' b', (text', a', b') ∈ fileScopes (prog, endm) ∧ Says uw "enable" text' c ∧ a ≤ a' ∧ a' ≤ i := by
  have := C24_excluded_positions (filePragmas (pragmaFromText uw) (blockToks prog ++ [endm])) c i
  simp only [C102_parts h] at this
  rw [this]
  constructor
  · rintro ⟨d, h1, h2, h3, h4⟩
    obtain ⟨text, k1, k2⟩ := (filePragmas_names h "disable" c d.start d.stop).1 ⟨d, h1, h2, rfl, rfl⟩
    refine ⟨text, _, _, k1, k2, h3.1, h3.2, ?_⟩
    rintro ⟨t', a', b', q1, q2, q3, q4⟩
    obtain ⟨e, e1, e2, rfl, _⟩ := (filePragmas_names h "enable" c a' b').2 ⟨t', q1, q2⟩
    exact h4 ⟨e, e1, e2, q3, q4⟩
  · rintro ⟨text, a, b, k1, k2, h3, h4, h5⟩
    obtain ⟨d, h1, h2, rfl, rfl⟩ := (filePragmas_names h "disable" c a b).2 ⟨text, k1, k2⟩
    refine ⟨d, h1, h2, ⟨h3, h4⟩, ?_⟩
    rintro ⟨e, e1, e2, q3, q4⟩
    obtain ⟨t', q1, q2⟩ := (filePragmas_names h "enable" c e.start e.stop).1 ⟨e, e1, e2, rfl, rfl⟩
    exact h5 ⟨t', _, _, q1, q2, q3, q4⟩

/-- **C102**, what is left out. -/
theorem C102_left_out {prog : List Elem} {endm : Tok} (h : FileBlocks prog endm) (force : Bool) (subs out : List Substitution) :
    Unsuppressed force (filePragmas (pragmaFromText uw) (blockToks prog ++ [endm])) subs out ↔
      NotDisabled uw force (fileScopes (prog, endm)) subs out := by
  unfold Unsuppressed NotDisabled
  simp only [C102_parts h]

theorem rounds_congr {valid : Str → Prop} {f g : Str → List Substitution → Prop} (h : ∀ t s, valid t → f t s → g t s) {k : Nat} {t t' : Str}
    {s s' : List Substitution} (hr : RoundsOf valid f k t s t' s') : RoundsOf valid g k t s t' s' := by
  induction hr with
  | stop t s => exact .stop t s
  | round h1 h2 h3 h4 _ ih => exact .round h1 h2 h3 (h _ _ h3 h4) ih

theorem iterated_congr {valid : Str → Prop} {f g : Str → List Substitution → Prop} (h : ∀ t s, valid t → f t s → g t s) {n : Nat} {text : Str}
    {k : Option Span} {s s' : List Substitution} (hr : Iterated valid f n text k s s') : Iterated valid g n text k s s' := by
  cases hr with
  | alone => exact .alone _
  | once a b _ h1 => exact .once a b _ h1
  | beyond a b _ h1 => exact .beyond a b _ h1
  | dropped h1 h2 h3 h4 => exact .dropped h1 h2 h3 h4
  | one h1 h2 h3 h4 => exact .one h1 h2 (rounds_congr h h3) h4
  | more h1 h2 h3 h4 h5 h6 => exact .more h1 h2 h3 (rounds_congr h h4) h5 h6

theorem result_congr {valid : Str → Prop} {f g : Str → List Substitution → Prop} (h : ∀ t s, valid t → f t s → g t s) {n : Nat} {text : Str}
    (hv : valid text) {out : List Substitution} (hr : IteratedResult valid f n text out) : IteratedResult valid g n text out := by
  obtain ⟨subs, gs, outs, h1, h2, h3, h4⟩ := hr
  exact ⟨subs, gs, outs, h _ _ hv h1, h2, forall2_imp h3 (fun _ _ _ q => iterated_congr h q), h4⟩

/-- The pragmas of Python files are those of their tokens, which have the structure of blocks. -/
def ReadsComments (uw : Char → Bool) (py : Python) (blocks : Str → List Elem × Tok) : Prop :=
  ∀ s, py.file s ≠ none → FileBlocks (blocks s).1 (blocks s).2 ∧
    py.pragmas s = filePragmas (pragmaFromText uw) (blockToks (blocks s).1 ++ [(blocks s).2])

/-- **C102**, in any command: what is reported, in the first search and in each round of iteration, is what the searches find without what the comments
of the text disable. -/
theorem C102_result {py : Python} {blocks : Str → List Elem × Tok} (hread : ReadsComments uw py blocks) {force : Bool}
    {Ps : List (Str → List Substitution → Prop)} {n : Nat} {content : Str} (hfile : py.file content ≠ none) {out : List Substitution} :
    IteratedResult (fun t => py.file t ≠ none) (FoundBy force py.pragmas Ps) n content out ↔
      IteratedResult (fun t => py.file t ≠ none) (FoundUndisabled uw force (fun t => fileScopes (blocks t)) Ps) n content out := by
  constructor
  · refine result_congr (fun t s ht => ?_) hfile
    rintro ⟨per, all, h1, h2, h3⟩
    obtain ⟨hb, e⟩ := hread t ht
    rw [e] at h3
    exact ⟨per, all, h1, h2, (C102_left_out hb _ _ _).1 h3⟩
  · refine result_congr (fun t s ht => ?_) hfile
    rintro ⟨per, all, h1, h2, h3⟩
    obtain ⟨hb, e⟩ := hread t ht
    refine ⟨per, all, h1, h2, ?_⟩
    rw [e]
    exact (C102_left_out hb _ _ _).2 h3

theorem excluded_exists {ps : List Pragma} {d : Pragma} {c : Str} (h1 : d ∈ ps) (h2 : Names "disable" d c) :
    ∃ m, RangeOf (pragmaExcludedRanges ps) c (d.start, m) ∧ (m = d.stop ∨ ∃ e ∈ ps, Names "enable" e c ∧ e.start = m ∧ d.start ≤ m) := by
  obtain ⟨ranges, h3, h4⟩ := (rangeOf_pragmaRanges "disable" ps c (d.start, d.stop)).2 ⟨d, h1, h2, rfl⟩
  have he := fun r => rangeOf_pragmaRanges "enable" ps c r
  unfold RangeOf at he ⊢
  rw [excluded_get, h3]
  cases hen : (pragmaRanges ps (str "enable")).get? c with
  | none => exact ⟨d.stop, ⟨_, rfl, h4⟩, .inl rfl⟩
  | some es =>
    refine ⟨_, ⟨_, rfl, List.mem_map.2 ⟨_, h4, rfl⟩⟩, ?_⟩
    rcases ((truncate_iff d.start d.stop es _).1 rfl).2.2 with h5 | ⟨q, h5, h6, h7⟩
    · exact .inl h5
    · obtain ⟨e, e1, e2, rfl⟩ := (he q).1 ⟨es, hen, h5⟩
      exact .inr ⟨e, e1, e2, h6, h7⟩

/-- **C102**, what a comment does: a finding that meets the scope of a comment which disables its category (or a category above it) is left out, unless a
comment enables that category whose scope begins in between. -/
theorem C102_covered {prog : List Elem} {endm : Tok} (h : FileBlocks prog endm) {subs out : List Substitution}
    (hout : NotDisabled uw false (fileScopes (prog, endm)) subs out) {text c : Str} {a b : Nat} (hscope : (text, a, b) ∈ fileScopes (prog, endm))
    (hsays : Says uw "disable" text c) {x : Substitution} (hx : x ∈ subs) (hc : InCategory x c) (hm : Meets x.primarySpan (a, b))
    (hen : ∀ text' a' b', (text', a', b') ∈ fileScopes (prog, endm) → Says uw "enable" text' c → ¬ (a ≤ a' ∧ a' ≤ x.primarySpan.1)) : x ∉ out := by
  obtain ⟨d, h1, h2, rfl, rfl⟩ := (filePragmas_names h "disable" c a b).2 ⟨text, hscope, hsays⟩
  obtain ⟨m, hm1, hm2⟩ := excluded_exists h1 h2
  rw [C102_parts h] at hm1
  refine ((hout.2 rfl).2 x hx).2 ⟨c, hc, _, hm1, ?_, hm.2⟩
  rcases hm2 with rfl | ⟨e, e1, e2, rfl, e4⟩
  · exact hm.1
  · obtain ⟨t', q1, q2⟩ := (filePragmas_names h "enable" c e.start e.stop).1 ⟨e, e1, e2, rfl, rfl⟩
    have := hen t' _ _ q1 q2
    show x.primarySpan.1 < e.start
    omega

/-- **C102**, what comments do not do: a finding stays if no comment in whose scope it is disables one of its categories. -/
theorem C102_kept {force : Bool} {scopes : List (Str × Nat × Nat)} {subs out : List Substitution} (hout : NotDisabled uw force scopes subs out)
    {x : Substitution} (hx : x ∈ subs)
    (hno : ∀ text a b c, (text, a, b) ∈ scopes → InCategory x c → Says uw "disable" text c → ¬ Meets x.primarySpan (a, b)) : x ∈ out := by
  cases force with
  | true => rw [hout.1 rfl]; exact hx
  | false =>
    refine Classical.not_not.1 fun hn => ?_
    obtain ⟨c, hc, r, ⟨text, b, k1, k2, k3, _⟩, hm⟩ := ((hout.2 rfl).2 x hx).1 hn
    exact hno text r.1 b c k1 hc k2 ⟨Nat.lt_of_lt_of_le hm.1 k3, hm.2⟩

/-- **C102**, a whole file: if its first line is a comment that disables a category, and no comment enables it, nothing of the category is reported that
begins before the end of the file. -/
theorem C102_whole_file {l : PLine} {rest : List Elem} {endm : Tok} (h : FileBlocks (.line l :: rest) endm) (hcode : l.code = []) {t : Tok}
    (ht : l.comment = some t) {c : Str} (hsays : Says uw "disable" t.string c)
    (hen : ∀ text a b, (text, a, b) ∈ fileScopes (.line l :: rest, endm) → ¬ Says uw "enable" text c) {subs out : List Substitution}
    (hout : NotDisabled uw false (fileScopes (.line l :: rest, endm)) subs out) {x : Substitution} (hx : x ∈ out) (hc : InCategory x c)
    (hs : 0 < x.primarySpan.2) : endm.start ≤ x.primarySpan.1 := by
  refine Classical.not_not.1 fun hn => ?_
  refine C102_covered h hout (text := t.string) (a := 0) (b := endm.start) ?_ hsays ((hout.2 rfl).1.subset hx) hc ⟨Nat.lt_of_not_le hn, hs⟩
    (fun t' a' b' q1 q2 => absurd q2 (hen t' a' b' q1)) hx
  simp [fileScopes, blockScopes, Elem.scopes, lineScopes, ht, hcode]

/-- **C102**, a line: a comment after code that disables a category covers the line from its beginning to the end of the comment. -/
theorem C102_line {pre rest : List Elem} {l : PLine} {endm : Tok} (hcode : l.code ≠ []) {t : Tok} (ht : l.comment = some t) :
    (t.string, blockLineEnd 0 pre, t.stop) ∈ fileScopes (pre ++ .line l :: rest, endm) := by
  unfold fileScopes
  have key : ∀ (pre : List Elem) (ls : Nat), (t.string, blockLineEnd ls pre, t.stop) ∈ blockScopes endm.start ls (pre ++ .line l :: rest) := by
    intro pre
    induction pre with
    | nil => intro ls; simp [blockScopes, Elem.scopes, lineScopes, ht, hcode, blockLineEnd]
    | cons e es ih =>
      intro ls
      simp only [List.cons_append, blockScopes, blockLineEnd, List.mem_append]
      exact .inr (ih _)
  exact key pre 0

/-- **C102**, mode `fix`: what the command reports in a file is what the fixers of the groups find there without what the comments of the file disable,
grouped by the statements it belongs to, and iterated; in each round again without what the comments of the new text disable. -/
theorem C102_command {py : Python} {mangle : Label → Str} {groups : Str → List Label} {digit : Char → Prop} {g : Grammar}
    (hpy : py.fixer = py.builtinFixer mangle groups) (htok : TokensFit py) (hfile : ∀ s c, py.file s = some c → ∃ ss, PythonFile mangle digit g ss c)
    (hd : 58 ≤ py.depth) {blocks : Str → List Elem × Tok} (hread : ReadsComments uw py blocks) {w : World} (hw : w.parseAst = py.parseAst) {o : Options}
    {r : Runner} (hr : runnerFromOptions w py.modes o = .ok r) (hmode : o.mode = str "fix") (hne : o.searchReplace ≠ []) :
    ∃ fss, Forall2 (FixersOf mangle) o.searchReplace fss ∧ ∀ content path out, r.find content path = .ok out →
      PyPath path ∧ AlsoHolds o content ∧ py.file content ≠ none ∧ IteratedResult (fun t => py.file t ≠ none)
        (FoundUndisabled uw o.forceEnable (fun t => fileScopes (blocks t)) (fss.map (FixResult py mangle digit))) (o.iterate.getD 10) content out := by
  obtain ⟨fss, h1, h2⟩ := C97_command hpy htok hfile hd hw hr hmode hne
  refine ⟨fss, h1, fun content path out hf => ?_⟩
  obtain ⟨k1, k2, k3, k4⟩ := (h2 content path).2.2.2 out hf
  exact ⟨k1, k2, k3, (C102_result hread k3).1 k4⟩

end Refex
