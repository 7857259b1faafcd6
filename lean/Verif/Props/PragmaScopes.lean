import Verif.Spec.PragmaScopes
import Verif.Spec.Pragma
import Verif.Lemmas.Sort
/-
C26: what a pragma comment covers.
-/
namespace Refex
set_option autoImplicit false

/-! ### What the loop defers and what it yields at once -/

/-- The comments that stand alone on a line of the block itself. -/
def lineOwn (ls : Nat) (l : PLine) : List (Str × Nat) :=
  match l.comment with
  | none => []
  | some c => if l.code = [] then [(c.string, ls)] else []

/-- The comments after code. -/
def lineDone (ls : Nat) (l : PLine) : List (Str × Nat × Nat) :=
  match l.comment with
  | none => []
  | some c => if l.code = [] then [] else [(c.string, ls, c.stop)]

def linesOwn : Nat → List PLine → List (Str × Nat)
  | _, [] => []
  | ls, l :: rest => lineOwn ls l ++ linesOwn l.nl.stop rest

def Elem.own (ls : Nat) : Elem → List (Str × Nat)
  | .line l => lineOwn ls l
  | .suite _ _ _ _ _ => []

def blockOwn : Nat → List Elem → List (Str × Nat)
  | _, [] => []
  | ls, e :: es => e.own ls ++ blockOwn (e.lineEnd ls) es

def closeAt (stop : Nat) (l : List (Str × Nat)) : List (Str × Nat × Nat) := l.map fun c => (c.1, c.2, stop)

mutual
def Elem.done : Nat → Elem → List (Str × Nat × Nat)
  | ls, .line l => lineDone ls l
  | ls, .suite h pre _ body d =>
    lineDone ls h ++ (blockDone (linesEnd h.nl.stop pre) body ++
      closeAt d.start (linesOwn h.nl.stop pre ++ blockOwn (linesEnd h.nl.stop pre) body))
def blockDone : Nat → List Elem → List (Str × Nat × Nat)
  | _, [] => []
  | ls, e :: es => e.done ls ++ blockDone (e.lineEnd ls) es
end

mutual
/-- The ends of the header lines. -/
def Elem.headerEnds : Elem → List Nat
  | .line _ => []
  | .suite h _ _ body _ => h.nl.stop :: blockHeaderEnds body
def blockHeaderEnds : List Elem → List Nat
  | [] => []
  | e :: es => e.headerEnds ++ blockHeaderEnds es
end

/-! ### `indentStarts` finds the header lines -/

theorem indentStarts_others {code : List Tok} (h : ∀ t ∈ code, t.kind = .other) (ns : Option Nat) (rest : List Tok) :
    ∃ ns', indentStarts ns (code ++ rest) = indentStarts ns' rest := by
  induction code generalizing ns with
  | nil => exact ⟨ns, rfl⟩
  | cons t ts ih =>
    have ht : t.kind = .other := h t (by simp)
    obtain ⟨ns', e⟩ := ih (fun t ht => h t (by simp [ht])) none
    exact ⟨ns', by simpa [indentStarts, ht] using e⟩

theorem indentStarts_line {l : PLine} (h : l.Valid) (ns : Option Nat) (rest : List Tok) :
    ∃ ns', indentStarts ns (l.toks ++ rest) = indentStarts ns' rest ∧ (l.nl.kind = .newline → ns' = some l.nl.stop) := by
  unfold PLine.toks
  rw [List.append_assoc, List.append_assoc]
  obtain ⟨n1, e1⟩ := indentStarts_others h.code ns (l.comment.toList ++ ([l.nl] ++ rest))
  rw [e1]
  have e2 : indentStarts n1 (l.comment.toList ++ ([l.nl] ++ rest)) = indentStarts n1 ([l.nl] ++ rest) := by
    cases hc : l.comment with
    | none => rfl
    | some c => simp [indentStarts, h.comment c hc]
  rw [e2]
  rcases h.nl with hk | hk
  · exact ⟨some l.nl.stop, by simp [indentStarts, hk], fun _ => rfl⟩
  · exact ⟨n1, by simp [indentStarts, hk], by simp [hk]⟩

theorem indentStarts_blank {pre : List PLine} (h : ∀ l ∈ pre, l.Valid ∧ l.code = [] ∧ l.nl.kind = .nl) (ns : Option Nat)
    (rest : List Tok) : indentStarts ns (pre.flatMap PLine.toks ++ rest) = indentStarts ns rest := by
  induction pre with
  | nil => rfl
  | cons l ls ih =>
    have ⟨hv, hcode, hnl⟩ := h l (by simp)
    rw [List.flatMap_cons, List.append_assoc]
    have := ih (fun l hl => h l (by simp [hl]))
    cases hc : l.comment with
    | none => simpa [PLine.toks, hcode, hc, indentStarts, hnl] using this
    | some c => simpa [PLine.toks, hcode, hc, indentStarts, hnl, hv.comment c hc] using this

mutual
theorem indentStarts_elem : (e : Elem) → e.Valid → (ns : Option Nat) → (rest : List Tok) →
    ∃ ns', indentStarts ns (e.toks ++ rest) = e.headerEnds ++ indentStarts ns' rest
  | .line l, h, ns, rest => by
    obtain ⟨ns', e, _⟩ := indentStarts_line (l := l) (by simpa [Elem.Valid] using h) ns rest
    exact ⟨ns', by simpa [Elem.toks, Elem.headerEnds] using e⟩
  | .suite hd pre i body d, h, ns, rest => by
    simp only [Elem.Valid] at h
    obtain ⟨hv, _, hn, hpre, hi, hdd, _, hb⟩ := h
    obtain ⟨n1, e1, e1'⟩ := indentStarts_line hv ns (pre.flatMap PLine.toks ++ (i :: (blockToks body ++ [d])) ++ rest)
    obtain ⟨n2, e2⟩ := indentStarts_block body hb (some hd.nl.stop) ([d] ++ rest)
    refine ⟨none, ?_⟩
    rw [e1' hn] at e1
    simp only [Elem.toks, Elem.headerEnds, List.append_assoc] at e1 ⊢
    rw [e1, indentStarts_blank hpre]
    simp only [List.cons_append, indentStarts, hi, List.append_assoc]
    simp only [List.cons_append, List.nil_append] at e2
    simp only [List.cons_append, List.nil_append, e2, indentStarts, hdd]
theorem indentStarts_block : (es : List Elem) → BlockValid es → (ns : Option Nat) → (rest : List Tok) →
    ∃ ns', indentStarts ns (blockToks es ++ rest) = blockHeaderEnds es ++ indentStarts ns' rest
  | [], _, ns, rest => ⟨ns, by simp [blockToks, blockHeaderEnds]⟩
  | e :: es, h, ns, rest => by
    simp only [BlockValid] at h
    obtain ⟨n1, e1⟩ := indentStarts_elem e h.1 ns (blockToks es ++ rest)
    obtain ⟨n2, e2⟩ := indentStarts_block es h.2 n1 rest
    exact ⟨n2, by simp [blockToks, blockHeaderEnds, List.append_assoc, e1, e2]⟩
end

/-! ### The loop -/

theorem lineEnds_append (a b : List Tok) : lineEnds (a ++ b) = lineEnds a ++ lineEnds b := by
  simp [lineEnds]

theorem lineEnds_line {l : PLine} (h : l.Valid) : lineEnds l.toks = [l.nl.stop] := by
  have h1 : lineEnds l.code = [] := by
    simp only [lineEnds, List.map_eq_nil_iff, List.filter_eq_nil_iff]
    intro t ht; simp [h.code t ht]
  have h2 : lineEnds l.comment.toList = [] := by
    cases hc : l.comment with
    | none => rfl
    | some c => simp [lineEnds, h.comment c hc]
  have h3 : lineEnds [l.nl] = [l.nl.stop] := by
    rcases h.nl with hk | hk <;> simp [lineEnds, hk]
  simp [PLine.toks, lineEnds_append, h1, h2, h3]

mutual
theorem headerEnds_sub : (e : Elem) → e.Valid → ∀ x ∈ e.headerEnds, x ∈ lineEnds e.toks
  | .line l, _, x, hx => by simp [Elem.headerEnds] at hx
  | .suite hd pre i body d, h, x, hx => by
    simp only [Elem.Valid] at h
    simp only [Elem.headerEnds, List.mem_cons] at hx
    simp only [Elem.toks, lineEnds_append, lineEnds_line h.1]
    rcases hx with rfl | hx
    · simp
    · have := blockHeaderEnds_sub body h.2.2.2.2.2.2.2 x hx
      have e : lineEnds (i :: (blockToks body ++ [d])) = lineEnds [i] ++ (lineEnds (blockToks body) ++ lineEnds [d]) := by
        rw [← lineEnds_append, ← lineEnds_append]; rfl
      rw [e]; simp [this]
theorem blockHeaderEnds_sub : (es : List Elem) → BlockValid es → ∀ x ∈ blockHeaderEnds es, x ∈ lineEnds (blockToks es)
  | [], _, x, hx => by simp [blockHeaderEnds] at hx
  | e :: es, h, x, hx => by
    simp only [BlockValid] at h
    simp only [blockHeaderEnds, List.mem_append] at hx
    simp only [blockToks, lineEnds_append, List.mem_append]
    exact hx.imp (headerEnds_sub e h.1 x) (blockHeaderEnds_sub es h.2 x)
end

/-- Remember comments at one level. -/
def pushInc (inc : Int → List (Str × Nat)) (n : Int) (own : List (Str × Nat)) : Int → List (Str × Nat) :=
  fun i => if i = n then inc i ++ own else inc i

theorem pushInc_nil (inc : Int → List (Str × Nat)) (n : Int) : pushInc inc n [] = inc := by
  funext i; simp [pushInc]

theorem pushInc_pushInc (inc : Int → List (Str × Nat)) (n : Int) (a b) :
    pushInc (pushInc inc n a) n b = pushInc inc n (a ++ b) := by
  funext i; by_cases h : i = n <;> simp [pushInc, h]

/-- The result of parsing comments with given scopes. -/
def parseAll (parse : Str → Nat → Nat → Option Pragma) (l : List (Str × Nat × Nat)) : List Pragma :=
  l.filterMap fun c => parse c.1 c.2.1 c.2.2

theorem parseAll_append (parse : Str → Nat → Nat → Option Pragma) (a b) :
    parseAll parse (a ++ b) = parseAll parse a ++ parseAll parse b := by simp [parseAll]

theorem loop_others (parse : Str → Nat → Nat → Option Pragma) {code : List Tok} (h : ∀ t ∈ code, t.kind = .other)
    (s : PState) (rest : List Tok) :
    pragmasLoop parse s (code ++ rest) = pragmasLoop parse { s with fresh := s.fresh && code.isEmpty } rest := by
  induction code generalizing s with
  | nil => simp
  | cons t ts ih =>
    have ht : t.kind = .other := h t (by simp)
    simp only [List.cons_append, pragmasLoop, ht]
    rw [ih (fun t ht => h t (by simp [ht]))]
    simp

/-- One line, whose end is, or is not, where an indentation starts. -/
theorem loop_line (parse : Str → Nat → Nat → Option Pragma) {l : PLine} (h : l.Valid) (fresh : Bool) (ls : Nat) (n : Int)
    (inc : Int → List (Str × Nat)) (is : List Nat) (rest : List Tok) (hf : fresh = true ∨ l.code ≠ []) :
    pragmasLoop parse ⟨fresh, ls, n, inc, is⟩ (l.toks ++ rest) =
      parseAll parse (lineDone ls l) ++
        pragmasLoop parse (if l.nl.stop ∈ is then
            ⟨true, l.nl.stop, n + 1, pushInc inc n (lineOwn ls l), is.filter (fun x => x ≠ l.nl.stop)⟩
          else ⟨true, l.nl.stop, n, pushInc inc n (lineOwn ls l), is⟩) rest := by
  unfold PLine.toks
  rw [List.append_assoc, List.append_assoc, loop_others parse h.code]
  have hnl : ∀ (f : Bool) (inc : Int → List (Str × Nat)),
      pragmasLoop parse ⟨f, ls, n, inc, is⟩ ([l.nl] ++ rest) =
        pragmasLoop parse (if l.nl.stop ∈ is then
            ⟨true, l.nl.stop, n + 1, inc, is.filter (fun x => x ≠ l.nl.stop)⟩
          else ⟨true, l.nl.stop, n, inc, is⟩) rest := by
    intro f inc
    rcases h.nl with hk | hk <;>
      by_cases hm : l.nl.stop ∈ is <;> simp [pragmasLoop, hk, hm]
  cases hc : l.comment with
  | none => simpa [lineDone, lineOwn, hc, parseAll, pushInc_nil] using hnl _ _
  | some c =>
    have hck := h.comment c hc
    by_cases hcode : l.code = []
    · have hf' : fresh = true := hf.resolve_right (fun h => h hcode)
      subst hf'
      have e : pragmasLoop parse ⟨true, ls, n, inc, is⟩ (c :: ([l.nl] ++ rest)) =
          pragmasLoop parse ⟨true, ls, n, pushInc inc n [(c.string, ls)], is⟩ ([l.nl] ++ rest) := by
        rw [pragmasLoop]; simp only [hck, if_true]; rfl
      simp only [hcode, List.isEmpty_nil, Bool.and_true, Option.toList_some, List.singleton_append]
      simp only [List.singleton_append] at e hnl
      rw [e, hnl]
      simp [lineDone, lineOwn, hc, hcode, parseAll]
    · have hemp : l.code.isEmpty = false := by cases hl : l.code <;> simp_all
      simp only [hemp, Bool.and_false, Option.toList_some, List.singleton_append]
      have e : pragmasLoop parse ⟨false, ls, n, inc, is⟩ (c :: ([l.nl] ++ rest)) =
          (parse c.string ls c.stop).toList ++ pragmasLoop parse ⟨false, ls, n, inc, is⟩ ([l.nl] ++ rest) := by
        rw [pragmasLoop]; simp [hck]
      simp only [List.singleton_append] at e hnl
      rw [e, hnl]
      cases hp : parse c.string ls c.stop <;> simp [lineDone, lineOwn, hc, hcode, parseAll, pushInc_nil, hp]

theorem loop_lines (parse : Str → Nat → Nat → Option Pragma) (pre : List PLine)
    (h : ∀ l ∈ pre, l.Valid ∧ l.code = [] ∧ l.nl.kind = .nl) (ls : Nat) (n : Int)
    (inc : Int → List (Str × Nat)) (is : List Nat) (rest : List Tok) (hns : ∀ l ∈ pre, l.nl.stop ∉ is) :
    pragmasLoop parse ⟨true, ls, n, inc, is⟩ (pre.flatMap PLine.toks ++ rest) =
      pragmasLoop parse ⟨true, linesEnd ls pre, n, pushInc inc n (linesOwn ls pre), is⟩ rest := by
  induction pre generalizing ls inc with
  | nil => simp [linesEnd, linesOwn, pushInc_nil]
  | cons l pre ih =>
    have ⟨hv, hcode, _⟩ := h l (by simp)
    rw [List.flatMap_cons, List.append_assoc, loop_line parse hv true ls n inc is _ (.inl rfl),
      if_neg (hns l (by simp)), ih (fun l hl => h l (by simp [hl])) _ _ (fun l hl => hns l (by simp [hl]))]
    have : lineDone ls l = [] := by unfold lineDone; cases l.comment <;> simp [hcode]
    simp [this, parseAll, linesEnd, linesOwn, pushInc_pushInc]

theorem lineEnds_blank {pre : List PLine} (h : ∀ l ∈ pre, l.Valid ∧ l.code = [] ∧ l.nl.kind = .nl) :
    lineEnds (pre.flatMap PLine.toks) = pre.map fun l => l.nl.stop := by
  induction pre with
  | nil => rfl
  | cons l pre ih =>
    rw [List.flatMap_cons, lineEnds_append, lineEnds_line (h l (by simp)).1, ih fun l hl => h l (by simp [hl])]
    rfl

theorem lineEnds_suite {hd : PLine} {pre : List PLine} {i : Tok} {body : List Elem} {d : Tok}
    (h : (Elem.suite hd pre i body d).Valid) :
    lineEnds (Elem.suite hd pre i body d).toks =
      hd.nl.stop :: ((pre.map fun l => l.nl.stop) ++ lineEnds (blockToks body)) := by
  simp only [Elem.Valid] at h
  obtain ⟨hv, _, _, hpre, hi, hdd, _, _⟩ := h
  have e : lineEnds (i :: (blockToks body ++ [d])) = lineEnds (blockToks body) := by
    have : lineEnds (i :: (blockToks body ++ [d])) = lineEnds [i] ++ (lineEnds (blockToks body) ++ lineEnds [d]) := by
      rw [← lineEnds_append, ← lineEnds_append]; rfl
    rw [this]; simp [lineEnds, hi, hdd]
  simp only [Elem.toks, lineEnds_append, lineEnds_line hv, lineEnds_blank hpre, e]
  rfl

mutual
theorem loop_elem (parse : Str → Nat → Nat → Option Pragma) : (e : Elem) → e.Valid → (fresh : Bool) → (ls : Nat) →
    (n : Int) → (inc : Int → List (Str × Nat)) → (is : List Nat) → (rest : List Tok) →
    (fresh = true ∨ ∃ l, firstLine [e] = some l ∧ l.code ≠ []) →
    (lineEnds e.toks).Nodup → (∀ x ∈ lineEnds e.toks, x ∈ is ↔ x ∈ e.headerEnds) → (∀ i, n < i → inc i = []) →
    ∃ is', (∀ x, x ∈ is' ↔ x ∈ is ∧ x ∉ e.headerEnds) ∧
      pragmasLoop parse ⟨fresh, ls, n, inc, is⟩ (e.toks ++ rest) =
        parseAll parse (e.done ls) ++ pragmasLoop parse ⟨true, e.lineEnd ls, n, pushInc inc n (e.own ls), is'⟩ rest
  | .line l, h, fresh, ls, n, inc, is, rest, hf, hnd, his, hinc => by
    have hv : l.Valid := by simpa [Elem.Valid] using h
    have hno : l.nl.stop ∉ is := by
      intro hm
      have := (his l.nl.stop (by simp [Elem.toks, lineEnds_line hv])).1 hm
      simp [Elem.headerEnds] at this
    refine ⟨is, by simp [Elem.headerEnds], ?_⟩
    rw [Elem.toks, loop_line parse hv fresh ls n inc is rest (by simpa [firstLine] using hf), if_neg hno]
    simp [Elem.done, Elem.own, Elem.lineEnd]
  | .suite hd pre i body d, h, fresh, ls, n, inc, is, rest, hf, hnd, his, hinc => by
    have hle := lineEnds_suite h
    rw [hle] at hnd his
    simp only [Elem.Valid] at h
    obtain ⟨hv, hcode, hn, hpre, hi, hdd, ⟨l0, hl0, hl0c⟩, hb⟩ := h
    simp only [Elem.headerEnds, List.mem_cons] at his
    have hnd' := List.nodup_cons.1 hnd
    have hnd2 := List.nodup_append.1 hnd'.2
    have hsub := blockHeaderEnds_sub body hb
    have hmem : hd.nl.stop ∈ is := (his _ (by simp)).2 (.inl rfl)
    have hown : lineOwn ls hd = [] := by unfold lineOwn; cases hd.comment <;> simp [hcode]
    have e1 := loop_line parse hv fresh ls n inc is
      (pre.flatMap PLine.toks ++ ((i :: (blockToks body ++ [d])) ++ rest)) (.inr hcode)
    rw [if_pos hmem, hown, pushInc_nil] at e1
    have hpren : ∀ l ∈ pre, l.nl.stop ∉ is.filter (fun x => x ≠ hd.nl.stop) := by
      intro l hl hm
      have hlm : l.nl.stop ∈ pre.map fun l => l.nl.stop := List.mem_map.2 ⟨l, hl, rfl⟩
      have h1 := (his l.nl.stop (by simp only [List.mem_append]; exact .inr (.inl hlm))).1 (List.mem_filter.1 hm).1
      rcases h1 with h1 | h1
      · exact hnd'.1 (by rw [← h1]; simp only [List.mem_append]; exact .inl hlm)
      · exact hnd2.2.2 _ hlm _ (hsub _ h1) rfl
    have e2 := loop_lines parse pre hpre hd.nl.stop (n + 1) inc (is.filter (fun x => x ≠ hd.nl.stop))
      ((i :: (blockToks body ++ [d])) ++ rest) hpren
    have hisb : ∀ x ∈ lineEnds (blockToks body), x ∈ is.filter (fun x => x ≠ hd.nl.stop) ↔ x ∈ blockHeaderEnds body := by
      intro x hx
      have hne : x ≠ hd.nl.stop := fun he => hnd'.1 (by rw [← he]; simp [hx])
      have := his x (by simp [hx])
      simp [this, hne]
    obtain ⟨is', his', e3⟩ := loop_block parse body hb false (linesEnd hd.nl.stop pre) (n + 1)
      (pushInc inc (n + 1) (linesOwn hd.nl.stop pre)) (is.filter (fun x => x ≠ hd.nl.stop)) ([d] ++ rest)
      (.inr (.inr ⟨l0, hl0, hl0c⟩)) hnd2.2.1 hisb
      (by intro j hj; unfold pushInc; rw [if_neg (by omega)]; exact hinc j (by omega))
    refine ⟨is', ?_, ?_⟩
    · intro x
      rw [his']
      simp only [List.mem_filter, decide_eq_true_eq, Elem.headerEnds, List.mem_cons, not_or, and_assoc]
    · simp only [Elem.toks, List.append_assoc] at e1 ⊢
      rw [e1, e2]
      have ei : ∀ r, pragmasLoop parse
          ⟨true, linesEnd hd.nl.stop pre, n + 1, pushInc inc (n + 1) (linesOwn hd.nl.stop pre),
            is.filter (fun x => x ≠ hd.nl.stop)⟩ (i :: r) =
          pragmasLoop parse
          ⟨false, linesEnd hd.nl.stop pre, n + 1, pushInc inc (n + 1) (linesOwn hd.nl.stop pre),
            is.filter (fun x => x ≠ hd.nl.stop)⟩ r := by
        intro r; rw [pragmasLoop]; simp [hi]
      simp only [List.cons_append, List.append_assoc]
      rw [ei]
      simp only [List.cons_append, List.nil_append] at e3
      simp only [List.nil_append]
      rw [e3, pushInc_pushInc, pragmasLoop]
      simp only [hdd]
      have hinc0 : inc (n + 1) = [] := hinc _ (by omega)
      have ef : (fun j => if j = n + 1 then [] else
          pushInc inc (n + 1) (linesOwn hd.nl.stop pre ++ blockOwn (linesEnd hd.nl.stop pre) body) j) = inc := by
        funext j
        by_cases hj : j = n + 1 <;> simp [pushInc, hj, hinc0]
      rw [ef]
      have eg : pushInc inc (n + 1) (linesOwn hd.nl.stop pre ++ blockOwn (linesEnd hd.nl.stop pre) body) (n + 1) =
          linesOwn hd.nl.stop pre ++ blockOwn (linesEnd hd.nl.stop pre) body := by
        simp [pushInc, hinc0]
      rw [eg]
      have eh : parseAll parse (closeAt d.start (linesOwn hd.nl.stop pre ++ blockOwn (linesEnd hd.nl.stop pre) body)) =
          (linesOwn hd.nl.stop pre ++ blockOwn (linesEnd hd.nl.stop pre) body).filterMap
            (fun c => parse c.1 c.2 d.start) := by
        simp [parseAll, closeAt, List.filterMap_map, Function.comp_def]
      simp only [Elem.done, parseAll_append, eh, Elem.own, pushInc_nil, Elem.lineEnd, List.append_assoc]
      simp
theorem loop_block (parse : Str → Nat → Nat → Option Pragma) : (es : List Elem) → BlockValid es → (fresh : Bool) →
    (ls : Nat) → (n : Int) → (inc : Int → List (Str × Nat)) → (is : List Nat) → (rest : List Tok) →
    (fresh = true ∨ es = [] ∧ False ∨ ∃ l, firstLine es = some l ∧ l.code ≠ []) →
    (lineEnds (blockToks es)).Nodup → (∀ x ∈ lineEnds (blockToks es), x ∈ is ↔ x ∈ blockHeaderEnds es) →
    (∀ i, n < i → inc i = []) →
    ∃ is', (∀ x, x ∈ is' ↔ x ∈ is ∧ x ∉ blockHeaderEnds es) ∧
      pragmasLoop parse ⟨fresh, ls, n, inc, is⟩ (blockToks es ++ rest) =
        parseAll parse (blockDone ls es) ++
          pragmasLoop parse ⟨true, blockLineEnd ls es, n, pushInc inc n (blockOwn ls es), is'⟩ rest
  | [], _, fresh, ls, n, inc, is, rest, hf, hnd, his, hinc => by
    have : fresh = true := by
      rcases hf with h | ⟨_, h⟩ | ⟨l, h, _⟩
      · exact h
      · exact h.elim
      · simp [firstLine] at h
    subst this
    exact ⟨is, by simp [blockHeaderEnds], by simp [blockToks, blockDone, blockOwn, blockLineEnd, pushInc_nil, parseAll]⟩
  | e :: es, h, fresh, ls, n, inc, is, rest, hf, hnd, his, hinc => by
    simp only [BlockValid] at h
    simp only [blockToks, lineEnds_append] at hnd his
    have hnd2 := List.nodup_append.1 hnd
    have hsub1 := headerEnds_sub e h.1
    have hsub2 := blockHeaderEnds_sub es h.2
    have hf1 : fresh = true ∨ ∃ l, firstLine [e] = some l ∧ l.code ≠ [] := by
      rcases hf with h | ⟨_, h⟩ | ⟨l, h, hl⟩
      · exact .inl h
      · exact h.elim
      · exact .inr ⟨l, by cases e <;> simpa [firstLine] using h, hl⟩
    obtain ⟨is1, h1, e1⟩ := loop_elem parse e h.1 fresh ls n inc is (blockToks es ++ rest) hf1 hnd2.1
      (by
        intro x hx
        rw [his x (by simp [hx])]
        simp only [blockHeaderEnds, List.mem_append]
        exact ⟨fun h => h.resolve_right (fun h' => hnd2.2.2 x hx x (hsub2 x h') rfl), .inl⟩) hinc
    obtain ⟨is2, h2, e2⟩ := loop_block parse es h.2 true (e.lineEnd ls) n (pushInc inc n (e.own ls)) is1 rest (.inl rfl)
      hnd2.2.1
      (by
        intro x hx
        have hne : x ∉ e.headerEnds := fun h' => hnd2.2.2 x (hsub1 x h') x hx rfl
        rw [h1, his x (by simp [hx])]
        simp [blockHeaderEnds, hne])
      (by intro j hj; unfold pushInc; rw [if_neg (by omega)]; exact hinc j hj)
    refine ⟨is2, ?_, ?_⟩
    · intro x; rw [h2, h1]; simp only [blockHeaderEnds, List.mem_append, not_or, and_assoc]
    · rw [blockToks, List.append_assoc, e1, e2]
      simp only [blockDone, parseAll_append, blockLineEnd, blockOwn, pushInc_pushInc, List.append_assoc]
end

/-! ### The scopes, split into what is deferred and what is not -/

theorem lineScopes_perm (stop ls : Nat) (l : PLine) :
    (lineScopes stop ls l).Perm (closeAt stop (lineOwn ls l) ++ lineDone ls l) := by
  unfold lineScopes lineOwn lineDone
  cases l.comment with
  | none => exact .refl _
  | some c => by_cases h : l.code = [] <;> simp [h, closeAt]

theorem linesScopes_perm (stop ls : Nat) (pre : List PLine) (h : ∀ l ∈ pre, l.code = []) :
    linesScopes stop ls pre = closeAt stop (linesOwn ls pre) := by
  induction pre generalizing ls with
  | nil => rfl
  | cons l pre ih =>
    have hl := h l (by simp)
    rw [linesScopes, linesOwn, ih _ fun l hl => h l (by simp [hl])]
    cases hc : l.comment <;> simp [lineScopes, lineOwn, closeAt, hc, hl]

theorem closeAt_append (stop : Nat) (a b) : closeAt stop (a ++ b) = closeAt stop a ++ closeAt stop b := by simp [closeAt]

theorem perm_swap4 {α : Type _} (a b c d : List α) : ((a ++ b) ++ (c ++ d)).Perm ((a ++ c) ++ (b ++ d)) := by
  simp only [List.append_assoc]
  refine List.Perm.append_left a ?_
  rw [← List.append_assoc, ← List.append_assoc]
  exact List.Perm.append_right d List.perm_append_comm

mutual
theorem elem_scopes_perm : (e : Elem) → e.Valid → (stop ls : Nat) →
    (e.scopes stop ls).Perm (closeAt stop (e.own ls) ++ e.done ls)
  | .line l, _, stop, ls => by simpa [Elem.scopes, Elem.own, Elem.done] using lineScopes_perm stop ls l
  | .suite hd pre i body d, h, stop, ls => by
    simp only [Elem.Valid] at h
    obtain ⟨hv, hcode, hn, hpre, hi, hdd, _, hb⟩ := h
    have hown : lineOwn ls hd = [] := by unfold lineOwn; cases hd.comment <;> simp [hcode]
    have h1 := lineScopes_perm stop ls hd
    rw [hown] at h1
    simp only [Elem.scopes, Elem.own, Elem.done, closeAt, List.map_nil, List.nil_append] at h1 ⊢
    refine List.Perm.append h1 ?_
    rw [linesScopes_perm _ _ _ fun l hl => (hpre l hl).2.1]
    refine (List.Perm.append_left _ (block_scopes_perm body hb d.start _)).trans ?_
    have := closeAt_append d.start (linesOwn hd.nl.stop pre) (blockOwn (linesEnd hd.nl.stop pre) body)
    unfold closeAt at this ⊢
    rw [this, ← List.append_assoc]
    exact List.perm_append_comm
theorem block_scopes_perm : (es : List Elem) → BlockValid es → (stop ls : Nat) →
    (blockScopes stop ls es).Perm (closeAt stop (blockOwn ls es) ++ blockDone ls es)
  | [], _, stop, ls => by simp [blockScopes, blockOwn, blockDone, closeAt]
  | e :: es, h, stop, ls => by
    simp only [BlockValid] at h
    simp only [blockScopes, blockOwn, blockDone, closeAt_append]
    exact (List.Perm.append (elem_scopes_perm e h.1 stop ls) (block_scopes_perm es h.2 stop _)).trans (perm_swap4 _ _ _ _)
end

/-- C26, for the block structure of the token stream: the pragmas of a file are exactly those written in its comments, where a
comment after code covers its physical line and a comment on its own line covers the rest of its token block. -/
theorem C26_token_blocks (parse : Str → Nat → Nat → Option Pragma) (prog : List Elem) (endm : Tok)
    (hvalid : BlockValid prog) (hend : endm.kind = .endmarker) (hlines : (lineEnds (blockToks prog)).Pairwise (· < ·)) :
    (pragmasOf parse (blockToks prog ++ [endm])).Perm
      ((blockScopes endm.start 0 prog).filterMap fun c => parse c.1 c.2.1 c.2.2) := by
  have hnd : (lineEnds (blockToks prog)).Nodup := hlines.imp (fun h => Nat.ne_of_lt h)
  obtain ⟨ns, e0⟩ := indentStarts_block prog hvalid none [endm]
  have e1 : indentStarts none (blockToks prog ++ [endm]) = blockHeaderEnds prog := by
    rw [e0]; simp [indentStarts, hend]
  obtain ⟨is', _, e2⟩ := loop_block parse prog hvalid true 0 0 (fun _ => []) (blockHeaderEnds prog) [endm] (.inl rfl) hnd
    (fun x _ => Iff.rfl) (fun _ _ => rfl)
  unfold pragmasOf
  rw [e1]
  rw [e2, pragmasLoop]
  simp only [hend, pragmasLoop, List.append_nil]
  have eh : parseAll parse (closeAt endm.start (blockOwn 0 prog)) =
      (pushInc (fun _ => []) 0 (blockOwn 0 prog) 0).filterMap (fun c => parse c.1 c.2 endm.start) := by
    simp [parseAll, closeAt, pushInc, List.filterMap_map, Function.comp_def]
  rw [← eh]
  refine List.Perm.trans List.perm_append_comm ?_
  rw [← parseAll_append]
  exact ((block_scopes_perm prog hvalid endm.start 0).symm).filterMap _

/-! ### Example: a file with comments of all kinds -/

def exC1 : Str := str "# refex: disable=a"
def exC2 : Str := str "# refex: disable=b"
def exC3 : Str := str "# refex: disable=c"

/-- The tokens of `if x: # refex: disable=a`, a comment line and `  y` inside, then a comment line at the left margin, then `z`. -/
def exProg : List Elem :=
  [.suite
     ⟨[⟨.other, str "if", 0, 2⟩, ⟨.other, str "x", 3, 4⟩, ⟨.other, str ":", 4, 5⟩], some ⟨.comment, exC1, 7, 25⟩,
       ⟨.newline, str "\n", 25, 26⟩⟩
     [⟨[], some ⟨.comment, exC2, 28, 46⟩, ⟨.nl, str "\n", 46, 47⟩⟩]
     ⟨.indent, str "  ", 47, 49⟩
     [.line ⟨[⟨.other, str "y", 49, 50⟩], none, ⟨.newline, str "\n", 50, 51⟩⟩,
      .line ⟨[], some ⟨.comment, exC3, 51, 69⟩, ⟨.nl, str "\n", 69, 70⟩⟩]
     ⟨.dedent, [], 70, 70⟩,
   .line ⟨[⟨.other, str "z", 70, 71⟩], none, ⟨.newline, str "\n", 71, 72⟩⟩]

def exEnd : Tok := ⟨.endmarker, [], 72, 72⟩

def exNoUw : Char → Bool := fun _ => false

def exPragma (v : String) (a b : Nat) : Pragma := ⟨str "refex", [(str "disable", str v)], a, b⟩

theorem exProg_valid : BlockValid exProg := by
  simp only [exProg, BlockValid, Elem.Valid, firstLine, and_true]
  refine ⟨⟨⟨by decide, by decide, by decide⟩, by decide, by decide, ?_, trivial, trivial, ⟨_, rfl, by decide⟩,
    ⟨by decide, by decide, by decide⟩, ⟨by decide, by decide, by decide⟩⟩, ⟨by decide, by decide, by decide⟩⟩
  intro l hl
  rw [List.mem_singleton.1 hl]
  exact ⟨⟨by decide, by decide, by decide⟩, by decide, by decide⟩

example : (lineEnds (blockToks exProg)).Pairwise (· < ·) := by decide
example : pragmasOf (pragmaFromText exNoUw) (blockToks exProg ++ [exEnd]) =
    [exPragma "a" 0 25, exPragma "b" 26 70, exPragma "c" 51 70] := by decide
example : (blockScopes exEnd.start 0 exProg) = [(exC1, 0, 25), (exC2, 26, 70), (exC3, 51, 70)] := by decide

/-- The column of the token that follows `before`. -/
def columnAfter (before : List Tok) (t : Tok) : Nat := t.start - ((lineEnds before).getLast?.getD 0)

/-- The rule by indentation: a recognised pragma comment alone on its line, at some column, covers the code that follows it as long
as that code is not indented less than the comment. -/
def OwnLineRule (parse : Str → Nat → Nat → Option Pragma) (ts : List Tok) : Prop :=
  ∀ pre c mid t post, ts = pre ++ c :: (mid ++ t :: post) → c.kind = .comment → (parse c.string 0 0).isSome →
    (∀ p, pre.getLast? = some p → p.kind = .newline ∨ p.kind = .nl) → t.kind = .other →
    (∀ m₁ u m₂, mid ++ [t] = m₁ ++ u :: m₂ → u.kind = .other → columnAfter pre c ≤ columnAfter (pre ++ c :: m₁) u) →
    ∃ p ∈ pragmasOf parse ts, p.start ≤ c.start ∧ t.stop ≤ p.stop ∧ (parse c.string p.start p.stop) = some p

/-- C26 as a rule about columns is false: a comment at the left margin right after an indented block is counted to that block and
covers none of the code after it. -/
theorem C26_own_line_rule_false :
    ¬ ∀ (prog : List Elem) (endm : Tok), BlockValid prog → endm.kind = .endmarker →
      (lineEnds (blockToks prog)).Pairwise (· < ·) → OwnLineRule (pragmaFromText exNoUw) (blockToks prog ++ [endm]) := by
  intro h
  have h1 := h exProg exEnd exProg_valid rfl (by decide)
    ((blockToks exProg).take 10) ⟨.comment, exC3, 51, 69⟩ [⟨.nl, str "\n", 69, 70⟩, ⟨.dedent, [], 70, 70⟩]
    ⟨.other, str "z", 70, 71⟩ [⟨.newline, str "\n", 71, 72⟩, exEnd] (by decide) rfl (by decide) (by decide) rfl ?_
  · have e : pragmasOf (pragmaFromText exNoUw) (blockToks exProg ++ [exEnd]) =
      [exPragma "a" 0 25, exPragma "b" 26 70, exPragma "c" 51 70] := by decide
    rw [e] at h1
    obtain ⟨p, hp, _, h2, _⟩ := h1
    simp only [List.mem_cons, List.not_mem_nil, or_false] at hp
    rcases hp with rfl | rfl | rfl <;> simp [exPragma] at h2
  · intro m₁ u m₂ _ _
    have : columnAfter ((blockToks exProg).take 10) ⟨.comment, exC3, 51, 69⟩ = 0 := by decide
    rw [this]; exact Nat.zero_le _

/-- The pragmas of a parsed file are these, in order of their starts. -/
theorem C26_file_pragmas (parse : Str → Nat → Nat → Option Pragma) (ts : List Tok) :
    (filePragmas parse ts).Perm (pragmasOf parse ts) ∧ (filePragmas parse ts).Pairwise (fun a b => a.start ≤ b.start) := by
  refine ⟨stableSort_perm _ _, ?_⟩
  refine (stableSort_sorted (le := fun a b : Pragma => decide (a.start ≤ b.start)) ?_ ?_ _).imp (by simp)
  · intro a b; simp only [decide_eq_true_eq]; omega
  · intro a b c; simp only [decide_eq_true_eq]; omega

end Refex
