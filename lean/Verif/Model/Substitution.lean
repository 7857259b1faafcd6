import Verif.Model.Basic
/-
Model of refex/substitution.py.
-/
namespace Refex
set_option autoImplicit false

/-- refex/substitution.py:61-100, class `Substitution` (attribute by attribute). -/
structure Substitution where
  matchedSpans : Dict Label Span
  primaryLabel : Label
  replacements : Option (Dict Label Str) := some []
  message : Option Str := none
  url : Option Str := none
  significant : Bool := true
  category : Option Str := none
  keySpan : Option Span := none
  deriving DecidableEq, Repr

/-- Python `str.isspace`-style class `\s` for str patterns (refex/substitution.py:58 uses `\s` on str).
The ASCII whitespace and the Unicode white-space code points that CPython's `\s` accepts. -/
def isReSpace (c : Char) : Bool :=
  let n := c.toNat
  (9 ≤ n && n ≤ 13) || (28 ≤ n && n ≤ 32) || n = 0x85 || n = 0xA0 || n = 0x1680 ||
  (0x2000 ≤ n && n ≤ 0x200A) || n = 0x2028 || n = 0x2029 || n = 0x202F || n = 0x205F || n = 0x3000

/-- `[^.\s]` of refex/substitution.py:58. -/
def catChar (c : Char) : Bool := c ≠ '.' && !isReSpace c

/-- refex/substitution.py:58, the tail `[^.\s]*([.][^.\s]+)*\Z` as a deterministic recogniser.
`needChar` is true right after a dot, where at least one `[^.\s]` must follow. -/
def catTail (needChar : Bool) : Str → Bool
  | [] => !needChar
  | c :: cs =>
    if c = '.' then !needChar && catTail true cs
    else catChar c && catTail false cs

/-- refex/substitution.py:58, `_CATEGORY_NAME_REGEX.match(s) is not None`:
`\A[^-.\s]` and then the tail. -/
def categoryOk : Str → Bool
  | [] => false
  | c :: cs => c ≠ '-' && catChar c && catTail false cs

/-- refex/substitution.py:110-149, `Substitution._validate`. (The type test of lines 139-149 is
vacuous here: replacements are strings by typing.) -/
def Substitution.validate (s : Substitution) : Except Exc Unit :=
  if s.category.any (fun c => !categoryOk c) then .error .valueError
  else if !s.matchedSpans.has s.primaryLabel then .error .valueError
  else match s.replacements with
    | none => .ok ()
    | some r => if r.keys.all (fun k => s.matchedSpans.has k) then .ok () else .error .valueError

/-- refex/substitution.py:102-105, `primary_span` (`none` is the KeyError that `_validate` rules out). -/
def Substitution.primarySpan? (s : Substitution) : Option Span := s.matchedSpans.get? s.primaryLabel

/-- `primary_span` with a default that is never used on a validated substitution. refex/substitution.py:103-105. -/
def Substitution.primarySpan (s : Substitution) : Span := (s.primarySpan?).getD (0, 0)

/-- refex/substitution.py:166-171, the loop building `new_spans`. -/
def relSpans (a b : Nat) : Dict Label Span → Option (Dict Label Span)
  | [] => some []
  | (k, (os, oe)) :: rest =>
    if a ≤ os && oe ≤ b then
      match relSpans a b rest with
      | some r => some ((k, (os - a, oe - a)) :: r)
      | none => none
    else none

/-- refex/substitution.py:151-172, `relative_to_span`. -/
def Substitution.relativeToSpan (s : Substitution) (a b : Nat) : Option Substitution :=
  match relSpans a b s.matchedSpans with
  | some m => some { s with matchedSpans := m }
  | none => none

/-- refex/substitution.py:174-187, `all_categories`; `none` is the root category. -/
def Substitution.allCategories (s : Substitution) : List (Option Str) :=
  none :: match s.category with
    | none => []
    | some c =>
      let parts := splitOn '.' c
      (List.range parts.length).map fun i => some (joinWith ['.'] (parts.take (i + 1)))

/-- refex/substitution.py:207-214, `_sub_matches_ranges`. -/
def subMatchesRanges (s : Substitution) (ranges : Dict (Option Str) (List Span)) : Bool :=
  s.allCategories.any fun c =>
    ((ranges.get? c).getD []).any fun r =>
      decide (s.primarySpan.2 > r.1) && decide (s.primarySpan.1 < r.2)

/-- refex/substitution.py:190-204, `suppress_exclude_bytes` (the generator as the list it yields). -/
def suppressExcludeBytes (subs : List Substitution) (ranges : Dict (Option Str) (List Span)) :
    List Substitution :=
  subs.filter fun s => !subMatchesRanges s ranges

/-- refex/substitution.py:217-228, `LabeledSpan`; the frozenset of labels is a list. -/
structure LabeledSpan where
  span : Span
  labels : List Label
  deriving DecidableEq, Repr

/-- Distinct values in order of first occurrence (the keys of a `defaultdict`). refex/substitution.py:313-320. -/
def dedup {α : Type _} [DecidableEq α] : List α → List α
  | [] => []
  | x :: xs => x :: (dedup xs).filter (fun y => y ≠ x)

/-- The keys of `start_to_labels` / `end_to_labels` sorted ascending (refex/substitution.py:313-320;
Python sorts descending and pops from the end, the model consumes an ascending list from the front). -/
def sortedDistinct (l : List Nat) : List Nat := stableSort (fun a b => decide (a ≤ b)) (dedup l)

/-- refex/substitution.py:324-350, the `while starts or ends` loop, with the generator's output as a list.
`.error` is the AssertionError of line 342. Set operations on labels: `|` appends the new ones, `-` filters. -/
def labeledSpansLoop (spans : Dict Label Span) :
    Nat → List Nat → List Nat → List Label → Option Nat → Except Exc (List LabeledSpan)
  | 0, _, _, _, _ => .ok []
  | _ + 1, [], [], _, _ => .ok []
  | _ + 1, _ :: _, [], _, _ => .error .assertionError
  | fuel + 1, starts, e :: ends, cur, rs =>
    let isStart := match starts with
      | s :: _ => decide (s ≤ e)
      | [] => false
    let pos := match starts with
      | s :: _ => if s ≤ e then s else e
      | [] => e
    let starts' := if isStart then starts.tail else starts
    let ends' := if isStart then e :: ends else ends
    let cur' :=
      if isStart then
        cur ++ ((spans.filter (fun p => p.2.1 = pos)).map Prod.fst).filter (fun l => !cur.contains l)
      else cur.filter (fun l => !((spans.filter (fun p => p.2.2 = pos)).map Prod.fst).contains l)
    match labeledSpansLoop spans fuel starts' ends' cur' (some pos) with
    | .error x => .error x
    | .ok rest =>
      match rs with
      | some r => .ok ({ span := (r, pos), labels := cur } :: rest)
      | none => .ok rest

/-- refex/substitution.py:303-350, `labeled_spans`. The fuel is the number of events, which is exactly the
number of iterations, see `labeledSpans_fuel`. -/
def labeledSpans (s : Substitution) : Except Exc (List LabeledSpan) :=
  let starts := sortedDistinct (s.matchedSpans.map fun p => p.2.1)
  let ends := sortedDistinct (s.matchedSpans.map fun p => p.2.2)
  labeledSpansLoop s.matchedSpans (starts.length + ends.length) starts ends [] none

/-- refex/substitution.py:231-245 `DiffSpan`, and the union yielded by `as_diff`. -/
inductive DiffItem
  | labeled (ls : LabeledSpan)
  | diff (span : Span) (label : Label) (after : Str)
  deriving DecidableEq, Repr

/-- The span of either kind of item. refex/substitution.py:231-245. -/
def DiffItem.span : DiffItem → Span
  | .labeled ls => ls.span
  | .diff s _ _ => s

/-- Python's order on strings: lexicographic by code point. refex/substitution.py:291-293. -/
def strLe : Str → Str → Bool
  | [], _ => true
  | _ :: _, [] => false
  | a :: as, b :: bs => decide (a.toNat < b.toNat) || (a = b && strLe as bs)

/-- `max(labels, key=lambda label: (matched_spans[label][1], label))`, refex/substitution.py:291-293.
(Labels are distinct, so ties of the key do not occur.) -/
def maxLabel (spans : Dict Label Span) : Label → List Label → Label
  | best, [] => best
  | best, l :: ls =>
    let kb := ((spans.get? best).getD (0, 0)).2
    let kl := ((spans.get? l).getD (0, 0)).2
    if kb < kl ∨ (kb = kl ∧ strLe best l) then maxLabel spans l ls else maxLabel spans best ls

/-- refex/substitution.py:276-300, the loop of `as_diff` over the labeled spans. -/
def asDiffLoop (s : Substitution) (repl : Dict Label Str) :
    Nat → List LabeledSpan → List DiffItem
  | _, [] => []
  | lastEnd, ls :: rest =>
    if ls.span.1 < lastEnd then asDiffLoop s repl lastEnd rest
    else match ls.labels.filter (fun l => repl.has l) with
      | [] => .labeled ls :: asDiffLoop s repl lastEnd rest
      | l :: more =>
        let lab := maxLabel s.matchedSpans l more
        let sp := (s.matchedSpans.get? lab).getD (0, 0)
        .diff sp lab ((repl.get? lab).getD []) :: asDiffLoop s repl sp.2 rest

/-- refex/substitution.py:248-300, `as_diff`. -/
def asDiff (s : Substitution) : Except Exc (List DiffItem) :=
  match labeledSpans s with
  | .error x => .error x
  | .ok ls => .ok (asDiffLoop s (s.replacements.getD []) 0 ls)

/-- refex/substitution.py:370-386, the loop of `disjoint_substitutions` over the sorted list;
`last` is `(last_start, last_end, last_sub)`. The comparison of line 379 is on Python ints,
so it is done in `Int`. -/
def disjointLoop : Option (Span × Substitution) → List (Span × Substitution) → List Substitution
  | none, [] => []
  | some l, [] => [l.2]
  | none, x :: xs => disjointLoop (some x) xs
  | some l, x :: xs =>
    if x.1.1 ≥ l.1.2 then l.2 :: disjointLoop (some x) xs
    else if ((x.1.2 : Int) - x.1.1 > (l.1.2 : Int) - l.1.1) then disjointLoop (some l) xs
    else disjointLoop (some x) xs

/-- refex/substitution.py:353-387, `disjoint_substitutions`. -/
def disjointSubstitutions (subs : List Substitution) : List Substitution :=
  disjointLoop none (stableSort (fun a b => spanLe a.1 b.1) (subs.map fun s => (s.primarySpan, s)))

end Refex
