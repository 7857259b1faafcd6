import Verif.Model.Search
/-
A model of Python regular expressions, enough for the way refex combines regexes and for the flag it compiles them with:
refex/search.py:136-141, 473-477, 704-705. The semantics is that of CPython's backtracking matcher (the list of all ways to match, the
preferred ones first).
-/
namespace Refex
set_option autoImplicit false

/-- Regex syntax. Groups are numbered by the order of their opening parentheses, as in Python; `(?:...)` is the tree
structure itself. `rep lo hi greedy a` is `a{lo,hi}` (`a*`, `a+`, `a?` and the lazy forms), `named x` is `(?P=x)`, `look` and `behind` are the assertions `(?=a)`, `(?<=a)`
(`neg`: `(?!a)`, `(?<!a)`; Python wants a fixed width for what stands behind), `bol` is `^`, `eol` is `$` and `test` any other condition on the place in the text (`\b`, `\B`,
`\A`, `\Z`). Not modelled: flags inside the regex, conditional, atomic and possessive forms. refex/search.py:473-477. -/
inductive Re
  | eps
  | cls (p : Char → Bool)
  | seq (a b : Re)
  | alt (a b : Re)
  | rep (lo : Nat) (hi : Option Nat) (greedy : Bool) (a : Re)
  | grp (name : Option Str) (a : Re)
  | backref (n : Nat)
  | named (x : Str)
  | look (neg : Bool) (a : Re)
  | behind (neg : Bool) (width : Nat) (a : Re)
  | bol
  | eol
  | test (p : Str → Nat → Bool)

/-- The number of groups in a regex. refex/search.py:673-685. -/
def Re.groups : Re → Nat
  | .seq a b | .alt a b => a.groups + b.groups
  | .rep _ _ _ a | .look _ a | .behind _ _ a => a.groups
  | .grp _ a => a.groups + 1
  | _ => 0

/-- `re.compile`: what is defined so far are the groups with numbers below `k`, of which `opened` are not yet closed, and `names`. The result is the names
(`groupindex`) after this part of the regex, or `none` for `re.error`: a name that is defined twice, or a reference to a group that is not
defined or not closed. refex/search.py:136-141. -/
def Re.check : Re → Nat → List Nat → Dict Str Nat → Option (Dict Str Nat)
  | .seq a b, k, opened, ns | .alt a b, k, opened, ns =>
    match a.check k opened ns with
    | none => none
    | some ns => b.check (k + a.groups) opened ns
  | .rep _ _ _ a, k, opened, ns | .look _ a, k, opened, ns | .behind _ _ a, k, opened, ns => a.check k opened ns
  | .grp none a, k, opened, ns => a.check (k + 1) (k :: opened) ns
  | .grp (some x) a, k, opened, ns => if ns.has x then none else a.check (k + 1) (k :: opened) (ns ++ [(x, k)])
  | .backref n, k, opened, ns => if 0 < n ∧ n < k ∧ n ∉ opened then some ns else none
  | .named x, _, opened, ns =>
    match ns.get? x with
    | none => none
    | some n => if n ∈ opened then none else some ns
  | _, _, _, ns => some ns

/-- `re.compile(r)` gives a compiled regex with this `groupindex`. refex/search.py:136-141. -/
def Re.compiled (r : Re) : Option (Dict Str Nat) := r.check 1 [] []

/-- What the groups have captured so far. refex/search.py:448-477. -/
abbrev Caps := Nat → Option Str

/-- A place in the text, and what the groups have captured. refex/search.py:448-477. -/
abbrev ReState := Nat × Caps

/-- Repetition: `count` is the number of times so far, and `last` the place of the last time that was not required; what matched nothing is not
repeated. refex/search.py:448-477. -/
def repLoop (body : ReState → List ReState) (lo : Nat) (hi : Option Nat) (greedy : Bool) : Nat → Nat → Option Nat → ReState → List ReState
  | 0, _, _, st => [st]
  | n + 1, count, last, st =>
    if count < lo then (body st).flatMap (repLoop body lo hi greedy n (count + 1) last)
    else
      let more := if hi.all (count < ·) ∧ last ≠ some st.1 then (body st).flatMap (repLoop body lo hi greedy n (count + 1) (some st.1)) else []
      if greedy then more ++ [st] else st :: more

/-- A back-reference to what a group has captured; to one that has not matched it fails. refex/search.py:448-477. -/
def reRefer (text : Str) (cap : Option Str) (st : ReState) : List ReState :=
  match cap with
  | none => []
  | some w => if w.isPrefixOf (text.drop st.1) then [(st.1 + w.length, st.2)] else []

/-- An assertion, given the ways in which what is asserted matches. refex/search.py:448-477. -/
def reAssert (neg : Bool) (st : ReState) : List ReState → List ReState
  | [] => if neg then [st] else []
  | r :: _ => if neg then [] else [(st.1, r.2)]

/-- All ways in which the regex `r`, whose first group has number `k`, matches `text` from a place on, in the order in which they are tried. `multi` is `re.M`,
`names` the `groupindex` of the whole regex. refex/search.py:136-141, 448-477. -/
def Re.run (multi : Bool) (names : Dict Str Nat) (text : Str) : Re → Nat → ReState → List ReState
  | .eps, _, st => [st]
  | .cls p, _, st => match text[st.1]? with
    | none => []
    | some ch => if p ch then [(st.1 + 1, st.2)] else []
  | .seq a b, k, st => (a.run multi names text k st).flatMap (b.run multi names text (k + a.groups))
  | .alt a b, k, st => a.run multi names text k st ++ b.run multi names text (k + a.groups) st
  | .rep lo hi greedy a, k, st => repLoop (a.run multi names text k) lo hi greedy (lo + text.length + 2) 0 none st
  | .grp _ a, k, st => (a.run multi names text (k + 1) st).map fun r =>
      (r.1, fun n => if n = k then some ((text.take r.1).drop st.1) else r.2 n)
  | .backref n, _, st => reRefer text (st.2 n) st
  | .named x, _, st => match names.get? x with
    | none => []
    | some n => reRefer text (st.2 n) st
  | .look neg a, k, st => reAssert neg st (a.run multi names text k st)
  | .behind neg width a, k, st => if st.1 < width then (if neg then [st] else []) else reAssert neg st (a.run multi names text k (st.1 - width, st.2))
  | .bol, _, st => if st.1 = 0 ∨ multi = true ∧ text[st.1 - 1]? = some '\n' then [st] else []
  | .eol, _, st => if st.1 = text.length ∨ text[st.1]? = some '\n' ∧ (multi = true ∨ st.1 + 1 = text.length) then [st] else []
  | .test p, _, st => if p text st.1 then [st] else []

/-- `re.compile(r).search(s)` (`multi`: with `re.M`) finds something: the regex compiles, and matches from some place on. refex/search.py:136-141, 448-466. -/
def Re.finds (r : Re) (multi : Bool) (s : Str) : Prop :=
  ∃ names, r.compiled = some names ∧ ∃ i, i ≤ s.length ∧ r.run multi names s 1 (i, fun _ => none) ≠ []

/-- `re.search(r, s) is not None`. refex/search.py:334-349. -/
def Re.search (r : Re) (s : Str) : Prop := r.finds false s

/-- `'|'.join('(?:%s)' % regex for regex in regexes)`; the empty join is the empty regex. refex/search.py:477. -/
def joinAlt : List Re → Re
  | [] => .eps
  | [r] => r
  | r :: rs => .alt r (joinAlt rs)

/-- refex/search.py:473-477, `CombinedSearcher.approximate_regex`, on syntax trees. -/
def combinedApprox (regexes : List (Option Re)) : Option Re :=
  if regexes.any Option.isNone then none else some (joinAlt (regexes.filterMap id))

/-- `RegexSearcher.approximate_regex`, for the searcher that `RegexSearcher.from_pattern` makes of the regex: the text of the pattern (without the flag
`re.M` it is compiled with). refex/search.py:688, 704-705. -/
def regexApprox (r : Re) : Option Re := some r

end Refex
