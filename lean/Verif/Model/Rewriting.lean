import Verif.Model.Templates
/-
Model of refex/search.py: BaseRewritingSearcher and RegexSearcher.
-/
namespace Refex
set_option autoImplicit false

/-- The `Substitution` built by refex/search.py:647-659, with labels that may be integers. -/
structure Found where
  matchedSpans : Dict MatchKey Span
  replacements : Dict MatchKey Str
  primaryLabel : MatchKey
  message : Option Str := none
  url : Option Str := none
  category : Option Str := none
  significant : Bool := true
  keySpan : Option Span := none
  deriving DecidableEq, Repr

/-- refex/search.py:561. -/
def rootLabel : MatchKey := .name (str "__root")
/-- refex/search.py:564. -/
def messageLabel : MatchKey := .name (str "__message")
/-- refex/search.py:567. -/
def urlLabel : MatchKey := .name (str "__url")
/-- refex/search.py:570. -/
def categoryLabel : MatchKey := .name (str "__category")
/-- refex/search.py:578. -/
def significantLabel : MatchKey := .name (str "__significant")

/-- refex/substitution.py:110-149, `_validate`, for these labels. -/
def Found.validate (f : Found) : Except Exc Found :=
  if f.category.any (fun c => !categoryOk c) then .error .valueError
  else if !f.matchedSpans.has f.primaryLabel then .error .valueError
  else if f.replacements.keys.all (fun k => f.matchedSpans.has k) then .ok f
  else .error .valueError

/-- refex/search.py:647-659: the construction of the Substitution from a match dict and its rewritten templates. The `pop`s
run before the constructor, on the dict that is passed as `replacements`. -/
def buildFound (ms : Dict MatchKey MatchV) (repl : Dict MatchKey Str) (keySpan : Option Span) : Except Exc Found :=
  Found.validate
    { matchedSpans := ms.filterMap fun e => e.2.span.map fun s => (e.1, s)
      replacements := (((repl.erase messageLabel).erase urlLabel).erase categoryLabel).erase significantLabel
      primaryLabel := rootLabel
      message := repl.get? messageLabel
      url := repl.get? urlLabel
      category := repl.get? categoryLabel
      significant := !((repl.get? significantLabel).getD []).isEmpty
      keySpan := keySpan }

/-- refex/search.py:635-659, `BaseRewritingSearcher.find_iter_parsed` over the yielded pairs. A RewriteError from the
templates skips the match (lines 642-645); anything else propagates. -/
def findIterParsed (keySpan : Dict MatchKey MatchV → Option Span) :
    List (Dict MatchKey MatchV × Dict MatchKey Template) → Except Exc (List Found)
  | [] => .ok []
  | (ms, ts) :: rest =>
    match rewriteTemplates ms ts with
    | .error .rewriteError => findIterParsed keySpan rest
    | .error e => .error e
    | .ok repl =>
      match buildFound ms repl (keySpan ms) with
      | .error e => .error e
      | .ok f => (findIterParsed keySpan rest).map (f :: ·)

/-! ### RegexSearcher -/

/-- A compiled regex, as far as refex looks at it: the number of groups and `groupindex`. refex/search.py:673-705. -/
structure Compiled where
  groups : Nat
  groupindex : Dict Str Nat
  deriving Repr

/-- refex/search.py:673-685, the constructor check: every label and variable is a group number, a group name or
`__root`. -/
def regexSearcherOk (c : Compiled) (ts : Dict MatchKey Template) : Bool :=
  (templateVariables ts).all fun k =>
    match k with
    | .num n => decide (n ≤ c.groups)
    | .name s => c.groupindex.has s || s = str "__root"

/-- refex/match.py:92-99, `SpanMatch.from_text`, for a group of an `re` match: `text[-1:-1]` is '' for the span (-1, -1). -/
def groupMatch (text : Str) (span : Option Span) : MatchV :=
  match span with
  | none => { string := some [], span := none }
  | some (a, b) => { string := some (slice text a b), span := some (a, b) }

/-- refex/search.py:697-698: entries 0 (as `__root`), 1, 2, ... -/
def numberedGroups (text : Str) : Nat → List (Option Span) → Dict MatchKey MatchV
  | _, [] => []
  | i, r :: rs => ((if i = 0 then rootLabel else .num i), groupMatch text r) :: numberedGroups text (i + 1) rs

/-- refex/search.py:701-702: named groups, `matches[named_group] = matches[i]`. -/
def addNamed : Dict Str Nat → Dict MatchKey MatchV → Except Exc (Dict MatchKey MatchV)
  | [], acc => .ok acc
  | (name, i) :: rest, acc =>
    match acc.get? (.num i) with
    | none => .error .keyError
    | some v => addNamed rest (acc.set (.name name) v)

/-- refex/search.py:692-703, the dict for one match with groups `regs` (`m.regs`). -/
def regexMatchDict (c : Compiled) (text : Str) (regs : List (Option Span)) : Except Exc (Dict MatchKey MatchV) :=
  addNamed c.groupindex (numberedGroups text 0 regs)

end Refex
