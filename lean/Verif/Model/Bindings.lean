import Verif.Model.Ast
/- Bound values and the merging of binding dictionaries (refex/python/matcher.py:513-754). -/
namespace Refex
set_option autoImplicit false

/-- A `match.Match` as it occurs in bindings and match results.
`lexical`: `LexicalASTMatch` with the matched node and its token span (refex/python/matcher.py:337-395);
`string`: `StringMatch`; `object`: `ObjectMatch`; `span`: `SpanMatch`, `none` for the span `(-1, -1)` of a
group that did not take part; `bare`: `Match()`. refex/match.py:29-109. -/
inductive MObj
  | lexical (v : Val) (sp : Span)
  | string (s : Str)
  | object (v : Val)
  | span (s : Str) (sp : Option Span)
  | bare

/-- attrs `==` on matches: same class and equal fields (AST nodes by identity). refex/python/matcher.py:586-595. -/
def MObj.pyEq : MObj → MObj → Bool
  | .lexical v s, .lexical w t => v.pyEq w && decide (s = t)
  | .string s, .string t => decide (s = t)
  | .object v, .object w => v.pyEq w
  | .span s a, .span t b => decide (s = t) && decide (a = b)
  | .bare, .bare => true
  | _, _ => false

/-- `.matched` of an `ObjectMatch` (`LexicalASTMatch` is one); `none` for other matches. refex/python/matcher.py:403-424. -/
def MObj.matched? : MObj → Option Val
  | .lexical v _ => some v
  | .object v => some v
  | _ => none

/-- `.span` of a match. refex/match.py:29-109, refex/python/matcher.py:379-390. -/
def MObj.span? : MObj → Option Span
  | .lexical _ sp => some sp
  | .span _ sp => sp
  | _ => none

/-- `BindConflict`. refex/python/matcher.py:513-605. -/
inductive BindConflict
  | merge | skip | error | mergeIdentical | mergeIdenticalOrError
  | mergeEquivalentAst | mergeEquivalentAstOrError
  deriving DecidableEq, Repr

/-- `BindMerge`. refex/python/matcher.py:608-635. -/
inductive BindMerge
  | keepFirst | keepLast
  deriving DecidableEq, Repr

/-- `BoundValue` with its defaults `MERGE` and `KEEP_LAST`. refex/python/matcher.py:638-662. -/
structure BoundValue where
  value : MObj
  onConflict : BindConflict := .merge
  onMerge : BindMerge := .keepLast

/-- `BoundValue.rebind`. refex/python/matcher.py:664-679. -/
def BoundValue.rebind (b : BoundValue) (oc : Option BindConflict) (om : Option BindMerge) : BoundValue :=
  { b with onConflict := oc.getD b.onConflict, onMerge := om.getD b.onMerge }

/-- attrs `==` on bound values. refex/python/matcher.py:513-605. -/
def BoundValue.pyEq (a b : BoundValue) : Bool :=
  a.value.pyEq b.value && decide (a.onConflict = b.onConflict) && decide (a.onMerge = b.onMerge)

/-- `MERGE_EQUIVALENT_AST`: false (`None`) unless both are object matches.
refex/python/matcher.py:586-595. -/
def equivalentAst (a b : BoundValue) : Bool :=
  match a.value.matched?, b.value.matched? with
  | some v, some w => astEquivalent v w
  | _, _ => false

/-- What a conflict policy says about two values: merge, skip, or raise `MatchError`. refex/python/matcher.py:556-605. -/
inductive Verdict
  | merge | skip | error
  deriving DecidableEq, Repr

/-- Calling the policy. refex/python/matcher.py:556-605. -/
def BindConflict.verdict (p : BindConflict) (a b : BoundValue) : Verdict :=
  match p with
  | .merge => .merge
  | .skip => .skip
  | .error => .error
  | .mergeIdentical => if a.pyEq b then .merge else .skip
  | .mergeIdenticalOrError => if a.pyEq b then .merge else .error
  | .mergeEquivalentAst => if equivalentAst a b then .merge else .skip
  | .mergeEquivalentAstOrError => if equivalentAst a b then .merge else .error

/-- Calling the merge strategy. refex/python/matcher.py:625-635. -/
def BindMerge.pick (p : BindMerge) (a b : BoundValue) : BoundValue :=
  match p with
  | .keepFirst => a
  | .keepLast => b

/-- Bindings of a match. refex/python/matcher.py:757-771. -/
abbrev Bindings := Dict Label BoundValue

/-- Exceptions of the matching code: `MatchError`, and everything else (which `find_iter` lets through). refex/python/matcher.py:103-110. -/
inductive MExc
  | matchError | recursionError | typeError | attributeError | testError
  deriving DecidableEq, Repr

/-- The body of the loop over the shared keys. State: the merged dictionary and `skip_result`.
refex/python/matcher.py:711-737. -/
def mergeStep (lhs rhs : Bindings) (st : Bindings × Bool) (key : Label) : Except MExc (Bindings × Bool) :=
  match lhs.get? key, rhs.get? key with
  | some l, some r =>
    if l.onConflict ≠ r.onConflict then .error .matchError
    else if l.onMerge ≠ r.onMerge then .error .matchError
    else match l.onConflict.verdict l r with
      | .error => .error .matchError
      | .merge => .ok (st.1.set key (l.onMerge.pick l r), st.2)
      | .skip => .ok (st.1, true)
  | _, _ => .ok st

/-- `dict.update` of the entries with the listed keys. refex/python/matcher.py:711-737. -/
def updateFrom (d : Bindings) (src : Bindings) (keys : List Label) : Bindings :=
  keys.foldl (fun d k => match src.get? k with
    | some v => d.set k v
    | none => d) d

/-- `merge_bindings(lhs, rhs)`, given the orders in which Python happens to iterate over the sets
`lhs.keys() & rhs.keys()`, `lhs.keys() - rhs.keys()` and `rhs.keys() - lhs.keys()`.
refex/python/matcher.py:682-744. -/
def mergeBindingsIn (shared lonly ronly : List Label) (lhs rhs : Bindings) : Except MExc (Option Bindings) :=
  match shared.foldlM (mergeStep lhs rhs) ([], false) with
  | .error e => .error e
  | .ok (_, true) => .ok none
  | .ok (d, false) => .ok (some (updateFrom (updateFrom d lhs lonly) rhs ronly))

/-- `merge_bindings` with the sets iterated in the order of the dictionaries. refex/python/matcher.py:682-744. -/
def mergeBindings (lhs rhs : Bindings) : Except MExc (Option Bindings) :=
  mergeBindingsIn (lhs.keys.filter (fun k => rhs.has k)) (lhs.keys.filter (fun k => !rhs.has k))
    (rhs.keys.filter (fun k => !lhs.has k)) lhs rhs

/-- Replacement templates, opaque here. refex/python/matcher.py:770. -/
abbrev Replacements := Dict Label Str

/-- `merge_replacements`. refex/python/matcher.py:747-754. -/
def mergeReplacements (lhs rhs : Replacements) : Except MExc Replacements :=
  if lhs.keys.any (fun k => rhs.has k) then .error .matchError
  else .ok (rhs.foldl (fun d e => d.set e.1 e.2) lhs)

end Refex
