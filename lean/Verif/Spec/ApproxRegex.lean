import Verif.Model.Regex
import Verif.Spec.Common
/- C28: what `approximate_regex` promises. -/
namespace Refex
set_option autoImplicit false

/-- A searcher keeps the promise of `approximate_regex` (refex/search.py:334-349) with answer `r`: every file in which it
finds something is matched by the regex, if there is one. -/
def Approximates (find : ParsedFile → Except Exc (List Substitution)) (r : Option Re) : Prop :=
  ∀ re, r = some re → ∀ p subs, find p = .ok subs → subs ≠ [] → re.search p.text

/-- A regex without back-references by number (references by name are allowed). -/
def Re.NoNumberRef : Re → Prop
  | .seq a b | .alt a b => a.NoNumberRef ∧ b.NoNumberRef
  | .rep _ _ _ a | .grp _ a | .look _ a | .behind _ _ a => a.NoNumberRef
  | .backref _ => False
  | _ => True

/-- The groups of a regex, in the order of their opening parentheses: the names, or `none` for groups without one. -/
def Re.opens : Re → List (Option Str)
  | .seq a b | .alt a b => a.opens ++ b.opens
  | .rep _ _ _ a | .look _ a | .behind _ _ a => a.opens
  | .grp x a => x :: a.opens
  | _ => []

/-- Regexes with back-references by number come before all others that have groups. -/
def BackrefsFirst (rs : List (Option Re)) : Prop :=
  ∀ pre r post, rs = pre ++ some r :: post → r.NoNumberRef ∨ ∀ q, some q ∈ pre → q.opens = []

/-- The names of the groups of a regex. -/
def Re.groupNames : Re → List Str
  | .seq a b | .alt a b => a.groupNames ++ b.groupNames
  | .rep _ _ _ a | .look _ a | .behind _ _ a | .grp none a => a.groupNames
  | .grp (some x) a => x :: a.groupNames
  | _ => []

/-- No two of the regexes have groups of the same name. -/
def NamesApart (rs : List (Option Re)) : Prop :=
  rs.Pairwise fun a b => ∀ p q, a = some p → b = some q → ∀ x ∈ p.groupNames, x ∉ q.groupNames

/-- The regex has neither `^` nor `$`. -/
def Re.NoLineAnchors : Re → Prop
  | .seq a b | .alt a b => a.NoLineAnchors ∧ b.NoLineAnchors
  | .rep _ _ _ a | .grp _ a | .look _ a | .behind _ _ a => a.NoLineAnchors
  | .bol | .eol => False
  | _ => True

end Refex
