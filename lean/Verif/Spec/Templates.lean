import Verif.Model.Rewriting
/- Specification of the template languages. -/
namespace Refex
set_option autoImplicit false

/-- A piece of a shell-style template as one writes it. -/
inductive ShPart
  /-- an ordinary character -/
  | lit (c : Char)
  /-- `$$` -/
  | dollar
  /-- `$name` -/
  | bare (name : Str)
  /-- `${name}` -/
  | braced (name : Str)
  deriving DecidableEq, Repr

/-- How it is written. -/
def ShPart.source : ShPart → Str
  | .lit c => [c]
  | .dollar => ['$', '$']
  | .bare n => '$' :: n
  | .braced n => '$' :: '{' :: (n ++ ['}'])

/-- The text of a template. -/
def shSource (ps : List ShPart) : Str := ps.flatMap ShPart.source

/-- An ASCII identifier. -/
def IsName (n : Str) : Prop := ∃ c cs, n = c :: cs ∧ isIdStart c = true ∧ ∀ x ∈ n, isIdChar x = true

/-- Well-written pieces: ordinary characters are not `$`, names are identifiers, and what follows a `$name` does not
continue the name. -/
def ShWF : List ShPart → Prop
  | [] => True
  | .lit c :: ps => c ≠ '$' ∧ ShWF ps
  | .dollar :: ps => ShWF ps
  | .bare n :: ps => IsName n ∧ (∀ c, (shSource ps).head? = some c → isIdChar c = false) ∧ ShWF ps
  | .braced n :: ps => IsName n ∧ ShWF ps

/-- The names a template mentions. -/
def ShPart.name? : ShPart → Option Str
  | .bare n => some n
  | .braced n => some n
  | _ => none

/-- What a piece is replaced by. -/
def ShPart.value (m : Str → Str) : ShPart → Str
  | .lit c => [c]
  | .dollar => ['$']
  | .bare n => m n
  | .braced n => m n

/-- The text a match stands for as a source: the string of the match with that label. -/
def TextOf (ms : Dict MatchKey MatchV) (k : MatchKey) (s : Str) : Prop :=
  ∃ v, ms.get? k = some v ∧ v.string = some s

/-- The reference made by an item of a regex template. -/
def ReItem.ref? : ReItem → Option MatchKey
  | .lit _ => none
  | .named v => some (.name v)
  | .group n => some (.num n)

/-- What an item of a regex template is replaced by. -/
def ReItem.value (m : MatchKey → Str) : ReItem → Str
  | .lit s => s
  | .named v => m (.name v)
  | .group n => m (.num n)

/-- What CPython guarantees about a compiled regex and the groups of one of its matches: names are distinct and denote
groups 1..groups; there is one entry per group and group 0 (the whole match) always participates. -/
structure RegexMatch (c : Compiled) (regs : List (Option Span)) : Prop where
  names : c.groupindex.WF
  index : ∀ n i, c.groupindex.get? n = some i → 1 ≤ i ∧ i ≤ c.groups
  length : regs.length = c.groups + 1
  whole : ∃ s, regs[0]? = some (some s)

end Refex
