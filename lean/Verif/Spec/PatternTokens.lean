import Verif.Model.PatternTokens
import Verif.Spec.Find
/- Specification of metavariable markers and of their renaming. -/
namespace Refex
set_option autoImplicit false

/-- Reading a token stream: `$` right before an identifier marks it as a metavariable (and the marker goes, the
identifier taking its column), everything else is kept. -/
inductive Marked : List PTok → List (PTok × Bool) → Prop
  | nil : Marked [] []
  | plain {t ts out} : t.string ≠ str "$" → Marked ts out → Marked (t :: ts) ((t, false) :: out)
  | metavar {d t ts out} : d.string = str "$" → isVariable t.string = true → t.start.2 = d.start.2 + 1 → Marked ts out →
      Marked (d :: t :: ts) (({ t with start := (t.start.1, d.start.2) }, true) :: out)

/-- The `i`-th token has this string. -/
def StringAt (ts : List PTok) (i : Nat) (s : Str) : Prop := ∃ t, ts[i]? = some t ∧ t.string = s

/-- The token is printed by `untokenize` (and not dropped or turned into white space). -/
def PTok.printed (t : PTok) : Bool := decide (t.kind ≠ .indent ∧ t.kind ≠ .dedent ∧ t.kind ≠ .endmarker)

/-- The two streams differ at most in the strings of printed tokens. -/
def SameLayout (ts us : List PTok) : Prop :=
  ts.length = us.length ∧ ∀ (i : Nat) t u, ts[i]? = some t → us[i]? = some u →
    t.kind = u.kind ∧ t.start = u.start ∧ t.stop = u.stop ∧ (t.kind = .indent → t.string = u.string)

/-- Somewhere in the tree is a variable reference (a `Name` node) with this identifier. -/
def NameIn (tree : Val) (s : Str) : Prop := ∃ p v, tree.at? p = some v ∧ v.ty = str "Name" ∧ strField v (str "id") = some s

/-- What is true of every Python syntax tree: lists hold no lists, and no variable reference has another one inside. -/
structure Syntactic (tree : Val) : Prop where
  flat : ∀ p i vs, tree.at? p = some (.list i vs) → ∀ w ∈ vs, w.isList = false
  names : ∀ p v, tree.at? p = some v → v.isNode = true → v.ty = str "Name" → ∀ i q w, v.at? (i :: q) = some w → w.ty ≠ str "Name"

/-- Somewhere in the tree this string is stored as something other than the identifier of a variable reference
(the name of an attribute, keyword, function, ...). -/
def StoredElsewhere (tree : Val) (s : Str) : Prop :=
  ∃ (p : Path) (k i : Nat) (u : Val), tree.at? p = some u ∧ u.ty ≠ str "Name" ∧ u.children[k]? = some (.const i (.str s))

end Refex
