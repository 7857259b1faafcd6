import Verif.Spec.Code
import Verif.Spec.Templates
import Verif.Spec.Assertions
import Verif.Model.Examples
/- What the examples of fixers should be. -/
namespace Refex
set_option autoImplicit false

mutual
/-- The code with something in the place of each metavariable. -/
def Code.fill (f : Label → Code) : Code → Code
  | .var x => f x
  | .name s => .name s
  | .int i => .int i
  | .attr e a => .attr (e.fill f) a
  | .call g as ks => .call (g.fill f) (Code.fills f as) (Code.fills f ks)
  | .keyword a v => .keyword a (v.fill f)
  | .compare l op r => .compare (l.fill f) op (r.fill f)
  | .not e => .not (e.fill f)
  | .mod l r => .mod (l.fill f) (r.fill f)
  | .tuple1 e => .tuple1 (e.fill f)
  | .emptyList => .emptyList
  | .emptyDict => .emptyDict
  | .comp set e t i => .comp set (e.fill f) (t.fill f) (i.fill f)
  | .assign t v => .assign (t.fill f) (v.fill f)
  | .expr e => .expr (e.fill f)
/-- Several. -/
def Code.fills (f : Label → Code) : List Code → List Code
  | [] => []
  | e :: es => e.fill f :: Code.fills f es
end

/-- The code with `x` written for each metavariable `$x`. -/
def Code.sample (p : Code) : Code := p.fill .name

mutual
/-- The names, attributes and keywords in the code. -/
def Code.words : Code → List Str
  | .var _ => []
  | .name s => [s]
  | .int _ => []
  | .attr e a => a :: e.words
  | .call g as ks => g.words ++ (Code.wordss as ++ Code.wordss ks)
  | .keyword a v => a :: v.words
  | .compare l _ r => l.words ++ r.words
  | .not e => e.words
  | .mod l r => l.words ++ r.words
  | .tuple1 e => e.words
  | .emptyList => []
  | .emptyDict => []
  | .comp _ e t i => e.words ++ (t.words ++ i.words)
  | .assign t v => t.words ++ v.words
  | .expr e => e.words
/-- Those of several. -/
def Code.wordss : List Code → List Str
  | [] => []
  | e :: es => e.words ++ Code.wordss es
end

/-- Metavariables are called by identifiers, and names contain no dollars. -/
structure Writable (p : Code) : Prop where
  vars : ∀ x ∈ p.vars, IsName x
  words : ∀ s ∈ p.words, '$' ∉ s

/-- The context of each name is `Load`, `Store` or `Del`. -/
def NameContexts (v : Val) : Prop :=
  ∀ p w, v.at? p = some w → w.ty = str "Name" → ∃ i x k ctx, w = .node i (str "Name") [str "id", str "ctx"] [x, .node k ctx [] []] ∧ ctx ∈ [str "Load", str "Store", str "Del"]

end Refex
