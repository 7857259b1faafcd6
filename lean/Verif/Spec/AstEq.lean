import Verif.Model.Ast
import Verif.Spec.Find
/- Structural equality of syntax trees, up to expression contexts. -/
namespace Refex
set_option autoImplicit false

/-- A tree of the grammar `fields`: every node has the fields of its type, expression contexts have none. -/
inductive Conforms (fields : Str → List Str) : Val → Prop
  | const {i c} : Conforms fields (.const i c)
  | list {i vs} : (∀ v ∈ vs, Conforms fields v) → Conforms fields (.list i vs)
  | node {i t ns vs} : ns = fields t → ns.Nodup → vs.length = ns.length → (isExprContext (.node i t ns vs) = true → ns = []) →
      (∀ v ∈ vs, Conforms fields v) → Conforms fields (.node i t ns vs)

/-- Equal up to expression contexts (and object identity), leaves compared by `leaf`. -/
inductive AstEqBy (leaf : Const → Const → Prop) : Val → Val → Prop
  | ctx {a b} : isExprContext a = true → isExprContext b = true → AstEqBy leaf a b
  | const {i j c d} : leaf c d → AstEqBy leaf (.const i c) (.const j d)
  | list {i j vs ws} : vs.length = ws.length →
      (∀ (k : Nat) v w, vs[k]? = some v → ws[k]? = some w → AstEqBy leaf v w) → AstEqBy leaf (.list i vs) (.list j ws)
  | node {i j t ns vs ws} : vs.length = ws.length →
      (∀ (k : Nat) v w, vs[k]? = some v → ws[k]? = some w → AstEqBy leaf v w) → AstEqBy leaf (.node i t ns vs) (.node j t ns ws)

/-- Structural equality up to expression contexts. -/
abbrev AstEq := AstEqBy (· = ·)

/-- No list in the tree has nodes (or lists) among its items. -/
inductive NodeFreeLists : Val → Prop
  | const {i c} : NodeFreeLists (.const i c)
  | list {i vs} : (∀ v ∈ vs, ∃ j c, v = .const j c) → NodeFreeLists (.list i vs)
  | node {i t ns vs} : (∀ v ∈ vs, NodeFreeLists v) → NodeFreeLists (.node i t ns vs)

/-- At the same position, the two trees have different expression contexts. -/
def ContextsDiffer (a b : Val) : Prop :=
  ∃ p x y, a.at? p = some x ∧ b.at? p = some y ∧ isExprContext x = true ∧ isExprContext y = true ∧ x.ty ≠ y.ty

end Refex
