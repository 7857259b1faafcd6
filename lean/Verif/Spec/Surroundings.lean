import Verif.Model.PyTemplate
import Verif.Spec.Nav
import Verif.Spec.MatcherSem
/- Where a replacement made by a Python template has to fit. -/
namespace Refex
set_option autoImplicit false

/-- The object is an expression or a statement whose place in the text is known, so that the text there can be parsed on its own. -/
def OnItsOwn (env : PyEnv) (c : Ctx) (v : Val) (sp : Span) : Prop :=
  (env.isExpr v = true ∨ env.isStmt v = true) ∧ ∃ o, Located c v o ∧ PlacedAt o sp

/-- A statement that has a body (`if`, `class`, ...). -/
def CompoundStmt (env : PyEnv) (v : Val) : Prop :=
  env.isStmt v = true ∧ ∃ i t ns vs, v = .node i t ns vs ∧ str "body" ∈ ns

/-- Of the objects around the one at path `p`, those strictly inside the one at depth `k` cannot be parsed on their own
and are not statements with a body. -/
def NothingBetween (env : PyEnv) (c : Ctx) (p : Path) (k : Nat) : Prop :=
  ∀ j, k < j → j < p.length → ∀ v, c.tree.at? (p.take j) = some v → (∀ sp, ¬ OnItsOwn env c v sp) ∧ ¬ CompoundStmt env v

/-- The nearest object around that can be parsed on its own, if no statement with a body comes first (or is it). -/
def FitsInto (env : PyEnv) (c : Ctx) (p : Path) (parent : Val) (sp : Span) : Prop :=
  ∃ k, k < p.length ∧ c.tree.at? (p.take k) = some parent ∧ OnItsOwn env c parent sp ∧ ¬ CompoundStmt env parent ∧ NothingBetween env c p k

/-- A statement with a body comes before any other object around that can be parsed on its own. -/
def OnlyCompoundAround (env : PyEnv) (c : Ctx) (p : Path) : Prop :=
  ∃ k v, k < p.length ∧ c.tree.at? (p.take k) = some v ∧ CompoundStmt env v ∧ NothingBetween env c p k

/-- Directly in an expression statement. -/
def WholeStatement (c : Ctx) (p : Path) : Prop := ∃ v, p ≠ [] ∧ c.tree.at? p.dropLast = some v ∧ v.ty = str "Expr"

end Refex
