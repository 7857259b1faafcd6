import Verif.Spec.Modes
/- C112: a pattern that is its own template. -/
namespace Refex
set_option autoImplicit false

/-- What stands for the metavariables in this instance: a different metavariable each time, and expressions with a place in the file. -/
structure SimpleHit (py : Python) (c : Ctx) (hit : PatternHit) : Prop where
  once : (hit.occ.map Prod.fst).Nodup
  expressions : ∀ e ∈ hit.occ, py.isExpr e.2 = true ∧ ∃ sp, createMatch c e.2 = .lexical e.2 sp

/-- The text `r`, perhaps without its parentheses, is Python, and, read as an expression (statement, module), the tree `v`. -/
def KeptAs (py : Python) (kind : PatternKind) (r : Str) (v : Val) : Prop :=
  ∃ new c w, (r = new ∨ r = str "(" ++ new ++ str ")") ∧ py.file new = some c ∧ kind.whole.Part c.tree w ∧ SameTree v w

end Refex
