import Verif.Spec.SpecialFixers
/- What "directly inside of a function" means, for C91. -/
namespace Refex
set_option autoImplicit false

/-- A `def` or `async def` statement (a `lambda` is none). -/
def IsFunction (v : Val) : Prop := v.ty = str "FunctionDef" ∨ v.ty = str "AsyncFunctionDef"

/-- `f` is the innermost function definition around position `p` (what is at `p` itself does not count). -/
structure DirectlyIn (tree : Val) (p : Path) (f : Val) : Prop where
  inside : ∃ q, q <+: p ∧ q ≠ p ∧ tree.at? q = some f ∧ IsFunction f ∧
    ∀ q' u, q' <+: p → q' ≠ p → q.length < q'.length → tree.at? q' = some u → ¬ IsFunction u

end Refex
