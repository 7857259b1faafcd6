import Verif.Spec.AstEq
import Verif.Spec.MatcherSem
/- The left-to-right walk through the fields of two trees. -/
namespace Refex
set_option autoImplicit false

/-- The walk through the fields of two trees finds no difference: nodes have the same type, and whatever is not a node
on one of the sides (leaves and lists) is equal in the sense of Python's `==`. -/
inductive SameWalk : Val → Val → Prop
  | value {a b} : (a.isNode = false ∨ b.isNode = false) → PyEqual a b → SameWalk a b
  | node {i j t ns ns' vs ws} : vs.length = ws.length →
      (∀ (k : Nat) v w, vs[k]? = some v → ws[k]? = some w → SameWalk v w) → SameWalk (.node i t ns vs) (.node j t ns' ws)

/-- `FirstDiff x y a b`: `x` and `y` are the first things that differ in the left-to-right walk through `a` and `b`. -/
inductive FirstDiff (x y : Val) : Val → Val → Prop
  | types : x.isNode = true → y.isNode = true → x.ty ≠ y.ty → FirstDiff x y x y
  | value : (x.isNode = false ∨ y.isNode = false) → ¬ PyEqual x y → FirstDiff x y x y
  | field {i j t ns ns' vs ws} (k : Nat) {v w} : vs[k]? = some v → ws[k]? = some w →
      (∀ (m : Nat) v w, m < k → vs[m]? = some v → ws[m]? = some w → SameWalk v w) → FirstDiff x y v w →
      FirstDiff x y (.node i t ns vs) (.node j t ns' ws)

/-- An expression context: a node of one of these classes, the subclasses of `ast.expr_context`. -/
def IsContext (v : Val) : Prop :=
  v.isNode = true ∧ v.ty ∈ [str "Load", str "Store", str "Del", str "AugLoad", str "AugStore", str "Param"]

end Refex
