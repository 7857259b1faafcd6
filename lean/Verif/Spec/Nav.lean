import Verif.Spec.Find
/- Specification of navigation in trees. -/
namespace Refex
set_option autoImplicit false

/-- The tree has been made free of shared objects: a node or list stands in one place only, and its identity is no other
object's. (Strings, numbers and `None` may be shared among each other.) Nodes have a value for each field. -/
structure Unshared (tree : Val) : Prop where
  distinct : ∀ p q v w, tree.at? p = some v → tree.at? q = some w → v.ident = w.ident → (∀ i c, v ≠ .const i c) → p = q
  shaped : ∀ p i t ns vs, tree.at? p = some (.node i t ns vs) → ns.length = vs.length

/-- The object is a node or a list. -/
def Val.isInner (v : Val) : Prop := ∀ i c, v ≠ .const i c

/-- Going down the path from the position `q`: the first object on the way that is not a list. -/
def firstNonList (tree : Val) (q : Path) : Path → Option Val
  | [] => none
  | i :: s => match tree.at? (q ++ [i]) with
    | none => none
    | some x => if x.isList then firstNonList tree (q ++ [i]) s else some x

end Refex
