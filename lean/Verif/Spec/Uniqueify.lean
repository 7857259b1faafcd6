import Verif.Model.Uniqueify
import Verif.Spec.Nav
/- Specification for making a tree free of shared nodes. -/
namespace Refex
set_option autoImplicit false

mutual
/-- The tree is what the store holds, each object under its identity. -/
def Val.Reads (st : Nat → Obj) : Val → Prop
  | .const i c => st i = .const c
  | .list i vs => st i = .list (vs.map Val.ident) ∧ Val.ReadsAll st vs
  | .node i t ns vs => st i = .node t ns (vs.map Val.ident) ∧ Val.ReadsAll st vs
/-- All are. -/
def Val.ReadsAll (st : Nat → Obj) : List Val → Prop
  | [] => True
  | v :: vs => v.Reads st ∧ Val.ReadsAll st vs
end

mutual
/-- The tree without identities (all 0). -/
def Val.forget : Val → Val
  | .const _ c => .const 0 c
  | .list _ vs => .list 0 (Val.forgetAll vs)
  | .node _ t ns vs => .node 0 t ns (Val.forgetAll vs)
/-- All of them. -/
def Val.forgetAll : List Val → List Val
  | [] => []
  | v :: vs => v.forget :: Val.forgetAll vs
end

mutual
/-- The identities of all objects of a tree, one for each place. -/
def Val.ids : Val → List Nat
  | .const i _ => [i]
  | .list i vs => i :: Val.idsAll vs
  | .node i _ _ vs => i :: Val.idsAll vs
/-- Of several trees. -/
def Val.idsAll : List Val → List Nat
  | [] => []
  | v :: vs => v.ids ++ Val.idsAll vs
end

/-- The object is a leaf. -/
def Val.isConst : Val → Bool
  | .const _ _ => true
  | _ => false

mutual
/-- The identities of the lists, and of the nodes that have a node or list as a field. (The others are nodes such as `Load()` and
`Add()`, which CPython's parser shares.) -/
def Val.compound : Val → List Nat
  | .const _ _ => []
  | .list i vs => i :: Val.compoundAll vs
  | .node i _ _ vs => (if vs.all Val.isConst then [] else [i]) ++ Val.compoundAll vs
/-- Of several trees. -/
def Val.compoundAll : List Val → List Nat
  | [] => []
  | v :: vs => v.compound ++ Val.compoundAll vs
end

mutual
/-- Items of lists are not lists. -/
def Val.flat : Val → Bool
  | .const _ _ => true
  | .list _ vs => vs.all (fun v => !v.isList) && Val.flatAll vs
  | .node _ _ _ vs => Val.flatAll vs
/-- All are flat. -/
def Val.flatAll : List Val → Bool
  | [] => true
  | v :: vs => v.flat && Val.flatAll vs
end

mutual
/-- Nodes have a value for each field. -/
def Val.wellShaped : Val → Bool
  | .const _ _ => true
  | .list _ vs => Val.wellShapedAll vs
  | .node _ _ ns vs => decide (ns.length = vs.length) && Val.wellShapedAll vs
/-- All are well shaped. -/
def Val.wellShapedAll : List Val → Bool
  | [] => true
  | v :: vs => v.wellShaped && Val.wellShapedAll vs
end

end Refex
