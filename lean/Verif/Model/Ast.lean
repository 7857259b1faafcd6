import Verif.Model.Basic
/- Python values as matchers see them: AST nodes, lists and constants; `ast_equivalent`; `AstNav`. -/
namespace Refex
set_option autoImplicit false

/-- Leaf values of an AST (identifiers, constants, `None`). Floats, bytes and complex numbers are
`other`, with the type name, the `repr`, and for floats and complex numbers the whole number they are equal to, if any (`1.0 == 1`, `0j == 0`). Two of
them that are no whole numbers are compared by type and `repr` (simplification: right for what literals can stand for; there is no `nan`). refex/python/matcher.py:482-499 (what is compared). -/
inductive Const
  | none
  | bool (b : Bool)
  | int (i : Int)
  | str (s : Str)
  | ellipsis
  | other (ty : Str) (repr : Str) (whole : Option Int)
  deriving DecidableEq, Repr

/-- The whole number that a leaf value is equal to. refex/python/matcher.py:484, 1009-1012. -/
def Const.whole? : Const → Option Int
  | .bool b => some (if b then 1 else 0)
  | .int i => some i
  | .other t _ n => if t = Refex.str "float" ∨ t = Refex.str "complex" then n else Option.none
  | _ => Option.none

/-- Python `==` on leaf values: `True == 1`, `False == 0` and `1.0 == 1` hold. refex/python/matcher.py:484, 1009-1012. -/
def Const.pyEq (a b : Const) : Bool :=
  match a.whole?, b.whole? with
  | some m, some n => decide (m = n)
  | _, _ => decide (a = b)

/-- A Python value reachable from an `ast.Module`: every object has an identity (`id()`).
A node carries its `_fields` (names, in order) with their values. All fields are present, as they are in
a tree made by `ast.parse`; positions are not fields. refex/python/matcher.py:1074-1094 (what is walked). -/
inductive Val
  | const (id : Nat) (c : Const)
  | list (id : Nat) (items : List Val)
  | node (id : Nat) (ty : Str) (names : List Str) (vals : List Val)

namespace Val

/-- `id(v)`. refex/python/matcher.py:1085-1094. -/
def ident : Val → Nat
  | const i _ => i
  | list i _ => i
  | node i _ _ _ => i

/-- `type(v).__name__`. refex/python/matcher.py:488. -/
def ty : Val → Str
  | const _ .none => str "NoneType"
  | const _ (.bool _) => str "bool"
  | const _ (.int _) => str "int"
  | const _ (.str _) => str "str"
  | const _ .ellipsis => str "ellipsis"
  | const _ (.other t _ _) => t
  | list _ _ => str "list"
  | node _ t _ _ => t

/-- `v is None`. refex/python/matcher.py:1083. -/
def isNone : Val → Bool
  | const _ .none => true
  | _ => false

/-- `isinstance(v, ast.AST)`. refex/python/matcher.py:483, 1079. -/
def isNode : Val → Bool
  | node .. => true
  | _ => false

/-- `isinstance(v, list)`. refex/python/matcher.py:1086-1094. -/
def isList : Val → Bool
  | list .. => true
  | _ => false

/-- The value of the first of the parallel lists named `a`. refex/python/matcher.py:1081. -/
def lookup : List Str → List Val → Str → Option Val
  | n :: ns, v :: vs, a => if n = a then some v else lookup ns vs a
  | _, _, _ => none

/-- The `None` object (one object in Python; identity 0 by convention). refex/python/matcher.py:1081. -/
def pyNone : Val := const 0 .none

/-- `getattr(v, a, None)` for a field name `a`. refex/python/matcher.py:499, 1081. -/
def getattr : Val → Str → Val
  | node _ _ ns vs, a => (lookup ns vs a).getD pyNone
  | _, _ => pyNone

/-- The children of a node or list in document order: the field values of a node
(`ast.iter_fields`, `_ast_children`), the items of a list; nothing otherwise.
refex/python/matchers/syntax_matchers.py:560-570, refex/python/matcher.py:1381-1388. -/
def children : Val → List Val
  | const _ _ => []
  | list _ vs => vs
  | node _ _ _ vs => vs

mutual
/-- The number of objects in the tree (used as a termination measure only). Not in the code; for 1074-1094 of refex/python/matcher.py. -/
def size : Val → Nat
  | const _ _ => 1
  | list _ vs => 1 + sizes vs
  | node _ _ _ vs => 1 + sizes vs
/-- Sum of the sizes. Not in the code; for 1074-1094 of refex/python/matcher.py. -/
def sizes : List Val → Nat
  | [] => 0
  | v :: vs => size v + sizes vs
end

mutual
/-- Python `a == b`: AST nodes compare by identity, lists element-wise, leaves by value. refex/python/matcher.py:484. -/
def pyEq : Val → Val → Bool
  | const _ c, const _ d => c.pyEq d
  | list _ vs, list _ ws => pyEqs vs ws
  | node i _ _ _, node j _ _ _ => decide (i = j)
  | _, _ => false
/-- Element-wise list equality. refex/python/matcher.py:484. -/
def pyEqs : List Val → List Val → Bool
  | [], [] => true
  | v :: vs, w :: ws => pyEq v w && pyEqs vs ws
  | _, _ => false
end

theorem size_pos (v : Val) : 0 < v.size := by cases v <;> simp [size] <;> omega

theorem sizes_append (vs ws : List Val) : sizes (vs ++ ws) = sizes vs + sizes ws := by
  induction vs with
  | nil => simp [sizes]
  | cons v vs ih => simp [sizes, ih]; omega

theorem size_children (v : Val) : sizes v.children < v.size := by
  cases v <;> simp [children, size, sizes]

end Val

/-- `isinstance(v, ast.expr_context)`: the concrete context classes of Python 3. refex/python/matcher.py:493-494. -/
def isExprContext : Val → Bool
  | .node _ ty _ _ => decide (ty ∈ [str "Load", str "Store", str "Del", str "AugLoad", str "AugStore", str "Param"])
  | _ => false

/-- The pairs `(getattr(lhs, a, None), getattr(rhs, a, None))` for `a` in the fields of `lhs`,
left to right. refex/python/matcher.py:496-499. -/
def fieldPairs (rhs : Val) : List Str → List Val → List (Val × Val)
  | n :: ns, v :: vs => (v, rhs.getattr n) :: fieldPairs rhs ns vs
  | _, _ => []

theorem fieldPairs_size (rhs : Val) (ns : List Str) (vs : List Val) :
    Val.sizes ((fieldPairs rhs ns vs).map Prod.fst) ≤ Val.sizes vs := by
  induction ns generalizing vs with
  | nil => simp [fieldPairs, Val.sizes]
  | cons n ns ih =>
    cases vs with
    | nil => simp [fieldPairs, Val.sizes]
    | cons v vs => simp only [fieldPairs, List.map_cons, Val.sizes]; have := ih vs; omega

/-- The loop of `ast_equivalent` over the stack of pairs (top of the stack first).
A pair in which one side is not a node is compared with `!=`; nodes of different types end the loop at
once with "both are expression contexts"; otherwise the fields are pushed, first field on top.
refex/python/matcher.py:480-501. -/
def astEqLoop (stack : List (Val × Val)) : Bool :=
  match stack with
  | [] => true
  | (a, b) :: rest =>
    match a, b with
    | .node _ t ns vs, .node j t' ns' vs' =>
      if t = t' then astEqLoop (fieldPairs (.node j t' ns' vs') ns vs ++ rest)
      else isExprContext a && isExprContext b
    | x, y => if x.pyEq y then astEqLoop rest else false
  termination_by Val.sizes (stack.map Prod.fst)
  decreasing_by
    · have h := fieldPairs_size (.node j t' ns' vs') ns vs
      simp only [List.map_append, List.map_cons, Val.sizes_append, Val.sizes, Val.size]; omega
    · have := Val.size_pos x; simp only [List.map_cons, Val.sizes]; omega

/-- `ast_equivalent(ast1, ast2)`: short-circuits on identity. refex/python/matcher.py:458-501. -/
def astEquivalent (a b : Val) : Bool :=
  if a.ident = b.ident then true else astEqLoop [(a, b)]

/-- How a child is reached from its parent. refex/python/matcher.py:1037-1040, 1064-1073. -/
inductive Crumb
  | attr (name : Str)
  | item (index : Nat)
  deriving DecidableEq, Repr

/-- `(child id, (parent, how))` for the fields of a node, `None` values skipped.
refex/python/matcher.py:1079-1087. -/
def attrCrumbs (parent : Val) : List Str → List Val → List (Val × (Val × Crumb))
  | n :: ns, v :: vs =>
    if v.isNone then attrCrumbs parent ns vs else (v, (parent, .attr n)) :: attrCrumbs parent ns vs
  | _, _ => []

/-- `(child, (parent, i))` for the items of a list. refex/python/matcher.py:1088-1091. -/
def itemCrumbs (parent : Val) : Nat → List Val → List (Val × (Val × Crumb))
  | _, [] => []
  | i, v :: vs => (v, (parent, .item i)) :: itemCrumbs parent (i + 1) vs

/-- The children recorded while visiting one object. refex/python/matcher.py:1078-1094. -/
def crumbsOf : Val → List (Val × (Val × Crumb))
  | .const _ _ => []
  | .list i vs => itemCrumbs (.list i vs) 0 vs
  | .node i t ns vs => attrCrumbs (.node i t ns vs) ns vs

/-- Recording: `parents[id(child)] = (parent, how)`. refex/python/matcher.py:1074-1094. -/
def recordCrumbs (d : Dict Nat (Val × Crumb)) (cs : List (Val × (Val × Crumb))) : Dict Nat (Val × Crumb) :=
  cs.foldl (fun d c => d.set c.1.ident c.2) d

theorem attrCrumbs_size (p : Val) (ns : List Str) (vs : List Val) :
    Val.sizes ((attrCrumbs p ns vs).map Prod.fst) ≤ Val.sizes vs := by
  induction ns generalizing vs with
  | nil => simp [attrCrumbs, Val.sizes]
  | cons n ns ih =>
    cases vs with
    | nil => simp [attrCrumbs, Val.sizes]
    | cons v vs =>
      simp only [attrCrumbs]
      have := ih vs
      split <;> simp only [List.map_cons, Val.sizes] <;> omega

theorem itemCrumbs_fst (p : Val) (i : Nat) (vs : List Val) : (itemCrumbs p i vs).map Prod.fst = vs := by
  induction vs generalizing i with
  | nil => rfl
  | cons v vs ih => simp [itemCrumbs, ih]

theorem crumbsOf_size (v : Val) : Val.sizes ((crumbsOf v).map Prod.fst) < v.size := by
  cases v with
  | const i c => simp [crumbsOf, Val.sizes, Val.size]
  | list i vs => simp [crumbsOf, itemCrumbs_fst, Val.size]
  | node i t ns vs =>
    have := attrCrumbs_size (.node i t ns vs) ns vs
    simp only [crumbsOf, Val.size]; omega

theorem Val.sizes_reverse (vs : List Val) : Val.sizes vs.reverse = Val.sizes vs := by
  induction vs with
  | nil => rfl
  | cons v vs ih => simp [Val.sizes_append, Val.sizes, ih]; omega

/-- The traversal of `_parent_breadcrumb`, a stack of objects (top first: the last pushed child is visited
next). refex/python/matcher.py:1075-1094. -/
def breadcrumbLoop (stack : List Val) (d : Dict Nat (Val × Crumb)) : Dict Nat (Val × Crumb) :=
  match stack with
  | [] => d
  | v :: rest => breadcrumbLoop ((crumbsOf v).map Prod.fst |>.reverse |> (· ++ rest)) (recordCrumbs d (crumbsOf v))
  termination_by Val.sizes stack
  decreasing_by
    have := crumbsOf_size v
    simp only [Val.sizes_append, Val.sizes_reverse, Val.sizes]; omega

/-- `_parent_breadcrumb`. The root maps to `(None, None, None)`, as does any unknown object
(`_get_breadcrumb`), so the root's own entry is left out. refex/python/matcher.py:1058-1104. -/
def breadcrumbs (tree : Val) : Dict Nat (Val × Crumb) := breadcrumbLoop [tree] []

/-- `get_parent`. refex/python/matcher.py:1106-1117. -/
def getParent (tree v : Val) : Option Val := ((breadcrumbs tree).get? v.ident).map Prod.fst

/-- `get_prev_sibling`. refex/python/matcher.py:1119-1132. -/
def getPrevSibling (tree v : Val) : Option Val :=
  match (breadcrumbs tree).get? v.ident with
  | some (p, .item (k + 1)) => p.children[k]?
  | _ => none

/-- `get_next_sibling`. refex/python/matcher.py:1134-1150. -/
def getNextSibling (tree v : Val) : Option Val :=
  match (breadcrumbs tree).get? v.ident with
  | some (p, .item k) => p.children[k + 1]?
  | _ => none

/-- `hasattr(node, 'body')`. refex/python/matcher.py:1169. -/
def hasBody : Val → Bool
  | .node _ _ ns _ => decide (str "body" ∈ ns)
  | _ => false

/-- `get_simple_node`: climb to the nearest object with a body, remembering the last non-list object.
The loop is bounded by `fuel`; running off the root would be `get_parent(None)`, an endless loop, modelled
as `none` at fuel 0. refex/python/matcher.py:1152-1174. -/
def getSimpleLoop (tree : Val) : Nat → Option Val → Val → Option (Option Val)
  | 0, _, _ => none
  | fuel + 1, last, v =>
    if hasBody v then some last
    else
      let last' := if v.isList then last else some v
      match getParent tree v with
      | none => none
      | some p => getSimpleLoop tree fuel last' p

end Refex
