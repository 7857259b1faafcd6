import Verif.Model.Ast
/- `_uniqueify_distinct_ast` of refex/python/matcher.py, on a store of objects: the transformer changes nodes and lists in
place. -/
namespace Refex
set_option autoImplicit false

/-- An object of the store: a leaf, a list of references, or a node with a reference for each field. refex/python/matcher.py:1177-1203. -/
inductive Obj
  | const (c : Const)
  | list (items : List Nat)
  | node (ty : Str) (names : List Str) (vals : List Nat)

/-- The store by `id()`, the set `seen_ids`, and the next unused `id()`. refex/python/matcher.py:1193-1203. -/
structure UState where
  store : Nat → Obj
  seen : List Nat := []
  next : Nat

/-- Changing an object in place. refex/python/matcher.py:1196. -/
def UState.put (s : UState) (i : Nat) (o : Obj) : UState :=
  { s with store := fun j => if j = i then o else s.store j }

/-- `generic_visit` of CPython's `ast.NodeTransformer`, the loop over the items of a list: items that are nodes are visited,
others kept. (`visit` returns a node here, never `None` or a list.). refex/python/matcher.py:1196. -/
def visitItemsIn (visit : UState → Nat → Option (UState × Nat)) : UState → List Nat → Option (UState × List Nat)
  | s, [] => some (s, [])
  | s, r :: rs =>
    match s.store r with
    | .node _ _ _ =>
      match visit s r with
      | none => none
      | some (s, r') =>
        match visitItemsIn visit s rs with
        | none => none
        | some (s, rs') => some (s, r' :: rs')
    | _ =>
      match visitItemsIn visit s rs with
      | none => none
      | some (s, rs') => some (s, r :: rs')

/-- `generic_visit` of CPython's `ast.NodeTransformer` from the `k`-th field of node `id` on, for the given number of fields: the
items of a list are replaced in place, a node by what `visit` returns. refex/python/matcher.py:1196. -/
def visitFieldsIn (visit : UState → Nat → Option (UState × Nat)) (id : Nat) : Nat → Nat → UState → Option UState
  | 0, _, s => some s
  | rem + 1, k, s =>
    match s.store id with
    | .node _ _ vals =>
      match vals[k]? with
      | none => some s
      | some r =>
        match s.store r with
        | .const _ => visitFieldsIn visit id rem (k + 1) s
        | .list items =>
          match visitItemsIn visit s items with
          | none => none
          | some (s, items') => visitFieldsIn visit id rem (k + 1) (s.put r (.list items'))
        | .node _ _ _ =>
          match visit s r with
          | none => none
          | some (s, r') =>
            match s.store id with
            | .node ty ns vals => visitFieldsIn visit id rem (k + 1) (s.put id (.node ty ns (vals.set k r')))
            | _ => some s
    | _ => some s

/-- `CopyTransformer.visit`: the fields first; then a node seen before is copied (`copy.copy`: a new object with the same
fields). `none`: the recursion depth is used up. refex/python/matcher.py:1194-1201. -/
def uniqueVisit : Nat → UState → Nat → Option (UState × Nat)
  | 0, _, _ => none
  | n + 1, s, id =>
    match s.store id with
    | .node _ _ vals =>
      match visitFieldsIn (uniqueVisit n) id vals.length 0 s with
      | none => none
      | some s =>
        if id ∈ s.seen then some ({ s.put s.next (s.store id) with next := s.next + 1 }, s.next)
        else some ({ s with seen := id :: s.seen }, id)
    | _ => some (s, id)

/-- `_uniqueify_distinct_ast(tree)`. refex/python/matcher.py:1177-1203. -/
def uniqueify (n : Nat) (store : Nat → Obj) (next root : Nat) : Option (UState × Nat) :=
  uniqueVisit n { store := store, next := next } root

end Refex
