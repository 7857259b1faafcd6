import Verif.Model.Uniqueify
import Verif.Model.Matchers
/- `parse_ast` of refex/python/matcher.py: what is made of the objects that `ast.parse` returns. -/
namespace Refex
set_option autoImplicit false

/-- What `ast.parse` returns: objects, an `id()` from which on none is in use, and the `id()` of the module. refex/python/matcher.py:1329. -/
structure AstResult where
  store : Nat → Obj
  next : Nat
  root : Nat

/-- What Python and asttokens contribute: `ast.parse` (`none`: SyntaxError or UnicodeDecodeError); for a text and a tree, the token spans,
comments and lines by `id()` (`mark_tokens`) and the regular expressions; the recursion limit. refex/python/matcher.py:1326-1343. -/
structure FrontEnd where
  ast : Str → Option AstResult
  marks : Str → Val → Ctx
  depth : Nat

/-- The values at some references, if there is one at each. refex/python/matcher.py:1336-1343. -/
def readAll (read : Nat → Option Val) : List Nat → Option (List Val)
  | [] => some []
  | i :: is => match read i, readAll read is with
    | some v, some vs => some (v :: vs)
    | _, _ => none

/-- The tree at a reference, as the model of matchers looks at it (`none`: it is deeper than `n`). refex/python/matcher.py:1336-1343. -/
def readTree (store : Nat → Obj) : Nat → Nat → Option Val
  | 0, _ => none
  | n + 1, i => match store i with
    | .const c => some (.const i c)
    | .list items => (readAll (readTree store n) items).map (.list i)
    | .node ty ns items => (readAll (readTree store n) items).map (.node i ty ns)

/-- `parse_ast(source_code)`, the first time (C51 is about the cache): `none` is ParseError. A RecursionError is not told apart from it.
refex/python/matcher.py:1303-1345. -/
def FrontEnd.parseAst (fe : FrontEnd) (source : Str) : Option Ctx :=
  match fe.ast source with
  | none => none
  | some a => match uniqueify fe.depth a.store a.next a.root with
    | none => none
    | some (s, root) => (readTree s.store fe.depth root).map fun tree => { fe.marks source tree with text := source, tree := tree, done := [] }

end Refex
