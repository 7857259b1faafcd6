import Verif.Model.Basic
/-
Model of refex/search.py:718-854: removing statements by empty templates in BasePythonRewritingSearcher.
-/
namespace Refex
set_option autoImplicit false

/-- What refex/search.py:767-854 asks of a statement node and its file: whether the parent is a list (`get_parent`), whether the
parent of that list is a Module, the neighbours in the list (`get_prev_sibling`, `get_next_sibling`), the spans of its first and
last token, and the span of the token after the last one if that token is ';'. -/
structure StmtNav where
  inList : Bool
  moduleLevel : Bool
  prev : Option Nat
  next : Option Nat
  first : Span
  last : Span
  semi : Option Span

/-- The navigation of a parsed file; statements are named by `id(node)`. refex/search.py:767-854. -/
abbrev Nav := Nat → StmtNav

/-- refex/python/matcher.py:336-396, `LexicalMatch` and `LexicalASTMatch`. `stmt` is the node if it is an ast.stmt (line 808);
matches of any other kind have none. -/
structure LexMatch where
  stmt : Option Nat
  first : Span
  last : Span
  includeFirst : Bool := true
  includeLast : Bool := true
  deriving DecidableEq, Repr

/-- refex/python/matcher.py:379-389, `LexicalMatch.span`. -/
def LexMatch.span (m : LexMatch) : Span :=
  (if m.includeFirst then m.first.1 else m.first.2, if m.includeLast then m.last.2 else m.last.1)

/-- refex/python/matcher.py:403-424, `create_match` of a statement. -/
def stmtMatch (nav : Nav) (id : Nat) : LexMatch := { stmt := some id, first := (nav id).first, last := (nav id).last }

/-- The template string of `_PASS_TEMPLATE`, refex/search.py:724. -/
def passTemplate : Str := str "pass"

/-- The two sets of refex/search.py:748-752. -/
structure Removed where
  nodes : List Nat := []
  suitePrefix : List Nat := []

/-- refex/search.py:811-854: one removed statement. Returns the new match, the new template and the new sets. -/
def removeStmt (nav : Nav) (r : Removed) (id : Nat) (m : LexMatch) : Except Exc (LexMatch × Str × Removed) :=
  let n := nav id
  if !n.inList then .error .rewriteError
  else
    let nodes := id :: r.nodes
    match n.next, n.prev with
    | none, none => .ok (m, if n.moduleLevel then [] else passTemplate, { r with nodes := nodes })
    | some nx, prev =>
      let isPrefix : Bool := match prev with
        | none => true
        | some p => r.suitePrefix.contains p
      .ok ({ m with last := (nav nx).first, includeLast := false }, [],
        { nodes := nodes, suitePrefix := if isPrefix then id :: r.suitePrefix else r.suitePrefix })
    | none, some p =>
      let t := if r.suitePrefix.contains p then (if n.moduleLevel then [] else passTemplate) else []
      let m := if r.suitePrefix.contains p then m
        else if nodes.contains p then m
        else { m with first := (nav p).last, includeFirst := false }
      let m := match n.semi with
        | none => m
        | some s => { m with last := s, includeLast := true }
      .ok (m, t, { r with nodes := nodes })

/-- refex/search.py:800-854, the loop of `_sanitize_removed_stmt` over the items of `templates`; templates are their template
strings. Assigning to the key at hand during the iteration changes no other item, so the loop runs over the items as they
were. -/
def sanitizeLoop (nav : Nav) : List (Str × Str) → Dict Str LexMatch → Dict Str Str → Removed →
    Except Exc (Dict Str LexMatch × Dict Str Str × Removed)
  | [], dict, templates, r => .ok (dict, templates, r)
  | (key, t) :: items, dict, templates, r =>
    match dict.get? key with
    | none => sanitizeLoop nav items dict templates r
    | some m =>
      match m.stmt with
      | none => sanitizeLoop nav items dict templates r
      | some id =>
        if t ≠ [] then sanitizeLoop nav items dict templates r
        else match removeStmt nav r id m with
          | .error e => .error e
          | .ok (m', t', r') => sanitizeLoop nav items (dict.set key m') (templates.set key t') r'

/-- refex/search.py:740-765, `find_dicts_parsed`, over the bindings and replacements of the matches that find_iter yields. -/
def findDicts (nav : Nav) : List (Dict Str LexMatch × Dict Str Str) → Removed →
    Except Exc (List (Dict Str LexMatch × Dict Str Str))
  | [], _ => .ok []
  | (dict, templates) :: rest, r =>
    match sanitizeLoop nav templates dict templates r with
    | .error e => .error e
    | .ok (d, t, r') =>
      match findDicts nav rest r' with
      | .error e => .error e
      | .ok out => .ok ((d, t) :: out)

end Refex
