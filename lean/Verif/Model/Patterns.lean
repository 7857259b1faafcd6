import Verif.Model.Matchers
/- Compiling a parsed pattern to a matcher: refex/python/matchers/syntax_matchers.py. -/
namespace Refex
set_option autoImplicit false

/-- `tree.id` if the tree is an `ast.Name` (whose `id` is a string). refex/python/matchers/syntax_matchers.py:293-294. -/
def nameId (t : Val) : Option Str := if t.ty = str "Name" then strField t (str "id") else none

mutual
/-- `_ast_pattern(tree, variables)`. The recursion over all fields; a missing field does not occur (`Val`). The identity of a constant does not matter
(`Equals` compares by `==`), so it is 0.
refex/python/matchers/syntax_matchers.py:274-303. -/
def astPattern (vars : Dict Str Matcher) : Val → Matcher
  | .list _ vs => .itemsAre (astPatterns vars vs)
  | .const _ c => .equals (.const 0 c)
  | .node i t ns vs =>
    match (nameId (.node i t ns vs)).bind vars.get? with
    | some m => m
    | none => .node t ns (fieldPatterns vars (decide (t = str "Name")) ns vs)
/-- The list comprehension over the items of a list. refex/python/matchers/syntax_matchers.py:289. -/
def astPatterns (vars : Dict Str Matcher) : List Val → List Matcher
  | [] => []
  | v :: vs => astPattern vars v :: astPatterns vars vs
/-- The keyword arguments for the fields, in field order; the `ctx` of a `Name` is left out and so defaults to
`Anything()`. refex/python/matchers/syntax_matchers.py:296-303, refex/python/matchers/ast_matchers.py:76-81. -/
def fieldPatterns (vars : Dict Str Matcher) (isName : Bool) : List Str → List Val → List Matcher
  | n :: ns, v :: vs =>
    (if n = str "ctx" ∧ isName = true then .anything else astPattern vars v) :: fieldPatterns vars isName ns vs
  | _, _ => []
end

/-- `ast_matchers_matcher(tree)`. refex/python/matchers/syntax_matchers.py:269-271. -/
def exactMatcher (t : Val) : Matcher := astPattern [] t

/-- `Bind._NAME_REGEX.match(value)`: letters, digits (not first) and underscores (not two of them first). refex/python/matchers/base_matchers.py:278. -/
def bindNameOk (word : Char → Bool) (s : Str) : Bool :=
  match s with
  | [] => false
  | a :: s =>
    (a.isAlpha || decide (a = '_')) && s.all word && !(decide (a = '_') && decide (s.head? = some '_'))

/-- The submatcher of a metavariable: `Bind(name, restriction, on_conflict=MERGE_EQUIVALENT_AST)`.
refex/python/matchers/syntax_matchers.py:219-223. -/
def metaBind (x : Label) (restriction : Matcher) : Matcher := .bind x restriction (some .mergeEquivalentAst) none

/-- `_rewrite_submatchers`: the submatchers by remapped name, given the remapped names of the anonymous variables and
the original and remapped names of the others. Restrictions default to `Anything()`. (That restrictions for unknown
variables raise KeyError is in `checkRestrictions`.) refex/python/matchers/syntax_matchers.py:215-225. -/
def submatchers (anonymous : List Str) (variables : List (Label × Str)) (restrictions : Dict Label Matcher) : Dict Str Matcher :=
  variables.foldl (fun d e => d.set e.2 (metaBind e.1 ((restrictions.get? e.1).getD .anything)))
    (anonymous.foldl (fun d a => d.set a .anything) [])

/-- The check of `_rewrite_submatchers`: `true` unless it raises KeyError. refex/python/matchers/syntax_matchers.py:209-213. -/
def checkRestrictions (variables : List (Label × Str)) (restrictions : Dict Label Matcher) : Bool :=
  restrictions.keys.all fun k => decide (k ∈ variables.map Prod.fst)

/-- The matcher made by `_BaseAstPattern._get_matcher` from the pulled tree. refex/python/matchers/syntax_matchers.py:356-382. -/
def patternMatcher (vars : Dict Str Matcher) (t : Val) : Matcher :=
  .delegate (.rebind (astPattern vars t) (some .merge) (some .keepLast)) true

end Refex
