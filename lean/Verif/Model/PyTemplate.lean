import Verif.Model.PatternTokens
import Verif.Model.Patterns
/- Syntax-aware templates: refex/python/syntactic_template.py. -/
namespace Refex
set_option autoImplicit false

/-- What a substitution raises: RewriteError, the KeyError of a variable without replacement, the ValueError of
`untokenize` or of a template that cannot be made, an exception of a matcher (AttributeError: `.matched` of a match that has
none). refex/python/syntactic_template.py:147-343. -/
inductive TExc
  | rewriteError
  | keyError
  | valueError
  | matcher (e : MExc)

/-- A `_BasePythonTemplate`: the text, the tokens and metavariable indices of its `_LexicalTemplate` (see `tokenPattern`), and
the matcher made by `_pattern_factory`. refex/python/syntactic_template.py:117-145. -/
structure PyTemplate where
  template : Str
  toks : List PTok
  metas : List Nat
  astMatcher : Matcher

/-- `PythonTemplate._pattern_factory`: a `ModulePattern` (its matcher is `patternMatcher`). refex/python/syntactic_template.py:372-374. -/
def moduleTemplate (pattern : Matcher) : Matcher := pattern

/-- `ast_matchers.Module(body=items)`; `type_ignores` is not given and so `Anything()`. refex/python/matchers/ast_matchers.py:76-98. -/
def moduleWith (items : Matcher) : Matcher := .node (str "Module") [str "body", str "type_ignores"] [items, .anything]

/-- `PythonExprTemplate._pattern_factory`, given the `ExprPattern`. refex/python/syntactic_template.py:376-384. -/
def exprTemplate (pattern : Matcher) : Matcher := moduleWith (.itemsAre [.node (str "Expr") [str "value"] [pattern]])

/-- `PythonStmtTemplate._pattern_factory`, given the `StmtPattern`. refex/python/syntactic_template.py:386-393. -/
def stmtTemplate (pattern : Matcher) : Matcher := moduleWith (.itemsAre [pattern])

/-- A match as a template sees it: what it is, and its `.string`. refex/python/syntactic_template.py:147-257. -/
structure PyMatch where
  obj : MObj
  string : Option Str

/-- `formatting.stringify_matches`: matches without a string are left out. refex/formatting.py:564-571. -/
def stringified (ms : Dict Label PyMatch) : Dict Label Str :=
  ms.filterMap fun e => e.2.string.map fun s => (e.1, s)

/-- `_matchers_for_matches`: for an expression, the matcher of exactly its tree; otherwise `Anything()`. `isExpr` is
`isinstance(·, ast.expr)`. refex/python/syntactic_template.py:350-370. -/
def matchersFor (isExpr : Val → Bool) (ms : Dict Label PyMatch) : Dict Label Matcher :=
  ms.map fun e => (e.1, match e.2.obj with
    | .lexical w _ => if isExpr w then exactMatcher w else .anything
    | _ => .anything)

/-- `'(%s)' % s`. refex/python/syntactic_template.py:271-281. -/
def inParens (s : Str) : Str := str "(" ++ s ++ str ")"

/-- The first `safe_mapping`: with a matcher, in parentheses. refex/python/syntactic_template.py:271-281. -/
def safeMapping (matchers : Dict Label Matcher) (strings : Dict Label Str) : Dict Label Str :=
  strings.map fun e => (e.1, if matchers.has e.1 then inParens e.2 else e.2)

/-- `unparenthesized_mapping`. refex/python/syntactic_template.py:275-278. -/
def unparenthesized (matchers : Dict Label Matcher) (strings : Dict Label Str) : Dict Label Str :=
  strings.filter fun e => matchers.has e.1

/-- `self._lexical_template.substitute(mapping)` with its exceptions. refex/python/syntactic_template.py:81-114. -/
def PyTemplate.fill (t : PyTemplate) (mapping : Dict Label Str) : Except TExc Str :=
  match lexicalSubstitute t.template t.toks t.metas mapping with
  | none => .error .valueError
  | some none => .error .keyError
  | some (some s) => .ok s

/-- The check of the bindings: `matchers[k].match(MatchContext(parsed_template), v.matched)` for each.
refex/python/syntactic_template.py:308-318. -/
def checkBindings (n : Nat) (c : Ctx) (matchers : Dict Label Matcher) : Bindings → Except TExc Unit
  | [] => .ok ()
  | (k, b) :: bs =>
    match matchers.get? k with
    | none => .error .keyError
    | some m =>
      match b.value.matched? with
      | none => .error (.matcher .attributeError)
      | some w =>
        match run c n [] m w [] with
        | .error e => .error (.matcher e)
        | .ok (none, _) => .error .rewriteError
        | .ok (some _, _) => checkBindings n c matchers bs

/-- The loop that drops parentheses. `parse` is `parse_ast` (which makes a context to match in), `cand` the candidate
matcher. refex/python/syntactic_template.py:325-341. -/
def PyTemplate.dropParens (n : Nat) (parse : Str → Option Ctx) (t : PyTemplate) (cand : Matcher) :
    List (Label × Str) → Str → Dict Label Str → Except TExc (Str × Dict Label Str)
  | [], text, safe => .ok (text, safe)
  | (k, raw) :: rest, text, safe =>
    match t.fill (safe.set k raw) with
    | .error e => .error e
    | .ok alt =>
      match parse alt with
      | none => t.dropParens n parse cand rest text safe
      | some c =>
        match run c n [] cand c.tree [] with
        | .error e => .error (.matcher e)
        | .ok (none, _) => t.dropParens n parse cand rest text safe
        | .ok (some _, _) => t.dropParens n parse cand rest alt (safe.set k raw)

/-- `_parenthesized`. refex/python/syntactic_template.py:259-343. -/
def PyTemplate.parenthesized (n : Nat) (parse : Str → Option Ctx) (t : PyTemplate) (matchers : Dict Label Matcher)
    (strings : Dict Label Str) : Except TExc (Str × Dict Label Str) :=
  match t.fill (safeMapping matchers strings) with
  | .error e => .error e
  | .ok canonical =>
    match parse canonical with
    | none => .error .rewriteError
    | some c =>
      match run c n [] t.astMatcher c.tree [] with
      | .error e => .error (.matcher e)
      | .ok (none, _) => .error .rewriteError
      | .ok (some mi, _) =>
        match checkBindings n c matchers mi.bindings with
        | .error e => .error e
        | .ok () => t.dropParens n parse (exactMatcher c.tree) (unparenthesized matchers strings) canonical (safeMapping matchers strings)

/-- What is known of Python beyond trees: `isinstance(·, ast.expr)`, `isinstance(·, ast.stmt)`, `parse_ast`, and the
construction of a `PythonTemplate` from its text (`none`: it raises). refex/python/syntactic_template.py:190-242. -/
structure PyEnv where
  isExpr : Val → Bool
  isStmt : Val → Bool
  parse : Str → Option Ctx
  template : Str → Option PyTemplate

/-- `parent_span`, if the parent is by itself parseable. refex/python/syntactic_template.py:211-212. -/
def ownSpan (env : PyEnv) (c : Ctx) (parent : Val) : Option Span :=
  if env.isExpr parent || env.isStmt parent then (createMatch c parent).span? else none

/-- The climb to a parent that can be parsed on its own: itself and its span; `none` to return the replacement as it is.
Running off the root would be `get_parent(None)`, an endless loop, modelled as an exception. The `else` of the `while True` is
never reached. refex/python/syntactic_template.py:208-228. -/
def reparseParent (env : PyEnv) (c : Ctx) : Nat → Val → Except TExc (Option (Val × Span))
  | 0, _ => .error (.matcher .recursionError)
  | fuel + 1, parent =>
    match ownSpan env c parent with
    | some sp => .ok (some (parent, sp))
    | none =>
      match getParent c.tree parent with
      | none => .error (.matcher .recursionError)
      | some p => if env.isStmt p && hasBody p then .ok none else reparseParent env c fuel p

/-- The text around the match in its parent, in parentheses if the parent is an expression. refex/python/syntactic_template.py:231-242. -/
def aroundMatch (env : PyEnv) (c : Ctx) (parent : Val) (parentSpan matchSpan : Span) : Str × Str :=
  let pre := slice c.text parentSpan.1 matchSpan.1
  let post := slice c.text matchSpan.2 parentSpan.2
  if env.isExpr parent then (str "(" ++ pre, post ++ str ")") else (pre, post)

/-- The expression the replacement is, if it is one: the value of the only statement, an `Expr`.
refex/python/syntactic_template.py:244-252. -/
def soleExpr (tree : Val) : Option Val :=
  match (tree.getattr (str "body")).children with
  | [s] => if s.ty = str "Expr" then some (s.getattr (str "value")) else none
  | _ => none

/-- The second half of `substitute_match`: the replacement, in parentheses if it needs them in its parent.
refex/python/syntactic_template.py:231-257. -/
def inParent (n : Nat) (env : PyEnv) (c : Ctx) (parent : Val) (parentSpan matchSpan : Span) (replacement : Str) : Except TExc Str :=
  let around := aroundMatch env c parent parentSpan matchSpan
  match env.template (around.1 ++ str "$current_expr" ++ around.2) with
  | none => .error .valueError
  | some pseudo =>
    match env.parse replacement with
    | none => .error .valueError
    | some r =>
      match soleExpr r.tree with
      | none => .error .rewriteError
      | some e =>
        match pseudo.parenthesized n env.parse [(str "current_expr", exactMatcher e)] [(str "current_expr", replacement)] with
        | .error x => .error x
        | .ok (_, safe) =>
          match safe.get? (str "current_expr") with
          | some s => .ok s
          | none => .error .keyError

/-- `substitute_match(parsed, match, matches)`; `parsed` is `none` if the file is not a PythonParsedFile.
refex/python/syntactic_template.py:147-257. -/
def PyTemplate.substituteMatch (n : Nat) (env : PyEnv) (t : PyTemplate) (parsed : Option Ctx) (m : MObj) (ms : Dict Label PyMatch) :
    Except TExc Str :=
  match t.parenthesized n env.parse (matchersFor env.isExpr ms) (stringified ms) with
  | .error e => .error e
  | .ok (replacement, _) =>
    match parsed, m with
    | some c, .lexical w sp =>
      if env.isExpr w then
        match getParent c.tree w with
        | none => .error (.matcher .recursionError)
        | some parent =>
          if parent.ty = str "Expr" then .ok replacement
          else if env.isStmt parent && hasBody parent then .ok replacement
          else
            match reparseParent env c (c.tree.size + 1) parent with
            | .error e => .error e
            | .ok none => .ok replacement
            | .ok (some (parent, parentSpan)) => inParent n env c parent parentSpan sp replacement
      else .ok replacement
    | _, _ => .ok replacement

end Refex
