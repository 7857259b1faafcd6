import Verif.Model.Main
import Verif.Model.PatternBuild
import Verif.Model.PySearch
import Verif.Model.PyTemplate
/-
Model of the search and substitution modes of refex/cli.py, with the searchers of refex/search.py and the templates they use.
-/
namespace Refex
set_option autoImplicit false

/-- Python itself, and what is modelled elsewhere: the tokenizer (`none`: TokenError), `ast.parse` (`none`: SyntaxError), the order in which a
set of small integers is iterated; `parse_ast` (`none`: ParseError) with what is asked of tokens and pragmas; `isinstance` of `ast.expr` and
`ast.stmt`; the recursion limit; `re.compile(_, re.M)` (`none`: re.error), `finditer` (with `m.regs`) and `sre_parse.parse_template` (`none`: it
raises); `evaluate.compile_matcher` (C92 says what it makes) and `find_fixer.from_pattern`. refex/cli.py:468-490, refex/search.py:664-718, 885-914. -/
structure Python where
  tokens : Str → Option (List PTok)
  parse : Str → Option Val
  iter : List Nat → List Nat
  file : Str → Option Ctx
  tokInfo : Str → TokInfo
  pragmas : Str → List Pragma
  isExpr : Val → Bool
  isStmt : Val → Bool
  depth : Nat
  regex : Str → Option Compiled
  finditer : Str → Str → List (List (Option Span))
  reItems : Str → Option (List ReItem)
  matcher : Option Str → Except Exc Matcher
  fixer : Option Str → Except Exc Searcher

/-- `pattern.endswith('\n')`. refex/python/python_pattern.py:48-52. -/
def addsNewline (text : Str) : Bool := decide (text.getLast? ≠ some '\n')

/-- The text that is tokenized. refex/python/python_pattern.py:47-52. -/
def withNewline (text : Str) : Str := if addsNewline text then text ++ str "\n" else text

/-- `ExprPattern(text)`, `StmtPattern(text)`, `ModulePattern(text)`. refex/python/matchers/syntax_matchers.py:341-370. -/
def Python.pattern (py : Python) (kind : PatternKind) (text : Str) : Except Exc Matcher :=
  match py.tokens (withNewline text) with
  | none => .error .valueError
  | some toks => buildPattern py.parse py.iter kind toks (addsNewline text) []

/-- A template made on the command line: its text, its variables (`.variables` of a `sh` template may raise), and what it does
in a file: a Python file or (`none`) another one. refex/formatting.py:527-561. -/
structure CodeTemplate where
  text : Str
  vars : Except Exc (List MatchKey)
  on : Option Ctx → Template

/-- The exceptions of a Python template as exceptions. refex/python/syntactic_template.py:147-343. -/
def TExc.toExc : TExc → Exc
  | .rewriteError => .rewriteError
  | .keyError => .keyError
  | .valueError => .valueError
  | .matcher e => e.toExc

/-- A match, as a Python template looks at it: only whether it is a `LexicalASTMatch` matters. refex/python/syntactic_template.py:190-206,
350-370. -/
def MatchV.obj (m : MatchV) : MObj :=
  match m.node, m.span with
  | some v, some sp => .lexical v sp
  | _, _ => .bare

/-- The named matches. Those with numbers can not be variables of a Python template: for them, the loop that drops parentheses fills in the
same text once more. refex/python/syntactic_template.py:259-343. -/
def namedMatches (ms : Dict MatchKey MatchV) : Dict Label PyMatch :=
  ms.filterMap fun e => match e.1 with
    | .name l => some (l, ⟨e.2.obj, e.2.string⟩)
    | .num _ => none

/-- `_pattern_factory`. refex/python/syntactic_template.py:372-393. -/
def PatternKind.factory : PatternKind → Matcher → Matcher
  | .expr, m => exprTemplate m
  | .stmt, m => stmtTemplate m
  | .module, m => moduleTemplate m

/-- The construction of a `PythonTemplate` (`.module`), `PythonExprTemplate` or `PythonStmtTemplate`: first its `_LexicalTemplate`, whose
SyntaxErrors are not caught. refex/python/syntactic_template.py:61-79, 117-145, 372-393. -/
def Python.pyTemplate (py : Python) (kind : PatternKind) (text : Str) : Except Exc PyTemplate :=
  match py.tokens (withNewline text) with
  | none => .error .syntaxError
  | some toks =>
    match tokenPattern toks (addsNewline text) with
    | none => .error .syntaxError
    | some (out, idx) =>
      match py.pattern kind text with
      | .error e => .error e
      | .ok m => .ok { template := text, toks := out, metas := idx, astMatcher := kind.factory m }

/-- What templates need of Python. refex/python/syntactic_template.py:190-242. -/
def Python.env (py : Python) : PyEnv where
  isExpr := py.isExpr
  isStmt := py.isStmt
  parse := py.file
  template := fun s => match py.pyTemplate .module s with
    | .ok t => some t
    | .error _ => none

/-- `_LexicalTemplate.variables`. refex/python/syntactic_template.py:61-79. -/
def PyTemplate.variables (t : PyTemplate) : List Str := dedup (t.metas.filterMap fun i => (t.toks[i]?).map (·.string))

/-- A Python template. refex/python/syntactic_template.py:117-257. -/
def PyTemplate.code (py : Python) (t : PyTemplate) : CodeTemplate where
  text := t.template
  vars := .ok (t.variables.map .name)
  on := fun parsed =>
    { vars := t.variables.map .name
      substitute := fun m ms => match t.substituteMatch py.depth py.env parsed m.obj (namedMatches ms) with
        | .error e => .error e.toExc
        | .ok s => .ok s }

/-- A `ShTemplate`, which is not checked when it is made. refex/formatting.py:587-611. -/
def shCodeTemplate (text : Str) : CodeTemplate where
  text := text
  vars := match shVariables text with
    | .error e => .error e
    | .ok xs => .ok (xs.map .name)
  on := fun _ =>
    { vars := match shVariables text with
        | .error _ => []
        | .ok xs => xs.map .name
      substitute := fun _ ms => shSubstitute text ms }

/-- A `RegexTemplate`. refex/formatting.py:614-642. -/
def reCodeTemplate (text : Str) (items : List ReItem) : CodeTemplate where
  text := text
  vars := .ok (regexTemplate items).vars
  on := fun _ => regexTemplate items

/-- `_SUB_MODES[subMode](text)`. refex/cli.py:477-483. -/
def Python.template (py : Python) (subMode text : Str) : Except Exc CodeTemplate :=
  if subMode = str "re" then
    match py.reItems text with
    | none => .error .other
    | some items => .ok (reCodeTemplate text items)
  else if subMode = str "sh" then .ok (shCodeTemplate text)
  else if subMode = str "py" then (py.pyTemplate .module text).map (·.code py)
  else if subMode = str "py.expr" then (py.pyTemplate .expr text).map (·.code py)
  else if subMode = str "py.stmt" then (py.pyTemplate .stmt text).map (·.code py)
  else .error .keyError

/-- An integer label among strings: no group name begins with `#`. (In Python it stays an integer.) refex/search.py:697-702. -/
def MatchKey.label : MatchKey → Str
  | .name s => s
  | .num n => '#' :: (Nat.repr n).toList

/-- The `Substitution`. refex/search.py:647-659. -/
def Found.substitution (f : Found) : Substitution where
  matchedSpans := f.matchedSpans.map fun e => (e.1.label, e.2)
  primaryLabel := f.primaryLabel.label
  replacements := some (f.replacements.map fun e => (e.1.label, e.2))
  message := f.message
  url := f.url
  significant := f.significant
  category := f.category
  keySpan := f.keySpan

/-- The templates in a file: they are named by their labels, since templates are strings in the model of matchers. `_PASS_TEMPLATE` is
`PythonStmtTemplate('pass')`. refex/search.py:721, 731-738. -/
def Python.templates (py : Python) (c : Ctx) (ts : Dict Str CodeTemplate) : Templates where
  text := fun l => ((ts.get? l).map (·.text)).getD []
  sem := fun l => ((ts.get? l).map fun t => t.on (some c)).getD (literalTemplate [])
  pass := match py.pyTemplate .stmt (str "pass") with
    | .ok t => (t.code py).on (some c)
    | .error _ => literalTemplate passTemplate

/-- `_matcher.parse_ast(data, path)`. refex/python/matcher.py:1265-1350 (C51). -/
def Python.parseAst (py : Python) (data path : Str) : Except Exc ParsedFile :=
  match py.file data with
  | none => .error .parseError
  | some _ => .ok { text := data, path := path, pragmas := py.pragmas data }

/-- `BasePythonRewritingSearcher.from_matcher`: the searcher. A file that does not parse is skipped. refex/search.py:708-765. -/
def Python.searcher (py : Python) (m : Matcher) (ts : Dict Str CodeTemplate) : Searcher where
  included := fun _ => .ok ()
  parse := fun data path => match py.parseAst data path with
    | .error .parseError => .error .skipFile
    | r => r
  find := fun p => match py.file p.text with
    | none => .error .other
    | some c =>
      match pySearch c (py.tokInfo p.text) (py.templates c ts) py.depth (fromMatcher m (ts.map fun e => (e.1, e.1))) with
      | .error e => .error e
      | .ok fs => .ok (fs.map Found.substitution)

/-- The dicts of matches of a regex in a file. refex/search.py:691-703. -/
def regexDicts (c : Compiled) (text : Str) : List (List (Option Span)) → Except Exc (List (Dict MatchKey MatchV))
  | [] => .ok []
  | regs :: rest =>
    match regexMatchDict c text regs, regexDicts c text rest with
    | .ok d, .ok ds => .ok (d :: ds)
    | .error e, _ => .error e
    | _, .error e => .error e

/-- `template_variables(self.templates)`, with what `.variables` raises. refex/formatting.py:683-689. -/
def modeVariables : Dict Str CodeTemplate → Except Exc (List MatchKey)
  | [] => .ok []
  | (l, t) :: rest =>
    match t.vars, modeVariables rest with
    | .ok vs, .ok ws => .ok (.name l :: vs ++ ws)
    | .error e, _ => .error e
    | _, .error e => .error e

/-- `RegexSearcher.from_pattern`. refex/search.py:664-705. -/
def Python.regexSearcher (py : Python) (pattern : Str) (ts : Dict Str CodeTemplate) : Except Exc Searcher :=
  match py.regex pattern with
  | none => .error .valueError
  | some c =>
    match modeVariables ts with
    | .error e => .error e
    | .ok vs =>
      if vs.all fun k => match k with
        | .num n => decide (n ≤ c.groups)
        | .name s => c.groupindex.has s || decide (s = str "__root") then
        .ok {
          included := fun _ => .ok ()
          parse := fun data path => .ok { text := data, path := path, pragmas := [] }
          find := fun p => match regexDicts c p.text (py.finditer pattern p.text) with
            | .error e => .error e
            | .ok ds =>
              match findIterParsed (fun _ => none) (ds.map fun d => (d, ts.map fun e => (MatchKey.name e.1, e.2.on none))) with
              | .error e => .error e
              | .ok fs => .ok (fs.map Found.substitution) }
      else .error .valueError

/-- `_SEARCH_MODES[mode](pattern, templates)`. A missing pattern is `None`, which `re.compile` and `endswith` refuse.
refex/cli.py:468-475, refex/search.py:885-914. -/
def Python.factory (py : Python) (mode : Str) (pattern : Option Str) (ts : Dict Str CodeTemplate) : Except Exc Searcher :=
  if mode = str "fix" then fixFactory py.fixer pattern ts
  else if mode = str "re" then
    match pattern with
    | none => .error .typeError
    | some text => py.regexSearcher text ts
  else if mode = str "py" then (py.matcher pattern).map fun m => py.searcher m ts
  else if mode = str "py.expr" then
    match pattern with
    | none => .error .attributeError
    | some text => (py.pattern .expr text).map fun m => py.searcher m ts
  else if mode = str "py.stmt" then
    match pattern with
    | none => .error .attributeError
    | some text => (py.pattern .stmt text).map fun m => py.searcher m ts
  else .error .keyError

/-- `_SEARCH_MODES` and `_SUB_MODES`. refex/cli.py:468-483. -/
def Python.modes (py : Python) : Modes CodeTemplate where
  factory := py.factory
  template := py.template

end Refex
