import Verif.Model.Evaluate
import Verif.Model.Render
/- Model of refex/python/error_strings.py and of the text handling of refex/python/evaluate.py. -/
namespace Refex
set_option autoImplicit false

/-- `s.split('\n')`; here, the lines `^` and `$` of a multi-line regular expression see. refex/python/evaluate.py:76 (`textwrap.dedent`). -/
def splitNl : Str → List Str
  | [] => [[]]
  | ch :: s =>
    if ch = '\n' then [] :: splitNl s
    else match splitNl s with
      | [] => [[ch]]
      | l :: ls => (ch :: l) :: ls

/-- `[ \t]`. refex/python/evaluate.py:76 (`textwrap.dedent`). -/
def isBlankChar (ch : Char) : Bool := decide (ch = ' ') || decide (ch = '\t')

/-- `_whitespace_only_re.sub('', text)`, for a line. refex/python/evaluate.py:76 (`textwrap.dedent`). -/
def emptyBlank (l : Str) : Str := if l.all isBlankChar then [] else l

/-- `_leading_whitespace_re.findall(text)`: the indentation of the lines with something else. refex/python/evaluate.py:76 (`textwrap.dedent`). -/
def indentsOf (ls : List Str) : List Str := (ls.filter fun l => !l.all isBlankChar).map fun l => l.takeWhile isBlankChar

/-- The loop over `zip(margin, indent)`: the margin up to the first difference (all of it if there is none).
refex/python/evaluate.py:76 (`textwrap.dedent`). -/
def cutMargin : Str → Str → Str
  | a :: margin, b :: indent => if a = b then a :: cutMargin margin indent else []
  | margin, [] => margin
  | [], _ => []

/-- The loop over the indents. refex/python/evaluate.py:76 (`textwrap.dedent`). -/
def marginOf : Option Str → List Str → Option Str
  | margin, [] => margin
  | none, indent :: is => marginOf (some indent) is
  | some margin, indent :: is =>
    if margin.isPrefixOf indent then marginOf (some margin) is
    else if indent.isPrefixOf margin then marginOf (some indent) is
    else marginOf (some (cutMargin margin indent)) is

/-- `re.sub(r'(?m)^' + margin, '', text)`, for a line. refex/python/evaluate.py:76 (`textwrap.dedent`). -/
def dropMargin (margin l : Str) : Str := if margin.isPrefixOf l then l.drop margin.length else l

/-- `textwrap.dedent`. refex/python/evaluate.py:76. -/
def dedent (text : Str) : Str :=
  let ls := (splitNl text).map emptyBlank
  match marginOf none (indentsOf ls) with
  | none => joinWith (str "\n") ls
  | some margin => joinWith (str "\n") (if margin.isEmpty then ls else ls.map (dropMargin margin))

/-- `.strip('\n')`. refex/python/evaluate.py:76. -/
def stripNl (s : Str) : Str := ((s.dropWhile (· = '\n')).reverse.dropWhile (· = '\n')).reverse

/-- `_indent`. refex/python/error_strings.py:18-19. -/
def indentText (s : Str) : Str := (splitlinesKeep s).flatMap fun line => str "    " ++ line

/-- What is read of a SyntaxError. refex/python/error_strings.py:37-50. -/
structure SyntaxErr where
  msg : Option Str
  text : Option Str
  offset : Option Int

/-- `.rstrip('\r\n')`. refex/python/error_strings.py:48. -/
def rstripCrLf (s : Str) : Str := (s.reverse.dropWhile fun ch => decide (ch = '\r') || decide (ch = '\n')).reverse

/-- `user_syntax_error(e, source_code)`. refex/python/error_strings.py:22-66. -/
def userSyntaxError (e : SyntaxErr) (source : Str) : Except Exc Str :=
  let msg := match e.msg with
    | none => str "<unknown reason>"
    | some m => if m.isEmpty then str "<unknown reason>" else m
  let summary := str "Failed to parse Python-like source code (" ++ msg ++ str ")."
  match e.text with
  | none => .ok (joinWith (str "\n") [summary, indentText source])
  | some text =>
    match e.offset with
    | none => .error .typeError
    | some offset =>
      let information := joinWith (str "\n") [rstripCrLf text, List.replicate (offset - 1).toNat ' ' ++ str "^"]
      if '\n' ∈ source then
        .ok (joinWith (str "\n") [summary, [], str "Source:", indentText source, [], str "Location:", indentText information])
      else .ok (joinWith (str "\n") [summary, indentText information])

/-- What `compile_matcher` raises: ValueError with a message, or what passes through it. refex/python/evaluate.py:77-83. -/
inductive CompileErr
  | valueError (message : Str)
  | typeError
  | callee (e : Nat)

/-- Python's parser (`ast.parse(s, mode='eval').body`) and the SyntaxErrors that evaluation raises. refex/python/semiliteral_eval.py:77-138. -/
structure CompileEnv where
  parse : Str → Except SyntaxErr EExpr
  raised : Str → EExpr → SyntaxErr

/-- `compile_matcher(user_input)`. refex/python/evaluate.py:74-83. -/
def compileMatcherText (penv : CompileEnv) (env : EvalEnv) (input : Str) : Except CompileErr PVal :=
  let text := stripNl (dedent input)
  let report (e : SyntaxErr) : Except CompileErr PVal :=
    match userSyntaxError e text with
    | .ok message => .error (.valueError message)
    | .error _ => .error .typeError
  match penv.parse text with
  | .error e => report e
  | .ok e =>
    match (convert env e).2 with
    | .ok v => .ok v
    | .error .syntaxError => report (penv.raised text e)
    | .error .typeError => .error .typeError
    | .error (.callee n) => .error (.callee n)

end Refex
