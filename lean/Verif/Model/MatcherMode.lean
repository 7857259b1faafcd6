import Verif.Model.Modes
import Verif.Model.Build
import Verif.Model.CompileText
/-
Model of `--mode=py`: refex/python/evaluate.py:74-83 with the matcher classes (Model/Build.lean) and with the patterns in matcher expressions
(Model/PatternBuild.lean), and `from_matcher` of refex/search.py:885-897.
-/
namespace Refex
set_option autoImplicit false

/-- What is not modelled of the evaluation of matcher expressions: see `CompileEnv` and `EvalWorld`. refex/python/evaluate.py:66-83. -/
structure Compiler where
  syn : CompileEnv
  callables : List Str
  minus : Str → Str → Const
  fields : Str → Option (List Str)
  word : Char → Bool
  key : PVal → Key

/-- KeyError. refex/python/matchers/syntax_matchers.py:209-213. -/
def keyErrorCode : EErr := .callee 3

/-- The exceptions of patterns as those of calls. refex/python/semiliteral_eval.py:113-117. -/
def EErr.ofExc : Exc → EErr
  | .valueError => valueErrorCode
  | .keyError => keyErrorCode
  | .attributeError => attributeErrorCode
  | .typeError => .typeError
  | _ => .callee 0

/-- The exceptions that pass through `compile_matcher`. refex/python/evaluate.py:77-83. -/
def EErr.toExc : EErr → Exc
  | .syntaxError => .valueError
  | .typeError => .typeError
  | .callee n => if n = 1 then .valueError else if n = 2 then .attributeError else if n = 3 then .keyError else .other

/-- The restrictions of a pattern: a dict from names; `Bind` coerces the values. `none`: keys that are no strings, broken matchers (not modelled).
refex/python/matchers/syntax_matchers.py:215-223. -/
def restrictionItems (E : MakeEnv) : List PVal → Option (Dict Label Matcher)
  | .const (.str x) :: v :: items =>
    match coerce E v, restrictionItems E items with
    | some m, some d => some ((x, m) :: d)
    | _, _ => none
  | [] => some []
  | _ => none

/-- The argument `restrictions`, which may be missing. refex/python/matchers/syntax_matchers.py:344-349. -/
def restrictionsArg (E : MakeEnv) : Option PVal → Option (Dict Label Matcher)
  | none => some []
  | some (.dict items) => restrictionItems E items
  | some _ => none

/-- `ExprPattern(pattern, restrictions)` and `StmtPattern(pattern, restrictions)`. Other patterns than strings and other restrictions than dicts are not
modelled (`.ok none`). refex/python/matchers/syntax_matchers.py:335-370, 388-437. -/
def Python.patternCall (py : Python) (E : MakeEnv) (isExpr : Bool) (pattern : PVal) (restrictions : Option PVal) : Except EErr (Option Matcher) :=
  match pattern, restrictionsArg E restrictions with
  | .const (.str text), some d =>
    match py.tokens (withNewline text) with
    | none => .error valueErrorCode
    | some toks =>
      match buildPattern py.parse py.iter (if isExpr then .expr else .stmt) toks (addsNewline text) d with
      | .error e => .error (EErr.ofExc e)
      | .ok m => .ok (some m)
  | _, _ => .ok none

/-- The world in which matcher expressions are evaluated. refex/python/evaluate.py:74-83. -/
def Python.evalWorld (py : Python) (C : Compiler) : EvalWorld where
  callables := C.callables
  constants := (constantObjects registeredConstants).1
  minus := C.minus
  fields := C.fields
  word := C.word
  key := C.key
  pattern := fun thing => py.patternCall { thing := thing, fields := C.fields, word := C.word, key := C.key, pattern := fun _ _ _ => .ok none }

/-- A matcher that is not modelled. refex/python/evaluate.py:74-83. -/
def Thing.isBroken : Thing → Bool
  | .broken => true
  | _ => false

/-- `compile_matcher(pattern)`, and the value as `SystemBind` takes it, which coerces it. The result is an error if a matcher that is not modelled was
made, even if it is not used. refex/python/evaluate.py:74-83, refex/search.py:731-738. -/
def Python.compile (py : Python) (C : Compiler) (input : Option Str) : Except Exc Matcher :=
  match input with
  | none => .error .typeError
  | some input =>
    let text := stripNl (dedent input)
    let report (e : SyntaxErr) : Except Exc Matcher :=
      match userSyntaxError e text with
      | .ok _ => .error .valueError
      | .error e => .error e
    match C.syn.parse text with
    | .error e => report e
    | .ok e =>
      match build (py.evalWorld C) e (constantObjects registeredConstants).2 with
      | .error .syntaxError => report (C.syn.raised text e)
      | .error e => .error e.toExc
      | .ok (v, st) =>
        if st.any Thing.isBroken then .error .other
        else match coerce ((py.evalWorld C).now st) v with
          | none => .error .other
          | some m => .ok m

/-- Python with this compiler. refex/cli.py:468-475, refex/search.py:885-897. -/
def Python.withCompiler (py : Python) (C : Compiler) : Python := { py with matcher := py.compile C }

end Refex
