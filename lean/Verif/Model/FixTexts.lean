import Verif.Model.FixMode
/-
Model of how the patterns of the built-in fixers are made of their texts, when their modules are imported: refex/fix/fixers/*.py.
-/
namespace Refex
set_option autoImplicit false

/-- `ExprPattern(text, restrictions)`, `StmtPattern(text, restrictions)`, `ModulePattern(text, restrictions)`.
refex/python/matchers/syntax_matchers.py:341-370. -/
def Python.restricted (py : Python) (kind : PatternKind) (text : Str) (restrictions : Dict Label Matcher) : Except Exc Matcher :=
  match py.tokens (withNewline text) with
  | none => .error .valueError
  | some toks => buildPattern py.parse py.iter kind toks (addsNewline text) restrictions

/-- The kind of the pattern of a rule. refex/fix/fixers/unittest_fixers.py:55, 91; refex/fix/fixers/idiom_fixers.py:65, 193-215. -/
def RuleKind.pattern : RuleKind → PatternKind
  | .expr => .expr
  | .stmt => .stmt

/-- A fixer given by a pattern and a template, with the pattern made of its text. (All else is as in `Rule.fixer`.)
refex/fix/fixers/correctness_fixers.py:94, 105, 117, 129, 143-163, 188, 202; refex/fix/fixers/idiom_fixers.py:65, 193-215;
refex/fix/fixers/unittest_fixers.py:55, 91. -/
def Python.ruleFixer (py : Python) (r : Rule) : Except Exc Fixer :=
  match py.restricted r.kind.pattern r.oldText (r.restrictions.map fun e => (e.1, e.2.matcher)) with
  | .error e => .error e
  | .ok m => .ok { r.fixer (gensym []) with matcher := r.guard.matcher m }

/-- Several of them, in turn. refex/fix/fixers/unittest_fixers.py:98-227. -/
def Python.ruleFixers (py : Python) : List Rule → Except Exc (List Fixer)
  | [] => .ok []
  | r :: rs =>
    match py.ruleFixer r with
    | .error e => .error e
    | .ok F =>
      match py.ruleFixers rs with
      | .error e => .error e
      | .ok Fs => .ok (F :: Fs)

/-- `_attrib_mutable_default_fixer(default, ...)`. (All but the matcher is as in `attribFixer`.) refex/fix/fixers/correctness_fixers.py:46-85. -/
def Python.attribFixer (py : Python) (ref : Nat) (default : Str) : Except Exc Fixer :=
  match py.restricted .expr (str "attr.ib") [] with
  | .error e => .error e
  | .ok func =>
    match py.restricted .expr default [] with
    | .error e => .error e
    | .ok value => .ok { Refex.attribFixer (gensym []) ref .emptyList with
        matcher := callWith [("func", func),
          ("keywords", .contains (.bind (str "keyword") (keywordWith [("arg", equalsStr "default"), ("value", value)]) none none))] }

/-- The first fixer for logging. (All but the matcher is as in `loggingErrorFixer`.) refex/fix/fixers/idiom_fixers.py:270-309. -/
def Python.loggingErrorFixer (py : Python) (ref : Nat) : Except Exc Fixer :=
  match py.restricted .expr (str "logging.error") [] with
  | .error e => .error e
  | .ok func => .ok { Refex.loggingErrorFixer (gensym []) ref with
      matcher := .allOf [callWith [("func", .bind (str "logging_error") func none none),
        ("args", .contains (.allOf [inExceptionHandler, nameWith (bindIdentical "e")])),
        ("keywords", .unlessM (.contains (keywordWith [("arg", equalsStr "exc_info")])))]] }

/-- The second fixer for logging. (All but the matcher is as in `loggingExceptionFixer`.) refex/fix/fixers/idiom_fixers.py:310-383. -/
def Python.loggingExceptionFixer (py : Python) (ref : Nat) : Except Exc Fixer :=
  match py.restricted .stmt (str "logging.exception($arg)") [(str "arg", nameWith (.bind (str "e") .anything none none))] with
  | .error e => .error e
  | .ok stmt => .ok { Refex.loggingExceptionFixer (gensym []) ref with
      matcher := .allOf [.bind (str "logging_exception") (.rebind stmt (some .mergeIdentical) none) none none,
        inExceptionHandler,
        .hasFirstAncestor (tryWith []) (tryWith [("body", .allOf [.itemsAre [triedStatement]])])] }

/-- `correctness_fixers.SIMPLE_PYTHON_FIXERS`. refex/fix/fixers/correctness_fixers.py:88-212. -/
def Python.correctnessFixers (py : Python) : Except Exc (List Fixer) := do
  let rules ← py.ruleFixers (literalRules ++ yamlRules ++ parensRules)
  let lists ← py.attribFixer 0 (str "[]")
  let dicts ← py.attribFixer 1 (str "{}")
  let sets ← py.attribFixer 2 (str "set()")
  let dates ← py.ruleFixers datetimeRules
  return rules ++ [lists, dicts, sets] ++ dates

/-- `idiom_fixers.SIMPLE_PYTHON_FIXERS`. refex/fix/fixers/idiom_fixers.py:386-402. -/
def Python.idiomFixers (py : Python) : Except Exc (List Fixer) := do
  let rules ← py.ruleFixers idiomRules
  let constants ← py.ruleFixers constantRules
  let error ← py.loggingErrorFixer 3
  let exception ← py.loggingExceptionFixer 4
  return rules ++ constants ++ [error, exception]

/-- `unittest_fixers.SIMPLE_PYTHON_FIXERS`. refex/fix/fixers/unittest_fixers.py:98-227. -/
def Python.unittestFixers (py : Python) : Except Exc (List Fixer) := py.ruleFixers unittestRules

/-- `from_pattern` as a searcher, with all patterns made of their texts; they are made when the modules of the fixers are imported. (In Python each
template is made right after its pattern; here first all patterns are, then all templates.) refex/fix/find_fixer.py:20-76. -/
def Python.textFixer (py : Python) (groups : Str → List Label) (pattern : Option Str) : Except Exc Searcher := do
  let correctness ← py.correctnessFixers
  let idiom ← py.idiomFixers
  let unittest ← py.unittestFixers
  py.groupsFixer correctness idiom unittest groups pattern

end Refex
