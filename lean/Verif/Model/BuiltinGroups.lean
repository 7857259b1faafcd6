import Verif.Model.BuiltinFixers
/-
The built-in fixers that are more than a pattern and a template (refex/fix/fixers/correctness_fixers.py:46-85 and
refex/fix/fixers/idiom_fixers.py:243-383), and the groups of all fixers.
-/
namespace Refex
set_option autoImplicit false

/-- A node matcher with conditions on some of the fields. refex/python/matchers/ast_matchers.py:60-99. -/
def nodeWith (ty : String) (fields : List String) (conditions : List (String × Matcher)) : Matcher :=
  .node (str ty) (fields.map str) (fields.map fun f => ((conditions.find? fun e => decide (e.1 = f)).map Prod.snd).getD .anything)

/-- `ast_matchers.Call(...)`. refex/fix/fixers/correctness_fixers.py:71, refex/fix/fixers/idiom_fixers.py:276. -/
def callWith : List (String × Matcher) → Matcher := nodeWith "Call" ["func", "args", "keywords"]

/-- `ast_matchers.keyword(...)`. refex/fix/fixers/correctness_fixers.py:76, refex/fix/fixers/idiom_fixers.py:292. -/
def keywordWith : List (String × Matcher) → Matcher := nodeWith "keyword" ["arg", "value"]

/-- `Equals(s)`, or just `s` where a matcher is expected (`ImplicitEquals`).
refex/python/matchers/base_matchers.py:540-547, refex/python/matcher.py:204-219. -/
def equalsStr (s : String) : Matcher := .equals (.const 0 (.str (str s)))

/-- `ShTemplate(text)` among the templates. refex/formatting.py:587-640. -/
def shCode (text : Str) : Str := str "ShTemplate:" ++ text

/-- `attr.ib`. refex/fix/fixers/correctness_fixers.py:72. -/
def attrIb : Code := .attr (.name (str "attr")) (str "ib")

/-- The matcher of `_attrib_mutable_default_fixer`. refex/fix/fixers/correctness_fixers.py:71-78. -/
def attribMatcher (mangle : Label → Str) (default : Code) : Matcher :=
  callWith [("func", attrIb.pattern mangle []),
    ("keywords", .contains (.bind (str "keyword") (keywordWith [("arg", equalsStr "default"), ("value", default.pattern mangle [])]) none none))]

/-- `_attrib_mutable_default_fixer`; `ref` names its mapping. refex/fix/fixers/correctness_fixers.py:46-85. -/
def attribFixer (mangle : Label → Str) (ref : Nat) (default : Code) : Fixer where
  matcher := attribMatcher mangle default
  replacement := .mapping ref
  message := some (str ("The default in an attr.ib() call is shared across all instances. Mutable defaults should instead use factory=..., " ++
    "to get a unique value."))
  url := some (str "https://refex.readthedocs.io/en/latest/guide/fixers/attrib_default.html")
  category := some (str "refex.correctness.attrib-default")

/-- The defaults that are replaced, with what is put in the place of the keyword. refex/fix/fixers/correctness_fixers.py:177-182. -/
def attribDefaults : List (Code × Str) :=
  [(.emptyList, str "factory=list"), (.emptyDict, str "factory=dict"), (.call (.name (str "set")) [] [], str "factory=set")]

/-- `ast_matchers.Name(id=...)`. refex/fix/fixers/idiom_fixers.py:263, 285. -/
def nameWith (m : Matcher) : Matcher := nodeWith "Name" ["id", "ctx"] [("id", m)]

/-- `Bind(identifier, on_conflict=MERGE_IDENTICAL)`. refex/fix/fixers/idiom_fixers.py:263-266, 286-289. -/
def bindIdentical (x : String) : Matcher := .bind (str x) .anything (some .mergeIdentical) none

/-- `ast_matchers.ExceptHandler(...)`. refex/fix/fixers/idiom_fixers.py:255-256. -/
def handlerWith : List (String × Matcher) → Matcher := nodeWith "ExceptHandler" ["type", "name", "body"]

/-- `_in_exception_handler('e', on_conflict=MERGE_IDENTICAL)`. refex/fix/fixers/idiom_fixers.py:246-267. -/
def inExceptionHandler : Matcher :=
  .hasFirstAncestor (handlerWith []) (handlerWith [("name", .anyOf [nameWith (bindIdentical "e"), bindIdentical "e"])])

/-- `logging.method`. refex/fix/fixers/idiom_fixers.py:279, 320. -/
def loggingAttr (method : String) : Code := .attr (.name (str "logging")) (str method)

/-- The matcher of the first fixer for logging. refex/fix/fixers/idiom_fixers.py:275-294. -/
def loggingErrorMatcher (mangle : Label → Str) : Matcher :=
  .allOf [callWith [("func", .bind (str "logging_error") ((loggingAttr "error").pattern mangle []) none none),
    ("args", .contains (.allOf [inExceptionHandler, nameWith (bindIdentical "e")])),
    ("keywords", .unlessM (.contains (keywordWith [("arg", equalsStr "exc_info")])))]]

/-- The first fixer for logging. refex/fix/fixers/idiom_fixers.py:270-309. -/
def loggingErrorFixer (mangle : Label → Str) (ref : Nat) : Fixer where
  matcher := loggingErrorMatcher mangle
  replacement := .mapping ref
  message := some (str "Use logging.exception inside an except handler to automatically log the full stack trace of the error")
  url := some (str "https://refex.readthedocs.io/en/latest/guide/fixers/logging_exceptions.html")
  category := some (str "idioms.logging.exception")

/-- `ast_matchers.Try(...)`. refex/fix/fixers/idiom_fixers.py:243, 331-332. -/
def tryWith : List (String × Matcher) → Matcher := nodeWith "Try" ["body", "handlers", "orelse", "finalbody"]

/-- `ast_matchers.Call(func=Bind('func'))`. refex/fix/fixers/idiom_fixers.py:345-352. -/
def callBound : Matcher := callWith [("func", .bind (str "func") .anything none none)]

/-- The regular expression for a double quote with something on both sides. refex/fix/fixers/idiom_fixers.py:357. -/
def quoteRegex : Str := str ".+\".+"

/-- The one statement of the `try` block. refex/fix/fixers/idiom_fixers.py:342-357. -/
def triedStatement : Matcher :=
  .allOf [.anyOf [nodeWith "Return" ["value"] [("value", callBound)], nodeWith "Expr" ["value"] [("value", callBound)],
      nodeWith "Assign" ["targets", "value", "type_comment"] [("value", callBound)]],
    .unlessM (.matchesRegex quoteRegex .anything)]

/-- The matcher of the second fixer for logging. refex/fix/fixers/idiom_fixers.py:315-359. -/
def loggingExceptionMatcher (mangle : Label → Str) : Matcher :=
  .allOf [.bind (str "logging_exception") (.rebind ((Code.expr (.call (loggingAttr "exception") [.var (str "arg")] [])).pattern mangle
      [(str "arg", nameWith (.bind (str "e") .anything none none))]) (some .mergeIdentical) none) none none,
    inExceptionHandler,
    .hasFirstAncestor (tryWith []) (tryWith [("body", .allOf [.itemsAre [triedStatement]])])]

/-- The second fixer for logging. refex/fix/fixers/idiom_fixers.py:310-383. -/
def loggingExceptionFixer (mangle : Label → Str) (ref : Nat) : Fixer where
  matcher := loggingExceptionMatcher mangle
  replacement := .mapping ref
  message := some (str ("logging.exception automatically records the message and full stack trace of the current exception, so it is redundant " ++
    "to pass the exception as the logging message. Instead, prefer to describe what action triggered the exception."))
  url := some (str "https://refex.readthedocs.io/en/latest/guide/fixers/logging_exceptions.html")
  category := some (str "idioms.logging.exception")
  significant := false

/-- The mappings given to the fixers as replacements. refex/fix/fixers/correctness_fixers.py:79, 177-182; refex/fix/fixers/idiom_fixers.py:296-298, 360-370. -/
def builtinHeap : MapHeap
  | 0 => [(str "keyword", shCode (str "factory=list"))]
  | 1 => [(str "keyword", shCode (str "factory=dict"))]
  | 2 => [(str "keyword", shCode (str "factory=set"))]
  | 3 => [(str "logging_error", templateCode .stmt (str "logging.exception"))]
  | 4 => [(str "logging_exception", shCode (str "logging.exception('Call to \"$func\" resulted in an error')"))]
  | _ => []

/-- `correctness_fixers.SIMPLE_PYTHON_FIXERS`. refex/fix/fixers/correctness_fixers.py:88-212. -/
def correctnessFixers (mangle : Label → Str) : List Fixer :=
  (literalRules ++ yamlRules ++ parensRules).map (Rule.fixer mangle) ++
  [attribFixer mangle 0 .emptyList, attribFixer mangle 1 .emptyDict, attribFixer mangle 2 (.call (.name (str "set")) [] [])] ++
  datetimeRules.map (Rule.fixer mangle)

/-- `idiom_fixers.SIMPLE_PYTHON_FIXERS`. refex/fix/fixers/idiom_fixers.py:386-402. -/
def idiomFixers (mangle : Label → Str) : List Fixer :=
  idiomRules.map (Rule.fixer mangle) ++ constantRules.map (Rule.fixer mangle) ++ [loggingErrorFixer mangle 3, loggingExceptionFixer mangle 4]

/-- `unittest_fixers.SIMPLE_PYTHON_FIXERS`. refex/fix/fixers/unittest_fixers.py:98-227. -/
def unittestFixers (mangle : Label → Str) : List Fixer := unittestRules.map (Rule.fixer mangle)

/-- The registry after import. refex/fix/find_fixer.py:27-52. -/
def refexRegistry (mangle : Label → Str) : Except Exc (Registry Fixer) :=
  builtinRegistry (correctnessFixers mangle) (idiomFixers mangle) (unittestFixers mangle)

end Refex
