import Verif.Model.Fixers
import Verif.Model.PatternBuild
import Verif.Model.PyTemplate
/-
The fixers that come with refex: refex/fix/fixers/correctness_fixers.py, idiom_fixers.py and unittest_fixers.py. A pattern or template
is given by its text and by the syntax tree that Python's parser makes of it (`Code`, of which `Code.text` is the text).
-/
namespace Refex
set_option autoImplicit false

/-- The Python code that the patterns and templates of the fixers consist of, with metavariables (`$x`).
refex/fix/fixers/unittest_fixers.py:98-227, refex/fix/fixers/idiom_fixers.py:386-402, refex/fix/fixers/correctness_fixers.py:88-212. -/
inductive Code
  /-- `$x` -/
  | var (x : Label)
  /-- a name -/
  | name (s : Str)
  /-- a number -/
  | int (i : Int)
  /-- `e.a` -/
  | attr (e : Code) (a : Str)
  /-- `f(args, keywords)` -/
  | call (f : Code) (args keywords : List Code)
  /-- `arg=value`, as an argument -/
  | keyword (arg : Str) (value : Code)
  /-- `l op r`; the operator is given by its node type -/
  | compare (l : Code) (op : Str) (r : Code)
  /-- `not e` -/
  | not (e : Code)
  /-- `l % r` -/
  | mod (l r : Code)
  /-- `(e,)` -/
  | tuple1 (e : Code)
  /-- `[]` -/
  | emptyList
  /-- `{}` -/
  | emptyDict
  /-- `[elt for target in iter]` (`ListComp`) or `{elt for target in iter}` (`SetComp`) -/
  | comp (set : Bool) (elt target iter : Code)
  /-- `target = value` -/
  | assign (target value : Code)
  /-- an expression as a statement -/
  | expr (e : Code)

/-- How the comparison operators are written. refex/fix/fixers/unittest_fixers.py:113-192. -/
def opText (op : Str) : Str :=
  if op = str "Eq" then str "==" else if op = str "NotEq" then str "!="
  else if op = str "Is" then str "is" else if op = str "IsNot" then str "is not"
  else if op = str "In" then str "in" else if op = str "NotIn" then str "not in"
  else if op = str "Lt" then str "<" else if op = str "LtE" then str "<="
  else if op = str "Gt" then str ">" else if op = str "GtE" then str ">=" else []

mutual
/-- The text of the code (the code of the fixers needs no parentheses). refex/fix/fixers/unittest_fixers.py:98-227. -/
def Code.text : Code → Str
  | .var x => str "$" ++ x
  | .name s => s
  | .int i => str (toString i)
  | .attr e a => e.text ++ str "." ++ a
  | .call f as ks => f.text ++ str "(" ++ joinWith (str ", ") (Code.texts as ++ Code.texts ks) ++ str ")"
  | .keyword a v => a ++ str "=" ++ v.text
  | .compare l op r => l.text ++ str " " ++ opText op ++ str " " ++ r.text
  | .not e => str "not " ++ e.text
  | .mod l r => l.text ++ str " % " ++ r.text
  | .tuple1 e => str "(" ++ e.text ++ str ",)"
  | .emptyList => str "[]"
  | .emptyDict => str "{}"
  | .comp set e t i =>
    (if set then str "{" else str "[") ++ e.text ++ str " for " ++ t.text ++ str " in " ++ i.text ++ (if set then str "}" else str "]")
  | .assign t v => t.text ++ str " = " ++ v.text
  | .expr e => e.text
/-- The texts of several. refex/fix/fixers/unittest_fixers.py:98-227. -/
def Code.texts : List Code → List Str
  | [] => []
  | e :: es => e.text :: Code.texts es
end

mutual
/-- The metavariables, from left to right in the order of the fields of the nodes. refex/python/matchers/syntax_matchers.py:274-303. -/
def Code.vars : Code → List Label
  | .var x => [x]
  | .attr e _ => e.vars
  | .call f as ks => f.vars ++ (Code.varss as ++ Code.varss ks)
  | .keyword _ v => v.vars
  | .compare l _ r => l.vars ++ r.vars
  | .not e => e.vars
  | .mod l r => l.vars ++ r.vars
  | .tuple1 e => e.vars
  | .comp _ e t i => e.vars ++ (t.vars ++ i.vars)
  | .assign t v => t.vars ++ v.vars
  | .expr e => e.vars
  | _ => []
/-- Those of several. refex/python/matchers/syntax_matchers.py:274-303. -/
def Code.varss : List Code → List Label
  | [] => []
  | e :: es => e.vars ++ Code.varss es
end

/-- A node of the tree of a pattern; its identity does not matter. refex/python/matchers/syntax_matchers.py:274-303. -/
def codeNode (ty : Str) (fs : List (Str × Val)) : Val := .node 0 ty (fs.map Prod.fst) (fs.map Prod.snd)

/-- `ast.Load()`. refex/python/matchers/syntax_matchers.py:296-303. -/
def loadNode : Val := codeNode (str "Load") []

/-- A name. refex/python/matchers/syntax_matchers.py:293-303. -/
def nameNode (s : Str) : Val := codeNode (str "Name") [(str "id", .const 0 (.str s)), (str "ctx", loadNode)]

mutual
/-- The tree that `ast.parse` makes of the code, with the names that `mangle` gives to metavariables in their place
(for Python 3.8 to 3.11; the context of names is left out by patterns, so it does not matter that a target is not `Load`).
refex/python/matchers/syntax_matchers.py:128-225, 356-370. -/
def Code.val (mangle : Label → Str) : Code → Val
  | .var x => nameNode (mangle x)
  | .name s => nameNode s
  | .int i => codeNode (str "Constant") [(str "value", .const 0 (.int i)), (str "kind", .const 0 .none)]
  | .attr e a => codeNode (str "Attribute") [(str "value", e.val mangle), (str "attr", .const 0 (.str a)), (str "ctx", loadNode)]
  | .call f as ks =>
    codeNode (str "Call") [(str "func", f.val mangle), (str "args", .list 0 (Code.vals mangle as)), (str "keywords", .list 0 (Code.vals mangle ks))]
  | .keyword a v => codeNode (str "keyword") [(str "arg", .const 0 (.str a)), (str "value", v.val mangle)]
  | .compare l op r =>
    codeNode (str "Compare") [(str "left", l.val mangle), (str "ops", .list 0 [codeNode op []]), (str "comparators", .list 0 [r.val mangle])]
  | .not e => codeNode (str "UnaryOp") [(str "op", codeNode (str "Not") []), (str "operand", e.val mangle)]
  | .mod l r => codeNode (str "BinOp") [(str "left", l.val mangle), (str "op", codeNode (str "Mod") []), (str "right", r.val mangle)]
  | .tuple1 e => codeNode (str "Tuple") [(str "elts", .list 0 [e.val mangle]), (str "ctx", loadNode)]
  | .emptyList => codeNode (str "List") [(str "elts", .list 0 []), (str "ctx", loadNode)]
  | .emptyDict => codeNode (str "Dict") [(str "keys", .list 0 []), (str "values", .list 0 [])]
  | .comp set e t i =>
    codeNode (if set then str "SetComp" else str "ListComp") [(str "elt", e.val mangle), (str "generators", .list 0 [codeNode (str "comprehension")
      [(str "target", t.val mangle), (str "iter", i.val mangle), (str "ifs", .list 0 []), (str "is_async", .const 0 (.int 0))]])]
  | .assign t v =>
    codeNode (str "Assign") [(str "targets", .list 0 [t.val mangle]), (str "value", v.val mangle), (str "type_comment", .const 0 .none)]
  | .expr e => codeNode (str "Expr") [(str "value", e.val mangle)]
/-- The trees of several. refex/python/matchers/syntax_matchers.py:289. -/
def Code.vals (mangle : Label → Str) : List Code → List Val
  | [] => []
  | e :: es => e.val mangle :: Code.vals mangle es
end

/-- `ExprPattern(text, restrictions)` or `StmtPattern(text, restrictions)`, whose text is that of the code.
refex/python/matchers/syntax_matchers.py:356-437. -/
def Code.pattern (mangle : Label → Str) (restrictions : Dict Label Matcher) (p : Code) : Matcher :=
  patternMatcher (submatchers [] ((dedup p.vars).map fun x => (x, mangle x)) restrictions) (p.val mangle)

/-! ### Fixers that replace one piece of code by another -/

/-- What the texts of the built-in rules are made into: an expression or a statement. refex/python/syntactic_template.py:346-393. -/
inductive RuleKind
  | expr | stmt
  deriving DecidableEq, Repr

/-- What a metavariable may be restricted to: the matchers given with the patterns of the rules.
refex/fix/fixers/correctness_fixers.py:35-38, 157-162; refex/fix/fixers/idiom_fixers.py:38, 195, 208. -/
inductive Restriction
  /-- `_LITERAL` -/
  | literal
  /-- `_STRING_LITERAL` -/
  | stringLiteral
  /-- `AllOf(AnyOf(Attribute(), Name()))` -/
  | nameOrAttribute
  /-- `_CONSTANT_MATCHER` -/
  | constantCase
  /-- `Set()` -/
  | set
  /-- `SetComp()` -/
  | setComp
  deriving DecidableEq, Repr

/-- A node matcher without conditions on the fields, such as `Attribute()`. refex/python/matchers/ast_matchers.py:60-99. -/
def anyNode (ty : String) (fields : List String) : Matcher := .node (str ty) (fields.map str) (fields.map fun _ => .anything)

/-- `AnyOf(Str(), Bytes())`. refex/fix/fixers/correctness_fixers.py:35. -/
def stringLiteralMatcher : Matcher := .anyOf [.constant [str "str"] .anything, .constant [str "bytes"] .anything]

/-- The regular expression of the names of constants. refex/fix/fixers/idiom_fixers.py:38. -/
def constantRegex : Str := str "[A-Z_\\d]+"

/-- The regular expression of code that ends in a parenthesis but does not begin with one. refex/fix/fixers/correctness_fixers.py:163. -/
def parensRegex : Str := str "[^(].+\\)"

/-- The matchers. refex/fix/fixers/correctness_fixers.py:35-38, 157-162; refex/fix/fixers/idiom_fixers.py:38, 195, 208. -/
def Restriction.matcher : Restriction → Matcher
  | .literal => .anyOf [.constant [str "int", str "float", str "complex"] .anything, stringLiteralMatcher]
  | .stringLiteral => stringLiteralMatcher
  | .nameOrAttribute => .allOf [.anyOf [anyNode "Attribute" ["value", "attr", "ctx"], anyNode "Name" ["id", "ctx"]]]
  | .constantCase => .matchesRegex constantRegex .anything
  | .set => anyNode "Set" ["elts"]
  | .setComp => anyNode "SetComp" ["elt", "generators"]

/-- What a rule asks beside its pattern: nothing, that the module is imported, or that the text matches a regular expression.
refex/fix/fixers/correctness_fixers.py:116-117, 128-129, 163. -/
inductive Guard
  | none
  | imported (module : Str)
  | regex (rx : Str)
  deriving DecidableEq

/-- The matcher of a pattern with a guard. refex/fix/fixers/correctness_fixers.py:116-117, 128-129, 141-164. -/
def Guard.matcher : Guard → Matcher → Matcher
  | .none, m => m
  | .imported module, m => .withTopLevelImport m module module
  | .regex rx, m => .allOf [m, .matchesRegex rx .anything]

/-- A fixer given by a pattern and a template. refex/fix/fixer.py:77-108. -/
structure Rule where
  kind : RuleKind := .expr
  restrictions : Dict Label Restriction := []
  guard : Guard := .none
  oldText : Str
  old : Code
  newText : Str
  new : Code
  message : Str
  url : Str
  category : Str
  significant : Bool := true

/-- `string.Template(text).substitute(dotdotdot)`. refex/fix/fixers/idiom_fixers.py:60-63, refex/fix/fixers/unittest_fixers.py:49-54. -/
def dotted (text : Str) : Str :=
  match shSubst (fun _ => some (str "...")) (shTokens text.length text) with
  | .ok s => s
  | .error _ => []

/-- `assert_alias_fixer`. refex/fix/fixers/unittest_fixers.py:35-60. -/
def aliasRule (oldText : String) (old : Code) (newText : String) (new : Code) (url : String) : Rule where
  oldText := str oldText
  old := old
  newText := str newText
  new := new
  message := dotted (str oldText) ++ str " is a deprecated alias for " ++ dotted (str newText) ++ str " in the unittest module."
  url := str url
  category := str "pylint.g-deprecated-assert"
  significant := false

/-- `assert_message_fixer`. refex/fix/fixers/unittest_fixers.py:63-95. -/
def assertRule (oldText : String) (old : Code) (newText : String) (new : Code) (method : String) (isAbsl : Bool := false) : Rule where
  oldText := str oldText
  old := old
  newText := str newText
  new := new
  message := dotted (str newText) ++ str " is a more specific assertion, and may give more detailed error information than " ++
    dotted (str oldText) ++ str "."
  url := if isAbsl then str "https://github.com/abseil/abseil-py/search?q=%22def+" ++ str method ++ str "%22"
    else str "https://docs.python.org/3/library/unittest.html#unittest.TestCase." ++ str method
  category := str "pylint.g-generic-assert"

/-- `idiom_fixer`. refex/fix/fixers/idiom_fixers.py:41-70. -/
def idiomRule (oldText : String) (old : Code) (newText : String) (new : Code) (category : String) : Rule where
  oldText := str oldText
  old := old
  newText := str newText
  new := new
  message := str "This could be more Pythonic: " ++ dotted (str oldText) ++ str " -> " ++ dotted (str newText) ++ str "."
  url := str "https://refex.readthedocs.io/en/latest/guide/fixers/idiom.html"
  category := str category
  significant := false

/-- `$lhs`. refex/fix/fixers/unittest_fixers.py:113. -/
def vLhs : Code := .var (str "lhs")
/-- `$rhs`. refex/fix/fixers/unittest_fixers.py:113. -/
def vRhs : Code := .var (str "rhs")
/-- `self.method(args)`. refex/fix/fixers/unittest_fixers.py:113. -/
def selfCall (method : String) (args : List Code) : Code := .call (.attr (.name (str "self")) (str method)) args []
/-- `self.method($lhs op $rhs)`. refex/fix/fixers/unittest_fixers.py:113. -/
def assertCmp (method op : String) : Code := selfCall method [.compare vLhs (str op) vRhs]
/-- `isinstance($lhs, $rhs)`. refex/fix/fixers/unittest_fixers.py:195. -/
def isInstanceCall : Code := .call (.name (str "isinstance")) [vLhs, vRhs] []

/-- The fixers for assertions. refex/fix/fixers/unittest_fixers.py:98-227. -/
def unittestRules : List Rule := [
  aliasRule "self.assertItemsEqual" (.attr (.name (str "self")) (str "assertItemsEqual"))
    "self.assertCountEqual" (.attr (.name (str "self")) (str "assertCountEqual"))
    "https://docs.python.org/2/library/unittest.html#unittest.TestCase.assertItemsEqual",
  assertRule "self.assertTrue($lhs == $rhs)" (assertCmp "assertTrue" "Eq") "self.assertEqual($lhs, $rhs)" (selfCall "assertEqual" [vLhs, vRhs]) "assertEqual",
  assertRule "self.assertTrue($lhs != $rhs)" (assertCmp "assertTrue" "NotEq") "self.assertNotEqual($lhs, $rhs)" (selfCall "assertNotEqual" [vLhs, vRhs]) "assertNotEqual",
  assertRule "self.assertTrue($lhs == $rhs)" (assertCmp "assertTrue" "Eq") "self.assertEqual($lhs, $rhs)" (selfCall "assertEqual" [vLhs, vRhs]) "assertEqual",
  assertRule "self.assertTrue($lhs != $rhs)" (assertCmp "assertTrue" "NotEq") "self.assertNotEqual($lhs, $rhs)" (selfCall "assertNotEqual" [vLhs, vRhs]) "assertNotEqual",
  assertRule "self.assertTrue($lhs is $rhs)" (assertCmp "assertTrue" "Is") "self.assertIs($lhs, $rhs)" (selfCall "assertIs" [vLhs, vRhs]) "assertIs",
  assertRule "self.assertTrue($lhs is not $rhs)" (assertCmp "assertTrue" "IsNot") "self.assertIsNot($lhs, $rhs)" (selfCall "assertIsNot" [vLhs, vRhs]) "assertIsNot",
  assertRule "self.assertFalse($lhs is $rhs)" (assertCmp "assertFalse" "Is") "self.assertIsNot($lhs, $rhs)" (selfCall "assertIsNot" [vLhs, vRhs]) "assertIsNot",
  assertRule "self.assertFalse($lhs is not $rhs)" (assertCmp "assertFalse" "IsNot") "self.assertIs($lhs, $rhs)" (selfCall "assertIs" [vLhs, vRhs]) "assertIs",
  assertRule "self.assertTrue($lhs in $rhs)" (assertCmp "assertTrue" "In") "self.assertIn($lhs, $rhs)" (selfCall "assertIn" [vLhs, vRhs]) "assertIn",
  assertRule "self.assertTrue($lhs not in $rhs)" (assertCmp "assertTrue" "NotIn") "self.assertNotIn($lhs, $rhs)" (selfCall "assertNotIn" [vLhs, vRhs]) "assertNotIn",
  assertRule "self.assertFalse($lhs in $rhs)" (assertCmp "assertFalse" "In") "self.assertNotIn($lhs, $rhs)" (selfCall "assertNotIn" [vLhs, vRhs]) "assertNotIn",
  assertRule "self.assertFalse($lhs not in $rhs)" (assertCmp "assertFalse" "NotIn") "self.assertIn($lhs, $rhs)" (selfCall "assertIn" [vLhs, vRhs]) "assertIn",
  assertRule "self.assertTrue($lhs > $rhs)" (assertCmp "assertTrue" "Gt") "self.assertGreater($lhs, $rhs)" (selfCall "assertGreater" [vLhs, vRhs]) "assertGreater",
  assertRule "self.assertTrue($lhs >= $rhs)" (assertCmp "assertTrue" "GtE") "self.assertGreaterEqual($lhs, $rhs)" (selfCall "assertGreaterEqual" [vLhs, vRhs]) "assertGreaterEqual",
  assertRule "self.assertTrue($lhs < $rhs)" (assertCmp "assertTrue" "Lt") "self.assertLess($lhs, $rhs)" (selfCall "assertLess" [vLhs, vRhs]) "assertLess",
  assertRule "self.assertTrue($lhs <= $rhs)" (assertCmp "assertTrue" "LtE") "self.assertLessEqual($lhs, $rhs)" (selfCall "assertLessEqual" [vLhs, vRhs]) "assertLessEqual",
  assertRule "self.assertTrue(isinstance($lhs, $rhs))" (selfCall "assertTrue" [isInstanceCall])
    "self.assertIsInstance($lhs, $rhs)" (selfCall "assertIsInstance" [vLhs, vRhs]) "assertIsInstance",
  assertRule "self.assertTrue(not isinstance($lhs, $rhs))" (selfCall "assertTrue" [.not isInstanceCall])
    "self.assertNotIsInstance($lhs, $rhs)" (selfCall "assertNotIsInstance" [vLhs, vRhs]) "assertNotIsInstance",
  assertRule "self.assertFalse(isinstance($lhs, $rhs))" (selfCall "assertFalse" [isInstanceCall])
    "self.assertNotIsInstance($lhs, $rhs)" (selfCall "assertNotIsInstance" [vLhs, vRhs]) "assertNotIsInstance",
  assertRule "self.assertFalse(not isinstance($lhs, $rhs))" (selfCall "assertFalse" [.not isInstanceCall])
    "self.assertIsInstance($lhs, $rhs)" (selfCall "assertIsInstance" [vLhs, vRhs]) "assertIsInstance",
  assertRule "self.assertLen($x, 0)" (selfCall "assertLen" [.var (str "x"), .int 0]) "self.assertEmpty($x)" (selfCall "assertEmpty" [.var (str "x")]) "assertEmpty" true]

/-- `$a`. refex/fix/fixers/idiom_fixers.py:389. -/
def vA : Code := .var (str "a")
/-- `$b`. refex/fix/fixers/idiom_fixers.py:389. -/
def vB : Code := .var (str "b")

/-- The first four idiom fixers. refex/fix/fixers/idiom_fixers.py:386-402. -/
def idiomRules : List Rule := [
  idiomRule "not $a is $b" (.not (.compare vA (str "Is") vB)) "$a is not $b" (.compare vA (str "IsNot") vB) "pylint.g-comparison-negation",
  idiomRule "not $a in $b" (.not (.compare vA (str "In") vB)) "$a not in $b" (.compare vA (str "NotIn") vB) "pylint.g-comparison-negation",
  idiomRule "[$a for $a in $b]" (.comp false vA vA vB) "list($b)" (.call (.name (str "list")) [vB] []) "idioms.uncessary-comprehension",
  idiomRule "{$a for $a in $b}" (.comp true vA vA vB) "set($b)" (.call (.name (str "set")) [vB] []) "idioms.uncessary-comprehension"]

/-- `datetime.datetime.method`. refex/fix/fixers/correctness_fixers.py:184-211. -/
def dtAttr (method : String) : Code := .attr (.attr (.name (str "datetime")) (str "datetime")) (str method)
/-- `tz=datetime.timezone.utc`. refex/fix/fixers/correctness_fixers.py:193, 207. -/
def tzUtc : Code := .keyword (str "tz") (.attr (.attr (.name (str "datetime")) (str "timezone")) (str "utc"))

/-- The fixers for naive datetimes. refex/fix/fixers/correctness_fixers.py:184-211. -/
def datetimeRules : List Rule := [
  { oldText := str "datetime.datetime.utcfromtimestamp($a)"
    old := .call (dtAttr "utcfromtimestamp") [vA] []
    newText := str "datetime.datetime.fromtimestamp($a, tz=datetime.timezone.utc)"
    new := .call (dtAttr "fromtimestamp") [vA] [tzUtc]
    message := str "utcfromtimestamp() returns a timezone-naive UTC datetime, which is bug-prone."
    url := str "https://docs.python.org/3/library/datetime.html#datetime.datetime.utcfromtimestamp"
    category := str "refex.correctness.datetime.utcfromtimestamp" },
  { oldText := str "datetime.datetime.utcnow()"
    old := .call (dtAttr "utcnow") [] []
    newText := str "datetime.datetime.now(tz=datetime.timezone.utc)"
    new := .call (dtAttr "now") [] [tzUtc]
    message := str "utcnow() returns a timezone-naive UTC datetime, which is bug-prone."
    url := str "https://docs.python.org/3/library/datetime.html#datetime.datetime.utcnow"
    category := str "refex.correctness.datetime.utcnow" }]

/-- The fixers for comparisons with literals. refex/fix/fixers/correctness_fixers.py:89-113. -/
def literalRules : List Rule := [
  { oldText := str "$lhs is $rhs"
    old := .compare vLhs (str "Is") vRhs
    restrictions := [(str "rhs", .literal)]
    newText := str "$lhs == $rhs"
    new := .compare vLhs (str "Eq") vRhs
    message := str ("`is` only sometimes works for comparing equality with literals.  This is a bug that will manifest in subtle ways." ++
      " == is more appropriate.")
    url := str "https://refex.readthedocs.io/en/latest/guide/fixers/literal_comparison.html"
    category := str "pylint.literal-comparison" },
  { oldText := str "$lhs is not $rhs"
    old := .compare vLhs (str "IsNot") vRhs
    restrictions := [(str "rhs", .literal)]
    newText := str "$lhs != $rhs"
    new := .compare vLhs (str "NotEq") vRhs
    message := str ("`is not` only sometimes works for comparing inequality with literals. This is a bug that will manifest in subtle ways." ++
      " != is more appropriate.")
    url := str "https://refex.readthedocs.io/en/latest/guide/fixers/literal_comparison.html"
    category := str "pylint.literal-comparison" }]

/-- `_YAML_MESSAGE.format(function=function)`. refex/fix/fixers/correctness_fixers.py:40-43. -/
def yamlMessage (function : String) : Str :=
  str ("yaml." ++ function ++ " can execute arbitrary Python code contained in the input. " ++
    "Use yaml.safe_load instead. This may require changing dumps to use yaml.safe_dump.")

/-- `yaml.function($s)`. refex/fix/fixers/correctness_fixers.py:116-131. -/
def yamlCall (function : String) : Code := .call (.attr (.name (str "yaml")) (str function)) [.var (str "s")] []

/-- The fixers for yaml. refex/fix/fixers/correctness_fixers.py:114-138. -/
def yamlRules : List Rule := [
  { oldText := str "yaml.load($s)"
    old := yamlCall "load"
    guard := .imported (str "yaml")
    newText := str "yaml.safe_load($s)"
    new := yamlCall "safe_load"
    message := yamlMessage "load"
    url := str "https://msg.pyyaml.org/load"
    category := str "refex.security.yaml_safe_load" },
  { oldText := str "yaml.load_all($s)"
    old := yamlCall "load_all"
    guard := .imported (str "yaml")
    newText := str "yaml.safe_load_all($s)"
    new := yamlCall "safe_load_all"
    message := yamlMessage "load_all"
    url := str "https://msg.pyyaml.org/load"
    category := str "refex.security.yaml_safe_load" }]

/-- The fixer for superfluous parentheses. refex/fix/fixers/correctness_fixers.py:139-170. -/
def parensRules : List Rule := [
  { oldText := str "$a % $b"
    old := .mod vA vB
    restrictions := [(str "a", .stringLiteral), (str "b", .nameOrAttribute)]
    guard := .regex parensRegex
    newText := str "$a % ($b,)"
    new := .mod vA (.tuple1 vB)
    message := str "Parentheses around a single variable have no effect. Did you mean to format with a tuple?"
    url := str "https://refex.readthedocs.io/en/latest/guide/fixers/superfluous_parens.html"
    category := str "refex.correctness.formatting" }]

/-- `_mutable_constant_fixer`. refex/fix/fixers/idiom_fixers.py:73-81. -/
def constantRule (oldText : String) (old : Code) (restrictions : List (Label × Restriction)) (newText : String) (new : Code) : Rule where
  kind := .stmt
  oldText := str oldText
  old := old
  restrictions := restrictions
  newText := str newText
  new := new
  message := str "For constants, prefer immutable collections (like frozensets or tuples) to mutable collections (like sets or lists)."
  url := str "https://refex.readthedocs.io/en/latest/guide/fixers/mutable_constants.html"
  category := str "idioms.mutable-constant"
  significant := false

/-- `$constant = value`. refex/fix/fixers/idiom_fixers.py:194. -/
def assignConstant (value : Code) : Code := .assign (.var (str "constant")) value

/-- `function($x)`. refex/fix/fixers/idiom_fixers.py:194. -/
def callOn (function x : String) : Code := .call (.name (str function)) [.var (str x)] []

/-- The fixers for constants. refex/fix/fixers/idiom_fixers.py:188-220. -/
def constantRules : List Rule := [
  constantRule "$constant = $set" (assignConstant (.var (str "set"))) [(str "constant", .constantCase), (str "set", .set)]
    "$constant = frozenset($set)" (assignConstant (callOn "frozenset" "set")),
  constantRule "$constant = $setcomp" (assignConstant (.var (str "setcomp"))) [(str "constant", .constantCase), (str "setcomp", .setComp)]
    "$constant = frozenset($setcomp)" (assignConstant (callOn "frozenset" "setcomp")),
  constantRule "$constant = set($iterable)" (assignConstant (callOn "set" "iterable")) [(str "constant", .constantCase)]
    "$constant = frozenset($iterable)" (assignConstant (callOn "frozenset" "iterable"))]

/-- The name of `PythonExprTemplate(text)` or `PythonStmtTemplate(text)` among the templates. refex/python/syntactic_template.py:346-393. -/
def templateCode (kind : RuleKind) (text : Str) : Str :=
  (match kind with
   | .expr => str "PythonExprTemplate:"
   | .stmt => str "PythonStmtTemplate:") ++ text

/-- The fixer of a rule. refex/fix/fixer.py:77-108. -/
def Rule.fixer (mangle : Label → Str) (r : Rule) : Fixer where
  matcher := r.guard.matcher (r.old.pattern mangle (r.restrictions.map fun e => (e.1, e.2.matcher)))
  replacement := .template (templateCode r.kind r.newText)
  message := some r.message
  url := some r.url
  category := some r.category
  significant := r.significant

end Refex
