import Verif.Model.BuiltinGroups
/- The examples of fixers: refex/fix/fixer.py:133-175 and refex/fix/generate_example.py. -/
namespace Refex
set_option autoImplicit false

/-- What the examples of a `SimplePythonFixer` are made from: the text of its pattern, if its matcher is an `ExprPattern` or a
`StmtPattern`; whether that has restrictions; the text of its template, if that is one for the whole match; the examples it was
given. refex/fix/fixer.py:100-107. -/
structure ExampleInfo where
  pattern : Option Str := none
  restricted : Bool := false
  template : Option Str := none
  fragment : Option Str := none
  replacement : Option Str := none

/-- `ImmutableDefaultDict(factory)[key]`: always `factory(key)`, never a `KeyError`. refex/fix/fixer.py:162-175. -/
def immutableDefaultDict {α β : Type} (factory : α → β) : α → Option β := fun k => some (factory k)

/-- `string.Template(text).substitute(ImmutableDefaultDict(lambda k: k))`. refex/fix/fixer.py:142-143, 154-155. -/
def withoutDollars (text : Str) : Except Exc Str := shSubst (immutableDefaultDict fun k => k) (shTokens text.length text)

/-- `example_fragment`. refex/fix/fixer.py:133-143. -/
def ExampleInfo.exampleFragment (e : ExampleInfo) : Except Exc (Option Str) :=
  match e.fragment with
  | some s => .ok (some s)
  | none =>
    match e.pattern with
    | none => .ok none
    | some text => if e.restricted then .ok none else (withoutDollars text).map some

/-- `example_replacement`. refex/fix/fixer.py:145-155. -/
def ExampleInfo.exampleReplacement (e : ExampleInfo) : Except Exc (Option Str) :=
  match e.fragment with
  | some _ => .ok e.replacement
  | none =>
    match e.replacement with
    | some _ => .error .typeError
    | none =>
      match e.template with
      | none => .error .typeError
      | some text => (withoutDollars text).map some

/-- What the examples of a rule are made from. refex/fix/fixers/unittest_fixers.py:98-227, refex/fix/fixers/idiom_fixers.py:386-402. -/
def Rule.examples (r : Rule) (given : Option (String × String) := none) : ExampleInfo where
  pattern := match r.guard with | .none => some r.oldText | _ => none
  restricted := !r.restrictions.isEmpty
  template := some r.newText
  fragment := given.map fun e => str e.1
  replacement := given.map fun e => str e.2

/-- Examples that are given with a fixer that is not a rule. refex/fix/fixers/correctness_fixers.py:83-84,
refex/fix/fixers/idiom_fixers.py:297-308, 371-382. -/
def givenExample (fragment replacement : String) : ExampleInfo := { fragment := some (str fragment), replacement := some (str replacement) }

/-- Those of the correctness fixers. refex/fix/fixers/correctness_fixers.py:83-84, 98-99, 110-111, 123-124, 136-137, 169-170, 194-196, 208-210. -/
def correctnessExamples : List ExampleInfo :=
  List.zipWith (fun r g => Rule.examples r (some g)) (literalRules ++ yamlRules ++ parensRules)
    [("lhs is 42", "lhs == 42"), ("lhs is not 42", "lhs != 42"), ("import yaml; yaml.load(x)", "import yaml; yaml.safe_load(x)"),
     ("import yaml; yaml.load_all(x)", "import yaml; yaml.safe_load_all(x)"), ("x = \"hello %s\" % (world)", "x = \"hello %s\" % (world,)")] ++
  [givenExample "attr.ib(default=[])" "attr.ib(factory=list)", givenExample "attr.ib(default={})" "attr.ib(factory=dict)",
   givenExample "attr.ib(default=set())" "attr.ib(factory=set)"] ++
  List.zipWith (fun r g => Rule.examples r (some g)) datetimeRules
    [("datetime.datetime.utcfromtimestamp(foo)", "datetime.datetime.fromtimestamp(foo, tz=datetime.timezone.utc)"),
     ("datetime.datetime.utcnow()", "datetime.datetime.now(tz=datetime.timezone.utc)")]

/-- Those of the idiom fixers (`textwrap.dedent` is evaluated). refex/fix/fixers/idiom_fixers.py:198-199, 211-212, 219-220, 297-308, 371-382. -/
def idiomExamples : List ExampleInfo :=
  idiomRules.map (Rule.examples ·) ++
  List.zipWith (fun r g => Rule.examples r (some g)) constantRules
    [("FOO_BAR = {1, 2, 3}", "FOO_BAR = frozenset({1, 2, 3})"), ("_BAZ = {x for x in y()}", "_BAZ = frozenset({x for x in y()})"),
     ("_FOO1_BAZ2 = set(my_mod.my_func())", "_FOO1_BAZ2 = frozenset(my_mod.my_func())")] ++
  [givenExample "\ntry:\n  x = bar() + baz()\nexcept KeyError as e:\n  logging.error('Bad thing happened: %s', e)\n"
     "\ntry:\n  x = bar() + baz()\nexcept KeyError as e:\n  logging.exception('Bad thing happened: %s', e)\n",
   givenExample "\ntry:\n  bar()\nexcept KeyError as e:\n  logging.exception(e)\n"
     "\ntry:\n  bar()\nexcept KeyError as e:\n  logging.exception('Call to \"bar\" resulted in an error')\n"]

/-- Those of the unittest fixers. refex/fix/fixers/unittest_fixers.py:35-95. -/
def unittestExamples : List ExampleInfo := unittestRules.map (Rule.examples ·)

/-- Those of all fixers. refex/fix/generate_example.py:26, refex/fix/find_fixer.py:43-52. -/
def builtinExamples : List ExampleInfo := correctnessExamples ++ idiomExamples ++ unittestExamples

/-- The fragments, one after the other; joining raises `TypeError` if one is `None`, after all have been asked for.
refex/fix/generate_example.py:26-29. -/
def exampleLines : List ExampleInfo → Except Exc (List (Option Str))
  | [] => .ok []
  | e :: es =>
    match e.exampleFragment with
    | .error x => .error x
    | .ok f => (exampleLines es).map (f :: ·)

/-- `u'\n'.join(lines)`: all items must be strings. refex/fix/generate_example.py:29. -/
def joinLines (lines : List (Option Str)) : Except Exc Str :=
  if lines.any Option.isNone then .error .typeError else .ok (joinWith (str "\n") (lines.filterMap id))

/-- `example_source`, before it is encoded. refex/fix/generate_example.py:22-29. -/
def exampleSource (es : List ExampleInfo) : Except Exc Str :=
  match exampleLines es with
  | .error x => .error x
  | .ok fs => joinLines ([some (str "# coding: utf-8"), some (str "# Only enable refex warnings: pylint: skip-file")] ++ fs ++ [some []])

end Refex
