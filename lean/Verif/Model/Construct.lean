import Verif.Model.Evaluate
import Verif.Model.NamedFunctions
import Verif.Model.Patterns
/-
What calling a matcher class makes: the `__init__` that attrs generates (parameters, converters, defaults, validators) of the
classes that matcher expressions may call, refex/python/matcher.py:150-269 and refex/python/matchers/*.py.
-/
namespace Refex
set_option autoImplicit false

/-- The objects of an evaluation. `broken` is a matcher that raises when it is used, or that is outside the matcher language of the
model (a regex that is no string, say). refex/python/matcher.py:174-269. -/
inductive Thing
  | matcher (m : Matcher)
  | broken
  | conflict (c : BindConflict)
  | merge (m : BindMerge)
  | other

/-- What is not modelled of the world: which object an identity is; the `_fields` of the node classes of `ast`; `\w`; equality of the keys of
`Once`; the matcher made of the text of a pattern (C57-C59), or what is raised; whether it is an `ExprPattern`. refex/python/matcher.py:174-269. -/
structure MakeEnv where
  thing : Nat → Thing
  fields : Str → Option (List Str)
  word : Char → Bool
  key : PVal → Key
  pattern : Bool → PVal → Option PVal → Except EErr (Option Matcher)

mutual
/-- The value that `ImplicitEquals` compares with. What is neither a constant nor a list equals nothing in a tree (constants `tuple` etc.).
refex/python/matcher.py:1007-1012. -/
def literalVal : PVal → Val
  | .const c => .const 0 c
  | .list vs => .list 0 (literalVals vs)
  | .tuple _ => .const 0 (.other (str "tuple") [] Option.none)
  | .dict _ => .const 0 (.other (str "dict") [] Option.none)
  | .set _ => .const 0 (.other (str "set") [] Option.none)
  | .obj _ => .const 0 (.other (str "object") [] Option.none)
/-- Element by element. refex/python/matcher.py:1007-1012. -/
def literalVals : List PVal → List Val
  | [] => []
  | v :: vs => literalVal v :: literalVals vs
end

/-- `coerce(value)`; `none` for a broken matcher. refex/python/matcher.py:204-219. -/
def coerce (E : MakeEnv) (v : PVal) : Option Matcher :=
  match v with
  | .obj i =>
    match E.thing i with
    | .matcher m => some m
    | .broken => none
    | _ => some (.equals (literalVal v))
  | v => some (.equals (literalVal v))

/-- `_coerce_list(values)`, given the values. refex/python/matcher.py:220-221. -/
def coerceAll (E : MakeEnv) (vs : List PVal) : Option (List Matcher) := vs.mapM (coerce E)

/-- Iteration over a value; `none` is TypeError. A dict gives its keys. refex/python/matcher.py:220-221. -/
def iterate : PVal → Option (List PVal)
  | .list vs => some vs
  | .tuple vs => some vs
  | .set vs => some vs
  | .dict items => some (dictKeys items)
  | .const (.str s) => some (s.map fun ch => .const (.str [ch]))
  | _ => none
where
  /-- Every other one. refex/python/matcher.py:220-221. -/
  dictKeys : List PVal → List PVal
    | k :: _ :: items => k :: dictKeys items
    | _ => []

/-- The classes that can be called; `node` are those generated for the classes of `ast`. refex/python/matcher.py:174-178. -/
inductive Cls
  | anything | testOnlyRaise | allOf | anyOf | unless | once | bind | rebind | stringMatch | maybeWrapped | recursivelyWrapped | equals | typeIs
  | matchesRegex | fileMatchesRegex | hasItem | itemsAre | contains | inLines
  | num | bytes | str | nameConstant | ellipsis
  | exprPattern | stmtPattern
  | hasParent | isOrHasAncestor | hasAncestor | hasChild | isOrHasDescendant | hasDescendant | hasPrevSibling | hasNextSibling
  | namedFunctionDefinition | inNamedFunction | withTopLevelImport
  | hasComments | noComments
  | node (ty : Str) (fields : List Str)

/-- The names of the classes decorated with `safe_to_eval` (without the module): refex/python/matchers/base_matchers.py:94-782,
refex/python/matchers/ast_matchers.py:160-207, refex/python/matchers/syntax_matchers.py:385-799, refex/python/matchers/lexical_matchers.py:36-60. -/
def classTable : List (String × Cls) := [
  ("Anything", .anything), ("TestOnlyRaise", .testOnlyRaise), ("AllOf", .allOf), ("AnyOf", .anyOf), ("Unless", .unless), ("Once", .once),
  ("Bind", .bind), ("Rebind", .rebind), ("StringMatch", .stringMatch), ("MaybeWrapped", .maybeWrapped), ("RecursivelyWrapped", .recursivelyWrapped),
  ("Equals", .equals), ("TypeIs", .typeIs), ("MatchesRegex", .matchesRegex), ("FileMatchesRegex", .fileMatchesRegex), ("HasItem", .hasItem),
  ("ItemsAre", .itemsAre), ("Contains", .contains), ("InLines", .inLines),
  ("Num", .num), ("Bytes", .bytes), ("Str", .str), ("NameConstant", .nameConstant), ("Ellipsis", .ellipsis),
  ("ExprPattern", .exprPattern), ("StmtPattern", .stmtPattern),
  ("HasParent", .hasParent), ("IsOrHasAncestor", .isOrHasAncestor), ("HasAncestor", .hasAncestor), ("HasChild", .hasChild),
  ("IsOrHasDescendant", .isOrHasDescendant), ("HasDescendant", .hasDescendant), ("HasPrevSibling", .hasPrevSibling), ("HasNextSibling", .hasNextSibling),
  ("NamedFunctionDefinition", .namedFunctionDefinition), ("InNamedFunction", .inNamedFunction), ("WithTopLevelImport", .withTopLevelImport),
  ("HasComments", .hasComments), ("NoComments", .noComments)]

/-- The class with the name, with or without its module. Classes written by hand stand before those generated
(refex/python/matchers/ast_matchers.py:105-108, 160-207). refex/python/evaluate.py:49-72. -/
def classNamed (E : MakeEnv) (name : Str) : Option Cls :=
  let n := (name.reverse.takeWhile (· ≠ '.')).reverse
  match classTable.find? (fun e => decide (Refex.str e.1 = n)) with
  | some e => some e.2
  | none => (E.fields n).map (.node n)

/-- How the arguments may be given. `fixed kwOnly ps`: these parameters, with whether they are required, in order. refex/python/matchers/base_matchers.py:128-138 (`variadic`). -/
inductive Signature
  | variadic
  | fixed (kwOnly : Bool) (ps : List (Str × Bool))

/-- The parameters of `__init__`: the attributes in order, without leading underscores; required are those without default. refex/python/matchers/base_matchers.py:117-782,
refex/python/matchers/ast_matchers.py:76-88, 160-207, refex/python/matchers/syntax_matchers.py:344-356, 585-825, refex/python/matchers/lexical_matchers.py:38-62. -/
def Cls.signature : Cls → Signature
  | .anything => .fixed false []
  | .testOnlyRaise => .fixed false [(Refex.str "message", true)]
  | .allOf => .variadic
  | .anyOf => .variadic
  | .once => .fixed false [(Refex.str "submatcher", true), (Refex.str "key", false)]
  | .bind => .fixed false [(Refex.str "name", true), (Refex.str "submatcher", false), (Refex.str "on_conflict", false), (Refex.str "on_merge", false)]
  | .rebind => .fixed false [(Refex.str "submatcher", false), (Refex.str "on_conflict", false), (Refex.str "on_merge", false)]
  | .stringMatch => .fixed false [(Refex.str "string", true)]
  | .maybeWrapped => .fixed false [(Refex.str "inner", true), (Refex.str "wrapper", true)]
  | .recursivelyWrapped => .fixed false [(Refex.str "inner", true), (Refex.str "wrapper", true)]
  | .equals => .fixed false [(Refex.str "value", true)]
  | .typeIs => .fixed false [(Refex.str "type", true)]
  | .matchesRegex => .fixed false [(Refex.str "regex", true), (Refex.str "subpattern", false)]
  | .fileMatchesRegex => .fixed false [(Refex.str "regex", true)]
  | .hasItem => .fixed false [(Refex.str "index", true), (Refex.str "submatcher", false)]
  | .itemsAre => .fixed false [(Refex.str "matchers", true)]
  | .inLines => .fixed false [(Refex.str "lines", true)]
  | .num => .fixed true [(Refex.str "n", false)]
  | .bytes => .fixed true [(Refex.str "s", false)]
  | .str => .fixed true [(Refex.str "s", false)]
  | .nameConstant => .fixed true [(Refex.str "value", false)]
  | .ellipsis => .fixed false []
  | .exprPattern => .fixed false [(Refex.str "pattern", true), (Refex.str "restrictions", false)]
  | .stmtPattern => .fixed false [(Refex.str "pattern", true), (Refex.str "restrictions", false)]
  | .namedFunctionDefinition => .fixed false [(Refex.str "body", false), (Refex.str "returns", false)]
  | .withTopLevelImport => .fixed false [(Refex.str "submatcher", true), (Refex.str "module_name", true), (Refex.str "as_name", false)]
  | .node _ fields => .fixed true (fields.map fun f => (f, false))
  | _ => .fixed false [(Refex.str "submatcher", true)]

/-- Positional arguments, in the order of the parameters; too many: TypeError. refex/python/matcher.py:150-171 (Python's calling convention). -/
def bindPositional : List Str → List PVal → Except EErr (Dict Str PVal)
  | _, [] => .ok []
  | [], _ :: _ => .error .typeError
  | p :: ps, a :: as => (bindPositional ps as).map fun d => (p, a) :: d

/-- Keyword arguments; one that is no parameter, or is given already: TypeError. refex/python/matcher.py:150-171 (Python's calling convention). -/
def bindKeywords (ps : List Str) : Dict Str PVal → List (Str × PVal) → Except EErr (Dict Str PVal)
  | d, [] => .ok d
  | d, (k, v) :: kws =>
    if k ∉ ps then .error .typeError
    else if d.has k then .error .typeError
    else bindKeywords ps (d.set k v) kws

/-- The arguments of a call, by parameter; TypeError if a required one is missing. refex/python/matcher.py:150-171 (Python's calling convention). -/
def bindArgs (kwOnly : Bool) (ps : List (Str × Bool)) (args : List PVal) (kws : List (Str × PVal)) : Except EErr (Dict Str PVal) :=
  if kwOnly && !args.isEmpty then .error .typeError
  else match bindPositional (ps.map Prod.fst) args with
    | .error e => .error e
    | .ok d =>
      match bindKeywords (ps.map Prod.fst) d kws with
      | .error e => .error e
      | .ok d => if ps.any (fun p => p.2 && !d.has p.1) then .error .typeError else .ok d

/-- ValueError, raised by a validator. refex/python/matchers/base_matchers.py:290-294. -/
def valueErrorCode : EErr := .callee 1

/-- AttributeError. refex/python/matchers/syntax_matchers.py:815-817. -/
def attributeErrorCode : EErr := .callee 2

/-- `submatcher_attrib(default=Anything())`, or without a default. refex/python/matcher.py:230-251. -/
def subArg (E : MakeEnv) (d : Dict Str PVal) (p : String) : Option Matcher :=
  match d.get? (Refex.str p) with
  | some v => coerce E v
  | none => some .anything

/-- `attr.validators.in_(frozenset(BindConflict) | {None})` and the value; the default is `None`. refex/python/matchers/base_matchers.py:284-286, 365-367. -/
def conflictArg (E : MakeEnv) (d : Dict Str PVal) : Except EErr (Option BindConflict) :=
  match d.get? (Refex.str "on_conflict") with
  | none => .ok none
  | some (.const .none) => .ok none
  | some (.obj i) =>
    match E.thing i with
    | .conflict c => .ok (some c)
    | _ => .error valueErrorCode
  | some _ => .error valueErrorCode

/-- `attr.validators.in_(frozenset(BindMerge) | {None})` and the value; the default is `None`. refex/python/matchers/base_matchers.py:287-289, 368-370. -/
def mergeArg (E : MakeEnv) (d : Dict Str PVal) : Except EErr (Option BindMerge) :=
  match d.get? (Refex.str "on_merge") with
  | none => .ok none
  | some (.const .none) => .ok none
  | some (.obj i) =>
    match E.thing i with
    | .merge c => .ok (some c)
    | _ => .error valueErrorCode
  | some _ => .error valueErrorCode

/-- An index; other values than integers and booleans make a matcher that is not modelled. refex/python/matchers/base_matchers.py:681-688. -/
def indexArg : Option PVal → Option Int
  | some (.const (.int i)) => some i
  | some (.const (.bool b)) => some (if b then 1 else 0)
  | _ => none

/-- A line number; other values than integers from 0 on and booleans are not modelled. refex/python/matchers/base_matchers.py:766-772. -/
def lineArg : PVal → Option Nat
  | .const (.int i) => if 0 ≤ i then some i.toNat else none
  | .const (.bool b) => some (if b then 1 else 0)
  | _ => none

/-- The lines, of a list, tuple, set or dict. refex/python/matchers/base_matchers.py:764-772. -/
def linesArg : Option PVal → Option (List Nat)
  | some (.const _) => none
  | some v => (iterate v).bind fun vs => vs.mapM lineArg
  | none => none

/-- A string. refex/python/matchers/base_matchers.py:402, 597, 648. -/
def strArg (d : Dict Str PVal) (p : String) : Option Str :=
  match d.get? (Refex.str p) with
  | some (.const (.str s)) => some s
  | _ => none

/-- `__init__` of the class on its arguments by parameter: the matcher that is made (`none`: a broken one, see `Thing`), or what is raised.
`self` is the identity of the new object. Validators run in the order of the attributes.
refex/python/matchers/base_matchers.py:94-782, refex/python/matchers/ast_matchers.py:76-207, refex/python/matchers/syntax_matchers.py:335-837,
refex/python/matchers/lexical_matchers.py:36-83. -/
def makeMatcher (E : MakeEnv) (self : Nat) (cls : Cls) (d : Dict Str PVal) : Except EErr (Option Matcher) :=
  let sub := subArg E d
  match cls with
  | .anything => .ok (some .anything)
  | .testOnlyRaise => .ok (some .testRaise)
  | .unless => .ok ((sub "submatcher").map .unlessM)
  | .once => .ok <|
    match d.get? (Refex.str "key") with
    | none => (sub "submatcher").map (.once self)
    | some k => if k.hashable then (sub "submatcher").map (.once (E.key k)) else none
  | .bind =>
    match d.get? (Refex.str "name") with
    | some (.const (.str x)) =>
      if bindNameOk E.word x then
        match conflictArg E d with
        | .error e => .error e
        | .ok oc =>
          match mergeArg E d with
          | .error e => .error e
          | .ok om => .ok ((sub "submatcher").map fun m => .bind x m oc om)
      else .error valueErrorCode
    | _ => .error .typeError
  | .rebind =>
    match conflictArg E d with
    | .error e => .error e
    | .ok oc =>
      match mergeArg E d with
      | .error e => .error e
      | .ok om => .ok ((sub "submatcher").map fun m => .rebind m oc om)
  | .stringMatch => .ok ((strArg d "string").map .stringMatch)
  | .maybeWrapped => .error .typeError
  | .recursivelyWrapped => .error .typeError
  | .equals => .ok ((d.get? (Refex.str "value")).map fun v => .equals (literalVal v))
  | .typeIs => .ok none
  | .matchesRegex => .ok ((strArg d "regex").bind fun rx => (sub "subpattern").map (.matchesRegex rx))
  | .fileMatchesRegex => .ok ((strArg d "regex").map .fileMatchesRegex)
  | .hasItem => .ok ((indexArg (d.get? (Refex.str "index"))).bind fun i => (sub "submatcher").map (.hasItem i))
  | .itemsAre =>
    match (d.get? (Refex.str "matchers")).bind iterate with
    | none => .error .typeError
    | some vs => .ok ((coerceAll E vs).map .itemsAre)
  | .contains => .ok ((sub "submatcher").map .contains)
  | .inLines => .ok ((linesArg (d.get? (Refex.str "lines"))).map .inLines)
  | .num => .ok ((sub "n").map (.constant [Refex.str "int", Refex.str "float", Refex.str "complex"]))
  | .bytes => .ok ((sub "s").map (.constant [Refex.str "bytes"]))
  | .str => .ok ((sub "s").map (.constant [Refex.str "str"]))
  | .nameConstant => .ok ((sub "value").map (.constant [Refex.str "bool", Refex.str "NoneType"]))
  | .ellipsis => .ok (some (.constant [Refex.str "ellipsis"] (.equals (.const 0 .ellipsis))))
  | .exprPattern =>
    match d.get? (Refex.str "pattern") with
    | none => .error .typeError
    | some p => E.pattern true p (d.get? (Refex.str "restrictions"))
  | .stmtPattern =>
    match d.get? (Refex.str "pattern") with
    | none => .error .typeError
    | some p => E.pattern false p (d.get? (Refex.str "restrictions"))
  | .hasParent => .ok ((sub "submatcher").map .hasParent)
  | .isOrHasAncestor => .ok ((sub "submatcher").map isOrHasAncestor)
  | .hasAncestor => .ok ((sub "submatcher").map hasAncestor)
  | .hasChild => .ok ((sub "submatcher").map .hasChild)
  | .isOrHasDescendant => .ok ((sub "submatcher").map isOrHasDescendant)
  | .hasDescendant => .ok ((sub "submatcher").map hasDescendant)
  | .hasPrevSibling => .ok ((sub "submatcher").map .hasPrevSibling)
  | .hasNextSibling => .ok ((sub "submatcher").map .hasNextSibling)
  | .namedFunctionDefinition => .ok ((sub "body").bind fun b => (sub "returns").map (namedFunctionDefinition b))
  | .inNamedFunction => .ok ((sub "submatcher").map inNamedFunction)
  | .withTopLevelImport =>
    match d.get? (Refex.str "as_name") with
    | none =>
      match strArg d "module_name" with
      | none => .error attributeErrorCode
      | some m => .ok ((sub "submatcher").map fun s => .withTopLevelImport s m (defaultAsName m))
    | some (.const (.str a)) => .ok ((strArg d "module_name").bind fun m => (sub "submatcher").map fun s => .withTopLevelImport s m a)
    | some _ => .ok none
  | .hasComments => .ok ((sub "submatcher").map (.comments true))
  | .noComments => .ok ((sub "submatcher").map (.comments false))
  | .node ty fields => .ok ((fields.mapM fun f => (match d.get? f with
      | some v => coerce E v
      | none => some .anything)).map (.node ty fields))
  | .allOf => .ok none
  | .anyOf => .ok none

/-- `_NAryMatcher.__init__(*matchers)`: the arguments are taken as they are, not coerced; what is no matcher fails when it is used.
refex/python/matchers/base_matchers.py:128-138. -/
def plainMatchers (E : MakeEnv) (vs : List PVal) : Option (List Matcher) :=
  vs.mapM fun v => match v with
    | .obj i =>
      match E.thing i with
      | .matcher m => some m
      | _ => none
    | _ => none

/-- A call of a class by name. refex/python/semiliteral_eval.py:113-117, refex/python/matcher.py:150-178. -/
def callClass (E : MakeEnv) (self : Nat) (name : Str) (args : List PVal) (kws : List (Str × PVal)) : Except EErr (Option Matcher) :=
  match classNamed E name with
  | none => .error .typeError
  | some cls =>
    match cls.signature with
    | .variadic =>
      if kws.isEmpty then .ok ((plainMatchers E args).map (match cls with
        | .allOf => .allOf
        | _ => .anyOf))
      else .error .typeError
    | .fixed kwOnly ps =>
      match bindArgs kwOnly ps args kws with
      | .error e => .error e
      | .ok d => makeMatcher E self cls d

/-- The object that a call makes. refex/python/matcher.py:174-178. -/
def Thing.ofMade : Option Matcher → Thing
  | some m => .matcher m
  | none => .broken

/-- `registered_constants`: `_`, and the members of the two enums under their names. refex/python/matcher.py:181-201, 512-635,
refex/python/matchers/base_matchers.py:107. -/
def registeredConstants : Dict Str Thing := [
  (Refex.str "_", .matcher .anything),
  (Refex.str "BindConflict.MERGE", .conflict .merge), (Refex.str "BindConflict.SKIP", .conflict .skip), (Refex.str "BindConflict.ERROR", .conflict .error),
  (Refex.str "BindConflict.MERGE_IDENTICAL", .conflict .mergeIdentical), (Refex.str "BindConflict.MERGE_IDENTICAL_OR_ERROR", .conflict .mergeIdenticalOrError),
  (Refex.str "BindConflict.MERGE_EQUIVALENT_AST", .conflict .mergeEquivalentAst),
  (Refex.str "BindConflict.MERGE_EQUIVALENT_AST_OR_ERROR", .conflict .mergeEquivalentAstOrError),
  (Refex.str "BindMerge.KEEP_FIRST", .merge .keepFirst), (Refex.str "BindMerge.KEEP_LAST", .merge .keepLast)]

end Refex
