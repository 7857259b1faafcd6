import Verif.Model.Construct
import Verif.Spec.PatternBuild
import Verif.Spec.EvaluateSem
import Verif.Spec.Common
/- How a call of a matcher class is to be read: C92. -/
namespace Refex
set_option autoImplicit false

/-- Python's calling convention. A function has parameters `ps` (name; whether it must be given), and takes them by name only if `kwOnly`.
In a call with these positional and keyword arguments, parameter `p` gets `got p` (`none`: its default). -/
structure Passes (kwOnly : Bool) (ps : List (Str × Bool)) (args : List PVal) (kws : List (Str × PVal)) (got : Str → Option PVal) : Prop where
  few : args.length ≤ ps.length
  byNameOnly : kwOnly = true → args = []
  /-- the first parameters get the positional arguments -/
  positional : ∀ i p, ps[i]? = some p → i < args.length → got p.1 = args[i]?
  /-- the others get the keyword argument of their name, if there is one -/
  byName : ∀ i p v, ps[i]? = some p → args.length ≤ i → (got p.1 = some v ↔ (p.1, v) ∈ kws)
  /-- no keyword argument is left over, or given twice -/
  known : ∀ kv ∈ kws, ∃ i p, ps[i]? = some p ∧ args.length ≤ i ∧ p.1 = kv.1
  once : (kws.map Prod.fst).Nodup
  complete : ∀ p ∈ ps, p.2 = true → got p.1 ≠ none
  others : ∀ x, (∀ p ∈ ps, p.1 ≠ x) → got x = none

/-- Where a matcher is expected: a matcher stands for itself, any other value for what is equal to it, and nothing for anything. -/
inductive Sub (E : MakeEnv) : Option PVal → Matcher → Prop
  | default : Sub E none .anything
  | object {i m} : E.thing i = .matcher m → Sub E (some (.obj i)) m
  | constant {i} : (∀ m, E.thing i ≠ .matcher m) → E.thing i ≠ .broken → Sub E (some (.obj i)) (.equals (literalVal (.obj i)))
  | value {v} : (∀ i, v ≠ .obj i) → Sub E (some v) (.equals (literalVal v))

/-- The optional strategies of `Bind` and `Rebind`. -/
inductive ConflictOpt (E : MakeEnv) : Option PVal → Option BindConflict → Prop
  | default : ConflictOpt E none none
  | none : ConflictOpt E (some (.const .none)) none
  | given {i c} : E.thing i = .conflict c → ConflictOpt E (some (.obj i)) (some c)

/-- The optional strategies of `Bind` and `Rebind`. -/
inductive MergeOpt (E : MakeEnv) : Option PVal → Option BindMerge → Prop
  | default : MergeOpt E none none
  | none : MergeOpt E (some (.const .none)) none
  | given {i c} : E.thing i = .merge c → MergeOpt E (some (.obj i)) (some c)

/-- An index. -/
inductive IsIndex : PVal → Int → Prop
  | int {i} : IsIndex (.const (.int i)) i
  | true : IsIndex (.const (.bool true)) 1
  | false : IsIndex (.const (.bool false)) 0

/-- The values in a sequence, in order: of a list, tuple or set; the keys of a dict; the characters of a string. -/
inductive Elements : PVal → List PVal → Prop
  | list {vs} : Elements (.list vs) vs
  | tuple {vs} : Elements (.tuple vs) vs
  | set {vs} : Elements (.set vs) vs
  /-- (every key has a value: there is no `rest`) -/
  | dict {items rest} : rest.length ≤ 1 → Elements (.dict (flatItems items ++ rest)) (items.map Prod.fst)
  | chars {s} : Elements (.const (.str s)) (s.map fun ch => .const (.str [ch]))

/-- `MakesWith E self n args kws m`: the call `n(*args, **kws)` of a class with parameters makes the matcher `m`, as an object `self`. -/
inductive MakesWith (E : MakeEnv) (self : Nat) : String → List PVal → List (Str × PVal) → Matcher → Prop
  | anything {args kws got} : Passes false [] args kws got → MakesWith E self "Anything" args kws .anything
  | testOnlyRaise {args kws got} : Passes false [(str "message", true)] args kws got → MakesWith E self "TestOnlyRaise" args kws .testRaise
  | unless {args kws got m} : Passes false [(str "submatcher", true)] args kws got → Sub E (got (str "submatcher")) m →
      MakesWith E self "Unless" args kws (.unlessM m)
  | once {args kws got m} : Passes false [(str "submatcher", true), (str "key", false)] args kws got → Sub E (got (str "submatcher")) m →
      got (str "key") = none → MakesWith E self "Once" args kws (.once self m)
  | onceKey {args kws got m k} : Passes false [(str "submatcher", true), (str "key", false)] args kws got → Sub E (got (str "submatcher")) m →
      got (str "key") = some k → k.hashable = true → MakesWith E self "Once" args kws (.once (E.key k) m)
  | bind {args kws got x m oc om} :
      Passes false [(str "name", true), (str "submatcher", false), (str "on_conflict", false), (str "on_merge", false)] args kws got →
      got (str "name") = some (.const (.str x)) → BindName E.word x → Sub E (got (str "submatcher")) m → ConflictOpt E (got (str "on_conflict")) oc →
      MergeOpt E (got (str "on_merge")) om → MakesWith E self "Bind" args kws (.bind x m oc om)
  | rebind {args kws got m oc om} : Passes false [(str "submatcher", false), (str "on_conflict", false), (str "on_merge", false)] args kws got →
      Sub E (got (str "submatcher")) m → ConflictOpt E (got (str "on_conflict")) oc → MergeOpt E (got (str "on_merge")) om →
      MakesWith E self "Rebind" args kws (.rebind m oc om)
  | stringMatch {args kws got s} : Passes false [(str "string", true)] args kws got → got (str "string") = some (.const (.str s)) →
      MakesWith E self "StringMatch" args kws (.stringMatch s)
  | equals {args kws got v} : Passes false [(str "value", true)] args kws got → got (str "value") = some v →
      MakesWith E self "Equals" args kws (.equals (literalVal v))
  | matchesRegex {args kws got rx m} : Passes false [(str "regex", true), (str "subpattern", false)] args kws got →
      got (str "regex") = some (.const (.str rx)) → Sub E (got (str "subpattern")) m → MakesWith E self "MatchesRegex" args kws (.matchesRegex rx m)
  | fileMatchesRegex {args kws got rx} : Passes false [(str "regex", true)] args kws got → got (str "regex") = some (.const (.str rx)) →
      MakesWith E self "FileMatchesRegex" args kws (.fileMatchesRegex rx)
  | hasItem {args kws got v i m} : Passes false [(str "index", true), (str "submatcher", false)] args kws got → got (str "index") = some v →
      IsIndex v i → Sub E (got (str "submatcher")) m → MakesWith E self "HasItem" args kws (.hasItem i m)
  | itemsAre {args kws got v vs ms} : Passes false [(str "matchers", true)] args kws got → got (str "matchers") = some v → Elements v vs →
      Forall2 (fun u m => Sub E (some u) m) vs ms → MakesWith E self "ItemsAre" args kws (.itemsAre ms)
  | contains {args kws got m} : Passes false [(str "submatcher", true)] args kws got → Sub E (got (str "submatcher")) m →
      MakesWith E self "Contains" args kws (.contains m)
  | inLines {args kws got v vs ls} : Passes false [(str "lines", true)] args kws got → got (str "lines") = some v → (∀ c, v ≠ .const c) → Elements v vs →
      Forall2 (fun u (l : Nat) => IsIndex u l) vs ls → MakesWith E self "InLines" args kws (.inLines ls)
  | num {args kws got m} : Passes true [(str "n", false)] args kws got → Sub E (got (str "n")) m →
      MakesWith E self "Num" args kws (.constant [str "int", str "float", str "complex"] m)
  | bytes {args kws got m} : Passes true [(str "s", false)] args kws got → Sub E (got (str "s")) m → MakesWith E self "Bytes" args kws (.constant [str "bytes"] m)
  | str {args kws got m} : Passes true [(str "s", false)] args kws got → Sub E (got (Refex.str "s")) m → MakesWith E self "Str" args kws (.constant [Refex.str "str"] m)
  | nameConstant {args kws got m} : Passes true [(Refex.str "value", false)] args kws got → Sub E (got (Refex.str "value")) m →
      MakesWith E self "NameConstant" args kws (.constant [Refex.str "bool", Refex.str "NoneType"] m)
  | ellipsis {args kws got} : Passes false [] args kws got →
      MakesWith E self "Ellipsis" args kws (.constant [Refex.str "ellipsis"] (.equals (.const 0 .ellipsis)))
  | exprPattern {args kws got p m} : Passes false [(Refex.str "pattern", true), (Refex.str "restrictions", false)] args kws got →
      got (Refex.str "pattern") = some p → E.pattern true p (got (Refex.str "restrictions")) = .ok (some m) → MakesWith E self "ExprPattern" args kws m
  | stmtPattern {args kws got p m} : Passes false [(Refex.str "pattern", true), (Refex.str "restrictions", false)] args kws got →
      got (Refex.str "pattern") = some p → E.pattern false p (got (Refex.str "restrictions")) = .ok (some m) → MakesWith E self "StmtPattern" args kws m
  | hasParent {args kws got m} : Passes false [(Refex.str "submatcher", true)] args kws got → Sub E (got (Refex.str "submatcher")) m →
      MakesWith E self "HasParent" args kws (.hasParent m)
  | isOrHasAncestor {args kws got m} : Passes false [(Refex.str "submatcher", true)] args kws got → Sub E (got (Refex.str "submatcher")) m →
      MakesWith E self "IsOrHasAncestor" args kws (isOrHasAncestor m)
  | hasAncestor {args kws got m} : Passes false [(Refex.str "submatcher", true)] args kws got → Sub E (got (Refex.str "submatcher")) m →
      MakesWith E self "HasAncestor" args kws (hasAncestor m)
  | hasChild {args kws got m} : Passes false [(Refex.str "submatcher", true)] args kws got → Sub E (got (Refex.str "submatcher")) m →
      MakesWith E self "HasChild" args kws (.hasChild m)
  | isOrHasDescendant {args kws got m} : Passes false [(Refex.str "submatcher", true)] args kws got → Sub E (got (Refex.str "submatcher")) m →
      MakesWith E self "IsOrHasDescendant" args kws (isOrHasDescendant m)
  | hasDescendant {args kws got m} : Passes false [(Refex.str "submatcher", true)] args kws got → Sub E (got (Refex.str "submatcher")) m →
      MakesWith E self "HasDescendant" args kws (hasDescendant m)
  | hasPrevSibling {args kws got m} : Passes false [(Refex.str "submatcher", true)] args kws got → Sub E (got (Refex.str "submatcher")) m →
      MakesWith E self "HasPrevSibling" args kws (.hasPrevSibling m)
  | hasNextSibling {args kws got m} : Passes false [(Refex.str "submatcher", true)] args kws got → Sub E (got (Refex.str "submatcher")) m →
      MakesWith E self "HasNextSibling" args kws (.hasNextSibling m)
  | namedFunctionDefinition {args kws got b r} : Passes false [(Refex.str "body", false), (Refex.str "returns", false)] args kws got →
      Sub E (got (Refex.str "body")) b → Sub E (got (Refex.str "returns")) r → MakesWith E self "NamedFunctionDefinition" args kws (namedFunctionDefinition b r)
  | inNamedFunction {args kws got m} : Passes false [(Refex.str "submatcher", true)] args kws got → Sub E (got (Refex.str "submatcher")) m →
      MakesWith E self "InNamedFunction" args kws (inNamedFunction m)
  | imported {args kws got m mdl name} :
      Passes false [(Refex.str "submatcher", true), (Refex.str "module_name", true), (Refex.str "as_name", false)] args kws got →
      Sub E (got (Refex.str "submatcher")) m → got (Refex.str "module_name") = some (.const (.str mdl)) → got (Refex.str "as_name") = none →
      (mdl = name ∨ ∃ pre, mdl = pre ++ Refex.str "." ++ name) → '.' ∉ name →
      MakesWith E self "WithTopLevelImport" args kws (.withTopLevelImport m mdl name)
  | importedAs {args kws got m mdl a} :
      Passes false [(Refex.str "submatcher", true), (Refex.str "module_name", true), (Refex.str "as_name", false)] args kws got →
      Sub E (got (Refex.str "submatcher")) m → got (Refex.str "module_name") = some (.const (.str mdl)) → got (Refex.str "as_name") = some (.const (.str a)) →
      MakesWith E self "WithTopLevelImport" args kws (.withTopLevelImport m mdl a)
  | hasComments {args kws got m} : Passes false [(Refex.str "submatcher", true)] args kws got → Sub E (got (Refex.str "submatcher")) m →
      MakesWith E self "HasComments" args kws (.comments true m)
  | noComments {args kws got m} : Passes false [(Refex.str "submatcher", true)] args kws got → Sub E (got (Refex.str "submatcher")) m →
      MakesWith E self "NoComments" args kws (.comments false m)

/-- The classes that are not named after a class of `ast`, or that stand for one that is. -/
def specialClasses : List String := ["Anything", "TestOnlyRaise", "AllOf", "AnyOf", "Unless", "Once", "Bind", "Rebind", "StringMatch", "MaybeWrapped",
  "RecursivelyWrapped", "Equals", "TypeIs", "MatchesRegex", "FileMatchesRegex", "HasItem", "ItemsAre", "Contains", "InLines", "Num", "Bytes", "Str",
  "NameConstant", "Ellipsis", "ExprPattern", "StmtPattern", "HasParent", "IsOrHasAncestor", "HasAncestor", "HasChild", "IsOrHasDescendant", "HasDescendant",
  "HasPrevSibling", "HasNextSibling", "NamedFunctionDefinition", "InNamedFunction", "WithTopLevelImport", "HasComments", "NoComments"]

/-- `Makes E self n args kws m`: the call `n(*args, **kws)` makes the matcher `m`, as an object `self`. `n` is the name of a class, without the module. -/
inductive Makes (E : MakeEnv) (self : Nat) : Str → List PVal → List (Str × PVal) → Matcher → Prop
  | special {n args kws m} : MakesWith E self n args kws m → Makes E self (str n) args kws m
  /-- `AllOf` and `AnyOf` take matchers only -/
  | allOf {args ms} : Forall2 (fun v m => ∃ i, v = .obj i ∧ E.thing i = .matcher m) args ms → Makes E self (str "AllOf") args [] (.allOf ms)
  | anyOf {args ms} : Forall2 (fun v m => ∃ i, v = .obj i ∧ E.thing i = .matcher m) args ms → Makes E self (str "AnyOf") args [] (.anyOf ms)
  /-- the classes of nodes take one matcher for each field, by name -/
  | node {ty fields args kws got ms} : (∀ n ∈ specialClasses, ty ≠ str n) → E.fields ty = some fields →
      Passes true (fields.map fun f => (f, false)) args kws got → Forall2 (fun f m => Sub E (got f) m) fields ms →
      Makes E self ty args kws (.node ty fields ms)

/-- The class that a name in an expression refers to: the name itself, or what is behind the module. -/
def RefersTo (n cls : Str) : Prop := '.' ∉ cls ∧ (n = cls ∨ ∃ mdl, n = mdl ++ str "." ++ cls)

/-- A constant as it is in a parsed program: no tuple, dict, set or other object. -/
def UsualConst : Const → Prop
  | .other t _ _ => t ∉ [str "tuple", str "dict", str "set", str "object"]
  | _ => True

mutual
/-- `SameAsValue w v`: `w == v` in Python, for a part `w` of a parsed program (a constant, or a list of these; nodes are equal to no value that an
expression can have). -/
inductive SameAsValue : Val → PVal → Prop
  | const {i c d} : UsualConst c → c.pyEq d = true → SameAsValue (.const i c) (.const d)
  | list {i ws vs} : SameAsValues ws vs → SameAsValue (.list i ws) (.list vs)
/-- Element by element. -/
inductive SameAsValues : List Val → List PVal → Prop
  | nil : SameAsValues [] []
  | cons {w v ws vs} : SameAsValue w v → SameAsValues ws vs → SameAsValues (w :: ws) (v :: vs)
end

mutual
/-- All constants in the lists of `w` are usual. -/
inductive UsualVal : Val → Prop
  | const {i c} : UsualConst c → UsualVal (.const i c)
  | list {i ws} : UsualVals ws → UsualVal (.list i ws)
  | node {i t ns vs} : UsualVal (.node i t ns vs)
/-- Element by element. -/
inductive UsualVals : List Val → Prop
  | nil : UsualVals []
  | cons {w ws} : UsualVal w → UsualVals ws → UsualVals (w :: ws)
end

/-- The parameters of the classes: whether they are taken by name only; their names; whether they must be given. -/
def parameters : List (String × Bool × List (Str × Bool)) :=
  let one := (false, [(str "submatcher", true)])
  let imp := (false, [(str "submatcher", true), (str "module_name", true), (str "as_name", false)])
  let pat := (false, [(str "pattern", true), (str "restrictions", false)])
  let wrap := (false, [(str "inner", true), (str "wrapper", true)])
  [("Anything", false, []), ("TestOnlyRaise", false, [(str "message", true)]), ("Unless", one), ("Once", false, [(str "submatcher", true), (str "key", false)]),
   ("Bind", false, [(str "name", true), (str "submatcher", false), (str "on_conflict", false), (str "on_merge", false)]),
   ("Rebind", false, [(str "submatcher", false), (str "on_conflict", false), (str "on_merge", false)]), ("StringMatch", false, [(str "string", true)]),
   ("MaybeWrapped", wrap), ("RecursivelyWrapped", wrap), ("Equals", false, [(str "value", true)]), ("TypeIs", false, [(str "type", true)]),
   ("MatchesRegex", false, [(str "regex", true), (str "subpattern", false)]), ("FileMatchesRegex", false, [(str "regex", true)]),
   ("HasItem", false, [(str "index", true), (str "submatcher", false)]), ("ItemsAre", false, [(str "matchers", true)]), ("Contains", one),
   ("InLines", false, [(str "lines", true)]), ("Num", true, [(str "n", false)]), ("Bytes", true, [(str "s", false)]), ("Str", true, [(str "s", false)]),
   ("NameConstant", true, [(str "value", false)]), ("Ellipsis", false, []), ("ExprPattern", pat), ("StmtPattern", pat), ("HasParent", one),
   ("IsOrHasAncestor", one), ("HasAncestor", one), ("HasChild", one), ("IsOrHasDescendant", one), ("HasDescendant", one), ("HasPrevSibling", one),
   ("HasNextSibling", one), ("NamedFunctionDefinition", false, [(str "body", false), (str "returns", false)]), ("InNamedFunction", one),
   ("WithTopLevelImport", imp), ("HasComments", one), ("NoComments", one)]

end Refex
