import Verif.Spec.Assertions
/- What the built-in rules for correctness and for constants change. -/
namespace Refex
set_option autoImplicit false

/-- `a.b.c` -/
inductive DottedName : Val → List Str → Prop
  | name {v s} : IsNameNode v s → DottedName v [s]
  | attr {v l i j a ctx} : DottedName v l → DottedName (.node i (str "Attribute") [str "value", str "attr", str "ctx"] [v, .const j (.str a), ctx]) (l ++ [a])

/-- `f(args, k=value)` -/
def IsCallKeyword (v f : Val) (args : List Val) (k : Str) (value : Val) : Prop :=
  ∃ i j m n p, v = .node i (str "Call") [str "func", str "args", str "keywords"] [f, .list j args,
    .list m [.node n (str "keyword") [str "arg", str "value"] [.const p (.str k), value]]]

/-- `target = value` -/
def IsAssign (v target value : Val) : Prop :=
  ∃ i j k, v = .node i (str "Assign") [str "targets", str "value", str "type_comment"] [.list j [target], value, .const k .none]

/-- `a % b` -/
def IsMod (v a b : Val) : Prop :=
  ∃ i j, v = .node i (str "BinOp") [str "left", str "op", str "right"] [a, .node j (str "Mod") [] [], b]

/-- `(a,)` -/
def IsTuple1 (v a : Val) : Prop := ∃ i j ctx, v = .node i (str "Tuple") [str "elts", str "ctx"] [.list j [a], ctx]

/-- What is needed of Python's sets. -/
structure SetWorld where
  Obj : Type
  /-- sets, as values -/
  Content : Type
  value : Val → Obj
  /-- the set of what iterating yields -/
  content : Obj → Content
  mutableSet : Content → Obj
  frozenSet : Content → Obj

/-- Iterating over a set yields its elements; displays and comprehensions are sets; `set` and `frozenset` are the built-in functions. -/
structure SetWorld.Pythonic (w : SetWorld) : Prop where
  content : ∀ s, w.content (w.mutableSet s) = s
  display : ∀ v, v.ty = str "Set" ∨ v.ty = str "SetComp" → ∃ s, w.value v = w.mutableSet s
  set : ∀ v f a, IsNameNode f (str "set") → IsCall v f [a] → w.value v = w.mutableSet (w.content (w.value a))
  frozenset : ∀ v f a, IsNameNode f (str "frozenset") → IsCall v f [a] → w.value v = w.frozenSet (w.content (w.value a))

/-- What is needed of `datetime`. -/
structure TimeWorld where
  Obj : Type
  Zone : Type
  /-- year, month, ..., as they are read off a clock -/
  Fields : Type
  value : Val → Obj
  utc : Zone
  zone : Zone → Obj
  /-- a `datetime`, with or without its time zone -/
  dateTime : Fields → Option Zone → Obj
  /-- what the clocks of a zone show now -/
  now : Zone → Fields
  /-- what the clocks of a zone show at a time given by a timestamp -/
  at_ : Zone → Obj → Fields

/-- What the documentation of `datetime` says. -/
structure TimeWorld.Pythonic (w : TimeWorld) : Prop where
  utc : ∀ v, DottedName v [str "datetime", str "timezone", str "utc"] → w.value v = w.zone w.utc
  utcnow : ∀ v f, DottedName f [str "datetime", str "datetime", str "utcnow"] → IsCall v f [] → w.value v = w.dateTime (w.now w.utc) none
  now : ∀ v f z k, DottedName f [str "datetime", str "datetime", str "now"] → IsCallKeyword v f [] (str "tz") z → w.value z = w.zone k →
    w.value v = w.dateTime (w.now k) (some k)
  utcfromtimestamp : ∀ v f a, DottedName f [str "datetime", str "datetime", str "utcfromtimestamp"] → IsCall v f [a] →
    w.value v = w.dateTime (w.at_ w.utc (w.value a)) none
  fromtimestamp : ∀ v f a z k, DottedName f [str "datetime", str "datetime", str "fromtimestamp"] → IsCallKeyword v f [a] (str "tz") z → w.value z = w.zone k →
    w.value v = w.dateTime (w.at_ k (w.value a)) (some k)

/-- What is needed of the formatting of strings. -/
structure FormatWorld where
  Obj : Type
  value : Val → Obj
  tuple : List Obj → Obj
  isMapping : Obj → Prop
  /-- the text with the arguments in the places of `%s`, ... -/
  format : Obj → List Obj → Obj
  /-- the text with the values of the mapping in the places of `%(key)s`, ... -/
  formatMapping : Obj → Obj → Obj

/-- `text % x` takes a tuple for the arguments, may look up keys in a mapping, and takes anything else for the one argument. -/
structure FormatWorld.Pythonic (w : FormatWorld) : Prop where
  tuple : ∀ v a, IsTuple1 v a → w.value v = w.tuple [w.value a]
  modTuple : ∀ v a b xs, IsMod v a b → w.value b = w.tuple xs → w.value v = w.format (w.value a) xs
  modMapping : ∀ v a b, IsMod v a b → w.isMapping (w.value b) → w.value v = w.formatMapping (w.value a) (w.value b)
  modOther : ∀ v a b, IsMod v a b → (∀ xs, w.value b ≠ w.tuple xs) → ¬ w.isMapping (w.value b) → w.value v = w.format (w.value a) [w.value b]

end Refex
