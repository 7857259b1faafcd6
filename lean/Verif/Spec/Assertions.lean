import Verif.Spec.Code
/- When the assertions of `unittest` (and of absl's `absltest`) succeed, after their documentation, and what the conditions in them mean. -/
namespace Refex
set_option autoImplicit false

/-- What is needed of the Python objects that expressions evaluate to. -/
structure ValueWorld where
  Obj : Type
  /-- the value of an expression -/
  value : Val → Obj
  /-- whether `a op b` is true; the operator is given by its node type -/
  cmp : Str → Obj → Obj → Bool
  /-- `isinstance(a, b)` -/
  isInstance : Obj → Obj → Bool
  /-- `len(a) == b` -/
  hasLen : Obj → Obj → Bool
  /-- `len(a) == 0` -/
  isEmpty : Obj → Bool
  /-- whether there are the same elements in the two collections, the same number of times -/
  sameElements : Obj → Obj → Bool

/-- `is not` and `not in` are the negations of `is` and `in`; having length 0 (`False`, `0.0`) is being empty. -/
structure ValueWorld.Pythonic (w : ValueWorld) : Prop where
  isNot : ∀ a b, w.cmp (str "IsNot") a b = !w.cmp (str "Is") a b
  notIn : ∀ a b, w.cmp (str "NotIn") a b = !w.cmp (str "In") a b
  zero : ∀ a i j k c, c.pyEq (.int 0) = true →
    w.hasLen a (w.value (.node i (str "Constant") [str "value", str "kind"] [.const j c, .const k .none])) = w.isEmpty a

/-- The methods that take values, and when they succeed. -/
def ValueWorld.method (w : ValueWorld) (m : Str) (args : List w.Obj) : Option Bool :=
  match args with
  | [a] => if m = str "assertEmpty" then some (w.isEmpty a) else none
  | [a, b] =>
    if m = str "assertEqual" then some (w.cmp (str "Eq") a b)
    else if m = str "assertNotEqual" then some (w.cmp (str "NotEq") a b)
    else if m = str "assertIs" then some (w.cmp (str "Is") a b)
    else if m = str "assertIsNot" then some (w.cmp (str "IsNot") a b)
    else if m = str "assertIn" then some (w.cmp (str "In") a b)
    else if m = str "assertNotIn" then some (w.cmp (str "NotIn") a b)
    else if m = str "assertGreater" then some (w.cmp (str "Gt") a b)
    else if m = str "assertGreaterEqual" then some (w.cmp (str "GtE") a b)
    else if m = str "assertLess" then some (w.cmp (str "Lt") a b)
    else if m = str "assertLessEqual" then some (w.cmp (str "LtE") a b)
    else if m = str "assertIsInstance" then some (w.isInstance a b)
    else if m = str "assertNotIsInstance" then some (!w.isInstance a b)
    else if m = str "assertLen" then some (w.hasLen a b)
    else if m = str "assertItemsEqual" then some (w.sameElements a b)
    else if m = str "assertCountEqual" then some (w.sameElements a b)
    else none
  | _ => none

/-- `f(args)`, without keyword arguments. -/
def IsCall (v f : Val) (args : List Val) : Prop :=
  ∃ i j k, v = .node i (str "Call") [str "func", str "args", str "keywords"] [f, .list j args, .list k []]

/-- `s` -/
def IsNameNode (v : Val) (s : Str) : Prop := ∃ i j ctx, v = .node i (str "Name") [str "id", str "ctx"] [.const j (.str s), ctx]

/-- `self.m(args)` -/
def IsSelfCall (v : Val) (m : Str) (args : List Val) : Prop :=
  ∃ i j l self, IsNameNode self (str "self") ∧ IsCall v (.node i (str "Attribute") [str "value", str "attr", str "ctx"] [self, .const j (.str m), l]) args

/-- The truth value of the conditions that occur in assertions and under `not`. -/
inductive Truth (w : ValueWorld) : Val → Bool → Prop
  | compare {i j k m op l r} :
      Truth w (.node i (str "Compare") [str "left", str "ops", str "comparators"] [l, .list j [.node k op [] []], .list m [r]])
        (w.cmp op (w.value l) (w.value r))
  | isInstance {v f a b} : IsNameNode f (str "isinstance") → IsCall v f [a, b] → Truth w v (w.isInstance (w.value a) (w.value b))
  | not {i j e b} : Truth w e b → Truth w (.node i (str "UnaryOp") [str "op", str "operand"] [.node j (str "Not") [] [], e]) (!b)

/-- Whether the assertion succeeds. -/
inductive Succeeds (w : ValueWorld) : Val → Bool → Prop
  | assertTrue {v e b} : IsSelfCall v (str "assertTrue") [e] → Truth w e b → Succeeds w v b
  | assertFalse {v e b} : IsSelfCall v (str "assertFalse") [e] → Truth w e b → Succeeds w v (!b)
  | method {v m args b} : IsSelfCall v m args → w.method m (args.map w.value) = some b → Succeeds w v b

/-- What is needed of Python to evaluate comprehensions: expressions have values in an environment. -/
structure Evaluation where
  Obj : Type
  /-- the value of an expression, given those of the names -/
  value : (Str → Obj) → Val → Obj
  /-- what iterating yields -/
  items : Obj → List Obj
  /-- a list (`false`) or set (`true`) of the given items -/
  collect : Bool → List Obj → Obj

/-- The environment with a name assigned anew. -/
def assigned {Obj : Type} (ρ : Str → Obj) (s : Str) (o : Obj) : Str → Obj := fun t => if t = s then o else ρ t

/-- A name has the value the environment gives it; a comprehension with one plain `for` over a name collects the values of its element
with the name assigned each item in turn; `list(b)` and `set(b)` collect the items of `b` (these names are the built-in functions). -/
structure Evaluation.Pythonic (ev : Evaluation) : Prop where
  name : ∀ ρ v s, IsNameNode v s → ev.value ρ v = ρ s
  comp : ∀ ρ (set : Bool) i j k l m elt target iter async s, IsNameNode target s → async.pyEq (.int 0) = true →
    ev.value ρ (.node i (if set then str "SetComp" else str "ListComp") [str "elt", str "generators"] [elt, .list j
      [.node k (str "comprehension") [str "target", str "iter", str "ifs", str "is_async"] [target, iter, .list l [], .const m async]]]) =
    ev.collect set ((ev.items (ev.value ρ iter)).map fun o => ev.value (assigned ρ s o) elt)
  call : ∀ ρ (set : Bool) v f b, IsNameNode f (if set then str "set" else str "list") → IsCall v f [b] →
    ev.value ρ v = ev.collect set (ev.items (ev.value ρ b))

end Refex
