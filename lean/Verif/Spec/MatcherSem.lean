import Verif.Spec.Combinators
/- Specification of the elementary matchers, one by one. -/
namespace Refex
set_option autoImplicit false

/-- The items of the lists and strings (one-character strings) that can be indexed. -/
inductive IsSeq : Val → List Val → Prop
  | list (i : Nat) (vs : List Val) : IsSeq (.list i vs) vs
  | string (i : Nat) (s : Str) : IsSeq (.const i (.str s)) (s.map fun ch => .const 0 (.str [ch]))

/-- `v[i]` is `w`: counted from the front, or, if negative, from the back. -/
inductive ItemAt (v : Val) : Int → Val → Prop
  | front {xs : List Val} {k : Nat} {w : Val} : IsSeq v xs → xs[k]? = some w → ItemAt v k w
  | back {xs : List Val} {k : Nat} {w : Val} : IsSeq v xs → xs.reverse[k]? = some w → ItemAt v (-1 - k) w

/-- A constant that is equal to a whole number: an `int`, `True`, `False`, or a float or complex number such as `1.0` or `0j`. -/
inductive IsWhole : Const → Int → Prop
  | int (n : Int) : IsWhole (.int n) n
  | true : IsWhole (.bool true) 1
  | false : IsWhole (.bool false) 0
  | float (repr : Str) (n : Int) : IsWhole (.other (str "float") repr (some n)) n
  | complex (repr : Str) (n : Int) : IsWhole (.other (str "complex") repr (some n)) n

/-- Equality of Python values: whole numbers by value (`True` and `1.0` are 1), strings and other constants by value, lists by their items,
AST nodes by identity. -/
inductive PyEqual : Val → Val → Prop
  | same (i j : Nat) (c : Const) : PyEqual (.const i c) (.const j c)
  | whole (i j : Nat) {c d : Const} {n : Int} : IsWhole c n → IsWhole d n → PyEqual (.const i c) (.const j d)
  | node (i : Nat) (t t' : Str) (ns ns' : List Str) (vs vs' : List Val) : PyEqual (.node i t ns vs) (.node i t' ns' vs')
  | nil (i j : Nat) : PyEqual (.list i []) (.list j [])
  | cons {i j : Nat} {v w : Val} {vs ws : List Val} : PyEqual v w → PyEqual (.list i vs) (.list j ws) →
      PyEqual (.list i (v :: vs)) (.list j (w :: ws))

/-- How an object is located: strings as their text; a node that has tokens by its span, except aliases and parameter lists
without positional parameters; anything else as an object without a place in the file. -/
inductive Located (c : Ctx) : Val → MObj → Prop
  | string (i : Nat) (s : Str) : Located c (.const i (.str s)) (.string s)
  | constant (i : Nat) (k : Const) : (∀ s, k ≠ .str s) → Located c (.const i k) (.object (.const i k))
  | list (i : Nat) (vs : List Val) : Located c (.list i vs) (.object (.list i vs))
  | node {i : Nat} {ty : Str} {ns : List Str} {vs : List Val} {sp : Span} : c.tok i = some sp → ty ≠ str "alias" → ty ≠ str "arguments" →
      Located c (.node i ty ns vs) (.lexical (.node i ty ns vs) sp)
  | parameters {i : Nat} {ns : List Str} {vs : List Val} {sp : Span} {j : Nat} {a : Val} {as : List Val} : c.tok i = some sp →
      (Val.node i (str "arguments") ns vs).getattr (str "args") = .list j (a :: as) →
      Located c (.node i (str "arguments") ns vs) (.lexical (.node i (str "arguments") ns vs) sp)
  | noParameters {i : Nat} {ns : List Str} {vs : List Val} :
      (∀ j a as, (Val.node i (str "arguments") ns vs).getattr (str "args") ≠ .list j (a :: as)) →
      Located c (.node i (str "arguments") ns vs) (.object (.node i (str "arguments") ns vs))
  | alias (i : Nat) (ns : List Str) (vs : List Val) : Located c (.node i (str "alias") ns vs) (.object (.node i (str "alias") ns vs))
  | untokenized {i : Nat} {ty : Str} {ns : List Str} {vs : List Val} : c.tok i = none → Located c (.node i ty ns vs) (.object (.node i ty ns vs))

/-- The named groups of a regular expression are bound to the text of the file that they matched, or, for a group that took
no part, to nothing (the empty text without a place). -/
structure GroupsBound (c : Ctx) (rx : Str) (g : Label → Option Span) (b : Bindings) : Prop where
  labels : b.keys = c.rxGroups rx
  text : ∀ l a e, l ∈ c.rxGroups rx → g l = some (a, e) → b.get? l = some ⟨.span ((c.text.drop a).take (e - a)) (some (a, e)), .merge, .keepLast⟩
  absent : ∀ l, l ∈ c.rxGroups rx → g l = none → b.get? l = some ⟨.span [] none, .merge, .keepLast⟩

/-- A candidate accepted as it is: located, nothing bound. -/
def Accepts (c : Ctx) (v : Val) (mi : MatchInfo) : Prop := Located c v mi.obj ∧ mi.bindings = [] ∧ mi.replacements = []

/-- What a test does: it accepts exactly the candidates that satisfy the condition, as they are, and raises nothing. -/
def IsTest (c : Ctx) (f : List Key → MOut) (v : Val) (P : Prop) : Prop :=
  (∀ ks, P → ∃ mi, Hits f ks mi ks ∧ Accepts c v mi) ∧ (∀ ks, ¬ P → Misses f ks ks)

/-- One alternative after the other was tried and missed. -/
inductive TriedAll : List (List Key → MOut) → List Key → List Key → Prop
  | nil {ks} : TriedAll [] ks ks
  | cons {f fs ks ks1 ks'} : Misses f ks ks1 → TriedAll fs ks1 ks' → TriedAll (f :: fs) ks ks'

/-- The match is of this stretch of the file: a node with tokens, or a piece of text with its place. -/
inductive PlacedAt : MObj → Span → Prop
  | lexical (v : Val) (sp : Span) : PlacedAt (.lexical v sp) sp
  | text (s : Str) (sp : Span) : PlacedAt (.span s (some sp)) sp

/-- The two matches are the same: the same kind of match, of equal values, at the same place. -/
inductive SameMatch : MObj → MObj → Prop
  | lexical {v w : Val} (sp : Span) : PyEqual v w → SameMatch (.lexical v sp) (.lexical w sp)
  | object {v w : Val} : PyEqual v w → SameMatch (.object v) (.object w)
  | string (s : Str) : SameMatch (.string s) (.string s)
  | span (s : Str) (sp : Option Span) : SameMatch (.span s sp) (.span s sp)
  | bare : SameMatch .bare .bare

/-- The match is of a Python object. -/
inductive ObjectOf : MObj → Val → Prop
  | lexical (v : Val) (sp : Span) : ObjectOf (.lexical v sp) v
  | object (v : Val) : ObjectOf (.object v) v

/-- Both matches are of Python objects, and these are equal code (see C46). -/
def SameCode (a b : MObj) : Prop := ∃ v w, ObjectOf a v ∧ ObjectOf b w ∧ astEquivalent v w = true

end Refex
