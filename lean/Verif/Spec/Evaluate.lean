import Verif.Model.Evaluate
/- Specification of the evaluation of matcher expressions. -/
namespace Refex
set_option autoImplicit false

/-- The expression is the dotted name `n`. -/
inductive Dotted : EExpr → Str → Prop
  | name {s} : Dotted (.name s) s
  | attribute {v n a} : Dotted v n → Dotted (.attribute v a) (n ++ str "." ++ a)

/-- The text of a dotted name. -/
def dottedText : EExpr → Str
  | .name s => s
  | .attribute v a => dottedText v ++ str "." ++ a
  | _ => []

mutual
/-- The names called in the expression, inner calls before the calls they are arguments of, from left to right. -/
def callNames : EExpr → List Str
  | .tuple es => callNamesAll es
  | .list es => callNamesAll es
  | .dict items => callNamesAll items
  | .set es => callNamesAll es
  | .call f args _ kvs => callNamesAll args ++ callNamesAll kvs ++ [dottedText f]
  | _ => []
/-- One after the other. -/
def callNamesAll : List EExpr → List Str
  | [] => []
  | e :: es => callNames e ++ callNamesAll es
end

/-- The expressions that may be evaluated: numbers with a minus sign, constants, displays, known dotted names, and calls of
known callables without stars. -/
inductive Supported (env : EvalEnv) : EExpr → Prop
  | const {c} : Supported env (.const c)
  | minus {c} : c.isNum = true → Supported env (.usub (.const c))
  | tuple {es} : (∀ e ∈ es, Supported env e) → Supported env (.tuple es)
  | list {es} : (∀ e ∈ es, Supported env e) → Supported env (.list es)
  | dict {es} : es.length % 2 = 0 → (∀ e ∈ es, Supported env e) → Supported env (.dict es)
  | set {es} : (∀ e ∈ es, Supported env e) → Supported env (.set es)
  | call {f n args kns kvs} : Dotted f n → n ∈ env.callables → (∀ e ∈ args, Supported env e) → (∀ e ∈ kvs, Supported env e) →
      (∀ e ∈ args, ∀ x, e ≠ .starred x) → (∀ n ∈ kns, n ≠ none) → Supported env (.call f args kns kvs)
  | constant {e n} : Dotted e n → env.constants.has n = true → Supported env e

mutual
/-- The expression is a literal for the value. -/
inductive Literal : EExpr → PVal → Prop
  | const {c} : Literal (.const c) (.const c)
  | negative {i : Int} : Literal (.usub (.const (.int i))) (.const (.int (-i)))
  | tuple {es vs} : Literals es vs → Literal (.tuple es) (.tuple vs)
  | list {es vs} : Literals es vs → Literal (.list es) (.list vs)
  | set {es vs} : Literals es vs → (∀ v ∈ vs, v.hashable = true) → vs.Pairwise (fun a b => a.keyEq b = false) → Literal (.set es) (.set vs)
  | dict {es vs} : LiteralItems es vs [] → Literal (.dict es) (.dict vs)
/-- One by one. -/
inductive Literals : List EExpr → List PVal → Prop
  | nil : Literals [] []
  | cons {e v es vs} : Literal e v → Literals es vs → Literals (e :: es) (v :: vs)
/-- Keys and values in turn, the keys hashable and different from one another and from the ones before. -/
inductive LiteralItems : List EExpr → List PVal → List PVal → Prop
  | nil {seen} : LiteralItems [] [] seen
  | cons {k e a v es vs seen} : Literal k a → Literal e v → a.hashable = true → (∀ b ∈ seen, b.keyEq a = false) →
      LiteralItems es vs (seen ++ [a]) → LiteralItems (k :: e :: es) (a :: v :: vs) seen
end

end Refex
