import Verif.Spec.Evaluate
/- Specification of the value of a matcher expression. -/
namespace Refex
set_option autoImplicit false

/-- `out` are the values of `vs`, in order, without those that equal one of `seen` or one kept before. -/
inductive FirstOfEach : List PVal → List PVal → List PVal → Prop
  | nil {seen} : FirstOfEach seen [] []
  | keep {seen v vs out} : (∀ u ∈ seen, u.keyEq v = false) → FirstOfEach (seen ++ [v]) vs out → FirstOfEach seen (v :: vs) (v :: out)
  | skip {seen u v vs out} : u ∈ seen → u.keyEq v = true → FirstOfEach seen vs out → FirstOfEach seen (v :: vs) out

/-- `v` is the value that comes with the last key equal to `k`. -/
def LastValue (pairs : List (PVal × PVal)) (k v : PVal) : Prop :=
  ∃ pre k' post, pairs = pre ++ (k', v) :: post ∧ k.keyEq k' = true ∧ ∀ q ∈ post, k.keyEq q.1 = false

/-- `out` is the dict with these keys and values: of equal keys the first is kept, with the last value. -/
structure DictOf (pairs out : List (PVal × PVal)) : Prop where
  keys : FirstOfEach [] (pairs.map Prod.fst) (out.map Prod.fst)
  values : ∀ kv ∈ out, LastValue pairs kv.1 kv.2

/-- Keys and values in turn. -/
def flatItems : List (PVal × PVal) → List PVal
  | [] => []
  | (k, v) :: ps => k :: v :: flatItems ps

mutual
/-- The expression has this value in the namespace `env`. -/
inductive Evals (env : EvalEnv) : EExpr → PVal → Prop
  | const {c} : Evals env (.const c) (.const c)
  | minusInt {i : Int} : Evals env (.usub (.const (.int i))) (.const (.int (-i)))
  | minusOther {t r n} : t = str "float" ∨ t = str "complex" → Evals env (.usub (.const (.other t r n))) (.const (env.minus t r))
  | tuple {es vs} : EvalsAll env es vs → Evals env (.tuple es) (.tuple vs)
  | list {es vs} : EvalsAll env es vs → Evals env (.list es) (.list vs)
  | set {es vs out} : EvalsAll env es vs → (∀ v ∈ vs, v.hashable = true) → FirstOfEach [] vs out → Evals env (.set es) (.set out)
  | dict {es pairs out} : EvalsAll env es (flatItems pairs) → (∀ p ∈ pairs, p.1.hashable = true) → DictOf pairs out →
      Evals env (.dict es) (.dict (flatItems out))
  | call {f n args kns kvs as ks v} : Dotted f n → n ∈ env.callables → (∀ e ∈ args, ∀ x, e ≠ .starred x) → (∀ n ∈ kns, n ≠ none) →
      EvalsAll env args as → EvalsAll env kvs ks → env.call n as (kwDict kns ks) = .ok v → Evals env (.call f args kns kvs) v
  | constant {e n v} : Dotted e n → env.constants.get? n = some v → Evals env e v
/-- One by one. -/
inductive EvalsAll (env : EvalEnv) : List EExpr → List PVal → Prop
  | nil : EvalsAll env [] []
  | cons {e v es vs} : Evals env e v → EvalsAll env es vs → EvalsAll env (e :: es) (v :: vs)
end

end Refex
