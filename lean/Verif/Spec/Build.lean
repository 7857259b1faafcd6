import Verif.Model.Build
import Verif.Spec.Construct
/- What a matcher expression makes: C92. -/
namespace Refex
set_option autoImplicit false

mutual
/-- `Builds W st e v st'`: with the objects `st` there are, the expression `e` has the value `v`, and then there are the objects `st'`: calls make one
new object each, the matcher that the class makes of the values of the arguments; positional arguments come first, from left to right. -/
inductive Builds (W : EvalWorld) : List Thing → EExpr → PVal → List Thing → Prop
  | const {st c} : Builds W st (.const c) (.const c) st
  | minusInt {st} {i : Int} : Builds W st (.usub (.const (.int i))) (.const (.int (-i))) st
  | minusOther {st t r n} : t = str "float" ∨ t = str "complex" → Builds W st (.usub (.const (.other t r n))) (.const (W.minus t r)) st
  | tuple {st es vs st'} : BuildsAll W st es vs st' → Builds W st (.tuple es) (.tuple vs) st'
  | list {st es vs st'} : BuildsAll W st es vs st' → Builds W st (.list es) (.list vs) st'
  | set {st es vs out st'} : BuildsAll W st es vs st' → (∀ v ∈ vs, v.hashable = true) → FirstOfEach [] vs out → Builds W st (.set es) (.set out) st'
  | dict {st es pairs out st'} : BuildsAll W st es (flatItems pairs) st' → (∀ p ∈ pairs, p.1.hashable = true) → DictOf pairs out →
      Builds W st (.dict es) (.dict (flatItems out)) st'
  | constant {st e n v} : Dotted e n → W.constants.get? n = some v → Builds W st e v st
  | call {st f n args kns kvs as ks st1 st2 cls m} : Dotted f n → n ∈ W.callables → (∀ e ∈ args, ∀ x, e ≠ .starred x) → (∀ n ∈ kns, n ≠ none) →
      BuildsAll W st args as st1 → BuildsAll W st1 kvs ks st2 → RefersTo n cls → Makes (W.now st2) st2.length cls as (kwDict kns ks) m →
      Builds W st (.call f args kns kvs) (.obj st2.length) (st2 ++ [.matcher m])
/-- One by one. -/
inductive BuildsAll (W : EvalWorld) : List Thing → List EExpr → List PVal → List Thing → Prop
  | nil {st} : BuildsAll W st [] [] st
  | cons {st e v es vs st1 st2} : Builds W st e v st1 → BuildsAll W st1 es vs st2 → BuildsAll W st (e :: es) (v :: vs) st2
end

/-- None of the objects is a matcher that fails when it is used. -/
def NoneBroken (st : List Thing) : Prop := ∀ t ∈ st, t ≠ .broken

/-- The names of the strategies in expressions. -/
def conflictName : BindConflict → String
  | .merge => "BindConflict.MERGE"
  | .skip => "BindConflict.SKIP"
  | .error => "BindConflict.ERROR"
  | .mergeIdentical => "BindConflict.MERGE_IDENTICAL"
  | .mergeIdenticalOrError => "BindConflict.MERGE_IDENTICAL_OR_ERROR"
  | .mergeEquivalentAst => "BindConflict.MERGE_EQUIVALENT_AST"
  | .mergeEquivalentAstOrError => "BindConflict.MERGE_EQUIVALENT_AST_OR_ERROR"

/-- The names of the strategies in expressions. -/
def mergeName : BindMerge → String
  | .keepFirst => "BindMerge.KEEP_FIRST"
  | .keepLast => "BindMerge.KEEP_LAST"

/-- The constants that expressions may use. -/
inductive IsConstant : Str → Thing → Prop
  | anything : IsConstant (str "_") (.matcher .anything)
  | conflict {c} : IsConstant (str (conflictName c)) (.conflict c)
  | merge {m} : IsConstant (str (mergeName m)) (.merge m)

end Refex
