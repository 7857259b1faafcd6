/- Specification vocabulary shared by several properties. -/
namespace Refex
set_option autoImplicit false

/-- The two lists have the same length and corresponding elements are related. -/
inductive Forall2 {α β : Type _} (R : α → β → Prop) : List α → List β → Prop
  | nil : Forall2 R [] []
  | cons {a b as bs} : R a b → Forall2 R as bs → Forall2 R (a :: as) (b :: bs)

end Refex
