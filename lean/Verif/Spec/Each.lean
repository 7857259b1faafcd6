/- Lists compared item by item. -/
namespace Refex
set_option autoImplicit false

/-- The lists correspond item by item. -/
inductive Each {α β : Type} (R : α → β → Prop) : List α → List β → Prop
  | nil : Each R [] []
  | cons {a b as bs} : R a b → Each R as bs → Each R (a :: as) (b :: bs)

end Refex
