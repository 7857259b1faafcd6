import Verif.Spec.Glob
import Verif.Spec.Combinators
/- What a match of a glob pattern says about the items and the bindings, for all item matchers. -/
namespace Refex
set_option autoImplicit false

/-- As `Fits`, with the results of the item matchers, which are arbitrary. -/
inductive FitsWith (hits : Matcher → Val → MatchInfo → Prop) : List (Option Matcher) → List Val → List MatchInfo → Prop
  | nil : FitsWith hits [] [] []
  | item {m ps x xs mi mis} : hits m x mi → FitsWith hits ps xs mis → FitsWith hits (some m :: ps) (x :: xs) (mi :: mis)
  | star {ps} (skipped : List Val) {xs mis} : FitsWith hits ps xs mis → FitsWith hits (none :: ps) (skipped ++ xs) mis

/-- The bindings of the results are merged, those of consecutive items first, then the groups onto `b`. -/
inductive MergesGroups : Bindings → List MatchInfo → Bindings → Prop
  | nil {b} : MergesGroups b [] b
  | group {b g x b1 rest b'} : MergeAll [] (g.map (·.bindings)) x → mergeBindings b x = .ok (some b1) → MergesGroups b1 rest b' →
      MergesGroups b (g ++ rest) b'

end Refex
