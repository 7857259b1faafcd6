import Verif.Model.Matchers
/- Specification of AnyOf and AllOf, independent of type dispatch and of the order of merging. -/
namespace Refex
set_option autoImplicit false

/-- The attempt matched with this result. `f` is "match this candidate, from the given state". -/
def Hits (f : List Key → MOut) (ks : List Key) (mi : MatchInfo) (ks' : List Key) : Prop := f ks = .ok (some mi, ks')

/-- The attempt did not match (and raised nothing). -/
def Misses (f : List Key → MOut) (ks ks' : List Key) : Prop := f ks = .ok (none, ks')

/-- Whatever the state, the attempt never succeeds. -/
def NeverHits (f : List Key → MOut) : Prop := ∀ ks mi ks', ¬ Hits f ks mi ks'

/-- `mi` is the result of the first alternative that matches; alternatives that can never match this candidate need
not have been tried. -/
inductive FirstHit : List (List Key → MOut) → List Key → MatchInfo → List Key → Prop
  | hit {f fs ks mi ks'} : Hits f ks mi ks' → FirstHit (f :: fs) ks mi ks'
  | miss {f fs ks ks1 mi ks'} : Misses f ks ks1 → FirstHit fs ks1 mi ks' → FirstHit (f :: fs) ks mi ks'
  | never {f fs ks mi ks'} : NeverHits f → FirstHit fs ks mi ks' → FirstHit (f :: fs) ks mi ks'

/-- No alternative matches. -/
inductive AllMiss : List (List Key → MOut) → List Key → List Key → Prop
  | nil {ks} : AllMiss [] ks ks
  | miss {f fs ks ks1 ks'} : Misses f ks ks1 → AllMiss fs ks1 ks' → AllMiss (f :: fs) ks ks'
  | never {f fs ks ks'} : NeverHits f → AllMiss fs ks ks' → AllMiss (f :: fs) ks ks'

/-- The attempt raises nothing and leaves the state alone. -/
def Quiet (f : List Key → MOut) : Prop := ∀ ks, ∃ r, f ks = .ok (r, ks)

/-- All conditions match, one after the other, with these results. -/
inductive AllHit : List (List Key → MOut) → List Key → List MatchInfo → List Key → Prop
  | nil {ks} : AllHit [] ks [] ks
  | cons {f fs ks mi ks1 mis ks'} : Hits f ks mi ks1 → AllHit fs ks1 mis ks' → AllHit (f :: fs) ks (mi :: mis) ks'

/-- Merging the bindings one after the other onto `b` succeeds with `b'` (see C37 for one merge). -/
inductive MergeAll : Bindings → List Bindings → Bindings → Prop
  | nil {b} : MergeAll b [] b
  | cons {b x b1 xs b'} : mergeBindings b x = .ok (some b1) → MergeAll b1 xs b' → MergeAll b (x :: xs) b'

/-- The same for replacements. -/
inductive MergeAllRepl : Replacements → List Replacements → Replacements → Prop
  | nil {b} : MergeAllRepl b [] b
  | cons {b x b1 xs b'} : mergeReplacements b x = .ok b1 → MergeAllRepl b1 xs b' → MergeAllRepl b (x :: xs) b'

end Refex
