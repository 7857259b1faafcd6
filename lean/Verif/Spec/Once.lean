import Verif.Spec.Find
/- Histories of match attempts within one top-level match. -/
namespace Refex
set_option autoImplicit false

/-- From the state `ks`, some sequence of further attempts, of any matchers on any candidates, each ending without an
exception, leads to the state `ks'`. -/
inductive Later (c : Ctx) : List Key → List Key → Prop
  | now {ks} : Later c ks ks
  | step {ks ks1 ks' n env m v r} : run c n env m v ks = .ok (r, ks1) → Later c ks1 ks' → Later c ks ks'

/-- A match of the candidate itself, with no bindings and no replacements. -/
def Bare (c : Ctx) (v : Val) : MatchInfo := ⟨createMatch c v, [], []⟩

end Refex
