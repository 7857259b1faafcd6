import Verif.Spec.MoreSpecific
import Verif.Spec.ParseFile
/- C115: two ways to write the same code. -/
namespace Refex
set_option autoImplicit false

/-- Each metavariable occurs once in the pattern. -/
def EachOnce (what : Str → Hole) (p : Val) : Prop := ∃ occ, Instance (holeAt what) (fun _ _ => True) p p occ ∧ (occ.map Prod.fst).Nodup

/-- The places of the matches inside of the part at `r`, seen from there. -/
def PlacesIn (hits : List PatternHit) (r : Path) : List Path := (hits.filter fun h => r.isPrefixOf h.path).map fun h => h.path.drop r.length

/-- The part at `r` is not inside of a match (it may be one). -/
def OutsideMatches (hits : List PatternHit) (r : Path) : Prop := ∀ h ∈ hits, h.path <+: r → h.path = r

end Refex
