import Verif.Spec.PySearch
import Verif.Model.Fixers
/- Specification of fixers. -/
namespace Refex
set_option autoImplicit false

/-- The finding that a fixer makes of a match: its own templates apply (those of the mapping it was given, or its template
for the whole match), and message, url, category and significance are its own. -/
structure FixerFinding (c : Ctx) (env : Templates) (F : Fixer) (own : Replacements) (mi : MatchInfo) (f : Found) : Prop where
  templates : ∃ d, (∀ l, l ∉ metadataLabels → d.get? l = own.get? l) ∧ Finding c env d mi f
  message : f.message = F.message
  url : f.url = F.url
  category : f.category = F.category
  significant : f.significant = F.significant

/-- The fixer's templates refuse the match. -/
def FixerRefuses (c : Ctx) (env : Templates) (own : Replacements) (mi : MatchInfo) : Prop :=
  ∃ d, (∀ l, l ∉ metadataLabels → d.get? l = own.get? l) ∧ Refused c env d mi

/-- `F` is the first of the fixers whose matcher matches the object, with this result: the ones before it were tried without
success, or cannot match this object. -/
def FirstFixer (c : Ctx) (n : Nat) (fs : List Fixer) (v : Val) (F : Fixer) (mi : MatchInfo) : Prop :=
  ∃ pre post ks ks', fs = pre ++ F :: post ∧ run c n [] F.matcher v ks = .ok (some mi, ks') ∧
    ∀ G ∈ pre, ∃ ks, ∀ mi' ks', run c n [] G.matcher v ks ≠ .ok (some mi', ks')

/-- No two of the fixers were given the same mapping object. -/
def OwnMappings (fs : List Fixer) : Prop :=
  fs.Pairwise fun F G => ∀ r, F.replacement = .mapping r → G.replacement ≠ .mapping r

/-- Templates named as literals are literal templates. -/
def LiteralNames (env : Templates) : Prop := ∀ s, env.sem (litCode s) = literalTemplate s

/-- Registering fixers. -/
inductive RegOp (α : Type)
  | group (name : Str) (fs : List α)
  | defaults (fs : List α)

/-- The groups registered in a history of registrations (first of a name counts). -/
def groupsOf {α : Type} : List (RegOp α) → List (Str × List α)
  | [] => []
  | .group name fs :: ops => (name, fs) :: groupsOf ops
  | .defaults _ :: ops => groupsOf ops

/-- The fixers added to '*', in order. -/
def defaultsOf {α : Type} : List (RegOp α) → List α
  | [] => []
  | .group _ _ :: ops => defaultsOf ops
  | .defaults fs :: ops => fs ++ defaultsOf ops

end Refex
