import Verif.Spec.Fixers
/- Specification of the checks made when templates are attached to a matcher, and of the registry of fixers. -/
namespace Refex
set_option autoImplicit false

/-- A label that templates may mention: one the matcher may bind, or a reserved one (starting with two underscores). -/
def Usable (m : Matcher) (g : Str → List Label) (l : Label) : Prop := l ∈ m.bindVars g ∨ ∃ s, l = '_' :: '_' :: s

/-- Every label that has a template is usable, and so is every variable that a template mentions; none is a number. -/
def TemplatesFit (env : Templates) (g : Str → List Label) (m : Matcher) (d : Replacements) : Prop :=
  ∀ l t, d.get? l = some t → Usable m g l ∧ ∀ v ∈ (env.sem t).vars, ∃ l', v = .name l' ∧ Usable m g l'

/-- The registry after a history of registrations: those that raise an error leave it as it was. -/
def regRun {α : Type} (r : Registry α) : List (RegOp α) → Registry α
  | [] => r
  | .group name fs :: ops =>
    match r.register name fs with
    | .ok r' => regRun r' ops
    | .error _ => regRun r ops
  | .defaults fs :: ops => regRun (r.registerDefault fs) ops

/-- What a name stands for, given what was registered under names, in order: the first registration counts. -/
def FirstNamed {α : Type} (gs : List (Str × List α)) (name : Str) : Option (List α) := (gs.find? (·.1 = name)).map (·.2)

end Refex
