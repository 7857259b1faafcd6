import Verif.Model.Glob
/- What a glob pattern accepts. -/
namespace Refex
set_option autoImplicit false

/-- The sequence splits along the pattern: every item matcher takes one item it accepts, every star any number. -/
inductive Fits (acc : Matcher → Val → Bool) : List (Option Matcher) → List Val → Prop
  | nil : Fits acc [] []
  | item {m ps x xs} : acc m x = true → Fits acc ps xs → Fits acc (some m :: ps) (x :: xs)
  | star {ps} (skipped : List Val) {xs} : Fits acc ps xs → Fits acc (none :: ps) (skipped ++ xs)

/-- `m` accepts exactly the items `acc` says, always, and neither binds nor raises nor records anything. -/
def PlainItem (c : Ctx) (n : Nat) (env : Env) (m : Matcher) (acc : Val → Bool) : Prop :=
  ∀ w ks, if acc w then ∃ mi, run c n env m w ks = .ok (some mi, ks) ∧ mi.bindings = [] else run c n env m w ks = .ok (none, ks)

/-- Every item matcher of the pattern is plain. -/
def PlainPattern (c : Ctx) (n : Nat) (env : Env) (ps : List (Option Matcher)) (acc : Matcher → Val → Bool) : Prop :=
  ∀ m, some m ∈ ps → PlainItem c n env m (acc m)

/-- The outcome says whether `P`. -/
def Decides (c : Ctx) (v : Val) (ks : List Key) (o : Except MExc (GlobRes × List Key)) (P : Prop) : Prop :=
  (P ∧ o = .ok (.matched ⟨createMatch c v, [], []⟩, ks)) ∨ (¬ P ∧ o = .ok (.noMatch, ks))

end Refex
