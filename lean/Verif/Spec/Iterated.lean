import Verif.Spec.FixedPoint
import Verif.Spec.ModesMain
/- Specification of commands that iterate: what becomes of the substitutions found in one part of a file. -/
namespace Refex
set_option autoImplicit false

/-- `k` times in a row, the pending substitutions are applied to the text, the result is valid Python, and searching it finds the next ones. -/
inductive RoundsOf (valid : Str → Prop) (finds : Str → List Substitution → Prop) : Nat → Str → List Substitution → Str → List Substitution → Prop
  | stop (t : Str) (s : List Substitution) : RoundsOf valid finds 0 t s t s
  | round {k : Nat} {t t1 t' : Str} {s s1 s' : List Substitution} : s ≠ [] → applySubstitutions t s = .ok t1 → valid t1 → finds t1 s1 →
      RoundsOf valid finds k t1 s1 t' s' → RoundsOf valid finds (k + 1) t s t' s'

/-- Why no more rounds were made than `k`: it is the limit, nothing was found any more, or what was found would have made the text invalid. -/
def NoMoreRounds (valid : Str → Prop) (n k : Nat) (t : Str) (pending : List Substitution) : Prop :=
  k = n ∨ pending = [] ∨ ∃ u, applySubstitutions t pending = .ok u ∧ ¬ valid u

/-- What becomes of neighbouring substitutions `g` of a text which belong to the part `[a, b)` of it (a statement; `none`: no part), if there may be
`n` rounds. They stay as they are if there is no part, no iteration, or one of them reaches beyond the part. Otherwise the part is rewritten: if the
first result is not valid, they are dropped; after one round they stay as they are; after several there is one substitution, which puts the final
text in the place of the part. -/
inductive Iterated (valid : Str → Prop) (finds : Str → List Substitution → Prop) (n : Nat) (text : Str) :
    Option Span → List Substitution → List Substitution → Prop
  | alone (g : List Substitution) : Iterated valid finds n text none g g
  | once (a b : Nat) (g : List Substitution) : n ≤ 1 → Iterated valid finds n text (some (a, b)) g g
  | beyond (a b : Nat) (g : List Substitution) : (∃ s ∈ g, ∃ p ∈ s.matchedSpans, ¬ (a ≤ p.2.1 ∧ p.2.2 ≤ b)) → Iterated valid finds n text (some (a, b)) g g
  | dropped {a b : Nat} {g rels : List Substitution} {u : Str} : 2 ≤ n → g.map (fun s => s.relativeToSpan a b) = rels.map some →
      applySubstitutions (slice text a b) rels = .ok u → ¬ valid u → Iterated valid finds n text (some (a, b)) g []
  | one {a b : Nat} {g rels pending : List Substitution} {t : Str} : 2 ≤ n → g.map (fun s => s.relativeToSpan a b) = rels.map some →
      RoundsOf valid finds 1 (slice text a b) rels t pending → NoMoreRounds valid n 1 t pending → Iterated valid finds n text (some (a, b)) g g
  | more {a b k : Nat} {g rels pending : List Substitution} {t : Str} {s : Substitution} : 2 ≤ k → k ≤ n →
      g.map (fun s => s.relativeToSpan a b) = rels.map some → RoundsOf valid finds k (slice text a b) rels t pending → NoMoreRounds valid n k t pending →
      MergedInto s a b t → Iterated valid finds n text (some (a, b)) g [s]

/-- What the searches of a command find in a text, put together, without what pragmas disable. -/
def FoundBy (force : Bool) (pragmas : Str → List Pragma) (Ps : List (Str → List Substitution → Prop)) (text : Str) (subs : List Substitution) : Prop :=
  ∃ per all, Forall2 (fun P l => P text l) Ps per ∧ Together per all ∧ Unsuppressed force (pragmas text) all subs

/-- The result of a command on a file: what is found in it, grouped by the statements it belongs to, and iterated. -/
def IteratedResult (valid : Str → Prop) (finds : Str → List Substitution → Prop) (n : Nat) (text : Str) (out : List Substitution) : Prop :=
  ∃ subs gs outs, finds text subs ∧ IsGrouping (fun x => x.keySpan) subs gs ∧
    Forall2 (fun (g : Option Span × List Substitution) o => Iterated valid finds n text g.1 g.2 o) gs outs ∧ out = outs.flatten

end Refex
