import Verif.Model.Formatting
/-
Specification of "edit a text": independent of how refex computes it.
-/
namespace Refex
set_option autoImplicit false

/-- The edits a substitution asks for: one per matched span whose label has a replacement. -/
def editsOf (s : Substitution) : List Repl :=
  match s.replacements with
  | none => []
  | some r => s.matchedSpans.filterMap fun p =>
      match r.get? p.1 with
      | some t => some { text := t, start := p.2.1, stop := p.2.2 }
      | none => none

/-- All edits asked for by a list of substitutions. -/
def allEdits (subs : List Substitution) : List Repl := subs.flatMap editsOf

/-- `Spliced pos rest es out`: `rest` is the text from offset `pos` on; replacing in it, from left to right,
the spans of `es` by their texts and keeping all other characters gives `out`. The edits are in order and
do not overlap. -/
inductive Spliced : Nat → Str → List Repl → Str → Prop
  | done (pos : Nat) (rest : Str) : Spliced pos rest [] rest
  | edit (pos : Nat) (e : Repl) (es : List Repl) (keep old rest out : Str)
      (hkeep : pos + keep.length = e.start) (hold : e.start + old.length = e.stop)
      (h : Spliced e.stop rest es out) :
      Spliced pos (keep ++ (old ++ rest)) (e :: es) (keep ++ (e.text ++ out))

/-- The same as a function (total: offsets past the end of the text are clamped like Python slices). -/
def splice (data : Str) : Nat → List Repl → Str
  | pos, [] => data.drop pos
  | pos, e :: es => slice data pos e.start ++ (e.text ++ splice data e.stop es)

/-- Edits in order, well formed, non-overlapping, none before `pos`. -/
def InOrder : Nat → List Repl → Prop
  | _, [] => True
  | pos, e :: es => pos ≤ e.start ∧ e.start ≤ e.stop ∧ InOrder e.stop es

instance InOrder.dec : (pos : Nat) → (es : List Repl) → Decidable (InOrder pos es)
  | _, [] => isTrue trivial
  | pos, e :: es =>
    have := InOrder.dec e.stop es
    inferInstanceAs (Decidable (pos ≤ e.start ∧ e.start ≤ e.stop ∧ InOrder e.stop es))

/-- Two edits do not overlap: one ends before (or where) the other starts. -/
def Apart (a b : Repl) : Prop := a.stop ≤ b.start ∨ b.stop ≤ a.start

instance (a b : Repl) : Decidable (Apart a b) := inferInstanceAs (Decidable (_ ∨ _))

end Refex
