import Verif.Spec.PatternTokens
/- Specification of where the tokens of a text are, and of replacing the `$variables` in a text. -/
namespace Refex
set_option autoImplicit false

/-- The place after a string that begins at `p`. -/
def tokEnd (p : Nat × Nat) (s : Str) : Nat × Nat := s.foldl (fun p c => if c = '\n' then (p.1 + 1, 0) else (p.1, p.2 + 1)) p

/-- Tokens end where their strings do. -/
def Sized (ts : List PTok) : Prop := ∀ t ∈ ts, t.kind = .other → t.stop = tokEnd t.start t.string

/-- The tokens (from line and column `pos` on, in blocks indented by so many columns, the innermost first) of a text that is made
of these pieces: spaces, and the string of a token. No tabs, form feeds or backslashes between tokens; an indentation comes
at the start of a line, the end of blocks at the start of a line that is not the first, before the token which is where the line
now has to begin. -/
inductive Layout : Nat × Nat → List Nat → List PTok → List (Str × Str) → Prop
  | nil {pos inds} : Layout pos inds [] []
  | stop {pos inds t} : t.kind = .endmarker → t.string = [] → Layout pos inds [t] []
  | indent {pos inds t ts ps} (n : Nat) : t.kind = .indent → t.string = List.replicate n ' ' → pos.2 = 0 → Layout pos (n :: inds) ts ps →
      Layout pos inds (t :: ts) ps
  | dedent {pos inds t ts ps} : t.kind = .dedent → t.string = [] → pos.2 = 0 → 1 < pos.1 → t.stop = (pos.1, inds.tail.headD 0) →
      (∀ u, ts.head? = some u → u.kind = .dedent ∨ u.kind = .endmarker ∨ (u.kind = .other ∧ u.start = t.stop)) →
      Layout pos inds.tail ts ps → Layout pos inds (t :: ts) ps
  | line {pos inds t ts ps} (g : Nat) : t.kind = .newline ∨ t.kind = .nl → t.string = [] ∨ t.string = str "\n" ∨ t.string = str "\r\n" →
      t.start = (pos.1, pos.2 + g) → t.stop.1 = pos.1 → Layout (pos.1 + 1, 0) inds ts ps →
      Layout pos inds (t :: ts) ((List.replicate g ' ', t.string) :: ps)
  | token {pos inds t ts ps} (g : Nat) : t.kind = .other → t.start = (pos.1, pos.2 + g) → pos.1 ≤ t.stop.1 → 0 < t.stop.2 →
      Layout t.stop inds ts ps → Layout pos inds (t :: ts) ((List.replicate g ' ', t.string) :: ps)

/-- The text made of the pieces. -/
def textOf (ps : List (Str × Str)) : Str := (ps.map fun p => p.1 ++ p.2).flatten

/-- `out` is the text made of the pieces with every `$x` replaced: the pairs are, in order, the variables and what each was
replaced by; `kept` are the other tokens. -/
inductive Replaces : List (Str × Str) → List (Str × Str) → List Str → Str → Prop
  | nil : Replaces [] [] [] []
  | keep {g s ps l kept out} : s ≠ str "$" → Replaces ps l kept out → Replaces ((g, s) :: ps) l (s :: kept) (g ++ s ++ out)
  | var {g x new ps l kept out} : isVariable x = true → Replaces ps l kept out →
      Replaces ((g, str "$") :: ([], x) :: ps) ((x, new) :: l) kept (g ++ new ++ out)

end Refex
