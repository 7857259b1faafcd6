import Verif.Model.CompileText
import Verif.Spec.Common
/- What the indentation of matcher expressions and error messages should be. -/
namespace Refex
set_option autoImplicit false

/-- Spaces and tabs only. -/
def BlankLine (l : Str) : Prop := ∀ ch ∈ l, ch = ' ' ∨ ch = '\t'

/-- The lines without their common indentation; blank lines are empty and do not count. -/
def Dedented (ls rs : List Str) : Prop :=
  ∃ margin, BlankLine margin ∧ Forall2 (fun l r => (BlankLine l ∧ r = []) ∨ (¬ BlankLine l ∧ l = margin ++ r)) ls rs ∧
    ∀ ch, (ch = ' ' ∨ ch = '\t') → (∃ r ∈ rs, r ≠ []) → ∃ r ∈ rs, r ≠ [] ∧ r.head? ≠ some ch

/-- The same lines with a further indentation; blank lines may be anything blank. -/
def IndentedBy (w : Str) (ls ls' : List Str) : Prop :=
  Forall2 (fun l l' => (BlankLine l ∧ BlankLine l') ∨ (¬ BlankLine l ∧ l' = w ++ l)) ls ls'

/-- A text made of lines. -/
def HasLines (text : Str) (ls : List Str) : Prop := ls ≠ [] ∧ (∀ l ∈ ls, '\n' ∉ l) ∧ text = joinWith (str "\n") ls

/-- A place where Python's `splitlines` ends a line. -/
abbrev LineEnd (ch : Char) : Prop := ch.toNat ∈ [0x0a, 0x0b, 0x0c, 0x0d, 0x1c, 0x1d, 0x1e, 0x85, 0x2028, 0x2029]

/-- The first line of a message. -/
def SyntaxErr.Summary (e : SyntaxErr) (s : Str) : Prop :=
  (∃ m, e.msg = some m ∧ m ≠ [] ∧ s = str "Failed to parse Python-like source code (" ++ m ++ str ").") ∨
  ((e.msg = none ∨ e.msg = some []) ∧ s = str "Failed to parse Python-like source code (<unknown reason>).")

end Refex
