import Verif.Model.Render
/- Specification: coloured text is text with decorations. -/
namespace Refex
set_option autoImplicit false

/-- The sequences that switch on a style: made of the escape sequences of the palette. -/
inductive IsStyle (p : Palette) : Str → Prop
  | none : IsStyle p []
  | red {s : Str} : IsStyle p s → IsStyle p (p.red ++ s)
  | green {s : Str} : IsStyle p s → IsStyle p (p.green ++ s)
  | bright {s : Str} : IsStyle p s → IsStyle p (p.bright ++ s)
  | dim {s : Str} : IsStyle p s → IsStyle p (p.dim ++ s)
  | cycle (n : Nat) {s : Str} : IsStyle p s → IsStyle p (p.stream n ++ s)

/-- `Coloured p d t`: `d` is the text `t` in which some pieces, none of which contains a newline, stand between a sequence that
switches on a style and the sequence that resets it. So no style is left on at the end of a line. -/
inductive Coloured (p : Palette) : Str → Str → Prop
  | nil : Coloured p [] []
  | char (c : Char) {d t : Str} : Coloured p d t → Coloured p (c :: d) (c :: t)
  | styled {style text d t : Str} : IsStyle p style → '\n' ∉ text → Coloured p d t →
      Coloured p (style ++ text ++ p.reset ++ d) (text ++ t)

/-- The escape sequences contain no line breaks. -/
def PlainPalette (p : Palette) : Prop :=
  (∀ c ∈ p.red ++ p.green ++ p.bright ++ p.dim ++ p.reset, isLineBreak c = false) ∧ ∀ n, ∀ c ∈ p.stream n, isLineBreak c = false

end Refex
