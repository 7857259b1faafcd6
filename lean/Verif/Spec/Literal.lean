import Verif.Spec.RegexMode
import Verif.Spec.Main
/- C110: replacing a literal text. -/
namespace Refex
set_option autoImplicit false

/-- `w` stands in `s` at offset `a`. -/
def OccursAt (w s : Str) (a : Nat) : Prop := w <+: s.drop a

/-- The regex `pattern` stands for the text `w` itself: its matches in a text are places where `w` stands, and wherever `w` stands there is a match, or
one that starts before and is not over yet. -/
structure IsLiteral (py : Python) (pattern w : Str) : Prop where
  sound : ∀ text, ∀ regs ∈ py.finditer pattern text, ∃ a, regs[0]? = some (some (a, a + w.length)) ∧ OccursAt w text a
  complete : ∀ text a, OccursAt w text a → ∃ regs ∈ py.finditer pattern text, ∃ b, regs[0]? = some (some (b, b + w.length)) ∧ b ≤ a ∧ a < b + w.length

/-- The command `refex --mode=re PATTERN --sub=TEMPLATE …`, with a regex that stands for the text `a` and a template that stands for the text `b`. -/
structure ReplacesLiteral (py : Python) (w : World) (o : Options) (r : Runner) (pattern template a b : Str) (c : Compiled) : Prop where
  runner : runnerFromOptions w py.modes o = .ok r
  mode : o.mode = str "re"
  inEffect : SyntaxInEffect o.mode o.subMode (str "re")
  one : o.searchReplace = [⟨some pattern, [(str "__root", template)]⟩]
  fits : FindsMatches py pattern c
  literal : IsLiteral py pattern a
  text : py.reItems template = some [.lit b]
  encoding : ∀ s x, r.enc.encode s = some x → r.enc.decode x = some s

end Refex
