import Verif.Spec.FixMode
import Verif.Spec.TemplateErrors
/- Which exceptions a search in mode `fix` raises. -/
namespace Refex
set_option autoImplicit false

/-- The exceptions that a fixer raises at a place (`p`) where it applies, given its match and what that offers to templates: those of its Python template
at the node that it replaces (there, or below), other than RewriteError; and a KeyError of the one that writes the text of a function, if that has none. -/
inductive FixRaises (py : Python) (mangle : Label → Str) (c : Ctx) (p : Path) (F : Fixer) (mi : MatchInfo) (ms : Dict MatchKey MatchV) : Exc → Prop
  | python {l : Label} {t : PyTemplate} {q : Path} {w : Val} {sp : Span} {e : TExc} : FixerWrites py mangle F l (t.code py) → LabelOf mi l = some (.lexical w sp) →
      p <+: q → c.tree.at? q = some w → e ≠ .rewriteError → Raises py t (some c) q (.lexical w sp) (namedMatches ms) e → FixRaises py mangle c p F mi ms e.toExc
  | function : F = loggingExceptionFixer mangle 4 → (∀ o, LabelOf mi (str "func") = some o → (matchVOf c.text o).string = none) → FixRaises py mangle c p F mi ms .keyError

end Refex
