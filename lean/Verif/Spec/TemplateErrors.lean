import Verif.Spec.Modes
import Verif.Spec.PyTemplate
import Verif.Props.PyTemplate
import Verif.Spec.Surroundings
/- What C99 says: which exceptions a Python template raises. -/
namespace Refex
set_option autoImplicit false

/-- What is assumed of Python's tokenizer: a token whose text is an identifier is an ordinary one (no indentation, no end of a line). -/
def WordTokens (py : Python) : Prop := ∀ s toks, py.tokens s = some toks → ∀ u ∈ toks, isVariable u.string = true → u.kind = .other

/-- The text around the match in `parent`, with `$current_expr` in the place of the match, can be made a template, and that is its only variable. -/
def SurroundingsFit (py : Python) (c : Ctx) (parent : Val) (parentSpan matchSpan : Span) : Prop :=
  ∀ pre post, Around py.env c.text parent parentSpan matchSpan pre post →
    ∃ t, py.pyTemplate .module (pre ++ str "$current_expr" ++ post) = .ok t ∧ ∀ x ∈ t.variables, x = str "current_expr"

/-- In some text made from the template, a mere string (no syntax tree) stands in the place of a variable. -/
def StringForVariable (py : Python) (t : PyTemplate) : Prop :=
  ∃ map new c kind anonymous variables tree occ x i s, t.fill map = .ok new ∧ py.file new = some c ∧
    t.astMatcher = TemplateKind.matcher kind (patternMatcher (submatchers anonymous variables []) tree) ∧
    kind.Instance (metaNames anonymous variables) tree c.tree occ ∧ (x, Val.const i (.str s)) ∈ occ

/-- The exceptions that a template may raise, and when, in a file where the match is at path `p`. -/
inductive Raises (py : Python) (t : PyTemplate) (parsed : Option Ctx) (p : Path) (m : MObj) (ms : Dict Label PyMatch) : TExc → Prop
  | refused : Raises py t parsed p m ms .rewriteError
  | unbound {x : Label} : x ∈ t.variables → (∀ o s, ms.get? x = some o → o.string ≠ some s) → Raises py t parsed p m ms .keyError
  | surroundings {c : Ctx} {w : Val} {sp : Span} {parent : Val} {parentSpan : Span} {e : TExc} : parsed = some c → m = .lexical w sp → py.isExpr w = true →
      FitsInto py.env c p parent parentSpan → ¬ SurroundingsFit py c parent parentSpan sp → e = .valueError ∨ e = .keyError → Raises py t parsed p m ms e
  | string {t' : PyTemplate} : (t' = t ∨ ∃ text, py.pyTemplate .module text = .ok t') → StringForVariable py t' → Raises py t parsed p m ms (.matcher .attributeError)
  | deep : Raises py t parsed p m ms (.matcher .recursionError)

end Refex
