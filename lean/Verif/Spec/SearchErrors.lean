import Verif.Spec.Modes
import Verif.Spec.TemplateErrors
/- Which exceptions the search for a pattern of the command line raises. -/
namespace Refex
set_option autoImplicit false

/-- The templates that this is about: Python templates, and shell-style templates that are well-formed; none is empty. -/
def OfCode (py : Python) (t : CodeTemplate) : Prop :=
  t.text ≠ [] ∧ ((∃ kind text t', py.pyTemplate kind text = .ok t' ∧ t = t'.code py) ∨ ∃ text vs, shVariables text = .ok vs ∧ t = shCodeTemplate text)

/-- The templates have usual labels: `__root` for the whole match, and names of metavariables. -/
def UsualLabels (ts : Dict Str CodeTemplate) : Prop := ∀ l t, ts.get? l = some t → l = str "__root" ∨ ∀ s, l ≠ str "__" ++ s

/-- The exceptions that the templates raise for an instance of the pattern: those of a Python template (C99), at the node it replaces, which is the instance or below
it, other than RewriteError; and the KeyError of a shell-style template, if a name in it stands for nothing that has a text. -/
inductive SearchRaises (py : Python) (c : Ctx) (ts : Dict Str CodeTemplate) (h : PatternHit) : Exc → Prop
  | python {l : Label} {t : PyTemplate} {q : Path} {w : Val} {sp : Span} {ms : Dict MatchKey MatchV} {e : TExc} : ts.get? l = some (t.code py) →
      h.label c l = some (.lexical w sp) → h.path <+: q → c.tree.at? q = some w → OfferedTo c ts (h.label c) ms → e ≠ .rewriteError →
      Raises py t (some c) q (.lexical w sp) (namedMatches ms) e → SearchRaises py c ts h e.toExc
  | sh {l x : Label} {text : Str} {vs : List Str} : ts.get? l = some (shCodeTemplate text) → shVariables text = .ok vs → x ∈ vs →
      (∀ o, h.label c x = some o → (matchVOf c.text o).string = none) → SearchRaises py c ts h .keyError

end Refex
