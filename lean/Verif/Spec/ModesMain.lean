import Verif.Spec.Modes
import Verif.Spec.Main
import Verif.Spec.Category
import Verif.Spec.Pragma
/- Specification of the command line in the modes for Python patterns. -/
namespace Refex
set_option autoImplicit false

/-- The modes of Python patterns. -/
inductive PatternMode : Str → PatternKind → Prop
  | expr : PatternMode (str "py.expr") .expr
  | stmt : PatternMode (str "py.stmt") .stmt

/-- Unless it is enabled by force, what is reported is what was found, except for what the pragmas of the file disable. -/
def Unsuppressed (force : Bool) (pragmas : List Pragma) (subs out : List Substitution) : Prop :=
  (force = true → out = subs) ∧
  (force = false → out.Sublist subs ∧ ∀ x ∈ subs, x ∉ out ↔
    ∃ c, InCategory x c ∧ ∃ rg, RangeOf (pragmaExcludedRanges pragmas) c rg ∧ Meets x.primarySpan rg)

/-- A pattern of the command line with its templates: what its identifiers mean, its tree, the templates. -/
structure Query where
  what : Str → Hole
  tree : Val
  templates : Dict Str CodeTemplate

/-- The pattern and the templates are those of the texts. -/
def QueryOf (py : Python) (kind : PatternKind) (sm : Str) (sr : SearchReplace) (q : Query) : Prop :=
  ∃ text, sr.pattern = some text ∧ PatternMeans py kind text q.what q.tree ∧ TemplatesParse (py.template sm) sr.sub q.templates

/-- What several searches find together: the results of the only one; or a choice of the results of all, which do not overlap, and which is not
empty if anything is found. -/
inductive Together : List (List Substitution) → List Substitution → Prop
  | one (l : List Substitution) : Together [l] l
  | many {per : List (List Substitution)} {out sorted : List Substitution} : 2 ≤ per.length → sorted.Perm per.flatten → out.Sublist sorted →
      out.Pairwise (fun a b => a.primarySpan.2 ≤ b.primarySpan.1) → ((∃ l ∈ per, l ≠ []) → out ≠ []) → Together per out

end Refex
