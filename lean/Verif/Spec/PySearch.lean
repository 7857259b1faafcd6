import Verif.Spec.Find
import Verif.Spec.Common
import Verif.Model.PySearch
import Verif.Spec.Nav
/- Specification of what a Python search reports for a match. -/
namespace Refex
set_option autoImplicit false

/-- The match that a label stands for: `__root` for the whole match, any other label for what was bound to it. -/
def LabelOf (mi : MatchInfo) (l : Label) : Option MObj :=
  if l = str "__root" then some mi.obj else (mi.bindings.get? l).map (·.value)

/-- The label stands for a statement that an empty template removes (its span is then adjusted, see C31). -/
def RemovesStmt (env : Templates) (ts : Replacements) (mi : MatchInfo) (l : Label) : Prop :=
  (∃ t, ts.get? l = some t ∧ env.text t = []) ∧ ∃ v sp, LabelOf mi l = some (.lexical v sp) ∧ v.ty ∈ stmtTypes

/-- The matches offered to the templates: exactly those of the labels, with the text and span of each, where only a removed
statement has another span. -/
structure Offered (c : Ctx) (env : Templates) (ts : Replacements) (mi : MatchInfo) (ms : Dict MatchKey MatchV) : Prop where
  wf : ms.WF
  names : ∀ l, ¬ RemovesStmt env ts mi l → ms.get? (.name l) = (LabelOf mi l).map (matchVOf c.text)
  removed : ∀ l, RemovesStmt env ts mi l → ∃ sp, ms.get? (.name l) = some ⟨some (slice c.text sp.1 sp.2), some sp, (LabelOf mi l).bind MObj.matched?⟩
  only : ∀ n, ms.get? (.num n) = none

/-- The template is used: its label has a place in the file, or it is a system label that is not matched at all. -/
def Applies (ms : Dict MatchKey MatchV) (l : Label) (m : MatchV) : Prop :=
  (ms.get? (.name l) = some m ∧ m.span ≠ none) ∨ (ms.get? (.name l) = none ∧ m = {} ∧ ∃ s, l = '_' :: '_' :: s)

/-- The four labels whose templates give metadata instead of an edit. -/
def metadataLabels : List Label := [str "__message", str "__url", str "__category", str "__significant"]

/-- What the template at `l` gives. -/
def Gives (env : Templates) (ts : Replacements) (ms : Dict MatchKey MatchV) (l : Label) (s : Str) : Prop :=
  ∃ t m, ts.get? l = some t ∧ Applies ms l m ∧ (env.sem t).substitute m ms = .ok s

/-- `f` is the finding for the match `mi` under the templates `ts`. -/
structure Finding (c : Ctx) (env : Templates) (ts : Replacements) (mi : MatchInfo) (f : Found) : Prop where
  primary : f.primaryLabel = .name (str "__root")
  report : ∃ ms, Offered c env ts mi ms ∧
    (∀ l, f.matchedSpans.get? (.name l) = (ms.get? (.name l)).bind (·.span)) ∧
    (∀ n, f.matchedSpans.get? (.num n) = none) ∧
    (∀ l s, ¬ RemovesStmt env ts mi l →
      (f.replacements.get? (.name l) = some s ↔ l ∉ metadataLabels ∧ Gives env ts ms l s)) ∧
    (∀ n, f.replacements.get? (.num n) = none) ∧
    (∀ s, f.message = some s ↔ Gives env ts ms (str "__message") s) ∧
    (∀ s, f.url = some s ↔ Gives env ts ms (str "__url") s) ∧
    (∀ s, f.category = some s ↔ Gives env ts ms (str "__category") s) ∧
    (f.significant = true ↔ ∃ s, s ≠ [] ∧ Gives env ts ms (str "__significant") s)
  distinct : f.matchedSpans.WF

/-- The templates refuse this match. -/
def Refused (c : Ctx) (env : Templates) (ts : Replacements) (mi : MatchInfo) : Prop :=
  ∃ ms l t m, Offered c env ts mi ms ∧ ts.get? l = some t ∧ Applies ms l m ∧
    ((env.sem t).substitute m ms = .error .rewriteError ∨
      RemovesStmt env ts mi l ∧ env.pass.substitute m ms = .error .rewriteError)

/-- The part of the file that a match belongs to when fixes are iterated: none if the match is no node with tokens; otherwise, for a node below a
node with a body (the nearest one at `q`), the span of the first object on the way down from there that is not a list. It is the span of a node. -/
def PartOfFile (c : Ctx) (o : MObj) (k : Option Span) : Prop :=
  (∀ sp, k = some sp → ∃ i, c.tok i = some sp) ∧
  ((∀ v sp, o ≠ .lexical v sp) → k = none) ∧
  ∀ v sp, o = .lexical v sp → v.isInner → ∀ q s b, c.tree.at? q = some b → hasBody b = true → c.tree.at? (q ++ s) = some v →
    (∀ (t : Path) (x : Val), t <+: s → t ≠ [] → c.tree.at? (q ++ t) = some x → hasBody x = false) →
    k = (firstNonList c.tree q s).bind fun x => c.tok x.ident

end Refex
