import Verif.Model.MatcherMode
import Verif.Spec.Build
import Verif.Spec.CompileText
import Verif.Spec.ModesMain
import Verif.Spec.Find
import Verif.Spec.Places
/- Specification of `--mode=py`. -/
namespace Refex
set_option autoImplicit false

/-- The text of a matcher expression: the lines of the input without their common indentation, without empty lines at the beginning and the end. -/
def ReadsAs (input s : Str) : Prop :=
  ∃ ls rs j k, HasLines input ls ∧ Dedented ls rs ∧ joinWith (str "\n") rs = List.replicate j '\n' ++ s ++ List.replicate k '\n' ∧
    s.head? ≠ some '\n' ∧ s.getLast? ≠ some '\n'

/-- The matcher that an input stands for: it is read as an expression, which is evaluated with the constants for objects that there are at first, and its value
is taken as a matcher (a value that is no matcher: what is equal to it). -/
def StandsFor (py : Python) (C : Compiler) (input : Str) (m : Matcher) : Prop :=
  ∃ s e v st, ReadsAs input s ∧ C.syn.parse s = .ok e ∧ Builds (py.evalWorld C) (constantObjects registeredConstants).2 e v st ∧
    Sub ((py.evalWorld C).now st) (some v) m

/-- The restrictions of a pattern: a matcher for each name. -/
inductive RestrictionsOf (E : MakeEnv) : Option PVal → Dict Label Matcher → Prop
  | missing : RestrictionsOf E none []
  | dict {items d} : Forall2 (fun (p : PVal × PVal) (q : Label × Matcher) => p.1 = .const (.str q.1) ∧ Sub E (some p.2) q.2) items d →
      RestrictionsOf E (some (.dict (flatItems items))) d

/-- What is raised in a call, as the command line gets it. -/
inductive Passed : Except Exc Matcher → Except EErr (Option Matcher) → Prop
  | made {m} : Passed (.ok m) (.ok (some m))
  | raised {e e'} : e'.toExc = e → e' ≠ .syntaxError → Passed (.error e) (.error e')

/-- The results of searching a file for a matcher: the outermost matches in document order, each with its report, if there is one; all that is reported is of the file. -/
def MatcherResult (py : Python) (m : Matcher) (ts : Dict Str CodeTemplate) (content : Str) (subs : List Substitution) : Prop :=
  ∃ c rs os, py.file content = some c ∧ Outermost (attempt c (py.depth - 2) m) c.tree c.done rs ∧ subs = os.filterMap id ∧
    Forall2 (fun (r : Report) o => ReportIn py c ts (LabelOf r.mi) o) rs os ∧
    (FileFits c → ∀ r ∈ rs, ∀ l o, LabelOf r.mi l = some o → MatchOf c o)

/-- A matcher of the command line and its templates: those of the texts. -/
def MatcherQueryOf (py : Python) (C : Compiler) (sm : Str) (sr : SearchReplace) (q : Matcher × Dict Str CodeTemplate) : Prop :=
  ∃ text, sr.pattern = some text ∧ StandsFor py C text q.1 ∧ TemplatesParse (py.template sm) sr.sub q.2

/-- No group of a regex that the matcher declares has a reserved name. -/
def GroupsUnreserved (c : Ctx) (m : Matcher) : Prop := ∀ l ∈ m.bindVars c.rxGroups, (∃ rx, l ∈ c.rxGroups rx) → ¬ (str "__") <+: l

end Refex
