import Verif.Spec.BuiltinSearch
import Verif.Spec.Groups
import Verif.Spec.Modes
import Verif.Spec.ModesTemplate
import Verif.Spec.Surroundings
import Verif.Spec.Iterated
import Verif.Model.FixMode
/- Specification of mode `fix`. -/
namespace Refex
set_option autoImplicit false

/-- The name of the file ends with `.py` (or with `.py` and a newline). -/
def PyPath (path : Str) : Prop := ∃ base, path = base ++ str ".py" ∨ path = base ++ str ".py\n"

/-- The groups of fixers, by name. -/
inductive FixGroup (mangle : Label → Str) : Str → List Fixer → Prop
  | all : FixGroup mangle (str "*") (correctnessFixers mangle ++ idiomFixers mangle ++ unittestFixers mangle)
  | correctness : FixGroup mangle (str "correctness") (correctnessFixers mangle)
  | idiom : FixGroup mangle (str "idiom") (idiomFixers mangle)
  | unittest : FixGroup mangle (str "unittest") (unittestFixers mangle)

/-- The mode in which the template of a rule is written. -/
def RuleKind.subMode : RuleKind → Str
  | .expr => str "py.expr"
  | .stmt => str "py.stmt"

/-- The fixer has this template for this label. -/
inductive FixerWrites (py : Python) (mangle : Label → Str) : Fixer → Label → CodeTemplate → Prop
  | rule {r : Rule} {t : CodeTemplate} : r ∈ builtinRules → py.template r.kind.subMode r.newText = .ok t → FixerWrites py mangle (r.fixer mangle) (str "__root") t
  | attrib {i : Nat} {d : Code} {text : Str} {t : CodeTemplate} : attribDefaults[i]? = some (d, text) → py.template (str "sh") text = .ok t →
      FixerWrites py mangle (attribFixer mangle i d) (str "keyword") t
  | loggingError {t : CodeTemplate} : py.template (str "py.stmt") (str "logging.exception") = .ok t →
      FixerWrites py mangle (loggingErrorFixer mangle 3) (str "logging_error") t
  | loggingException {t : CodeTemplate} : py.template (str "sh") (str "logging.exception('Call to \"$func\" resulted in an error')") = .ok t →
      FixerWrites py mangle (loggingExceptionFixer mangle 4) (str "logging_exception") t

/-- What a match offers to templates: the text and the span of what each label stands for. -/
structure OffersAll (c : Ctx) (mi : MatchInfo) (ms : Dict MatchKey MatchV) : Prop where
  wf : ms.WF
  names : ∀ l, ms.get? (.name l) = (LabelOf mi l).map (matchVOf c.text)
  only : ∀ n, ms.get? (.num n) = none

/-- What is reported for a match of a fixer: the spans of its labels; for the label of its template, if it has a place, what the template gives; and
its message, url, category and significance. -/
structure FixReport (py : Python) (mangle : Label → Str) (c : Ctx) (F : Fixer) (mi : MatchInfo) (s : Substitution) : Prop where
  primary : s.primaryLabel = str "__root"
  spans : ∀ l, s.matchedSpans.get? l = (LabelOf mi l).bind fun o => (matchVOf c.text o).span
  distinct : s.matchedSpans.WF
  edits : ∃ ms rs, OffersAll c mi ms ∧ s.replacements = some rs ∧ ∀ l new, rs.get? l = some new ↔
    ∃ t m, FixerWrites py mangle F l t ∧ ms.get? (.name l) = some m ∧ m.span ≠ none ∧ (t.on (some c)).substitute m ms = .ok new
  message : s.message = F.message
  url : s.url = F.url
  category : s.category = F.category
  significant : s.significant = F.significant
  part : PartOfFile c mi.obj s.keySpan

/-- The template of the fixer refuses the match. -/
def FixRefused (py : Python) (mangle : Label → Str) (c : Ctx) (F : Fixer) (mi : MatchInfo) : Prop :=
  ∃ ms l t m, OffersAll c mi ms ∧ FixerWrites py mangle F l t ∧ ms.get? (.name l) = some m ∧ m.span ≠ none ∧
    (t.on (some c)).substitute m ms = .error .rewriteError

/-- The report for a match, if there is one. -/
def FixOutcome (py : Python) (mangle : Label → Str) (c : Ctx) (F : Fixer) (mi : MatchInfo) : Option Substitution → Prop
  | none => FixRefused py mangle c F mi
  | some s => FixReport py mangle c F mi s

/-- What a search of a text with fixers finds: one report for each outermost place where one of them applies, from left to right, for the first one that
applies there, unless its template refuses. -/
def FixResult (py : Python) (mangle : Label → Str) (digit : Char → Prop) (fs : List Fixer) (content : Str) (subs : List Substitution) : Prop :=
  ∃ c ss ps os, py.file content = some c ∧ FileTree c.tree ss ∧ ps.Pairwise (fun a b => before a b = true) ∧
    (∀ p, p ∈ ps ↔ Site mangle digit c ss fs p) ∧ subs = os.filterMap id ∧
    Forall2 (fun p o => ∃ v F mi, c.tree.at? p = some v ∧ FirstApplies mangle digit c ss fs p v F ∧ FixerMarks mangle digit c ss p v F mi ∧
      FixOutcome py mangle c F mi o) ps os

/-- What is assumed of Python's tokenizer: the metavariables that the texts of the rules' templates mention are those of the rules' new code. -/
structure TokensFit (py : Python) : Prop where
  ends : ∀ s toks, py.tokens s = some toks → ∃ body em, toks = body ++ [em] ∧ em.string = []
  rules : ∀ r ∈ builtinRules, ∀ toks, py.tokens (withNewline r.newText) = some toks → ∀ x, Mentions toks x → x ∈ r.new.vars
  logging : ∀ toks, py.tokens (str "logging.exception\n") = some toks → ∀ x, ¬ Mentions toks x

/-- The fixers of a pattern of the command line, which has no templates of its own. -/
def FixersOf (mangle : Label → Str) (sr : SearchReplace) (fs : List Fixer) : Prop :=
  sr.sub = [] ∧ ∃ name, sr.pattern = some name ∧ FixGroup mangle name fs

end Refex
