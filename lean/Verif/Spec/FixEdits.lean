import Verif.Spec.FixTexts
import Verif.Spec.FixMode
/- Specification of the templates of the built-in fixers, and of the edits that `--mode=fix` makes. -/
namespace Refex
set_option autoImplicit false

/-- Python reads the templates of the built-in fixers as what they are. -/
structure ReadsReplacements (py : Python) : Prop where
  rules : ∀ r ∈ builtinRules, ReadsCode py r.kind.asPattern r.new
  logging : ReadsCode py .stmt (.expr (.attr (.name (str "logging")) (str "exception")))
  ends : ∀ s toks, py.tokens s = some toks → ∃ body em, toks = body ++ [em] ∧ em.string = []

/-- The text, perhaps in parentheses. -/
def Wrapped (text new : Str) : Prop := new = text ∨ new = str "(" ++ text ++ str ")"

/-- `new` is the code that the rule puts in the place of `v`: a text (perhaps in parentheses) that parses to a tree reading like the new code of the rule, in
which there stands for each metavariable the same tree as (the last time) in `v`. -/
def RuleEdit (py : Python) (digit : Char → Prop) (g : Grammar) (c : Ctx) (ss : List TopStmt) (r : Rule) (v : Val) (new : Str) : Prop :=
  ∃ text cc occ e occ', Wrapped text new ∧ py.file text = some cc ∧ r.kind.template.Part cc.tree e ∧ r.Shows digit c ss v occ ∧ r.new.Reads e occ' ∧
    ∀ x w', (x, w') ∈ occ' → ∃ w, (occ.of x).getLast? = some w ∧
      ∀ w1 sp, createMatch c w = .lexical w1 sp → py.isExpr w1 = true → Parsed g false w1 → SameTree w1 w'

/-- The edit that a fixer makes where it applies: of what, and what is put in its place. -/
inductive FixEdit (py : Python) (mangle : Label → Str) (digit : Char → Prop) (g : Grammar) (c : Ctx) (ss : List TopStmt) (p : Path) (v : Val) : Fixer → Label → Val → Str → Prop
  /-- A rule replaces all of the match by its new code. -/
  | rule {r : Rule} {new : Str} : r ∈ builtinRules → RuleEdit py digit g c ss r v new → FixEdit py mangle digit g c ss p v (r.fixer mangle) (str "__root") v new
  /-- `default=[]`, `default={}` and `default=set()` become `factory=list`, `factory=dict` and `factory=set`. -/
  | attrib {i : Nat} {d : Code} {text : Str} {k : Val} : attribDefaults[i]? = some (d, text) → AttribDefault d v k →
      FixEdit py mangle digit g c ss p v (attribFixer mangle i d) (str "keyword") k text
  /-- `logging.error` becomes `logging.exception`. -/
  | loggingError {f : Val} {new : Str} : LoggingError c.tree p v f → Wrapped (str "logging.exception") new →
      FixEdit py mangle digit g c ss p v (loggingErrorFixer mangle 3) (str "logging_error") f new
  /-- `logging.exception(e)` becomes a call with a message that names the function that was called. -/
  | loggingException {a f : Val} {s text : Str} : LoggingException c p v a f s → (matchVOf c.text (createMatch c f)).string = some text →
      FixEdit py mangle digit g c ss p v (loggingExceptionFixer mangle 4) (str "logging_exception") v
        (str "logging.exception('Call to \"" ++ text ++ str "\" resulted in an error')")

/-- The substitution is one that a fixer of `fs` makes of the text: at a place of the file where it applies, with its edits only, each of them of the text
that belongs to what is replaced. -/
def FixMade (py : Python) (mangle : Label → Str) (digit : Char → Prop) (g : Grammar) (fs : List Fixer) (content : Str) (s : Substitution) : Prop :=
  ∃ c ss p v F rs, py.file content = some c ∧ FileTree c.tree ss ∧ c.tree.at? p = some v ∧ FirstApplies mangle digit c ss fs p v F ∧ s.replacements = some rs ∧
    ∀ l new, rs.get? l = some new → ∃ w sp, FixEdit py mangle digit g c ss p v F l w new ∧ createMatch c w = .lexical w sp ∧ s.matchedSpans.get? l = some sp

/-- What a search with fixers finds, and what is put in its place. -/
def FixEdits (py : Python) (mangle : Label → Str) (digit : Char → Prop) (g : Grammar) (fs : List Fixer) (content : Str) (subs : List Substitution) : Prop :=
  FixResult py mangle digit fs content subs ∧ ∀ s ∈ subs, FixMade py mangle digit g fs content s

end Refex
