import Verif.Spec.Suites
import Verif.Spec.PySearch
import Verif.Spec.Nav
/- Specification of the removal of statements by a search of a Python file. -/
namespace Refex
set_option autoImplicit false

/-- The object is a statement. -/
def Val.IsStmt (v : Val) : Prop := ∃ i t ns vs, v = .node i t ns vs ∧ t ∈ stmtTypes

/-- There is a suite at `q`: a list of statements. -/
def SuiteAt (tree : Val) (q : Path) (vs : List Val) : Prop :=
  (∃ j, tree.at? q = some (.list j vs)) ∧ ∀ v ∈ vs, v.IsStmt

/-- The suite at `q` is the body of the module. -/
def ModuleSuite (tree : Val) (q : Path) : Prop :=
  ∃ p k b, q = p ++ [k] ∧ tree.at? p = some b ∧ b.ty = str "Module"

/-- The statements of the file have tokens, nested and in order as the tree has them; a ';' is after its statement. -/
structure LaidOut (c : Ctx) (tk : TokInfo) : Prop where
  tokens : ∀ p v, c.tree.at? p = some v → v.IsStmt → ∃ sp, c.tok v.ident = some sp ∧ sp.1 < sp.2
  nested : ∀ p q v w sv sw, c.tree.at? p = some v → c.tree.at? q = some w → v.IsStmt → w.IsStmt → p <+: q →
    c.tok v.ident = some sv → c.tok w.ident = some sw → sv.1 ≤ sw.1 ∧ sw.2 ≤ sv.2
  order : ∀ p q v w sv sw, c.tree.at? p = some v → c.tree.at? q = some w → v.IsStmt → w.IsStmt → before p q = true →
    c.tok v.ident = some sv → c.tok w.ident = some sw → sv.2 ≤ sw.1
  semi : ∀ p v sp s, c.tree.at? p = some v → v.IsStmt → c.tok v.ident = some sp → tk.semi v.ident = some s →
    sp.2 ≤ s.1 ∧ s.1 ≤ s.2
  semiOrder : ∀ p q v w sw s, c.tree.at? p = some v → c.tree.at? q = some w → v.IsStmt → w.IsStmt → before p q = true →
    tk.semi v.ident = some s → c.tok w.ident = some sw → s.2 ≤ sw.1

/-- No suite inside a statement ends in ';'. -/
def NoTrailingSemicolon (c : Ctx) (tk : TokInfo) : Prop :=
  ∀ p v q vs w, c.tree.at? p = some v → v.IsStmt → p <+: q → SuiteAt c.tree q vs → vs.getLast? = some w → tk.semi w.ident = none

/-- The matcher reports the objects it matches (not, say, a sibling or a child). -/
def ReportsItself (c : Ctx) (n : Nat) (m : Matcher) : Prop :=
  ∀ done v mi ks, attempt c n m done v = .ok (some mi, ks) → mi.obj = createMatch c v

/-- The template is empty, and `_PASS_TEMPLATE` writes `pass`. -/
structure Removing (env : Templates) (t : Str) : Prop where
  empty : env.text t = []
  writes : ∀ m ms, (env.sem t).substitute m ms = .ok []
  pass : ∀ m ms, env.pass.substitute m ms = .ok (str "pass")

/-- The edit of a finding: the place that is replaced, and by what. -/
def EditOf (f : Found) (sp : Span) (t : Str) : Prop :=
  f.matchedSpans.get? (.name (str "__root")) = some sp ∧ f.replacements.get? (.name (str "__root")) = some t ∧
    ∀ k, k ≠ .name (str "__root") → f.replacements.get? k = none

/-- The place from which statement number `i` of the suite `vs` is deleted up to which, and what is put there, when the
statements with `gone` are removed. `sp v` are the bounds of statement `v`, `semi v` the ';' after it. -/
def StmtRemoval (sp : Val → Span) (semi : Val → Option Span) (isModule : Prop) (vs : List Val) (gone : Nat → Prop) (i : Nat) (v : Val)
    (out : Span) (t : Str) : Prop :=
  -- there is a next statement: up to there
  (∀ w, vs[i + 1]? = some w → out = ((sp v).1, (sp w).1) ∧ t = []) ∧
  -- the only statement
  (vs.length = 1 → out = sp v ∧ (t = str "pass" ∧ ¬ isModule ∨ t = [] ∧ isModule)) ∧
  -- the last one of several
  (∀ p, i + 1 = vs.length → vs[i - 1]? = some p → 0 < i →
    (gone (i - 1) → out.1 = (sp v).1) ∧ (¬ gone (i - 1) → out.1 = (sp p).2) ∧
    (∀ s, semi v = some s → out.2 = s.2) ∧ (semi v = none → out.2 = (sp v).2) ∧
    (t = str "pass" ∧ (∀ k, k < vs.length → gone k) ∧ ¬ isModule ∨ t = [] ∧ ((∃ k, k < vs.length ∧ ¬ gone k) ∨ isModule)))

end Refex
