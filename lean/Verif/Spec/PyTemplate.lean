import Verif.Model.PyTemplate
import Verif.Spec.Patterns
import Verif.Spec.PatternTokens
/- What a Python template substitution should return. -/
namespace Refex
set_option autoImplicit false

/-- The tokens with a string in every slot, everything else as it was. -/
def Filled (toks : List PTok) (metas : List Nat) (mapping : Dict Label Str) (us : List PTok) : Prop :=
  us.length = toks.length ∧ (∀ i, i ∉ metas → us[i]? = toks[i]?) ∧
  ∀ i ∈ metas, ∀ t, toks[i]? = some t → ∃ s, mapping.get? t.string = some s ∧ us[i]? = some { t with string := s }

/-- The mapping gives every variable its string, as it is or in parentheses; only with a matcher in parentheses. -/
def Chosen (matchers : Dict Label Matcher) (strings map : Dict Label Str) : Prop :=
  ∀ x, match strings.get? x with
    | none => map.get? x = none
    | some s => map.get? x = some s ∨ (matchers.has x = true ∧ map.get? x = some (inParens s))

/-- What the grammar says about modules and expression statements. -/
structure HasModules (g : Grammar) : Prop where
  list : ¬ g.nodeType (str "list")
  module : g.nodeType (str "Module")
  moduleFields : g.fields (str "Module") = [(str "body", true), (str "type_ignores", true)]
  expr : g.nodeType (str "Expr")
  exprFields : g.fields (str "Expr") = [(str "value", false)]

/-- How the tree of a whole file relates to the tree of the template: it is a module with just one expression
statement, of which `w` is the expression. -/
def OneExpr (v w : Val) : Prop := ∃ i s, v.ty = str "Module" ∧ v.getattr (str "body") = .list i [s] ∧ s.ty = str "Expr" ∧ s.getattr (str "value") = w

/-- It is a module with just one statement, `w`. -/
def OneStmt (v w : Val) : Prop := ∃ i, v.ty = str "Module" ∧ v.getattr (str "body") = .list i [w]

/-- The kinds of templates: for a module, an expression, a statement. -/
inductive TemplateKind
  | module | expr | stmt

/-- The part of the module tree `v` that should be the template's tree is `w`. -/
def TemplateKind.Part : TemplateKind → Val → Val → Prop
  | .module, v, w => v = w
  | .expr, v, w => OneExpr v w
  | .stmt, v, w => OneStmt v w

/-- The matcher made for a kind of template. -/
def TemplateKind.matcher : TemplateKind → Matcher → Matcher
  | .module => moduleTemplate
  | .expr => exprTemplate
  | .stmt => stmtTemplate

/-- The module tree `v` is the template's tree with `occ` in the places of the variables. -/
def TemplateKind.Instance (kind : TemplateKind) (what : Str → Hole) (tree v : Val) (occ : Occs) : Prop :=
  ∃ w, kind.Part v w ∧ Refex.Instance (holeAt what) (fun _ _ => True) tree w occ

end Refex
