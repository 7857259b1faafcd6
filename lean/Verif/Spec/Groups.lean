import Verif.Model.BuiltinGroups
import Verif.Spec.Fixers
/- The groups of built-in fixers: what their templates and messages should be. -/
namespace Refex
set_option autoImplicit false

mutual
/-- The code with `...` for each metavariable. -/
def Code.dots : Code → Code
  | .var _ => .name (str "...")
  | .name s => .name s
  | .int i => .int i
  | .attr e a => .attr e.dots a
  | .call f as ks => .call f.dots (Code.dotss as) (Code.dotss ks)
  | .keyword a v => .keyword a v.dots
  | .compare l op r => .compare l.dots op r.dots
  | .not e => .not e.dots
  | .mod l r => .mod l.dots r.dots
  | .tuple1 e => .tuple1 e.dots
  | .emptyList => .emptyList
  | .emptyDict => .emptyDict
  | .comp set e t i => .comp set e.dots t.dots i.dots
  | .assign t v => .assign t.dots v.dots
  | .expr e => .expr e.dots
/-- The same for several. -/
def Code.dotss : List Code → List Code
  | [] => []
  | e :: es => e.dots :: Code.dotss es
end

/-- All rules that are given by a pattern and a template. -/
def allRules : List Rule := unittestRules ++ idiomRules ++ datetimeRules ++ (literalRules ++ yamlRules ++ parensRules ++ constantRules)

/-- The variables that templates say they use are those in their texts. -/
structure TemplateVariables (env : Templates) : Prop where
  literal : LiteralNames env
  sh : ∀ text names, shVariables text = .ok names → (env.sem (shCode text)).vars = names.map .name
  rules : ∀ r ∈ allRules, ∀ v ∈ (env.sem (templateCode r.kind r.newText)).vars, ∃ x ∈ r.new.vars, v = .name x
  logging : (env.sem (templateCode .stmt (str "logging.exception"))).vars = []

end Refex
