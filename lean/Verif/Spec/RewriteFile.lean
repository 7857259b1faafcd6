import Verif.Spec.FromDiff
import Verif.Model.PySearch
/-! Vocabulary for C107: matchers that rewrite whole files, such as an external command. -/
namespace Refex
set_option autoImplicit false

/-- `rewrite` of the matcher returns `new` for the candidate `v`: its diff (by difflib) is one between the text of the file and `new`. -/
def RewritesTo (c : Ctx) (cmd : Nat) (v : Val) (new : Str) : Prop :=
  ∃ diff, c.rewrite cmd v = some diff ∧ DiffBetween diff c.text new

/-- A file as Python parses it, as far as is needed here: the tree is a module, which has tokens. -/
structure IsModule (c : Ctx) : Prop where
  module : ∃ i fs vs, c.tree = .node i (str "Module") fs vs ∧ str "body" ∈ fs ∧ ∃ sp, c.tok i = some sp

/-- Replacement templates of such matchers are literal: `LiteralTemplate(text)`. -/
def LiteralTemplates (env : Templates) : Prop := ∀ t, env.text t = t ∧ env.sem t = literalTemplate t

end Refex
