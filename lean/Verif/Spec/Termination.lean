import Verif.Spec.SpecialFixers
import Verif.Spec.BuiltinSearch
/- What it means to apply a built-in fixer once, as a relation between the trees before and after. -/
namespace Refex
set_option autoImplicit false

/-- The second tree is the first with the part `v` at the position replaced by `v'`; the rest is the same tree. -/
inductive RewrittenAt (v v' : Val) : Path → Val → Val → Prop
  | here : RewrittenAt v v' [] v v'
  | list {i j k p t u} {ts us : List Val} : ts.length = us.length → ts[k]? = some t → us[k]? = some u → RewrittenAt v v' p t u →
      (∀ (l : Nat) a b, l ≠ k → ts[l]? = some a → us[l]? = some b → SameTree a b) → RewrittenAt v v' (k :: p) (.list i ts) (.list j us)
  | node {i j ty} {ns : List Str} {n k p t u} {ts us : List Val} : ts.length = us.length → ns[k]? = some n → ts[k]? = some t → us[k]? = some u → RewrittenAt v v' p t u →
      (∀ (l : Nat) a b, l ≠ k → ts[l]? = some a → us[l]? = some b → SameTree a b) → RewrittenAt v v' (k :: p) (.node i ty ns ts) (.node j ty ns us)

/-- The code put in the place of a mutable default. -/
def attribFactory : List Code := [.keyword (str "factory") (.name (str "list")), .keyword (str "factory") (.name (str "dict")), .keyword (str "factory") (.name (str "set"))]

/-- The literal of a string. -/
def IsText (v : Val) : Prop := ∃ i j k s, v = .node i (str "Constant") [str "value", str "kind"] [.const j (.str s), .const k .none]

/-- What a built-in fixer that applies does: the part `v` of the file, at position `p`, becomes `v'`. -/
inductive Fixes (digit : Char → Prop) (c : Ctx) (ss : List TopStmt) : Path → Val → Val → Prop
  /-- a rule: the new code, with the same trees for the metavariables -/
  | rule {p v v' r occ occ'} : r ∈ builtinRules → c.tree.at? p = some v → r.Shows digit c ss v occ → r.new.Reads v' occ' →
      (∀ x w', (x, w') ∈ occ' → ∃ w, (occ.of x).getLast? = some w ∧ SameTree w w') → Fixes digit c ss p v v'
  /-- the argument `default=[]` of `attr.ib` becomes `factory=list` -/
  | attrib {p q v k k'} {i : Nat} {d text} {new : Code} : attribDefaults[i]? = some (d, text) → attribFactory[i]? = some new → c.tree.at? p = some v → AttribDefault d v k →
      c.tree.at? (p ++ q) = some k → new.Reads k' [] → Fixes digit c ss (p ++ q) k k'
  /-- `logging.error` becomes `logging.exception` -/
  | loggingError {p v f f'} : c.tree.at? p = some v → LoggingError c.tree p v f → (Code.attr (.name (str "logging")) (str "exception")).Reads f' [] →
      Fixes digit c ss (p ++ [0]) f f'
  /-- the statement `logging.exception(e)` becomes `logging.exception('…')` -/
  | loggingException {p v a f s v' i call func arg} : c.tree.at? p = some v → LoggingException c p v a f s →
      v' = .node i (str "Expr") [str "value"] [call] → IsAnyCall call func [arg] [] → (Code.attr (.name (str "logging")) (str "exception")).Reads func [] →
      IsText arg → Fixes digit c ss p v v'

/-- One application of a built-in fixer, to a file with the tree `t`, somewhere. -/
def FixStep (digit : Char → Prop) (t t' : Val) : Prop := ∃ c ss p v v', c.tree = t ∧ Fixes digit c ss p v v' ∧ RewrittenAt v v' p t t'

/-- The parts of a name are an identifier and a context, which have no parts. -/
def SimpleNames (t : Val) : Prop := ∀ p q w u, t.at? p = some w → w.ty = str "Name" → w.at? q = some u → q ≠ [] → u.children = []

/-- Applying fixers `n` times, one after the other, anywhere. -/
inductive FixSteps (digit : Char → Prop) : Nat → Val → Val → Prop
  | none {t} : FixSteps digit 0 t t
  | more {n t t' t''} : SimpleNames t → FixStep digit t t' → FixSteps digit n t' t'' → FixSteps digit (n + 1) t t''

end Refex
