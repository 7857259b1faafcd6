import Verif.Model.BuiltinFixers
import Verif.Spec.Patterns
import Verif.Spec.Imports
import Verif.Spec.PyTemplate
/- What it means that a piece of a file is a certain piece of code. -/
namespace Refex
set_option autoImplicit false

/-- `ast.Load()`, `ast.Is()` and the like: a node without fields. -/
def PlainNode (ty : Str) (v : Val) : Prop := ∃ i, v = .node i ty [] []

/-- A list with one item. -/
def Single (v w : Val) : Prop := ∃ i, v = .list i [w]

mutual
/-- The tree is that of the code: `occ` lists what stands for the metavariables, from left to right. Positions and identities do not
count, nor does whether a name is loaded, stored or deleted. -/
inductive Code.Reads : Code → Val → Occs → Prop
  | var {x v} : Code.Reads (.var x) v [(x, v)]
  | name {s i j ctx} : Code.Reads (.name s) (.node i (str "Name") [str "id", str "ctx"] [.const j (.str s), ctx]) []
  | int {n i j k c} : c.pyEq (.int n) = true →
      Code.Reads (.int n) (.node i (str "Constant") [str "value", str "kind"] [.const j c, .const k .none]) []
  | attr {e a v i j l o} : e.Reads v o → PlainNode (str "Load") l →
      Code.Reads (.attr e a) (.node i (str "Attribute") [str "value", str "attr", str "ctx"] [v, .const j (.str a), l]) o
  | call {f as ks i j k fv asv ksv o o1 o2} : f.Reads fv o → CodesRead as asv o1 → CodesRead ks ksv o2 →
      Code.Reads (.call f as ks) (.node i (str "Call") [str "func", str "args", str "keywords"] [fv, .list j asv, .list k ksv]) (o ++ (o1 ++ o2))
  | keyword {a e i j v o} : e.Reads v o →
      Code.Reads (.keyword a e) (.node i (str "keyword") [str "arg", str "value"] [.const j (.str a), v]) o
  | compare {l op r i lv ops opv rs rv o o1} : l.Reads lv o → Single ops opv → PlainNode op opv → Single rs rv → r.Reads rv o1 →
      Code.Reads (.compare l op r) (.node i (str "Compare") [str "left", str "ops", str "comparators"] [lv, ops, rs]) (o ++ o1)
  | not {e i opv v o} : PlainNode (str "Not") opv → e.Reads v o →
      Code.Reads (.not e) (.node i (str "UnaryOp") [str "op", str "operand"] [opv, v]) o
  | mod {l r i lv opv rv o o1} : l.Reads lv o → PlainNode (str "Mod") opv → r.Reads rv o1 →
      Code.Reads (.mod l r) (.node i (str "BinOp") [str "left", str "op", str "right"] [lv, opv, rv]) (o ++ o1)
  | tuple1 {e i es v l o} : Single es v → e.Reads v o → PlainNode (str "Load") l →
      Code.Reads (.tuple1 e) (.node i (str "Tuple") [str "elts", str "ctx"] [es, l]) o
  | emptyList {i j l} : PlainNode (str "Load") l → Code.Reads .emptyList (.node i (str "List") [str "elts", str "ctx"] [.list j [], l]) []
  | emptyDict {i j k} : Code.Reads .emptyDict (.node i (str "Dict") [str "keys", str "values"] [.list j [], .list k []]) []
  | comp {set e t it i gs k ev tv iv j m c o o1 o2} : e.Reads ev o →
      Single gs (.node k (str "comprehension") [str "target", str "iter", str "ifs", str "is_async"] [tv, iv, .list j [], .const m c]) →
      t.Reads tv o1 → it.Reads iv o2 → c.pyEq (.int 0) = true →
      Code.Reads (.comp set e t it) (.node i (if set then str "SetComp" else str "ListComp") [str "elt", str "generators"] [ev, gs]) (o ++ (o1 ++ o2))
  | assign {t e i ts tv v k o o1} : Single ts tv → t.Reads tv o → e.Reads v o1 →
      Code.Reads (.assign t e) (.node i (str "Assign") [str "targets", str "value", str "type_comment"] [ts, v, .const k .none]) (o ++ o1)
  | expr {e i v o} : e.Reads v o → Code.Reads (.expr e) (.node i (str "Expr") [str "value"] [v]) o
/-- One after the other. -/
inductive CodesRead : List Code → List Val → Occs → Prop
  | nil : CodesRead [] [] []
  | cons {e es v vs o occ} : e.Reads v o → CodesRead es vs occ → CodesRead (e :: es) (v :: vs) (o ++ occ)
end

/-- The node types of the code of the fixers, with their fields. -/
def codeTypes : List (Str × List (Str × Bool)) := [
  (str "Name", [(str "id", false), (str "ctx", false)]),
  (str "Constant", [(str "value", false), (str "kind", false)]),
  (str "Attribute", [(str "value", false), (str "attr", false), (str "ctx", false)]),
  (str "Call", [(str "func", false), (str "args", true), (str "keywords", true)]),
  (str "keyword", [(str "arg", false), (str "value", false)]),
  (str "Compare", [(str "left", false), (str "ops", true), (str "comparators", true)]),
  (str "UnaryOp", [(str "op", false), (str "operand", false)]),
  (str "BinOp", [(str "left", false), (str "op", false), (str "right", false)]),
  (str "Tuple", [(str "elts", true), (str "ctx", false)]),
  (str "List", [(str "elts", true), (str "ctx", false)]),
  (str "Dict", [(str "keys", true), (str "values", true)]),
  (str "SetComp", [(str "elt", false), (str "generators", true)]),
  (str "ListComp", [(str "elt", false), (str "generators", true)]),
  (str "comprehension", [(str "target", false), (str "iter", false), (str "ifs", true), (str "is_async", false)]),
  (str "Assign", [(str "targets", true), (str "value", false), (str "type_comment", false)]),
  (str "Expr", [(str "value", false)]),
  (str "Module", [(str "body", true), (str "type_ignores", true)]),
  (str "Load", []), (str "Not", []), (str "Mod", []),
  (str "Eq", []), (str "NotEq", []), (str "Is", []), (str "IsNot", []), (str "In", []), (str "NotIn", []), (str "Lt", []), (str "LtE", []), (str "Gt", []), (str "GtE", [])]

/-- The grammar is that of Python as far as these node types go; strings, numbers, `None` and lists are no nodes. -/
structure PythonGrammar (g : Grammar) : Prop where
  types : ∀ e ∈ codeTypes, g.nodeType e.1 ∧ g.fields e.1 = e.2
  leaves : ∀ t ∈ [str "str", str "int", str "NoneType", str "list"], ¬ g.nodeType t

mutual
/-- The names in the code, other than metavariables. -/
def Code.names : Code → List Str
  | .name s => [s]
  | .attr e _ => e.names
  | .call f as ks => f.names ++ (Code.namess as ++ Code.namess ks)
  | .keyword _ v => v.names
  | .compare l _ r => l.names ++ r.names
  | .not e => e.names
  | .mod l r => l.names ++ r.names
  | .tuple1 e => e.names
  | .comp _ e t i => e.names ++ (t.names ++ i.names)
  | .assign t v => t.names ++ v.names
  | .expr e => e.names
  | _ => []
/-- Those of several. -/
def Code.namess : List Code → List Str
  | [] => []
  | e :: es => e.names ++ Code.namess es
end

mutual
/-- The operators in the code. -/
def Code.ops : Code → List Str
  | .attr e _ => e.ops
  | .call f as ks => f.ops ++ (Code.opss as ++ Code.opss ks)
  | .keyword _ v => v.ops
  | .compare l op r => op :: (l.ops ++ r.ops)
  | .not e => e.ops
  | .mod l r => l.ops ++ r.ops
  | .tuple1 e => e.ops
  | .comp _ e t i => e.ops ++ (t.ops ++ i.ops)
  | .assign t v => t.ops ++ v.ops
  | .expr e => e.ops
  | _ => []
/-- Those of several. -/
def Code.opss : List Code → List Str
  | [] => []
  | e :: es => e.ops ++ Code.opss es
end

/-- The comparison operators. -/
def comparisonOps : List Str :=
  [str "Eq", str "NotEq", str "Is", str "IsNot", str "In", str "NotIn", str "Lt", str "LtE", str "Gt", str "GtE"]

/-- The names put in the place of metavariables are different from each other and from the names in the code. -/
structure Mangles (mangle : Label → Str) (p : Code) : Prop where
  inj : ∀ x ∈ p.vars, ∀ y ∈ p.vars, mangle x = mangle y → x = y
  fresh : ∀ x ∈ p.vars, ∀ s ∈ p.names, mangle x ≠ s

/-! ### Restrictions -/

/-- The text of a piece of code of the file, if it has a place there. -/
def CodeText (c : Ctx) (v : Val) (s : Str) : Prop := ∃ a b, (createMatch c v).span? = some (a, b) ∧ s = slice c.text a b

/-- A literal whose value is of one of the types. -/
def LiteralOf (tys : List Str) (v : Val) : Prop := v.ty = str "Constant" ∧ (v.getattr (str "value")).ty ∈ tys

/-- Upper case letters, underscores and digits (`digit` says which characters are). -/
def ConstantName (digit : Char → Prop) (s : Str) : Prop := s ≠ [] ∧ ∀ ch ∈ s, ('A'.toNat ≤ ch.toNat ∧ ch.toNat ≤ 'Z'.toNat) ∨ ch = '_' ∨ digit ch

/-- A character other than an opening parenthesis, something on one line, and a closing parenthesis. -/
def EndsInParenthesis (s : Str) : Prop := ∃ ch mid, s = ch :: (mid ++ [')']) ∧ ch ≠ '(' ∧ mid ≠ [] ∧ '\n' ∉ mid

/-- Regular expressions do what Python's documentation says, as far as the two that the rules use go: `[A-Z_\d]+` and `[^(].+\)`. -/
structure RegexFits (digit : Char → Prop) (c : Ctx) : Prop where
  constant : ∀ a b, (c.rxMatch (str "[A-Z_\\d]+") a b).isSome = true ↔ ConstantName digit (slice c.text a b)
  parens : ∀ a b, (c.rxMatch (str "[^(].+\\)") a b).isSome = true ↔ EndsInParenthesis (slice c.text a b)
  groups : c.rxGroups (str "[A-Z_\\d]+") = [] ∧ c.rxGroups (str "[^(].+\\)") = []

/-- What may stand for a metavariable with the restriction. -/
def Restriction.Allows (digit : Char → Prop) (c : Ctx) : Restriction → Val → Prop
  | .literal, v => LiteralOf [str "int", str "float", str "complex", str "str", str "bytes"] v
  | .stringLiteral, v => LiteralOf [str "str", str "bytes"] v
  | .nameOrAttribute, v => v.ty = str "Attribute" ∨ v.ty = str "Name"
  | .constantCase, v => ∃ s, CodeText c v s ∧ ConstantName digit s
  | .set, v => v.ty = str "Set"
  | .setComp, v => v.ty = str "SetComp"

/-- What a rule allows for each of its metavariables. -/
def Rule.Allowed (digit : Char → Prop) (c : Ctx) (r : Rule) (x : Label) (v : Val) : Prop := ∀ k, r.restrictions.get? x = some k → k.Allows digit c v

/-- What a rule asks beside its pattern: that the last import of the module at the top level of the file (`ss`) binds it to its own
name; that the text of the code is as said. -/
def Guard.Holds (c : Ctx) (ss : List TopStmt) : Guard → Val → Prop
  | .none, _ => True
  | .imported module, _ => ((importsOf ss).filter fun p => decide (p.1 = module)).getLast? = some (module, module)
  | .regex _, v => ∃ s, CodeText c v s ∧ EndsInParenthesis s

/-- The kind of the template of a rule. -/
def RuleKind.template : RuleKind → TemplateKind
  | .expr => .expr
  | .stmt => .stmt

/-- The rules, each a pattern and a template. -/
def builtinRules : List Rule := unittestRules ++ idiomRules ++ datetimeRules ++ (literalRules ++ yamlRules ++ parensRules ++ constantRules)

/-- The tree is one that the rule shows: it reads like the old code, with equivalent code for the same metavariable and what is allowed
for each, and what else the rule asks for holds. -/
structure Rule.Shows (digit : Char → Prop) (c : Ctx) (ss : List TopStmt) (r : Rule) (v : Val) (occ : Occs) : Prop where
  reads : r.old.Reads v occ
  alike : ∀ x, AllAlike (occ.of x)
  allowed : ∀ x w, (x, w) ∈ occ → r.Allowed digit c x w
  guarded : r.guard.Holds c ss v

end Refex
