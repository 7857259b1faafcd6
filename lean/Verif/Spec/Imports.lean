import Verif.Model.Matchers
import Verif.Spec.Each
/- Specification of the names bound by the import statements at the top level of a file. -/
namespace Refex
set_option autoImplicit false

/-- One `name` or `name as other` in an import statement. -/
structure ImportName where
  name : Str
  asname : Option Str

/-- A statement at the top level of the file, as far as imports go: `import a.b, c as d`; `from m import x as y` with the number
of leading dots; anything else (in particular `if`, `try`, functions: imports inside them are not at top level). -/
inductive TopStmt
  | imports (names : List ImportName)
  | fromImport (module : Option Str) (dots : Nat) (names : List ImportName)
  | other

/-- The modules (or members of modules) a statement binds to variables, in order: `import a.b` binds `a` to `a`;
`import a.b as c` binds `a.b` to `c`; `from m import x as y` binds `m.x` to `y`. What a relative import binds depends on
where the file is and is not known. -/
def TopStmt.binds : TopStmt → List (Str × Str)
  | .imports ns => ns.map fun n => match n.asname with
    | none => (n.name.takeWhile (· ≠ '.'), n.name.takeWhile (· ≠ '.'))
    | some a => (n.name, a)
  | .fromImport (some m) 0 ns => ns.map fun n => (m ++ str "." ++ n.name, n.asname.getD n.name)
  | .fromImport _ _ _ => []
  | .other => []

/-- The tree of an optional identifier. -/
inductive IdentTree : Val → Option Str → Prop
  | none {i} : IdentTree (.const i .none) none
  | some {i s} : IdentTree (.const i (.str s)) (some s)

/-- The tree of one name of an import statement. -/
inductive NameTree : Val → ImportName → Prop
  | mk {i j n v a} : IdentTree v a → NameTree (.node i (str "alias") [str "name", str "asname"] [.const j (.str n), v]) ⟨n, a⟩

/-- The tree of a statement. -/
inductive StmtTree : Val → TopStmt → Prop
  | imports {i j vs ns} : Each NameTree vs ns → StmtTree (.node i (str "Import") [str "names"] [.list j vs]) (.imports ns)
  | fromImport {i j k m module vs ns} {dots : Nat} : IdentTree m module → (dots = 0 → module ≠ none) → Each NameTree vs ns →
      StmtTree (.node i (str "ImportFrom") [str "module", str "names", str "level"] [m, .list j vs, .const k (.int dots)])
        (.fromImport module dots ns)
  | other {v} : v.ty ≠ str "Import" → v.ty ≠ str "ImportFrom" → StmtTree v .other

/-- The tree of a file. -/
inductive FileTree : Val → List TopStmt → Prop
  | mk {i j vs ss v} : Each StmtTree vs ss → FileTree (.node i (str "Module") [str "body", str "type_ignores"] [.list j vs, v]) ss

/-- All that the file binds by importing, in source order. -/
def importsOf (ss : List TopStmt) : List (Str × Str) := ss.flatMap TopStmt.binds

end Refex
