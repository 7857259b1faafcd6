import Verif.Spec.SpecialFixers
import Verif.Spec.Fixers
import Verif.Model.BuiltinGroups
/- What a search of a file with the built-in fixers has to find. -/
namespace Refex
set_option autoImplicit false

/-- The built-in fixer applies to the object `v` at position `p` of the file. -/
inductive FixerApplies (mangle : Label → Str) (digit : Char → Prop) (c : Ctx) (ss : List TopStmt) (p : Path) (v : Val) : Fixer → Prop
  | rule {r : Rule} {occ : Occs} : r ∈ builtinRules → r.Shows digit c ss v occ → FixerApplies mangle digit c ss p v (r.fixer mangle)
  | attrib {i : Nat} {d : Code} {text : Str} {k : Val} : attribDefaults[i]? = some (d, text) → AttribDefault d v k →
      FixerApplies mangle digit c ss p v (attribFixer mangle i d)
  | loggingError {f : Val} : LoggingError c.tree p v f → FixerApplies mangle digit c ss p v (loggingErrorFixer mangle 3)
  | loggingException {a f : Val} {s : Str} : LoggingException c p v a f s → FixerApplies mangle digit c ss p v (loggingExceptionFixer mangle 4)

/-- The match says that `x` stands for the object `w`. -/
def Marks (c : Ctx) (mi : MatchInfo) (x : String) (w : Val) : Prop := ∃ b, mi.bindings.get? (str x) = some b ∧ b.value = createMatch c w

/-- What the match of a built-in fixer at `v` says: the whole is `v`, and the labels that its templates use are bound to the parts that it
is about. -/
inductive FixerMarks (mangle : Label → Str) (digit : Char → Prop) (c : Ctx) (ss : List TopStmt) (p : Path) (v : Val) : Fixer → MatchInfo → Prop
  | rule {r : Rule} {occ : Occs} {mi : MatchInfo} : r ∈ builtinRules → r.Shows digit c ss v occ → mi.obj = createMatch c v →
      (∀ x, x ≠ str "__root" → (mi.bindings.get? x).map (·.value) = (occ.of x).getLast?.map (createMatch c)) → FixerMarks mangle digit c ss p v (r.fixer mangle) mi
  | attrib {i : Nat} {d : Code} {text : Str} {k : Val} {mi : MatchInfo} : attribDefaults[i]? = some (d, text) → AttribDefault d v k →
      mi.obj = createMatch c v → Marks c mi "keyword" k → FixerMarks mangle digit c ss p v (attribFixer mangle i d) mi
  | loggingError {f : Val} {mi : MatchInfo} : LoggingError c.tree p v f → mi.obj = createMatch c v → Marks c mi "logging_error" f →
      FixerMarks mangle digit c ss p v (loggingErrorFixer mangle 3) mi
  | loggingException {a f : Val} {s : Str} {mi : MatchInfo} : LoggingException c p v a f s → mi.obj = createMatch c v →
      Marks c mi "logging_exception" v → Marks c mi "func" f → FixerMarks mangle digit c ss p v (loggingExceptionFixer mangle 4) mi

/-- `F` is the first of the fixers that applies there. -/
def FirstApplies (mangle : Label → Str) (digit : Char → Prop) (c : Ctx) (ss : List TopStmt) (fs : List Fixer) (p : Path) (v : Val) (F : Fixer) : Prop :=
  ∃ pre post, fs = pre ++ F :: post ∧ FixerApplies mangle digit c ss p v F ∧ ∀ G ∈ pre, ¬ FixerApplies mangle digit c ss p v G

/-- Some of the fixers applies at this position, and none applies to anything that contains it. -/
def Site (mangle : Label → Str) (digit : Char → Prop) (c : Ctx) (ss : List TopStmt) (fs : List Fixer) (p : Path) : Prop :=
  (∃ v, c.tree.at? p = some v ∧ ∃ F ∈ fs, FixerApplies mangle digit c ss p v F) ∧
  ∀ q u, q <+: p → q ≠ p → c.tree.at? q = some u → ∀ F ∈ fs, ¬ FixerApplies mangle digit c ss q u F

/-- What is assumed of the file and of Python: the tree is one of Python's grammar without shared objects, the regular expressions do what
Python's documentation says, and the names put in the place of metavariables are new. -/
structure PythonFile (mangle : Label → Str) (digit : Char → Prop) (g : Grammar) (ss : List TopStmt) (c : Ctx) : Prop where
  grammar : PythonGrammar g
  parsed : Parsed g false c.tree
  file : FileTree c.tree ss
  unshared : Unshared c.tree
  names : PythonNames c.tree
  regex : RegexFits digit c
  mangles : ∀ r ∈ builtinRules, Mangles mangle r.old
  argument : mangle (str "arg") ≠ str "logging"

/-- The types of the nodes that the built-in fixers look for. -/
def fixerTypes : List Str := [str "Call", str "Attribute", str "Compare", str "UnaryOp", str "BinOp", str "ListComp", str "SetComp", str "Assign", str "Expr"]

/-- Every node of the types that the fixers look for has a place in the text. (It has none inside an f-string before Python 3.12.) -/
def NodesLocated (c : Ctx) : Prop := ∀ p i t ns vs, c.tree.at? p = some (.node i t ns vs) → t ∈ fixerTypes → ∃ sp, c.tok i = some sp

/-- The templates of the built-in fixers are not empty, and raise nothing but `RewriteError` if their variables are bound. -/
def GoodTemplates (mangle : Label → Str) (env : Templates) : Prop :=
  ∀ F ∈ correctnessFixers mangle ++ idiomFixers mangle ++ unittestFixers mangle, ∀ l t, (F.initial builtinHeap).get? l = some t → env.text t ≠ [] ∧
    ∀ m ms e, (∀ x ∈ (env.sem t).vars, ms.get? x ≠ none) → (env.sem t).substitute m ms = .error e → e = .rewriteError

end Refex
