import Verif.Spec.Code
import Verif.Spec.Assertions
import Verif.Spec.Ancestors
import Verif.Model.BuiltinGroups
/- What the built-in fixers that are more than a pattern and a template look for. -/
namespace Refex
set_option autoImplicit false

/-- `f(args, keywords)` -/
def IsAnyCall (v f : Val) (args keywords : List Val) : Prop :=
  ∃ i j k, v = .node i (str "Call") [str "func", str "args", str "keywords"] [f, .list j args, .list k keywords]

/-- `name=value`, as an argument -/
def IsKeywordArg (k : Val) (name : Str) (value : Val) : Prop :=
  ∃ i j, k = .node i (str "keyword") [str "arg", str "value"] [.const j (.str name), value]

/-- The first of the items of which `P` holds. -/
def FirstOf (P : Val → Prop) (vs : List Val) (v : Val) : Prop := ∃ pre post, vs = pre ++ v :: post ∧ P v ∧ ∀ w ∈ pre, ¬ P w

/-- A call of `attr.ib`, whose (first) keyword argument `default=` with the given code is `k`. -/
def AttribDefault (default : Code) (v k : Val) : Prop :=
  ∃ f args keywords, IsAnyCall v f args keywords ∧ (Code.attr (.name (str "attr")) (str "ib")).Reads f [] ∧
    FirstOf (fun k => ∃ value, IsKeywordArg k (str "default") value ∧ default.Reads value []) keywords k

/-- The nearest object around position `p` that is of the type. -/
def NearestAround (tree : Val) (p : Path) (ty : Str) (w : Val) : Prop :=
  ∃ q, q <+: p ∧ q ≠ p ∧ tree.at? q = some w ∧ w.ty = ty ∧ ∀ q' u, q' <+: p → q' ≠ p → q.length < q'.length → tree.at? q' = some u → u.ty ≠ ty

/-- What is at position `p` is in the handler of an exception called `s` (and in no handler inside of that). -/
def InHandlerOf (tree : Val) (p : Path) (s : Str) : Prop :=
  ∃ h i, NearestAround tree p (str "ExceptHandler") h ∧ h.getattr (str "name") = .const i (.str s)

/-- What Python's grammar says about identifiers: the `id` of a name is a string; an exception handler has a name that is a string, or none;
arguments are expressions; and the body of a `try` statement is a list. -/
structure PythonNames (tree : Val) : Prop where
  names : ∀ p w, tree.at? p = some w → w.ty = str "Name" → ∃ s, IsNameNode w s
  handlers : ∀ p w, tree.at? p = some w → w.ty = str "ExceptHandler" →
    (∃ i s, w.getattr (str "name") = .const i (.str s)) ∨ ∃ i, w.getattr (str "name") = .const i .none
  args : ∀ p w f args keywords, tree.at? p = some w → IsAnyCall w f args keywords → ∀ a ∈ args, a.isInner
  bodies : ∀ p w, tree.at? p = some w → w.ty = str "Try" → ∃ i vs, w.getattr (str "body") = .list i vs

/-- A call of `logging.error` (the function is `f`), without `exc_info=`, one of whose arguments is the name of the exception that is
being handled there. -/
def LoggingError (tree : Val) (p : Path) (v f : Val) : Prop :=
  ∃ args keywords, IsAnyCall v f args keywords ∧ (Code.attr (.name (str "logging")) (str "error")).Reads f [] ∧
    (∃ (k : Nat) (a : Val) (s : Str), args[k]? = some a ∧ IsNameNode a s ∧ InHandlerOf tree (p ++ [1, k]) s) ∧
    ∀ k ∈ keywords, ∀ value, ¬ IsKeywordArg k (str "exc_info") value

/-- `return f(…)`, `x = f(…)` or just `f(…)` -/
def CallStatement (st f : Val) : Prop :=
  (st.ty = str "Return" ∨ st.ty = str "Expr" ∨ st.ty = str "Assign") ∧ (st.getattr (str "value")).ty = str "Call" ∧
    f = (st.getattr (str "value")).getattr (str "func")

/-- The text of the object matches the regular expression. -/
def TextMatches (c : Ctx) (v : Val) (rx : Str) : Prop := ∃ a b m, (createMatch c v).span? = some (a, b) ∧ c.rxMatch rx a b = some m

/-- A statement `logging.exception(e)`, where `e` (the argument is `a`) is the name of the exception that is being handled there, and the
one statement in the body of the nearest `try` around calls `f`; the text of that statement has no double quote inside. -/
def LoggingException (c : Ctx) (p : Path) (v a f : Val) (s : Str) : Prop :=
  (Code.expr (.call (.attr (.name (str "logging")) (str "exception")) [.var (str "arg")] [])).Reads v [(str "arg", a)] ∧
    IsNameNode a s ∧ InHandlerOf c.tree p s ∧
    ∃ t i st, NearestAround c.tree p (str "Try") t ∧ t.getattr (str "body") = .list i [st] ∧ CallStatement st f ∧ ¬ TextMatches c st (str ".+\".+")

end Refex
