import Verif.Model.PatternTokens
import Verif.Model.Patterns
/- Making a pattern matcher: refex/python/matchers/syntax_matchers.py. The tokenizer and `ast.parse` are not modelled. -/
namespace Refex
set_option autoImplicit false

/-- The three kinds of `_BaseAstPattern`. refex/python/matchers/syntax_matchers.py:388-437, 534-547. -/
inductive PatternKind
  | expr | stmt | module
  deriving DecidableEq, Repr

/-- `_pull_stmt`: `none` for ValueError. refex/python/matchers/syntax_matchers.py:237-246. -/
def pullStmt (tree : Val) : Option Val :=
  if tree.ty ≠ str "Module" then none
  else match (tree.getattr (str "body")).children with
    | [s] => some s
    | _ => none

/-- `_pull_expr`: `none` for ValueError. refex/python/matchers/syntax_matchers.py:249-266. -/
def pullExpr (tree : Val) : Option Val :=
  match pullStmt tree with
  | none => none
  | some s => if s.ty ≠ str "Expr" then none else some (s.getattr (str "value"))

/-- `_pull_ast`. refex/python/matchers/syntax_matchers.py:420, 436, 545. -/
def PatternKind.pull : PatternKind → Val → Option Val
  | .expr, t => pullExpr t
  | .stmt, t => pullStmt t
  | .module, t => some t

/-- `_BaseAstPattern._get_matcher`, from the tokens of the pattern (with its newline) and whether the newline was added.
`parse` is `ast.parse` (`none`: SyntaxError); `iter` is the order in which the set of metavariable indices is iterated.
Names of variables are ASCII identifiers, so `Bind` refuses those that begin with `__` only (refex/python/matchers/base_matchers.py:278, 289-294).
The loop that looks for a new name always ends, should it not, the model reports `Exc.other`.
refex/python/matchers/syntax_matchers.py:128-225, 356-370. -/
def buildPattern (parse : Str → Option Val) (iter : List Nat → List Nat) (kind : PatternKind) (toks : List PTok) (addedNewline : Bool)
    (restrictions : Dict Label Matcher) : Except Exc Matcher :=
  match tokenPattern toks addedNewline with
  | none => .error .valueError
  | some (out, idx) =>
    match remapVariables out (iter idx) with
    | none => .error .other
    | some st =>
      match untokenize st.toks with
      | none => .error .valueError
      | some text =>
        if !checkRestrictions st.variables restrictions then .error .keyError
        else if st.variables.any (fun e => (str "__").isPrefixOf e.1) then .error .valueError
        else match parse text with
          | none => .error .valueError
          | some tree =>
            if !verifyVariables tree st.variables then .error .valueError
            else match kind.pull tree with
              | none => .error .valueError
              | some t => .ok (patternMatcher (submatchers st.anonymous st.variables restrictions) t)

/-- `isinstance(s, ast.Expr) and isinstance(s.value, ast.Str)`. refex/python/matchers/syntax_matchers.py:506-507. -/
def isDocstring (s : Val) : Bool :=
  decide (s.ty = str "Expr") &&
    (match s.getattr (str "value") with
     | .node i ty ns vs =>
       decide (ty = str "Constant") &&
         (match (Val.node i ty ns vs).getattr (str "value") with
          | .const _ (.str _) => true
          | _ => false)
     | _ => false)

/-- The dict `bindings` of `StmtFromFunctionPattern._get_matcher`. refex/python/matchers/syntax_matchers.py:519-524. -/
def argBindings (args : List Label) : Dict Str Matcher := args.foldl (fun d a => d.set a (metaBind a .anything)) []

/-- The statement that is matched: the first one of the function after its docstring. AttributeError if the source is not
that of a function with a body. refex/python/matchers/syntax_matchers.py:505-518. -/
def functionStmt (tree : Val) : Except Exc Val :=
  match (tree.getattr (str "body")).children with
  | [] => .error .indexError
  | f :: _ =>
    if !hasBody f then .error .attributeError
    else match (f.getattr (str "body")).children with
      | [] => .error .indexError
      | s :: rest =>
        match (if isDocstring s then rest else s :: rest) with
        | [] => .error .valueError
        | s :: _ => if s.ty = str "Pass" then .error .valueError else .ok s

/-- `StmtFromFunctionPattern._get_matcher`, given the parameters of the function and the tree of its source (`none`:
SyntaxError; that `inspect.getsource` fails is not modelled). ValueError from `Bind` for the names of some parameters. The class has no `type_filter` of its own.
refex/python/matchers/syntax_matchers.py:482-531. -/
def fromFunction (word : Char → Bool) (args : List Label) (parsed : Option Val) : Except Exc Matcher :=
  match parsed with
  | none => .error .valueError
  | some tree =>
    match functionStmt tree with
    | .error e => .error e
    | .ok s =>
      if args.any (fun a => !bindNameOk word a) then .error .valueError
      else .ok (.delegate (.rebind (astPattern (argBindings args) s) (some .merge) (some .keepLast)) false)

end Refex
