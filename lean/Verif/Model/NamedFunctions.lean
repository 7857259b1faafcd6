import Verif.Model.Matchers
/- The matchers for function definitions: refex/python/matchers/syntax_matchers.py:750-794. -/
namespace Refex
set_option autoImplicit false

/-- The fields of `ast.FunctionDef` and `ast.AsyncFunctionDef` (Python 3.8 to 3.11; Python 3.12 adds `type_params`, which
`Anything()` accepts too). refex/python/matchers/ast_matchers.py:76-99. -/
def functionFields : List Str := [str "name", str "args", str "body", str "decorator_list", str "returns", str "type_comment"]

/-- `ast_matchers.FunctionDef(body=..., returns=...)`, or the asynchronous one. refex/python/matchers/syntax_matchers.py:767-770. -/
def functionWith (ty : String) (body returns : Matcher) : Matcher :=
  .node (str ty) functionFields [.anything, .anything, body, .anything, returns, .anything]

/-- `NamedFunctionDefinition(body, returns)`. refex/python/matchers/syntax_matchers.py:750-779. -/
def namedFunctionDefinition (body returns : Matcher) : Matcher :=
  .delegate (.anyOf [functionWith "AsyncFunctionDef" body returns, functionWith "FunctionDef" body returns]) true

/-- `InNamedFunction(submatcher)`. refex/python/matchers/syntax_matchers.py:782-794. -/
def inNamedFunction (m : Matcher) : Matcher :=
  .delegate (.hasFirstAncestor (namedFunctionDefinition .anything .anything) m) false

end Refex
