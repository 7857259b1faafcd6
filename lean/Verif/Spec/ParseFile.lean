import Verif.Spec.Uniqueify
import Verif.Spec.BuiltinSearch
import Verif.Model.ParseFile
/- Specification of what is assumed of `ast.parse`. -/
namespace Refex
set_option autoImplicit false

/-- The two trees have the same types, fields and constants at the same places. -/
def SameShape (v w : Val) : Prop := v.forget = w.forget

/-- What `ast.parse` makes of a text: the objects of this tree. Lists, and nodes with nodes or lists inside, stand in one place each; nodes such as
`Load()` may be shared in any way, and so may constants. -/
structure ParsesTo (fe : FrontEnd) (source : Str) (tree : Val) : Prop where
  result : ∃ a, fe.ast source = some a ∧ tree.ident = a.root ∧ tree.Reads a.store ∧ ∀ j ∈ tree.ids, j < a.next
  module : ∃ i ns vs, tree = .node i (str "Module") ns vs
  once : ∀ j ∈ tree.compound, tree.ids.count j = 1
  flat : tree.flat = true
  shaped : tree.wellShaped = true
  depth : tree.size ≤ fe.depth

/-- The tree of a Python file, as `ast.parse` makes it, is one of Python's grammar. -/
structure PythonTree (g : Grammar) (ss : List TopStmt) (tree : Val) : Prop where
  parsed : Parsed g false tree
  file : FileTree tree ss
  names : PythonNames tree

/-- What is assumed of Python: the grammar, `ast.parse`, regular expressions (which do what the documentation says, whatever the text). -/
structure FrontEndFits (digit : Char → Prop) (g : Grammar) (fe : FrontEnd) : Prop where
  grammar : PythonGrammar g
  trees : ∀ s a, fe.ast s = some a → ∃ tree ss, ParsesTo fe s tree ∧ PythonTree g ss tree
  regex : ∀ s tree, RegexFits digit { fe.marks s tree with text := s, tree := tree, done := [] }

end Refex
