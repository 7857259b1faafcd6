import Verif.Spec.FixMode
import Verif.Model.FixTexts
/- Specification of how Python reads the texts of the patterns of the built-in fixers. -/
namespace Refex
set_option autoImplicit false

/-! ### Tokens -/

/-- Part of a word: a letter, a digit or an underscore. -/
def wordChar (c : Char) : Bool := c.isAlphanum || c == '_'

/-- The operators of two characters among those that the fixers use. -/
def longOperators : List Str := [str "==", str "!=", str "<=", str ">="]

/-- The tokens of a line, with the columns where they start, as Python's lexical analysis has it (as far as the texts of the fixers go): words are as long
as they can be, `==`, `!=`, `<=` and `>=` are operators, spaces separate, every other character is a token. `word` is what has been read of a word (from
its end to its start). -/
def lineWords : Nat → Str → Str → List (Nat × Str)
  | col, word, [] => if word = [] then [] else [(col - word.length, word.reverse)]
  | col, word, c :: cs =>
    if wordChar c then lineWords (col + 1) (c :: word) cs
    else (if word = [] then [] else [(col - word.length, word.reverse)]) ++
      (if c = ' ' then lineWords (col + 1) [] cs
      else match cs with
        | d :: ds => if [c, d] ∈ longOperators then (col, [c, d]) :: lineWords (col + 2) [] ds else (col, [c]) :: lineWords (col + 1) [] (d :: ds)
        | [] => [(col, [c])])

/-- The tokens of a line, which ends with a newline: those of the line, then `ENDMARKER`. -/
def lineTokens (s : Str) : List PTok :=
  ((lineWords 0 [] s).map fun p => ⟨if p.2 = str "\n" then .newline else .other, p.2, (1, p.1), (1, p.1 + p.2.length)⟩) ++ [⟨.endmarker, [], (2, 0), (2, 0)⟩]

/-! ### Trees -/

mutual
/-- The code with names in the place of metavariables. -/
def Code.named (name : Label → Str) : Code → Code
  | .var x => .name (name x)
  | .name s => .name s
  | .int i => .int i
  | .attr e a => .attr (e.named name) a
  | .call f as ks => .call (f.named name) (Code.nameds name as) (Code.nameds name ks)
  | .keyword a v => .keyword a (v.named name)
  | .compare l op r => .compare (l.named name) op (r.named name)
  | .not e => .not (e.named name)
  | .mod l r => .mod (l.named name) (r.named name)
  | .tuple1 e => .tuple1 (e.named name)
  | .emptyList => .emptyList
  | .emptyDict => .emptyDict
  | .comp set e t i => .comp set (e.named name) (t.named name) (i.named name)
  | .assign t v => .assign (t.named name) (v.named name)
  | .expr e => .expr (e.named name)
/-- Several. -/
def Code.nameds (name : Label → Str) : List Code → List Code
  | [] => []
  | e :: es => e.named name :: Code.nameds name es
end

/-- The names that are put in the place of metavariables: `gensym_x` for `$x`. -/
def gensymName (x : Label) : Str := str "gensym_" ++ x

/-- The same tree, but for identities and for whether variables are loaded, stored or deleted. -/
inductive ReadAlike : Val → Val → Prop
  | const {i j c} : ReadAlike (.const i c) (.const j c)
  | list {i j vs ws} : vs.length = ws.length → (∀ (k : Nat) v w, vs[k]? = some v → ws[k]? = some w → ReadAlike v w) → ReadAlike (.list i vs) (.list j ws)
  | node {i j ty ns vs ws} : vs.length = ws.length →
      (∀ (k : Nat) v w, vs[k]? = some v → ws[k]? = some w → ¬ (ty = str "Name" ∧ ns[k]? = some (str "ctx")) → ReadAlike v w) →
      ReadAlike (.node i ty ns vs) (.node j ty ns ws)

/-- Python reads the text of this code, with `$x` for metavariables, as its tokens, and the text with `gensym_x` for `$x` as the tree of that code:
all of its only statement (`kind` is `.stmt`), or the expression that it consists of. -/
structure ReadsCode (py : Python) (kind : PatternKind) (p : Code) : Prop where
  tokens : py.tokens (p.text ++ str "\n") = some (lineTokens (p.text ++ str "\n"))
  tree : ∃ tree t, py.parse (p.named gensymName).text = some tree ∧ ParserTree tree ∧ Intended kind tree t ∧
    ReadAlike t ((p.named gensymName).val fun x => x)

/-- The other patterns that fixers use, beside those of rules: their kinds and texts, and the code that these are. -/
def otherPatterns : List (PatternKind × Str × Code) := [
  (.expr, str "attr.ib", .attr (.name (str "attr")) (str "ib")),
  (.expr, str "[]", .emptyList),
  (.expr, str "{}", .emptyDict),
  (.expr, str "set()", .call (.name (str "set")) [] []),
  (.expr, str "logging.error", .attr (.name (str "logging")) (str "error")),
  (.stmt, str "logging.exception($arg)", .expr (.call (.attr (.name (str "logging")) (str "exception")) [.var (str "arg")] []))]

/-- What the code of a rule is: an expression or a statement. -/
def RuleKind.asPattern : RuleKind → PatternKind
  | .expr => .expr
  | .stmt => .stmt

/-- Python reads the patterns of the built-in fixers as what they are; a set is iterated in some order. -/
structure ReadsPatterns (py : Python) : Prop where
  iter : ∀ l, (py.iter l).Perm l
  rules : ∀ r ∈ builtinRules, ReadsCode py r.kind.asPattern r.old
  others : ∀ e ∈ otherPatterns, ReadsCode py e.1 e.2.2

end Refex
