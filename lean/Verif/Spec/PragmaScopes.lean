import Verif.Model.PragmaTokens
/- Specification of the block structure of a Python token stream and of the scope of comments in it. -/
namespace Refex
set_option autoImplicit false

/-- A physical line: tokens of code, an optional comment, and the end of the line. -/
structure PLine where
  code : List Tok
  comment : Option Tok
  nl : Tok

/-- Its tokens. -/
def PLine.toks (l : PLine) : List Tok := l.code ++ l.comment.toList ++ [l.nl]

/-- Token types are as they should be. -/
structure PLine.Valid (l : PLine) : Prop where
  code : ∀ t ∈ l.code, t.kind = .other
  comment : ∀ t, l.comment = some t → t.kind = .comment
  nl : l.nl.kind = .newline ∨ l.nl.kind = .nl

/-- Elements of a block: a line; or a compound statement's last header line (ending in NEWLINE), then comment-only and blank
lines, an INDENT, the elements of the inner block, and a DEDENT. (CPython's tokenizer emits INDENT and DEDENT right before
the next line with code, so comment-only lines before them still belong to the block before.) -/
inductive Elem
  | line (l : PLine)
  | suite (header : PLine) (pre : List PLine) (indent : Tok) (body : List Elem) (dedent : Tok)

mutual
/-- The tokens of an element. -/
def Elem.toks : Elem → List Tok
  | .line l => l.toks
  | .suite h pre i body d => h.toks ++ (pre.flatMap PLine.toks ++ (i :: (blockToks body ++ [d])))
/-- The tokens of a block. -/
def blockToks : List Elem → List Tok
  | [] => []
  | e :: es => e.toks ++ blockToks es
end

/-- The first line of a block. -/
def firstLine : List Elem → Option PLine
  | [] => none
  | .line l :: _ => some l
  | .suite h _ _ _ _ :: _ => some h

mutual
/-- Well-formedness: token types, a header has code and ends in NEWLINE, the lines before an INDENT have no code, the line
after it has. -/
def Elem.Valid : Elem → Prop
  | .line l => l.Valid
  | .suite h pre i body d =>
    h.Valid ∧ h.code ≠ [] ∧ h.nl.kind = .newline ∧ (∀ l ∈ pre, l.Valid ∧ l.code = [] ∧ l.nl.kind = .nl) ∧
    i.kind = .indent ∧ d.kind = .dedent ∧ (∃ l, firstLine body = some l ∧ l.code ≠ []) ∧ BlockValid body
/-- All elements of a block are well formed. -/
def BlockValid : List Elem → Prop
  | [] => True
  | e :: es => e.Valid ∧ BlockValid es
end

/-- The offsets at which lines end, in order; in a real file they are strictly increasing. -/
def lineEnds (ts : List Tok) : List Nat :=
  (ts.filter fun t => t.kind = .newline ∨ t.kind = .nl).map Tok.stop

/-- The scope of the comment of a line that starts at `ls` in a block that ends at `stop`: after code, the line up to the end of
the comment; alone on its line, from the line to the end of the block. -/
def lineScopes (stop ls : Nat) (l : PLine) : List (Str × Nat × Nat) :=
  match l.comment with
  | none => []
  | some c => [(c.string, ls, if l.code = [] then stop else c.stop)]

/-- The scopes of the comments of successive lines. -/
def linesScopes (stop : Nat) : Nat → List PLine → List (Str × Nat × Nat)
  | _, [] => []
  | ls, l :: rest => lineScopes stop ls l ++ linesScopes stop l.nl.stop rest

/-- Where the last of these lines ends. -/
def linesEnd : Nat → List PLine → Nat
  | ls, [] => ls
  | _, l :: rest => linesEnd l.nl.stop rest

mutual
/-- Where an element ends. -/
def Elem.lineEnd : Nat → Elem → Nat
  | _, .line l => l.nl.stop
  | _, .suite h pre _ body _ => blockLineEnd (linesEnd h.nl.stop pre) body
/-- Where a block ends. -/
def blockLineEnd : Nat → List Elem → Nat
  | ls, [] => ls
  | ls, e :: es => blockLineEnd (e.lineEnd ls) es
end

mutual
/-- The scopes of the comments of an element of a block that ends at `stop`. -/
def Elem.scopes (stop : Nat) : Nat → Elem → List (Str × Nat × Nat)
  | ls, .line l => lineScopes stop ls l
  | ls, .suite h pre _ body d =>
    lineScopes stop ls h ++ (linesScopes d.start h.nl.stop pre ++ blockScopes d.start (linesEnd h.nl.stop pre) body)
/-- The scopes of the comments of a block that ends at `stop`. -/
def blockScopes (stop : Nat) : Nat → List Elem → List (Str × Nat × Nat)
  | _, [] => []
  | ls, e :: es => e.scopes stop ls ++ blockScopes stop (e.lineEnd ls) es
end

end Refex
