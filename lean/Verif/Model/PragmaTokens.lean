import Verif.Model.Pragma
/-
Model of refex/python/matcher.py:1206-1297: finding the pragmas in a token stream.
-/
namespace Refex
set_option autoImplicit false

/-- The token types that refex/python/matcher.py:1206-1297 distinguishes. -/
inductive TokKind
  | newline | nl | indent | dedent | endmarker | comment | other
  deriving DecidableEq, Repr

/-- An ASTTokens token: type, string, and code-point offsets. refex/python/matcher.py:1206-1297. -/
structure Tok where
  kind : TokKind
  string : Str
  start : Nat
  stop : Nat
  deriving DecidableEq, Repr

/-- refex/python/matcher.py:1212-1240, `_indents`; the state is `newline_start`. -/
def indentStarts : Option Nat → List Tok → List Nat
  | _, [] => []
  | ns, t :: ts =>
    match t.kind with
    | .nl | .comment => indentStarts ns ts
    | .newline => indentStarts (some t.stop) ts
    | .indent => (match ns with | none => t.start | some n => n) :: indentStarts ns ts
    | .dedent | .endmarker | .other => indentStarts none ts

/-- The local variables of `_pragmas`, refex/python/matcher.py:1245-1258. `incomplete_pragmas` is a defaultdict(list), i.e. a
total function. -/
structure PState where
  fresh : Bool := true
  lineStart : Nat := 0
  indents : Int := 0
  incomplete : Int → List (Str × Nat) := fun _ => []
  indentStarts : List Nat

/-- refex/python/matcher.py:1259-1297, the loop of `_pragmas`: what it yields. `parse` is `Pragma.from_text`. -/
def pragmasLoop (parse : Str → Nat → Nat → Option Pragma) : PState → List Tok → List Pragma
  | _, [] => []
  | s, t :: ts =>
    match t.kind with
    | .newline | .nl =>
      if s.indentStarts.contains t.stop then
        pragmasLoop parse { s with fresh := true, lineStart := t.stop, indents := s.indents + 1,
                                   indentStarts := s.indentStarts.filter (fun x => x ≠ t.stop) } ts
      else pragmasLoop parse { s with fresh := true, lineStart := t.stop } ts
    | .dedent | .endmarker =>
      (s.incomplete s.indents).filterMap (fun c => parse c.1 c.2 t.start) ++
        pragmasLoop parse { s with indents := s.indents - 1,
                                   incomplete := fun i => if i = s.indents then [] else s.incomplete i } ts
    | .comment =>
      if s.fresh then
        pragmasLoop parse { s with incomplete := fun i => if i = s.indents then s.incomplete i ++ [(t.string, s.lineStart)]
                                                          else s.incomplete i } ts
      else (parse t.string s.lineStart t.stop).toList ++ pragmasLoop parse s ts
    | .indent | .other => pragmasLoop parse { s with fresh := false } ts

/-- refex/python/matcher.py:1243-1297, `_pragmas`. -/
def pragmasOf (parse : Str → Nat → Nat → Option Pragma) (ts : List Tok) : List Pragma :=
  pragmasLoop parse { indentStarts := indentStarts none ts } ts

/-- refex/python/matcher.py:1338, `tuple(sorted(_pragmas(tokens), key=start))`. -/
def filePragmas (parse : Str → Nat → Nat → Option Pragma) (ts : List Tok) : List Pragma :=
  stableSort (fun a b => decide (a.start ≤ b.start)) (pragmasOf parse ts)

end Refex
