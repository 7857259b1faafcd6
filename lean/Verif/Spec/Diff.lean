import Verif.Model.Basic
/- How a reader takes a diff apart. -/
namespace Refex
set_option autoImplicit false

/-- The lines of a text that ends in a newline, without their newlines. -/
def linesOf (s : Str) : List Str := (splitOn '\n' s).dropLast

/-- The text described by the lines whose mark (first character) is among `marks`. -/
def sideOf (marks : List Char) (display : Str) : Str :=
  ((linesOf display).filter fun l => match l with | m :: _ => marks.contains m | [] => false).flatMap fun l => l.tail ++ ['\n']

/-- The text a diff was made from: its context and removed lines. -/
def oldSide (display : Str) : Str := sideOf [' ', '-'] display

/-- The text a diff leads to: its context and added lines. -/
def newSide (display : Str) : Str := sideOf [' ', '+'] display

/-- A text whose last line is complete; no text at all stays empty. -/
def withNl (s : Str) : Str := if s = [] then [] else if s.getLast? = some '\n' then s else s ++ ['\n']

end Refex
