import Verif.Model.ErrorDump
/- What an error dump should be good for. -/
namespace Refex
set_option autoImplicit false

/-- Where a shell is in a command line. -/
inductive Quoting
  | bare | single | double
  deriving DecidableEq

/-- The words of a command line, as a POSIX shell reads them; `none` if a character has, where it stands, a special meaning that is not covered
here. The second argument is the word so far, if one has begun. -/
def shellWords : Quoting → Option Str → Str → Option (List Str)
  | .bare, w, [] => some w.toList
  | .bare, w, ch :: s =>
    if ch = ' ' then (shellWords .bare none s).map (w.toList ++ ·)
    else if ch = '\'' then shellWords .single (some (w.getD [])) s
    else if ch = '"' then shellWords .double (some (w.getD [])) s
    else if ch.isAlphanum = true ∨ ch ∈ str "_@%+=:,./-" then shellWords .bare (some (w.getD [] ++ [ch])) s
    else none
  | .single, _, [] => none
  | .single, w, ch :: s => if ch = '\'' then shellWords .bare w s else shellWords .single (some (w.getD [] ++ [ch])) s
  | .double, _, [] => none
  | .double, w, ch :: s =>
    if ch = '"' then shellWords .bare w s
    else if ch ∈ str "$`\\!" then none
    else shellWords .double (some (w.getD [] ++ [ch])) s

mutual
/-- What a dict can be: keys are not repeated, and each has a value. -/
def Json.Proper : Json → Prop
  | .null => True
  | .text _ => True
  | .list vs => Json.Propers vs
  | .obj ks vs => ks.Nodup ∧ ks.length = vs.length ∧ Json.Propers vs
/-- All of them. -/
def Json.Propers : List Json → Prop
  | [] => True
  | v :: vs => v.Proper ∧ Json.Propers vs
end

/-- Printable ASCII. -/
def PrintableAscii (s : Str) : Prop := ∀ ch ∈ s, 0x20 ≤ ch.toNat ∧ ch.toNat ≤ 0x7e

end Refex
