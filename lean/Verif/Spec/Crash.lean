import Verif.Model.Cli
/- Specification: stopping a program that writes files at any point. -/
namespace Refex
set_option autoImplicit false

/-- What the files may be like if a program that does these operations is stopped (or comes to its end), and the file it had last
begun to write to: it stops between two operations, or has written only the first bytes of what it was writing. -/
inductive Stopped (fs : FS) (ops : List FsOp) : Option Str → FS → Prop
  | between (n : Nat) : Stopped fs ops ((ops.take n).getLast?.map FsOp.path) (runOps fs (ops.take n))
  | writing {pre post : List FsOp} {p : Str} {b : Bytes} (k : Nat) (h : ops = pre ++ .append p b :: post) :
      Stopped fs ops (some p) (runOps fs (pre ++ [.append p (b.take k)]))

end Refex
