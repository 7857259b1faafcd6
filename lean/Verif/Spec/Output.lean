import Verif.Model.Output
import Verif.Spec.Common
import Verif.Props.Render
/- Specification of what is printed on standard output, and of the names shown. -/
namespace Refex
set_option autoImplicit false

/-- In the file system `fs`, the run reads `content` for `pair` and finds `ms` in it. -/
def FoundIn (r : Runner) (faults : Faults) (fs : FS) (pair : Str × Str) (content : Str) (ms : List Substitution) : Prop :=
  r.read faults fs pair.1 = some content ∧ r.find content (r.shorten pair.2) = .ok ms

/-- The displays one after the other; after each diff that is not the last display, the separator. -/
def separated (sep : Str) : List (Bool × Str) → Str
  | [] => []
  | [d] => d.2
  | d :: e :: rest => d.2 ++ (if d.1 then sep else []) ++ separated sep (e :: rest)

/-- What is printed for the matches `ms` in a file: the name only, or the displays of the matches (with styles given by `σ`) in
order, under a header with the name if names are wanted. -/
inductive FileOutput (r : Runner) (σ : List Label → Str) (content name : Str) (ms : List Substitution) : Str → Prop
  | nothing : r.showDiff = false → r.showFiles = false → FileOutput r σ content name ms []
  | nameOnly : r.showDiff = false → r.showFiles = true → FileOutput r σ content name ms (name ++ ['\n'])
  | displays {parts : List (Bool × Str)} : r.showDiff = true →
      Forall2 (fun m d => renderWith r.palette r.color r.format σ content m = .ok d) ms parts →
      FileOutput r σ content name ms ((if r.showFiles then headerLine name else []) ++ separated r.sep parts)

/-- What is printed for one pair of paths: nothing if nothing is found. -/
inductive PairOutput (r : Runner) (faults : Faults) (fs : FS) (σ : List Label → Str) (pair : Str × Str) : Str → Prop
  | quiet : (∀ content ms, FoundIn r faults fs pair content ms → ms = []) → PairOutput r faults fs σ pair []
  | found {content : Str} {ms : List Substitution} {out : Str} : FoundIn r faults fs pair content ms → ms ≠ [] →
      FileOutput r σ content (r.shorten pair.2) ms out → PairOutput r faults fs σ pair out

/-- Some file has a match that comes with replacements. -/
def ChangesFound (r : Runner) (faults : Faults) (fs : FS) (pairs : List (Str × Str)) : Prop :=
  ∃ pair ∈ pairs, ∃ content ms, FoundIn r faults fs pair content ms ∧ ∃ m ∈ ms, m.replacements.getD [] ≠ []

/-! Names. A path is read from left to right: '.' and nothing mean the same directory, '..' the one above. -/

/-- One component, from the directory `dir` (the innermost name first). -/
def stepInto (dir : List Str) (c : Str) : List Str :=
  if c = [] ∨ c = ['.'] then dir else if c = ['.', '.'] then dir.tail else c :: dir

/-- Where an absolute path leads. -/
def absLocation (p : Str) : List Str := (splitOn '/' p).foldl stepInto []

/-- Where a path leads, from the current directory. -/
def location (cwd p : Str) : List Str :=
  if p.head? = some '/' then absLocation p else (splitOn '/' p).foldl stepInto (absLocation cwd)

/-- What is said at the end of a dry run. -/
def noteText : Str := str "This was a dry run. To write out changes, pass -i or --in-place.\n"

end Refex
