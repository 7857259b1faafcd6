import Verif.Model.Main
/-
Model of what refex/cli.py prints on standard output while it goes through the files, and of the names it shows.
-/
namespace Refex
set_option autoImplicit false

/-- refex/cli.py:196-200: the line above the matches of a file. The escape sequences are those of colorama; they are printed
whatever the setting of `--color`. -/
def headerLine (name : Str) : Str := str "\x1b[0m\x1b[35m" ++ name ++ str "\x1b[0m" ++ ['\n']

/-- refex/cli.py:185-209: what `log_changes` prints. Empty parts are not written, which makes no difference to the text. -/
def Runner.logged (r : Runner) (st : RState) (content : Str) (matches_ : List Substitution) (name : Str) : Str :=
  if matches_.isEmpty then []
  else if !r.showDiff && !r.showFiles then []
  else if !r.showDiff && r.showFiles then name ++ ['\n']
  else (if r.showFiles then headerLine name else []) ++
    ((diffSubstitutions r.palette r.color r.format r.sep content st false matches_).1.flatMap Prod.snd)

/-- refex/cli.py:224-245: what one iteration of the loop of `rewrite_files` prints. -/
def Runner.printsOne (r : Runner) (faults : Faults) (s : RunState) (rd wr : Str) : Str :=
  match r.read faults s.fs rd with
  | none => []
  | some content =>
    match r.getMatches content (r.shorten wr) with
    | .error _ => []
    | .ok ms => r.logged s.rstate content ms (r.shorten wr)

/-- refex/cli.py:246-249. -/
def dryRunNote : Str := str "This was a dry run. To write out changes, pass -i or --in-place." ++ ['\n']

/-- refex/cli.py:211-250: what `rewrite_files` prints on standard output. -/
def Runner.prints (r : Runner) (faults : Faults) : RunState → List (Str × Str) → Str
  | s, [] => if s.hasChanges && r.dryRun then dryRunNote else []
  | s, (rd, wr) :: rest =>
    let o := r.rewriteOne faults s rd wr
    r.printsOne faults s rd wr ++
      match o.2 with
      | some _ => []
      | none => r.prints faults o.1 rest

/-! ### `_shorten_path` -/

/-- `posixpath.normpath`, the loop over the components: `acc` is `new_comps`, last first. refex/cli.py:57-59. -/
def normLoop (absolute : Bool) : List Str → List Str → List Str
  | acc, [] => acc
  | acc, c :: rest =>
    if c = [] ∨ c = ['.'] then normLoop absolute acc rest
    else if c ≠ ['.', '.'] ∨ (absolute = false ∧ acc = []) ∨ acc.head? = some ['.', '.'] then normLoop absolute (c :: acc) rest
    else normLoop absolute acc.tail rest

/-- `posixpath.normpath`: the number of slashes at the front: none, one, or two if there are exactly two. refex/cli.py:57-59. -/
def initialSlashes (p : Str) : Nat :=
  match p with
  | '/' :: '/' :: '/' :: _ => 1
  | '/' :: '/' :: _ => 2
  | '/' :: _ => 1
  | _ => 0

/-- `posixpath.normpath`. refex/cli.py:57-59. -/
def normpath (p : Str) : Str :=
  if p = [] then ['.']
  else
    let n := initialSlashes p
    let out := List.replicate n '/' ++ joinWith ['/'] (normLoop (decide (n ≠ 0)) [] (splitOn '/' p)).reverse
    if out = [] then ['.'] else out

/-- `posixpath.abspath`: `cwd` is `os.getcwd()`. refex/cli.py:57-59. -/
def abspath (cwd p : Str) : Str := normpath (if p.head? = some '/' then p else pathJoin cwd p)

/-- The length of the common prefix of two lists (`genericpath.commonprefix`). refex/cli.py:57-59. -/
def commonLength : List Str → List Str → Nat
  | a :: as, b :: bs => if a = b then commonLength as bs + 1 else 0
  | _, _ => 0

/-- The nonempty components of a path. refex/cli.py:57-59. -/
def components (p : Str) : List Str := (splitOn '/' p).filter fun c => c ≠ []

/-- `posixpath.relpath(path)`; ValueError for the empty path. refex/cli.py:57-59. -/
def relpath (cwd p : Str) : Except Exc Str :=
  if p = [] then .error .valueError
  else
    let start := components (abspath cwd ['.'])
    let path := components (abspath cwd p)
    let i := commonLength start path
    let rel := List.replicate (start.length - i) ['.', '.'] ++ path.drop i
    .ok (if rel = [] then ['.'] else joinWith ['/'] rel)

/-- `min(filenames, key=len)`: the first of the shortest. refex/cli.py:57-59. -/
def shortest : Str → List Str → Str
  | best, [] => best
  | best, p :: rest => shortest (if p.length < best.length then p else best) rest

/-- refex/cli.py:57-59, `_shorten_path`. -/
def shortenPath (cwd p : Str) : Except Exc Str :=
  match relpath cwd p with
  | .error e => .error e
  | .ok rel => .ok (shortest p [abspath cwd p, rel])

end Refex
