import Verif.Model.Formatting
import Verif.Model.Render
/-
Model of refex/cli.py: reading, searching and writing files; the options --match and --sub.
-/
namespace Refex
set_option autoImplicit false

/-- The content of a file. refex/cli.py:93-98. -/
abbrev Bytes := List UInt8

/-- A file system: the content of each existing file. refex/cli.py:132-183. -/
abbrev FS := Str → Option Bytes

/-- What refex does to the file system, refex/cli.py:176-182: `io.open(path, 'wb')` empties (or creates) the file before anything
is written to it; then bytes are written. Stopping the program at any point leaves the effect of a prefix of these. -/
inductive FsOp
  | truncate (path : Str)
  | append (path : Str) (data : Bytes)
  deriving DecidableEq, Repr

/-- The file concerned. refex/cli.py:132-183. -/
def FsOp.path : FsOp → Str
  | .truncate p => p
  | .append p _ => p

/-- The effect of one operation. refex/cli.py:176-183. -/
def FsOp.run (fs : FS) : FsOp → FS
  | .truncate p => fun q => if q = p then some [] else fs q
  | .append p b => fun q => if q = p then some ((fs p).getD [] ++ b) else fs q

/-- The effect of a sequence of operations. refex/cli.py:211-250. -/
def runOps (fs : FS) (ops : List FsOp) : FS := ops.foldl FsOp.run fs

/-- The `newline=None` translation of `io.TextIOWrapper` on reading, refex/cli.py:93-95. (On writing '\n' becomes os.linesep,
which is '\n' on POSIX systems, so writing translates nothing.) -/
def universalNewlines : Str → Str
  | [] => []
  | '\r' :: '\n' :: s => '\n' :: universalNewlines s
  | '\r' :: s => '\n' :: universalNewlines s
  | c :: s => c :: universalNewlines s

/-- `UnicodeCodec.encoding`, refex/cli.py:88-99, and what can go wrong: undecodable bytes, unencodable text. -/
structure Encoding where
  decode : Bytes → Option Str
  encode : Str → Option Bytes

/-- Failures of the operating system: files that cannot be read, files that cannot be opened for writing, files for which writing
fails after some bytes. refex/cli.py:132-153, 176-183. -/
structure Faults where
  read : Str → Bool
  openWrite : Str → Bool
  write : Str → Option Nat

/-- refex/cli.py:102-130, `RefexRunner`. `find` is `list(search.find_iter(searcher, contents, path, max_iterations))`. The fields
of the renderer are those of Model/Render.lean. `shorten` is `_shorten_path`, lines 57-59. -/
structure Runner where
  find : Str → Str → Except Exc (List Substitution)
  palette : Palette
  color : Bool
  format : Str → Str → Str → Except Exc Str
  sep : Str
  dryRun : Bool
  showDiff : Bool
  showFiles : Bool
  enc : Encoding
  shorten : Str → Str

/-- refex/cli.py:132-153, `read`: every failure gives None. -/
def Runner.read (r : Runner) (faults : Faults) (fs : FS) (path : Str) : Option Str :=
  if faults.read path then none
  else (fs path).bind fun b => (r.enc.decode b).map universalNewlines

/-- refex/cli.py:155-174, `get_matches`: the two skip exceptions give no matches. -/
def Runner.getMatches (r : Runner) (contents path : Str) : Except Exc (List Substitution) :=
  match r.find contents path with
  | .ok ms => .ok ms
  | .error .skipNoResults => .ok []
  | .error .skipFile => .ok []
  | .error e => .error e

/-- refex/cli.py:176-182, `write`: what it does to the files and whether it raises. Only IOError is caught. -/
def Runner.write (r : Runner) (faults : Faults) (path data : Str) (matches_ : List Substitution) : List FsOp × Option Exc :=
  if faults.openWrite path then ([], none)
  else match applySubstitutions data matches_ with
    | .error e => ([.truncate path], some e)
    | .ok out =>
      match r.enc.encode out with
      | none => ([.truncate path], some .unicodeError)
      | some b =>
        match faults.write path with
        | some n => ([.truncate path, .append path (b.take n)], none)
        | none => ([.truncate path, .append path b], none)

/-- refex/cli.py:185-209, `log_changes`: whether there are changes, and what the renderer remembers. What is printed is
`Runner.logged` in Model/Output.lean. -/
def Runner.logChanges (r : Runner) (st : RState) (content : Str) (matches_ : List Substitution) : Except Exc Bool × RState :=
  if matches_.isEmpty || !r.showDiff then (.ok false, st)
  else
    let d := diffSubstitutions r.palette r.color r.format r.sep content st false matches_
    (match d.2.1 with | some e => .error e | none => .ok (d.1.any Prod.fst), d.2.2)

/-- What `rewrite_files` has done so far. `failures` maps paths to the contents; the traceback is left out. refex/cli.py:211-250. -/
structure RunState where
  fs : FS
  ops : List FsOp := []
  failures : Dict Str Str := []
  hasChanges : Bool := false
  rstate : RState

/-- refex/cli.py:225-245: one iteration of the loop of `rewrite_files`, and the exception it ends with, if any. -/
def Runner.rewriteOne (r : Runner) (faults : Faults) (s : RunState) (rd wr : Str) : RunState × Option Exc :=
  match r.read faults s.fs rd with
  | none => (s, none)
  | some content =>
    match r.getMatches content (r.shorten wr) with
    | .error _ => ({ s with failures := s.failures.set rd content }, none)
    | .ok ms =>
      let l := r.logChanges s.rstate content ms
      match l.1 with
      | .error e => ({ s with rstate := l.2 }, some e)
      | .ok c =>
        let s := { s with rstate := l.2, hasChanges := s.hasChanges || c }
        if !r.dryRun && !ms.isEmpty then
          let w := r.write faults wr content ms
          ({ s with fs := runOps s.fs w.1, ops := s.ops ++ w.1 }, w.2)
        else (s, none)

/-- refex/cli.py:211-250, `rewrite_files`. -/
def Runner.rewriteFiles (r : Runner) (faults : Faults) : RunState → List (Str × Str) → RunState × Option Exc
  | s, [] => (s, none)
  | s, (rd, wr) :: rest =>
    let o := r.rewriteOne faults s rd wr
    match o.2 with
    | some e => (o.1, some e)
    | none => r.rewriteFiles faults o.1 rest

/-! ### Options -/

/-- refex/cli.py:262-268, `_SearchReplaceArgument`. -/
structure SearchReplace where
  pattern : Option Str := none
  sub : Dict Str Str := []
  deriving DecidableEq, Repr

/-- The options that refex/cli.py:796-819 declares with the three actions. -/
inductive Opt
  | matchOpt (value : Str)
  | sub (value : Str)
  | namedSub (value : Str)
  deriving DecidableEq, Repr

/-- `search.ROOT_LABEL`. refex/search.py:561. -/
def rootName : Str := str "__root"

/-- `value.partition('=')`: the name and, if there is a separator, the rest. refex/cli.py:329. -/
def partitionAtEq : Str → Str × Option Str
  | [] => ([], none)
  | c :: cs => if c = '=' then ([], some cs) else let r := partitionAtEq cs; (c :: r.1, r.2)

/-- refex/cli.py:279-335: the three actions, on the last element of the list and the elements before it (latest first).
`parser.error` exits. -/
def Opt.act (st : SearchReplace × List SearchReplace) : Opt → Except Exc (SearchReplace × List SearchReplace)
  | .matchOpt v =>
    match st.1.pattern with
    | none => .ok ({ st.1 with pattern := some v }, st.2)
    | some _ => .ok ({ pattern := some v }, st.1 :: st.2)
  | .sub v =>
    if st.1.sub.isEmpty then .ok ({ st.1 with sub := [(rootName, v)] }, st.2) else .error .other
  | .namedSub v =>
    if st.1.sub.has rootName then .error .other
    else match partitionAtEq v with
      | (_, none) => .error .other
      | (name, some p) =>
        if st.1.sub.has name then .error .other
        else .ok ({ st.1 with sub := st.1.sub.set name p }, st.2)

/-- All options in turn. refex/cli.py:279-335 (argparse runs the actions in order). -/
def actAll : SearchReplace × List SearchReplace → List Opt → Except Exc (SearchReplace × List SearchReplace)
  | st, [] => .ok st
  | st, o :: os =>
    match o.act st with
    | .error e => .error e
    | .ok st' => actAll st' os

/-- The value of `options.search_replace`: it starts as a list of one empty element (refex/cli.py:850). -/
def searchReplaceOf (opts : List Opt) : Except Exc (List SearchReplace) :=
  match actAll ({}, []) opts with
  | .error e => .error e
  | .ok (last, rest) => .ok (rest.reverse ++ [last])

/-- refex/cli.py:728-735: the positional argument is the pattern if no --match was given, else a file. -/
def patternOrFile (srs : List SearchReplace) (positional : Option Str) (more : List Str) : List SearchReplace × List Str :=
  match positional with
  | none => (srs, more)
  | some p =>
    match srs with
    | [⟨none, sub⟩] => ([⟨some p, sub⟩], more)
    | _ => (srs, p :: more)

/-- refex/cli.py:884-889: the number of iterations. `--no-iterate` stores None (lines 842-847), which is also the default. -/
def iterationCount (mode : Str) (iterate : Option Nat) : Nat :=
  match iterate with
  | some n => n
  | none => if mode = str "fix" then 10 else 0

end Refex
