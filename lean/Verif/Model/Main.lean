import Verif.Model.Search
import Verif.Model.Cli
/-
Model of refex/cli.py: from the parsed command line to the run: leftover arguments, expansion of directories, construction of
the searcher, report of failures, exit status. argparse itself, colours and profiling are not modelled.
-/
namespace Refex
set_option autoImplicit false

/-! ### Arguments -/

/-- refex/cli.py:697-710: the loops over what argparse did not know: the flags it does not recognise and the other words. -/
def splitUnknown : List Str → List Str × List Str
  | [] => ([], [])
  | a :: rest =>
    if a = str "--" then ([], rest)
    else if a.head? = some '-' then (a :: (splitUnknown rest).1, (splitUnknown rest).2)
    else ((splitUnknown rest).1, a :: (splitUnknown rest).2)

/-- refex/cli.py:677-714, `_parse_args_leftovers`, after `parse_known_args`: the leftovers, or `none` if `parser.error` exits. -/
def leftovers (unknown : List Str) : Option (List Str) :=
  if (splitUnknown unknown).1.isEmpty then some (splitUnknown unknown).2 else none

/-! ### Files -/

mutual
/-- What a name in a directory stands for, as `os.walk` tells them apart (refex/cli.py:914): anything that is not a directory, a
symbolic link to a directory (which is not followed), a directory, which may be unreadable. -/
inductive Entry
  | file
  | linkToDir
  | dir (readable : Bool) (items : Entries)
/-- The content of a directory in the order in which the operating system lists it. refex/cli.py:914. -/
inductive Entries
  | nil
  | cons (name : Str) (e : Entry) (rest : Entries)
end

/-- `os.path.join(a, b)` on POSIX systems. refex/cli.py:916. -/
def pathJoin (a b : Str) : Str :=
  if b.head? = some '/' then b
  else if a = [] ∨ a.getLast? = some '/' then a ++ b
  else a ++ '/' :: b

/-- The files directly in a directory, `files` in refex/cli.py:914-917. -/
def filesIn (top : Str) : Entries → List Str
  | .nil => []
  | .cons n .file rest => pathJoin top n :: filesIn top rest
  | .cons _ _ rest => filesIn top rest

mutual
/-- refex/cli.py:914-917: the files that `os.walk(top)` comes upon, top-down. An unreadable directory is passed over. -/
def walkFiles (top : Str) : Entry → List Str
  | .dir true es => filesIn top es ++ walkSubdirs top es
  | .dir false _ => []
  | .file => []
  | .linkToDir => []
/-- refex/cli.py:914-917: the part of `os.walk` for the subdirectories. -/
def walkSubdirs (top : Str) : Entries → List Str
  | .nil => []
  | .cons n e rest => walkFiles (pathJoin top n) e ++ walkSubdirs top rest
end

/-- refex/cli.py:903-917, `files_from_options`. `dirAt path` is the content of the directory `path` (links followed), `none` if
`os.path.isdir(path)` is false. The generator is modelled as a list computed beforehand: a run only writes to files that it
has read, so it does not change which files there are. -/
def filesFromOptions (dirAt : Str → Option Entry) (recursive : Bool) : List Str → List (Str × Str)
  | [] => []
  | path :: rest =>
    (match dirAt path with
      | some d => if recursive then (walkFiles path d).map fun f => (f, f) else [(path, path)]
      | none => [(path, path)]) ++ filesFromOptions dirAt recursive rest

/-! ### The searcher -/

/-- What the modes do. `factory mode pattern templates` is `_SEARCH_MODES[mode](pattern, templates)`, `template subMode text` is
`_SUB_MODES[subMode](text)`. refex/cli.py:469-483. -/
structure Modes (T : Type) where
  factory : Str → Option Str → Dict Str T → Except Exc Searcher
  template : Str → Str → Except Exc T

/-- The parsed command line. refex/cli.py:543-674, 717-742, 796-851. -/
structure Options where
  mode : Str
  subMode : Str := str "auto"
  searchReplace : List SearchReplace
  also : List (Str → Bool) := []
  noalso : List (Str → Bool) := []
  excludefile : Option (Str → Bool) := none
  includefile : Option (Str → Bool) := none
  forceEnable : Bool := false
  inPlace : Bool := false
  listFiles : Bool := false
  printFilename : Bool := true
  iterate : Option Nat := none
  recursive : Bool := false
  verbose : Bool := false
  files : List Str := []

/-- How building the runner can end other than well: `parser.error` (a usage error), or an exception. refex/cli.py:531-540, 855-900. -/
inductive MainErr
  | usage
  | raised (e : Exc)
  deriving DecidableEq, Repr

/-- refex/cli.py:485-491, 520-528, `_get_sub_parser`: the name of the substitution syntax. -/
def subModeOf (mode subMode : Str) : Str :=
  if subMode = str "auto" then (if mode = str "fix" then str "sh" else mode) else subMode

/-- refex/cli.py:531-540, `_parse_templates`: whatever a template raises is a usage error. -/
def parseTemplates {T : Type} (template : Str → Except Exc T) : Dict Str Str → Except MainErr (Dict Str T)
  | [] => .ok []
  | (name, sub) :: rest =>
    match template sub with
    | .error _ => .error .usage
    | .ok t =>
      match parseTemplates template rest with
      | .error e => .error e
      | .ok ts => .ok ((name, t) :: ts)

/-- refex/cli.py:459-465, `_fixer_from_pattern`. -/
def fixFactory {T : Type} (fromPattern : Option Str → Except Exc Searcher) (pattern : Option Str) (templates : Dict Str T) :
    Except Exc Searcher :=
  if templates.isEmpty then fromPattern pattern else .error .valueError

/-- refex/cli.py:858-867: one searcher for each pattern. Only ValueError is turned into a usage error. -/
def buildSearchers {T : Type} (modes : Modes T) (mode subMode : Str) : List SearchReplace → Except MainErr (List Searcher)
  | [] => .ok []
  | sr :: rest =>
    match parseTemplates (modes.template (subModeOf mode subMode)) sr.sub with
    | .error e => .error e
    | .ok ts =>
      match modes.factory mode sr.pattern ts with
      | .error .valueError => .error .usage
      | .error e => .error (.raised e)
      | .ok s =>
        match buildSearchers modes mode subMode rest with
        | .error e => .error e
        | .ok ss => .ok (s :: ss)

/-- refex/search.py:448-466, `CombinedSearcher.parse`, for members that all produce the same class of parsed file (as the
searchers of one mode do). `acc` is `parsed`. An empty combination parses to None, which stays unused. -/
def combinedParse (data path : Str) : Option ParsedFile → List Searcher → Except Exc ParsedFile
  | none, [] => .error .attributeError
  | some p, [] => .ok p
  | acc, s :: ss =>
    match s.parse data path with
    | .error e => .error e
    | .ok new =>
      match acc with
      | none => combinedParse data path (some new) ss
      | some p => if p = new then combinedParse data path (some p) ss else .error .assertionError

/-- refex/search.py:407-483, `CombinedSearcher`. -/
def combined (ss : List Searcher) : Searcher :=
  { included := combinedIncluded ss
    parse := fun data path => combinedParse data path none ss
    find := combinedFind ss }

/-- refex/cli.py:869-882: the searchers put together. -/
def wholeSearcher (ss : List Searcher) (also noalso : List (Str → Bool)) (forceEnable : Bool) : Except MainErr Searcher :=
  match ss with
  | [] => .error (.raised .assertionError)
  | _ =>
    let s := match ss with
      | [s] => s
      | _ => combined ss
    let s := if also.isEmpty && noalso.isEmpty then s else alsoRegexp s also noalso
    .ok (if forceEnable then s else pragmaSuppressed s)

/-- What does not depend on the options modelled here: how Python text is parsed again, the renderer, the encoding.
refex/cli.py:88-130, 717-742. -/
structure World where
  parseAst : Str → Str → Except Exc ParsedFile
  palette : Palette
  color : Bool
  format : Str → Str → Str → Except Exc Str
  sep : Str
  enc : Encoding
  shorten : Str → Str

/-- refex/cli.py:855-900, `runner_from_options`. -/
def runnerFromOptions {T : Type} (w : World) (modes : Modes T) (o : Options) : Except MainErr Runner :=
  match buildSearchers modes o.mode o.subMode o.searchReplace with
  | .error e => .error e
  | .ok ss =>
    match wholeSearcher ss o.also o.noalso o.forceEnable with
    | .error e => .error e
    | .ok s => .ok
      { find := fun contents path => findIter w.parseAst s contents path (iterationCount o.mode o.iterate)
        palette := w.palette
        color := w.color
        format := w.format
        sep := w.sep
        dryRun := !o.inPlace
        showDiff := !o.listFiles
        showFiles := o.listFiles || o.printFilename
        enc := w.enc
        shorten := w.shorten }

/-! ### The report and the exit status -/

/-- What `report_failures` says, refex/cli.py:422-456: the files it prints a traceback for, what it dumps, the number it prints. -/
structure FailureReport where
  printed : List Str
  dumped : Dict Str Str
  count : Nat
  deriving DecidableEq, Repr

/-- refex/cli.py:422-456, `report_failures`. Tracebacks, the dump's file name and its other content are left out. -/
def reportFailures (failures : Dict Str Str) (verbose : Bool) : Option FailureReport :=
  if failures.isEmpty then none
  else some
    { printed := if verbose then failures.keys else []
      dumped := failures
      count := failures.length }

/-- How the program ends: the files, what was done to them, the report, the exit status. refex/cli.py:338-419, 920-944. -/
structure Finish where
  fs : FS
  ops : List FsOp
  report : Option FailureReport
  status : Nat

/-- refex/cli.py:338-419, 920-944: `main` after the command line is parsed. A usage error exits with 2, an uncaught exception
with 1 (then there is no report); otherwise `main` returns and the status is 0. -/
def mainRun {T : Type} (w : World) (modes : Modes T) (o : Options) (dirAt : Str → Option Entry) (faults : Faults) (fs : FS)
    (rs : RState) : Finish :=
  match runnerFromOptions w modes o with
  | .error .usage => ⟨fs, [], none, 2⟩
  | .error (.raised _) => ⟨fs, [], none, 1⟩
  | .ok r =>
    let out := r.rewriteFiles faults { fs := fs, rstate := rs } (filesFromOptions dirAt o.recursive o.files)
    match out.2 with
    | some _ => ⟨out.1.fs, out.1.ops, none, 1⟩
    | none => ⟨out.1.fs, out.1.ops, reportFailures out.1.failures o.verbose, 0⟩

end Refex
