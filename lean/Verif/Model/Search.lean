import Verif.Model.Formatting
/-
Model of refex/search.py: find_iter, iterated fixing, searcher combinators, pragma ranges.
Searchers are arbitrary functions; the Python parser is an arbitrary function.
-/
namespace Refex
set_option autoImplicit false

/-- refex/parsed_file.py:76-89, class `Pragma`. -/
structure Pragma where
  tag : Str
  data : Dict Str Str
  start : Nat
  stop : Nat
  deriving DecidableEq, Repr

/-- refex/parsed_file.py:30-51, class `ParsedFile`. The syntax tree of the subclass `PythonParsedFile` is a function of
the text and is not represented: a searcher may be any function of the parsed file. -/
structure ParsedFile where
  text : Str
  path : Str
  pragmas : List Pragma := []
  deriving DecidableEq, Repr

/-- refex/search.py:305-349, class `AbstractSearcher`: what a searcher can do. A generator is the list it yields; an
exception raised anywhere in it is an `.error` (the consumers in scope, `list(...)` and `apply_substitutions`, do not
use items yielded before an exception). `SkipFileError` and `SkipFileNoResultsError` are `Exc.skipFile` and
`Exc.skipNoResults`. -/
structure Searcher where
  /-- `check_is_included(path)` -/
  included : Str → Except Exc Unit
  /-- `parse(data, path)` -/
  parse : Str → Str → Except Exc ParsedFile
  /-- `find_iter_parsed(parsed)` -/
  find : ParsedFile → Except Exc (List Substitution)

/-- refex/search.py:282, the fallback URL. -/
def mergedUrl : Str := str "https://refex.readthedocs.io/en/latest/guide/fixers/merged.html"

/-- `x or default` for an optional string: None and '' are falsy. refex/search.py:271-287. -/
def orElse (o : Option Str) (d : Str) : Str :=
  match o with
  | none => d
  | some [] => d
  | some s => s

/-- `'{}'.format(x)` of an optional string. refex/search.py:271-287. -/
def fmtOpt : Option Str → Str
  | none => str "None"
  | some s => s

/-- `[sub.message for sub in subs if sub.message]`, refex/search.py:275. -/
def truthyMessages (subs : List Substitution) : List Str :=
  subs.filterMap fun s => match s.message with
    | none => none
    | some [] => none
    | some m => some m

/-- refex/search.py:266-270: the substitutions whose metadata is used. -/
def sigSubs (subs : List Substitution) : List Substitution :=
  if (subs.filter (fun s => s.significant)).isEmpty then subs else subs.filter (fun s => s.significant)

/-- refex/search.py:271. -/
def findingsHeader : Str := str "There are a few findings here:\n\n"

/-- refex/search.py:271-287: `url`, `message_header` and `messages` from the substitutions used. -/
def compileMessages (sig : List Substitution) : Option Str × Str × List Str :=
  match dedup (sig.map (fun s => s.url)) with
  | [u] =>
    if (dedup (truthyMessages sig)).length = 1 then (u, [], (truthyMessages sig).take 1)
    else (u, findingsHeader, truthyMessages sig)
  | _ => (some mergedUrl, findingsHeader,
      sig.map fun (s : Substitution) => orElse s.message (str "(no message)") ++ str "\n(" ++ fmtOpt s.url ++ str ")")

/-- refex/search.py:288-291. -/
def joinMessages (header : Str) (messages : List Str) : Option Str :=
  if messages.isEmpty then none else some (header ++ joinWith (str "\n\n") messages)

/-- refex/search.py:260-302, `_compile_substitutions` for a non-empty list (the only caller guarantees it, line 250).
`category` and labels are the literal strings of lines 292-301. -/
def compileSubstitutions (subs : List Substitution) (start stop : Nat) (text : Str) : Substitution :=
  let significant := !(subs.filter (fun s => s.significant)).isEmpty
  let m := compileMessages (sigSubs subs)
  { matchedSpans := [(str "fixedpoint", (start, stop))]
    primaryLabel := str "fixedpoint"
    replacements := some [(str "fixedpoint", text)]
    message := joinMessages m.2.1 m.2.2
    url := m.1
    significant := significant
    category := some (str "refex.merged." ++ if significant then str "significant" else str "not-significant") }

/-- refex/search.py:222-248, the loop of `_fixed_point`, as the remaining number of iterations, the text so far and
`new_substitutions`. Returns `all_substitutions` and `text` at the end of the loop; the third component is not in the
code: it records the texts on which the searcher was run. `parseAst` is `_matcher.parse_ast(_, parsed.path)`; only
ParseError is caught (line 226). The test of line 242 (`i == max_iterations`) is never true, `i < max_iterations`. -/
def fixedPointLoop (parseAst : Str → Except Exc ParsedFile) (find : ParsedFile → Except Exc (List Substitution)) :
    Nat → Str → List Substitution → Except Exc (List Substitution × Str × List Str)
  | 0, text, _ => .ok ([], text, [])
  | n + 1, text, new =>
    match applySubstitutions text new with
    | .error e => .error e
    | .ok rewritten =>
      match parseAst rewritten with
      | .error .parseError => .ok ([], text, [])
      | .error e => .error e
      | .ok p =>
        match find p with
        | .error e => .error e
        | .ok [] => .ok (new, rewritten, [rewritten])
        | .ok (m :: ms) =>
          match fixedPointLoop parseAst find n rewritten (m :: ms) with
          | .error e => .error e
          | .ok (all, t, tr) => .ok (new ++ all, t, rewritten :: tr)

/-- refex/search.py:204-206, `[s.relative_to_span(start, end) for s in ...]`, `none` if one of them is None. -/
def relativeAll (a b : Nat) : List Substitution → Option (List Substitution)
  | [] => some []
  | s :: ss =>
    match s.relativeToSpan a b, relativeAll a b ss with
    | some r, some rs => some (r :: rs)
    | _, _ => none

/-- refex/search.py:190-257, `_fixed_point`. -/
def fixedPoint (parseAst : Str → Except Exc ParsedFile) (find : ParsedFile → Except Exc (List Substitution))
    (text : Str) (initial : List Substitution) (start stop : Nat) (maxIterations : Nat) :
    Except Exc (List Substitution) :=
  if maxIterations ≤ 1 then .ok initial
  else match relativeAll start stop initial with
    | none => .ok initial
    | some new =>
      match fixedPointLoop parseAst find maxIterations (slice text start stop) new with
      | .error e => .error e
      | .ok (all, t, _) =>
        if all.isEmpty then .ok []
        else if all.length = initial.length then .ok initial
        else .ok [compileSubstitutions all start stop t]

/-- `itertools.groupby(subs, key)`, refex/search.py:168: the maximal runs of equal keys. -/
def groupByKey {α κ : Type} [DecidableEq κ] (key : α → κ) : List α → List (κ × List α)
  | [] => []
  | x :: xs =>
    match groupByKey key xs with
    | [] => [(key x, [x])]
    | (k, g) :: rest => if key x = k then (k, x :: g) :: rest else (key x, [x]) :: (k, g) :: rest

/-- refex/search.py:168-187, the loop of `find_iter` over the groups. -/
def findIterGroups (parseAst : Str → Except Exc ParsedFile) (find : ParsedFile → Except Exc (List Substitution))
    (text : Str) (maxIterations : Nat) :
    List (Option Span × List Substitution) → Except Exc (List Substitution)
  | [] => .ok []
  | (none, g) :: rest =>
    match findIterGroups parseAst find text maxIterations rest with
    | .error e => .error e
    | .ok out => .ok (g ++ out)
  | (some (a, b), g) :: rest =>
    match fixedPoint parseAst find text g a b maxIterations with
    | .error e => .error e
    | .ok o =>
      match findIterGroups parseAst find text maxIterations rest with
      | .error e => .error e
      | .ok out => .ok (o ++ out)

/-- refex/search.py:144-187, `find_iter`. `parseAst path` is `_matcher.parse_ast(_, path)`. -/
def findIter (parseAst : Str → Str → Except Exc ParsedFile) (s : Searcher) (data path : Str) (maxIterations : Nat) :
    Except Exc (List Substitution) :=
  match s.included path with
  | .error e => .error e
  | .ok () =>
    match s.parse data path with
    | .error e => .error e
    | .ok parsed =>
      match s.find parsed with
      | .error e => .error e
      | .ok subs =>
        findIterGroups (fun t => parseAst t parsed.path) s.find parsed.text maxIterations
          (groupByKey (fun x => x.keySpan) subs)

/-- refex/search.py:917-931, `rewrite_string`. -/
def rewriteString (parseAst : Str → Str → Except Exc ParsedFile) (s : Searcher) (source path : Str)
    (maxIterations : Nat) : Except Exc Str :=
  match findIter parseAst s source path maxIterations with
  | .error e => .error e
  | .ok subs => applySubstitutions source subs

/-! ### Pragmas -/

/-- `s.strip()` with Python's default white space. refex/search.py:526. -/
def stripStr (s : Str) : Str := ((s.dropWhile isReSpace).reverse.dropWhile isReSpace).reverse

/-- refex/search.py:519-524: the category prefix for a pragma tag; `none` is the `continue`. -/
def tagPrefix (tag : Str) : Option Str :=
  if tag = str "pylint" then some (str "pylint.")
  else if tag = str "refex" then some []
  else none

/-- `d.setdefault(k, []).append(v)`. refex/search.py:529. -/
def pushTo {κ α : Type} [DecidableEq κ] (d : Dict κ (List α)) (k : κ) (v : α) : Dict κ (List α) :=
  match d.get? k with
  | none => d.set k [v]
  | some l => d.set k (l ++ [v])

/-- refex/search.py:525-530, one pragma: the set `annotated` as its distinct members. -/
def addPragma (key : Str) (acc : Dict Str (List Span)) (p : Pragma) : Dict Str (List Span) :=
  match p.data.get? key with
  | none => acc
  | some v =>
    match tagPrefix p.tag with
    | none => acc
    | some pre =>
      (dedup ((splitOn ',' v).map fun d => pre ++ stripStr d)).foldl
        (fun acc c => pushTo acc c (p.start, p.stop)) acc

/-- refex/search.py:512-531, `_pragma_ranges`. -/
def pragmaRanges (pragmas : List Pragma) (key : Str) : Dict Str (List Span) :=
  pragmas.foldl (addPragma key) []

/-- refex/search.py:504-506: the inner loop over the enabled ranges, truncating one disabled range. -/
def truncateRange (ds : Nat) : Nat → List Span → Nat
  | de, [] => de
  | de, (es, _) :: rest => truncateRange ds (if ds ≤ es ∧ es < de then es else de) rest

/-- refex/search.py:486-509, `_pragma_excluded_ranges`. The loop assigns to the entries of the dict it iterates over,
keeping keys and order. -/
def pragmaExcludedRanges (pragmas : List Pragma) : Dict Str (List Span) :=
  let disabled := pragmaRanges pragmas (str "disable")
  let enabled := pragmaRanges pragmas (str "enable")
  disabled.map fun (c, ranges) =>
    match enabled.get? c with
    | none => (c, ranges)
    | some es => (c, ranges.map fun r => (r.1, truncateRange r.1 r.2 es))

/-- refex/search.py:376-386, `PragmaSuppressedSearcher.find_iter_parsed`. The excluded ranges have no entry for the
root category. -/
def pragmaSuppressed (s : Searcher) : Searcher :=
  { s with find := fun p =>
      match s.find p with
      | .error e => .error e
      | .ok subs => .ok (suppressExcludeBytes subs ((pragmaExcludedRanges p.pragmas).map fun e => (some e.1, e.2))) }

/-! ### Searcher combinators -/

/-- refex/search.py:389-404, `AlsoRegexpSearcher`; a compiled regex is its `search` predicate. -/
def alsoRegexp (s : Searcher) (also alsoNot : List (Str → Bool)) : Searcher :=
  { s with parse := fun data path =>
      if !also.all (fun r => r data) || alsoNot.any (fun r => r data) then .error .skipNoResults
      else s.parse data path }

/-- refex/search.py:468-471, `CombinedSearcher.check_is_included`. -/
def combinedIncluded : List Searcher → Str → Except Exc Unit
  | [], _ => .ok ()
  | s :: ss, path =>
    match s.included path with
    | .error e => .error e
    | .ok () => combinedIncluded ss path

/-- refex/search.py:479-483: the concatenation of all members' results, as an exception stops the generator. -/
def combinedFindAll (p : ParsedFile) : List Searcher → Except Exc (List Substitution)
  | [] => .ok []
  | s :: ss =>
    match s.find p with
    | .error e => .error e
    | .ok subs =>
      match combinedFindAll p ss with
      | .error e => .error e
      | .ok rest => .ok (subs ++ rest)

/-- refex/search.py:477-483, `CombinedSearcher.find_iter_parsed`. -/
def combinedFind (ss : List Searcher) (p : ParsedFile) : Except Exc (List Substitution) :=
  match combinedFindAll p ss with
  | .error e => .error e
  | .ok subs => .ok (disjointSubstitutions subs)

/-- refex/search.py:448-466, the loop of `CombinedSearcher.parse`, over the results of the members' `parse`, which have
a type (a class) and a value. `sub a b` is `issubclass(a, b)`. -/
def combineParsed {T V : Type} [DecidableEq T] [DecidableEq V] (sub : T → T → Bool) :
    Option (T × V) → List (T × V) → Except Exc (Option (T × V))
  | acc, [] => .ok acc
  | acc, new :: rest =>
    let cur := acc.getD new
    if cur.1 = new.1 then
      if cur = new then combineParsed sub (some cur) rest else .error .assertionError
    else if sub new.1 cur.1 then combineParsed sub (some new) rest
    else if sub cur.1 new.1 then combineParsed sub (some cur) rest
    else .error .typeError

/-- refex/search.py:534-557, `FileRegexFilteredSearcher.check_is_included` on top of another searcher's check. -/
def fileRegexFiltered (s : Searcher) (includeRegex : Str → Bool) : Searcher :=
  { s with included := fun path =>
      match s.included path with
      | .error e => .error e
      | .ok () => if includeRegex path then .ok () else .error .skipFile }

end Refex
