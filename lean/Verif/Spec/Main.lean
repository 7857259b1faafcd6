import Verif.Model.Main
/- Specification of the command line: arguments, directories, failures. -/
namespace Refex
set_option autoImplicit false

/-- `n` stands for `e` in the directory. -/
inductive Entries.Has : Entries → Str → Entry → Prop
  | head (n : Str) (e : Entry) (rest : Entries) : Entries.Has (.cons n e rest) n e
  | tail {n n' : Str} {e e' : Entry} {rest : Entries} : Entries.Has rest n e → Entries.Has (.cons n' e' rest) n e

/-- `Below top e p`: `p` is the path of a file in the directory `e` (whose own path is `top`) or, at any depth, in a directory in
it, reached through readable directories and not through symbolic links. -/
inductive Below : Str → Entry → Str → Prop
  | here {top : Str} {es : Entries} {n : Str} : es.Has n .file → Below top (.dir true es) (pathJoin top n)
  | deeper {top : Str} {es : Entries} {n : Str} {e : Entry} {p : Str} : es.Has n e → Below (pathJoin top n) e p → Below top (.dir true es) p

/-- `n` is a possible name in a directory: not empty and without a slash. -/
def ValidName (n : Str) : Prop := n ≠ [] ∧ '/' ∉ n

mutual
/-- Every directory at or below `e` has valid names, each once. -/
inductive Entry.Valid : Entry → Prop
  | file : Entry.Valid .file
  | linkToDir : Entry.Valid .linkToDir
  | dir (r : Bool) {es : Entries} : Entries.Valid es → Entry.Valid (.dir r es)
/-- The names of a directory are valid and different, and so for the directories in it. -/
inductive Entries.Valid : Entries → Prop
  | nil : Entries.Valid .nil
  | cons {n : Str} {e : Entry} {rest : Entries} : ValidName n → (∀ e', ¬ rest.Has n e') → Entry.Valid e → Entries.Valid rest →
      Entries.Valid (.cons n e rest)
end

/-- `Leftovers args flags words`: `flags` are the words before the first `--` that begin with '-', `words` are the other words
before it and all words after it. -/
inductive Leftovers : List Str → List Str → List Str → Prop
  | escaped {pre post : List Str} : str "--" ∉ pre →
      Leftovers (pre ++ str "--" :: post) (pre.filter fun a => a.head? = some '-') ((pre.filter fun a => a.head? ≠ some '-') ++ post)
  | plain {args : List Str} : str "--" ∉ args →
      Leftovers args (args.filter fun a => a.head? = some '-') (args.filter fun a => a.head? ≠ some '-')

/-- The templates for a pattern all parse, to these. -/
inductive TemplatesParse {T : Type} (template : Str → Except Exc T) : Dict Str Str → Dict Str T → Prop
  | nil : TemplatesParse template [] []
  | cons {name sub : Str} {t : T} {rest : Dict Str Str} {ts : Dict Str T} : template sub = .ok t → TemplatesParse template rest ts →
      TemplatesParse template ((name, sub) :: rest) ((name, t) :: ts)

/-- Each pattern with its templates gives a searcher. -/
inductive Searchers {T : Type} (modes : Modes T) (mode subMode : Str) : List SearchReplace → List Searcher → Prop
  | nil : Searchers modes mode subMode [] []
  | cons {sr : SearchReplace} {ts : Dict Str T} {s : Searcher} {rest : List SearchReplace} {ss : List Searcher} :
      TemplatesParse (modes.template subMode) sr.sub ts → modes.factory mode sr.pattern ts = .ok s →
      Searchers modes mode subMode rest ss → Searchers modes mode subMode (sr :: rest) (s :: ss)

/-- The first pattern for which no searcher can be made is refused as a usage error: one of its templates does not parse, or
the mode raises ValueError for it. -/
inductive FirstRefused {T : Type} (modes : Modes T) (mode subMode : Str) : List SearchReplace → Prop
  | template {sr : SearchReplace} {rest : List SearchReplace} {name sub : Str} {e : Exc} : (name, sub) ∈ sr.sub →
      modes.template subMode sub = .error e → FirstRefused modes mode subMode (sr :: rest)
  | pattern {sr : SearchReplace} {rest : List SearchReplace} {ts : Dict Str T} : TemplatesParse (modes.template subMode) sr.sub ts →
      modes.factory mode sr.pattern ts = .error .valueError → FirstRefused modes mode subMode (sr :: rest)
  | later {sr : SearchReplace} {rest : List SearchReplace} {ts : Dict Str T} {s : Searcher} :
      TemplatesParse (modes.template subMode) sr.sub ts → modes.factory mode sr.pattern ts = .ok s →
      FirstRefused modes mode subMode rest → FirstRefused modes mode subMode (sr :: rest)

/-- The substitution syntax in effect: the one asked for, else that of the mode (`sh` for fixers). -/
inductive SyntaxInEffect : Str → Str → Str → Prop
  | asked (mode sub : Str) : sub ≠ str "auto" → SyntaxInEffect mode sub sub
  | fix : SyntaxInEffect (str "fix") (str "auto") (str "sh")
  | ofMode (mode : Str) : mode ≠ str "fix" → SyntaxInEffect mode (str "auto") mode

/-- The searcher that runs: that of the only pattern, or the combination of those of all patterns. -/
inductive Whole : List Searcher → Searcher → Prop
  | one (s : Searcher) : Whole [s] s
  | many (s s' : Searcher) (ss : List Searcher) : Whole (s :: s' :: ss) (combined (s :: s' :: ss))

/-- The file satisfies the additional regexes: all of `--also`, none of `--noalso`. -/
def AlsoHolds (o : Options) (content : Str) : Prop := (∀ r ∈ o.also, r content = true) ∧ (∀ r ∈ o.noalso, r content = false)

/-- Searching fails with an exception other than the two that ask for the file to be skipped. -/
def SearchFails (r : Runner) (content path : Str) : Prop :=
  ∃ e, r.find content path = .error e ∧ e ≠ .skipFile ∧ e ≠ .skipNoResults

/-- The file `k` fails in the run: when its turn comes it can be read, and searching it fails. -/
def FailsInRun (r : Runner) (faults : Faults) (s : RunState) (pairs : List (Str × Str)) (k : Str) : Prop :=
  ∃ pre wr post content, pairs = pre ++ (k, wr) :: post ∧
    r.read faults (r.rewriteFiles faults s pre).1.fs k = some content ∧ SearchFails r content (r.shorten wr)

end Refex
