import Verif.Model.Find
import Verif.Model.Rewriting
import Verif.Model.Sanitize
/-
Model of refex/search.py: BasePythonRewritingSearcher, from the matches of a file to its substitutions.
-/
namespace Refex
set_option autoImplicit false

/-- What is asked of the tokens of a node besides `Ctx.tok`: the end of its first token, the start of its last token, and the
span of the token after the last one if that is ';'. refex/search.py:811-854, refex/python/matcher.py:379-389. -/
structure TokInfo where
  firstEnd : Nat → Nat
  lastStart : Nat → Nat
  semi : Nat → Option Span

/-- The subclasses of `ast.stmt`, for the test of refex/search.py:808. -/
def stmtTypes : List Str :=
  [str "FunctionDef", str "AsyncFunctionDef", str "ClassDef", str "Return", str "Delete", str "Assign", str "AugAssign",
   str "AnnAssign", str "For", str "AsyncFor", str "While", str "If", str "With", str "AsyncWith", str "Match", str "Raise",
   str "Try", str "TryStar", str "Assert", str "Import", str "ImportFrom", str "Global", str "Nonlocal", str "Expr", str "Pass",
   str "Break", str "Continue"]

/-- The `LexicalASTMatch`es among the matches, with first and last token. refex/python/matcher.py:337-396. -/
def lexOf (tk : TokInfo) : MObj → Option LexMatch
  | .lexical v sp =>
    some { stmt := if v.ty ∈ stmtTypes then some v.ident else none
           first := (sp.1, tk.firstEnd v.ident), last := (tk.lastStart v.ident, sp.2) }
  | _ => none

/-- The questions that refex/search.py:767-854 asks of the navigation, answered from the tree: `get_parent`,
`get_prev_sibling`, `get_next_sibling` depend on the identity of their argument only. -/
def navOfTree (c : Ctx) (tk : TokInfo) : Nav := fun i =>
  let obj := Val.list i []
  let parent := getParent c.tree obj
  { inList := parent.any Val.isList
    moduleLevel := ((parent.bind (getParent c.tree)).map Val.ty) = some (str "Module")
    prev := (getPrevSibling c.tree obj).map Val.ident
    next := (getNextSibling c.tree obj).map Val.ident
    first := (((c.tok i).getD (0, 0)).1, tk.firstEnd i)
    last := (tk.lastStart i, ((c.tok i).getD (0, 0)).2)
    semi := tk.semi i }

/-- `string` and `span` of a match. refex/match.py:60-109; refex/python/matcher.py:374-389. -/
def matchVOf (text : Str) : MObj → MatchV
  | .lexical v sp => { string := some (slice text sp.1 sp.2), span := some sp, node := some v }
  | .string s => { string := some s }
  | .object _ => {}
  | .span s sp => { string := some s, span := sp }
  | .bare => {}

/-- The same after `attr.evolve` of the tokens. refex/search.py:829-854. -/
def lexMatchV (text : Str) (o : MObj) (m : LexMatch) : MatchV :=
  { string := some (slice text m.span.1 m.span.2), span := some m.span, node := o.matched? }

/-- Templates are named by strings in the model of the matchers (`Replacements`); this says what they are: the attribute
`template` and the behaviour. refex/formatting.py:527-561. -/
structure Templates where
  text : Str → Str
  sem : Str → Template
  pass : Template

/-- `bindings` as the match dict, with the tokens adjusted. refex/search.py:755-758, 829-854. -/
def matchDict (text : Str) (b : Bindings) (lex : Dict Str LexMatch) : Dict MatchKey MatchV :=
  b.map fun e => (.name e.1, match lex.get? e.1 with
    | some m => lexMatchV text e.2.value m
    | none => matchVOf text e.2.value)

/-- The replacements, where a removed statement may have got `_PASS_TEMPLATE`. refex/search.py:755-765, 826, 845. -/
def templateDict (env : Templates) (rs : Replacements) (texts : Dict Str Str) : Dict MatchKey Template :=
  rs.map fun e => (.name e.1, if env.text e.2 = [] ∧ texts.get? e.1 = some passTemplate then env.pass else env.sem e.2)

/-- `key_span_for_dict`. refex/search.py:856-884. The climb of `get_simple_node` ends for every node below a node with a
body; should it not end, the model reports `Exc.other`. -/
def keySpanOf (c : Ctx) (b : Bindings) : Except Exc (Option Span) :=
  match b.get? (str "__root") with
  | none => .error .keyError
  | some bv =>
    match bv.value with
    | .lexical v _ =>
      match getSimpleLoop c.tree (c.tree.size + 1) none v with
      | none => .error .other
      | some none => .ok none
      | some (some s) => .ok (c.tok s.ident)
    | _ => .ok none

/-- One turn of the loops of `find_dicts_parsed` and `find_iter_parsed`: sanitize, substitute, build; nothing if the
templates refuse. refex/search.py:754-765, 635-659. -/
def pyReport (c : Ctx) (tk : TokInfo) (env : Templates) (mi : MatchInfo) (r : Removed) : Except Exc (Option Found × Removed) :=
  let texts : Dict Str Str := mi.replacements.map fun e => (e.1, env.text e.2)
  let lex : Dict Str LexMatch := mi.bindings.filterMap fun e => (lexOf tk e.2.value).map fun m => (e.1, m)
  match sanitizeLoop (navOfTree c tk) texts lex texts r with
  | .error e => .error e
  | .ok (lex', texts', r') =>
    let ms := matchDict c.text mi.bindings lex'
    match rewriteTemplates ms (templateDict env mi.replacements texts') with
    | .error .rewriteError => .ok (none, r')
    | .error e => .error e
    | .ok repl =>
      match keySpanOf c mi.bindings with
      | .error e => .error e
      | .ok ks =>
        match buildFound ms repl ks with
        | .error e => .error e
        | .ok f => .ok (some f, r')

/-- The loop over the matches. refex/search.py:740-765, 635-659. -/
def pyReports (c : Ctx) (tk : TokInfo) (env : Templates) : List MatchInfo → Removed → Except Exc (List Found)
  | [], _ => .ok []
  | mi :: mis, r =>
    match pyReport c tk env mi r with
    | .error e => .error e
    | .ok (f, r') => (pyReports c tk env mis r').map (f.toList ++ ·)

/-- The exceptions that leave `find_iter` of the matcher, among those of a search. refex/python/matcher.py:1363-1388. -/
def MExc.toExc : MExc → Exc
  | .typeError => .typeError
  | .attributeError => .attributeError
  | _ => .other

/-- `find_iter_parsed` of a Python searcher, collected into a list: the matches found before an exception have been
processed when it is raised. refex/search.py:740-765, 635-659. -/
def pySearch (c : Ctx) (tk : TokInfo) (env : Templates) (n : Nat) (m : Matcher) : Except Exc (List Found) :=
  match pyReports c tk env (treeFind c n m).1 {}, (treeFind c n m).2 with
  | .error e, _ => .error e
  | .ok fs, none => .ok fs
  | .ok _, some e => .error e.toExc

/-- `BasePythonRewritingSearcher.from_matcher`. refex/search.py:731-738. -/
def fromMatcher (m : Matcher) (templates : Replacements) : Matcher :=
  .withReplacements (.bind (str "__root") m none none) templates

end Refex
