import Verif.Model.Modes
import Verif.Spec.PySearch
import Verif.Spec.PatternBuild
import Verif.Spec.Layout
import Verif.Spec.PyTemplate
/- Specification of a search for a Python pattern from the command line: what is found in a file, and what is reported of it. -/
namespace Refex
set_option autoImplicit false

/-- An instance of a pattern in a file: where, what, and what stands for the metavariables, from left to right. -/
structure PatternHit where
  path : Path
  node : Val
  occ : Occs

/-- These are, in document order, the outermost instances of the pattern `t` in the tree, in which identifiers mean what `what` says. The
occurrences of a metavariable are linked; where they are all alike, the instance is one of these or inside of one. (For metavariables that
occur at most twice this is the same.) -/
structure PatternHits (what : Str → Hole) (t tree : Val) (hits : List PatternHit) : Prop where
  ordered : hits.Pairwise fun a b => before a.path b.path = true
  sound : ∀ h ∈ hits, tree.at? h.path = some h.node ∧ Instance (holeAt what) (fun _ _ => True) t h.node h.occ ∧ ∀ x, Linked (h.occ.of x)
  complete : ∀ q v occ, tree.at? q = some v → Instance (holeAt what) (fun _ _ => True) t v occ → (∀ x, AllAlike (occ.of x)) →
    ∃ h ∈ hits, h.path <+: q

/-- What a label stands for: `__root` for the instance, a metavariable for its last occurrence. -/
def PatternHit.label (c : Ctx) (h : PatternHit) (l : Label) : Option MObj :=
  if l = str "__root" then some (createMatch c h.node) else (h.occ.of l).getLast?.map (createMatch c)

/-- The label stands for a statement that a template without text removes (its span is then adjusted, see C31). -/
def Deletes (ts : Dict Str CodeTemplate) (stands : Label → Option MObj) (l : Label) : Prop :=
  (∃ t, ts.get? l = some t ∧ t.text = []) ∧ ∃ v sp, stands l = some (.lexical v sp) ∧ v.ty ∈ stmtTypes

/-- The matches offered to the templates: exactly those of the labels, with the text and span of each, where only a removed
statement has another span. -/
structure OfferedTo (c : Ctx) (ts : Dict Str CodeTemplate) (stands : Label → Option MObj) (ms : Dict MatchKey MatchV) : Prop where
  wf : ms.WF
  names : ∀ l, ¬ Deletes ts stands l → ms.get? (.name l) = (stands l).map (matchVOf c.text)
  removed : ∀ l, Deletes ts stands l → ∃ sp, ms.get? (.name l) = some ⟨some (slice c.text sp.1 sp.2), some sp, (stands l).bind MObj.matched?⟩
  only : ∀ n, ms.get? (.num n) = none

/-- The template at `l` is used in this file, and gives this text. -/
def Writes (c : Ctx) (ts : Dict Str CodeTemplate) (ms : Dict MatchKey MatchV) (l : Label) (s : Str) : Prop :=
  ∃ t m, ts.get? l = some t ∧ Applies ms l m ∧ (t.on (some c)).substitute m ms = .ok s

/-- `s` is the report of a match whose labels stand for `stands`: the spans of the labels, and what the templates give: edits, or
metadata. -/
structure Reports (c : Ctx) (ts : Dict Str CodeTemplate) (stands : Label → Option MObj) (s : Substitution) : Prop where
  primary : s.primaryLabel = str "__root"
  report : ∃ ms rs, OfferedTo c ts stands ms ∧
    (∀ l, s.matchedSpans.get? l = (ms.get? (.name l)).bind (·.span)) ∧
    s.replacements = some rs ∧
    (∀ l new, ¬ Deletes ts stands l → (rs.get? l = some new ↔ l ∉ metadataLabels ∧ Writes c ts ms l new)) ∧
    (∀ x, s.message = some x ↔ Writes c ts ms (str "__message") x) ∧
    (∀ x, s.url = some x ↔ Writes c ts ms (str "__url") x) ∧
    (∀ x, s.category = some x ↔ Writes c ts ms (str "__category") x) ∧
    (s.significant = true ↔ ∃ x, x ≠ [] ∧ Writes c ts ms (str "__significant") x)
  distinct : s.matchedSpans.WF
  located : ∀ sp, s.keySpan = some sp → ∃ i, c.tok i = some sp
  part : Unshared c.tree → ∀ o, stands (str "__root") = some o → PartOfFile c o s.keySpan

/-- A template refuses this match (RewriteError). -/
def RefusedBy (py : Python) (c : Ctx) (ts : Dict Str CodeTemplate) (stands : Label → Option MObj) : Prop :=
  ∃ ms l t m, OfferedTo c ts stands ms ∧ ts.get? l = some t ∧ Applies ms l m ∧
    ((t.on (some c)).substitute m ms = .error .rewriteError ∨
      Deletes ts stands l ∧ (py.templates c ts).pass.substitute m ms = .error .rewriteError)

/-- The report, if there is one. -/
def ReportIn (py : Python) (c : Ctx) (ts : Dict Str CodeTemplate) (stands : Label → Option MObj) : Option Substitution → Prop
  | none => RefusedBy py c ts stands
  | some s => Reports c ts stands s

/-- The tokens of a text, which are separated by spaces only: pieces of it, in order. -/
structure PlainTokens (toks : List PTok) (ps : List (Str × Str)) : Prop where
  ends : ∃ body em, toks = body ++ [em] ∧ em.kind = .endmarker ∧ em.string = [] ∧ Sized body
  layout : Layout (1, 0) [] toks ps

/-- What is assumed of Python: lists of tokens end with an empty one; trees of patterns are modules of statements; trees of files are modules of the
grammar `g`, and trees of patterns, or the parts of them that are meant, are trees of it; expressions are nodes. The order in which sets are iterated is any order. -/
structure PythonFits (g : Grammar) (py : Python) : Prop where
  modules : HasModules g
  tokens : ∀ s toks, py.tokens s = some toks → ∃ body em, toks = body ++ [em] ∧ em.string = []
  parse : ∀ s tree, py.parse s = some tree → ParserTree tree
  grammar : ∀ s tree t kind, py.parse s = some tree → Intended kind tree t → Parsed g false t
  iter : ∀ l, (py.iter l).Perm l
  file : ∀ s c, py.file s = some c → c.text = s ∧ Parsed g false c.tree ∧ c.tree.ty = str "Module"
  expr : ∀ v, py.isExpr v = true → v.isNode = true

/-- The pattern of this kind is `t`, in which identifiers mean what `what` says. -/
def PatternMeans (py : Python) (kind : PatternKind) (text : Str) (what : Str → Hole) (t : Val) : Prop :=
  ∃ toks ps l s tree, py.tokens (withNewline text) = some toks ∧ PlainTokens toks ps ∧ Reading ps (addsNewline text) l s ∧ NoneReserved l ∧
    py.parse s = some tree ∧ AllFound tree l ∧ Intended kind tree t ∧ what = meaningOf l

/-- The result of searching a file for a pattern: the outermost instances in document order, each with its report, if there is one. -/
def SearchResult (py : Python) (what : Str → Hole) (t : Val) (ts : Dict Str CodeTemplate) (content : Str) (subs : List Substitution) : Prop :=
  ∃ c hits os, py.file content = some c ∧ PatternHits what t c.tree hits ∧ subs = os.filterMap id ∧
    Forall2 (fun (h : PatternHit) o => ReportIn py c ts (h.label c) o) hits os

/-- The same kinds, of patterns and of templates. -/
def PatternKind.whole : PatternKind → TemplateKind
  | .expr => .expr
  | .stmt => .stmt
  | .module => .module

/-- `new` is the text of the template with every `$x` replaced by the string of the match `x`, as it is or in parentheses, and everything else
the same, character by character (but for the newline at the end, if it had been added). -/
def TextFilled (py : Python) (text : Str) (value : Label → Option MatchV) (new : Str) : Prop :=
  ∃ toks ps qs l kept, py.tokens (withNewline text) = some toks ∧ PlainTokens toks ps ∧
    (qs = ps ∨ addsNewline text = true ∧ ∃ g, ps = qs ++ [(g, str "\n")]) ∧ Replaces qs l kept new ∧
    ∀ p ∈ l, ∃ m s, value p.1 = some m ∧ m.string = some s ∧ (p.2 = s ∨ p.2 = str "(" ++ s ++ str ")")

/-- `new` parses, and its tree is that of the template with, for every variable, what was matched: the same tree, if that is an expression. (For a variable that occurs more than once this is said of its last occurrence; the others are linked, up to equal trees.) -/
def TreeFilled (py : Python) (kind : PatternKind) (text : Str) (value : Label → Option MatchV) (new : Str) : Prop :=
  ∃ what tree c w occ, PatternMeans py kind text what tree ∧ py.file new = some c ∧ kind.whole.Part c.tree w ∧
    Instance (holeAt what) (fun _ _ => True) tree w occ ∧
    (∃ occ0 : Occs, Forall2 (fun p q => p.1 = q.1 ∧ SameTree p.2 q.2) occ0 occ ∧ ∀ x, Linked (occ0.of x)) ∧
    ∀ x v, (occ.of x).getLast? = some v → ∃ m, value x = some m ∧
      ∀ e, m.node = some e → m.span ≠ none → py.isExpr e = true → SameTree e v

end Refex
