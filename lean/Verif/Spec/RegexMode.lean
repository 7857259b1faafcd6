import Verif.Model.Modes
import Verif.Spec.Common
import Verif.Spec.Templates
import Verif.Spec.Splice
/- Specification of a search with a regular expression from the command line: what `re.sub` would do. -/
namespace Refex
set_option autoImplicit false

/-- The text of a group of a match; it is empty if the group does not take part. -/
def groupText (text : Str) (regs : List (Option Span)) (i : Nat) : Str :=
  match regs[i]? with
  | some (some sp) => slice text sp.1 sp.2
  | _ => []

/-- The number of the group that a name means: `__root` is the whole match. -/
def groupOf (c : Compiled) (name : Str) : Option Nat := if name = str "__root" then some 0 else c.groupindex.get? name

/-- Where a label is. -/
def labelSpan (c : Compiled) (regs : List (Option Span)) (name : Str) : Option Span := (groupOf c name).bind fun i => (regs[i]?).join

/-- `m.expand(template)`: the template with each reference replaced by the text of the group. -/
def expandMatch (c : Compiled) (text : Str) (regs : List (Option Span)) (items : List ReItem) : Str :=
  items.flatMap fun
    | .lit s => s
    | .group n => groupText text regs n
    | .named v => groupText text regs ((groupOf c v).getD 0)

/-- The templates of these texts. -/
def ReTemplates (py : Python) (sub : Dict Str Str) (tpls : Dict Str (List ReItem)) : Prop :=
  Forall2 (fun e t => e.1 = t.1 ∧ py.reItems e.2 = some t.2) sub tpls

/-- The regex has what an item of a template refers to. -/
def HasRef (c : Compiled) : ReItem → Prop
  | .lit _ => True
  | .group n => n ≤ c.groups
  | .named v => groupOf c v ≠ none

/-- The report of one match of a regex: the spans of the groups that take part, by name and by number; an edit for each template whose label takes part; no
metadata. -/
structure RegexReport (c : Compiled) (text : Str) (tpls : Dict Str (List ReItem)) (regs : List (Option Span)) (s : Substitution) : Prop where
  primary : s.primaryLabel = str "__root"
  named : ∀ l, l.head? ≠ some '#' → s.matchedSpans.get? l = labelSpan c regs l
  numbered : ∀ i, 0 < i → s.matchedSpans.get? (MatchKey.num i).label = (regs[i]?).join
  distinct : s.matchedSpans.WF
  edits : ∃ rs, s.replacements = some rs ∧ ∀ l new, rs.get? l = some new ↔
    ∃ items, tpls.get? l = some items ∧ labelSpan c regs l ≠ none ∧ new = expandMatch c text regs items
  metadata : s.message = none ∧ s.url = none ∧ s.category = none ∧ s.significant = false ∧ s.keySpan = none

/-- What is assumed of a regex of Python: names of groups are identifiers (and do not begin with `__`); matches are what `re` says matches are; they are
in order, do not overlap, and no two have the same span. -/
structure FindsMatches (py : Python) (pattern : Str) (c : Compiled) : Prop where
  compiled : py.regex pattern = some c
  names : ∀ n i, c.groupindex.get? n = some i → n.head? ≠ some '#' ∧ ¬ [ '_', '_' ] <+: n
  each : ∀ text, ∀ regs ∈ py.finditer pattern text, RegexMatch c regs
  inside : ∀ text, ∀ regs ∈ py.finditer pattern text, ∀ (i : Nat) sp, regs[i]? = some (some sp) → sp.1 ≤ sp.2 ∧ sp.2 ≤ text.length
  ordered : ∀ text, (py.finditer pattern text).Pairwise fun a b => ∀ sa sb, a[0]? = some (some sa) → b[0]? = some (some sb) → sa.2 ≤ sb.1 ∧ sa ≠ sb

/-- `new` is `re.sub(pattern, template, text)`: every match in turn is replaced by the expanded template, and everything else is kept. -/
def ReSub (c : Compiled) (found : List (List (Option Span))) (items : List ReItem) (text new : Str) : Prop :=
  Spliced 0 text (found.map fun regs => ⟨expandMatch c text regs items, (((regs[0]?).join).getD (0, 0)).1, (((regs[0]?).join).getD (0, 0)).2⟩) new

end Refex
