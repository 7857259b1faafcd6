import Verif.Spec.Find
import Verif.Model.Matchers
/- Where matches are. -/
namespace Refex
set_option autoImplicit false

/-- The objects of a file: the parts of its tree, the characters of its strings; and `None`, which missing attributes are. -/
inductive OfFile (c : Ctx) : Val → Prop
  | part {p v} : c.tree.at? p = some v → OfFile c v
  | char {i s ch} : OfFile c (.const i (.str s)) → ch ∈ s → OfFile c (.const 0 (.str [ch]))
  | none : OfFile c (.const 0 .none)

/-- A stretch of the text of the file. -/
def InText (c : Ctx) (sp : Span) : Prop := sp.1 ≤ sp.2 ∧ sp.2 ≤ c.text.length

/-- What is matched or bound: an object of the file, with the place of its tokens if it has one; a string; a stretch of the text of the file with its
place; or nothing. -/
inductive MatchOf (c : Ctx) : MObj → Prop
  | node {v sp} : OfFile c v → c.tok v.ident = some sp → InText c sp → MatchOf c (.lexical v sp)
  | object {v} : OfFile c v → MatchOf c (.object v)
  | string {s} : MatchOf c (.string s)
  | text {sp} : InText c sp → MatchOf c (.span (slice c.text sp.1 sp.2) (some sp))
  | absent : MatchOf c (.span [] Option.none)
  | nothing : MatchOf c .bare

/-- Tokens are in the text, and regular expressions match where they are told to. -/
structure FileFits (c : Ctx) : Prop where
  tokens : ∀ i sp, c.tok i = some sp → InText c sp
  fullmatch : ∀ rx a b g l sp, InText c (a, b) → c.rxMatch rx a b = some g → g l = some sp → InText c sp
  search : ∀ rx g l sp, c.rxSearch rx = some g → g l = some sp → InText c sp

end Refex
