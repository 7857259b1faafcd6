import Verif.Spec.Modes
/- C113: a more specific pattern. -/
namespace Refex
set_option autoImplicit false

/-- The pattern `q` is the pattern `p` with other code, perhaps with metavariables of its own, for the metavariables of `p`. Each metavariable of `p` occurs
once (but for the anonymous one). The identifiers that stand for metavariables in `q` are not in `p`, unless they stand for metavariables there. -/
structure MoreSpecific (whatP : Str → Hole) (p : Val) (whatQ : Str → Hole) (q : Val) : Prop where
  filled : ∃ occ, Instance (holeAt whatP) (fun _ _ => True) p q occ ∧ (occ.map Prod.fst).Nodup
  own : ∀ s, whatQ s ≠ .none → NameIn p s → whatP s ≠ .none

/-- A search for this pattern, given on the command line, with these templates: the text of the pattern is one that the tokenizer reads and `m` is the
matcher made of it. -/
structure PatternSearch (py : Python) (kind : PatternKind) (text : Str) (m : Matcher) (ts : Dict Str CodeTemplate) : Prop where
  tokens : ∃ toks ps, py.tokens (withNewline text) = some toks ∧ PlainTokens toks ps
  pattern : py.pattern kind text = .ok m
  templates : ts.WF

/-- The search gives these reports for the file. -/
def SearchGives (py : Python) (m : Matcher) (ts : Dict Str CodeTemplate) (content : Str) (subs : List Substitution) : Prop :=
  ∃ path p, (py.searcher m ts).parse content path = .ok p ∧ (py.searcher m ts).find p = .ok subs

/-- These are, in document order, the outermost places in the tree with the same code as `p`. -/
structure SameCodeAt (p tree : Val) (hits : List (Path × Val)) : Prop where
  ordered : hits.Pairwise fun a b => before a.1 b.1 = true
  sound : ∀ h ∈ hits, tree.at? h.1 = some h.2 ∧ SameTree p h.2
  complete : ∀ q v, tree.at? q = some v → SameTree p v → ∃ h ∈ hits, h.1 <+: q

end Refex
