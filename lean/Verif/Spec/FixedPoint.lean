import Verif.Model.Search
/- Specification of iterated fixing, grouping and pragma scopes. -/
namespace Refex
set_option autoImplicit false

/-- `Rounds parse find k t s t' s' all`: starting with text `t` and pending substitutions `s`, `k` times in a row the
pending substitutions are applied, the result parses, and searching it gives the next pending substitutions; this ends
with text `t'`, pending `s'`; `all` are the substitutions applied on the way, in order. -/
inductive Rounds (parse : Str → Except Exc ParsedFile) (find : ParsedFile → Except Exc (List Substitution)) :
    Nat → Str → List Substitution → Str → List Substitution → List Substitution → Prop
  | stop (t : Str) (s : List Substitution) : Rounds parse find 0 t s t s []
  | round {k : Nat} {t t1 t' : Str} {s s1 s' all : List Substitution} {p : ParsedFile}
      (hne : s ≠ []) (happly : applySubstitutions t s = .ok t1) (hparse : parse t1 = .ok p)
      (hfind : find p = .ok s1) (rest : Rounds parse find k t1 s1 t' s' all) :
      Rounds parse find (k + 1) t s t' s' (s ++ all)

/-- The merged substitution for the span `[a, b)` and new text `t`: it is valid, matches exactly that span, and replaces
it by `t`. -/
def MergedInto (s : Substitution) (a b : Nat) (t : Str) : Prop :=
  s.validate = .ok () ∧ s.primarySpan = (a, b) ∧ s.matchedSpans = [(s.primaryLabel, (a, b))] ∧
  s.replacements = some [(s.primaryLabel, t)]

/-- The groups of `l`: they make up `l`, are non-empty, have one key each, and neighbours have different keys. -/
def IsGrouping {α κ : Type} (key : α → κ) (l : List α) (gs : List (κ × List α)) : Prop :=
  gs.flatMap Prod.snd = l ∧ (∀ g ∈ gs, g.2 ≠ [] ∧ ∀ x ∈ g.2, key x = g.1) ∧
  ∀ pre g h post, gs = pre ++ g :: h :: post → g.1 ≠ h.1

/-- Pragma `p` names category `c` under `key` ("disable"/"enable"): for a `refex` pragma the value's comma-separated items
are categories, for a `pylint` pragma they are categories below `pylint`. -/
def Names (key : String) (p : Pragma) (c : Str) : Prop :=
  ∃ v, p.data.get? (str key) = some v ∧ ∃ item ∈ splitOn ',' v,
    (p.tag = str "refex" ∧ c = stripStr item) ∨ (p.tag = str "pylint" ∧ c = str "pylint." ++ stripStr item)

/-- Position `i` is in the scope of pragma `p`. -/
def Pragma.covers (p : Pragma) (i : Nat) : Prop := p.start ≤ i ∧ i < p.stop

end Refex
