import Verif.Spec.Nav
import Verif.Spec.Combinators
/- Specification of the matchers that look at the parents, children, ancestors and descendants of an object. -/
namespace Refex
set_option autoImplicit false

/-- Given recursion depth `d`, the matcher answers `acc w` on every object `w`: it raises nothing and leaves the `Once` keys
alone, and its `type_filter` can be computed. -/
structure Answers (c : Ctx) (env : Env) (m : Matcher) (d : Nat) (acc : Val → Option MatchInfo) : Prop where
  answers : ∀ n, d ≤ n → ∀ v ks, run c n env m v ks = .ok (acc v, ks)
  filter : ∀ n, d ≤ n → ∃ f, typeFilter n env m = .ok f

/-- Some object on the way from the root down to position `p` (both ends included) is accepted, `q` is the position of the
one nearest to `p`, and `a` the answer on it. -/
structure Nearest (acc : Val → Option MatchInfo) (tree : Val) (p q : Path) (a : MatchInfo) : Prop where
  above : q <+: p
  accepted : (tree.at? q).bind acc = some a
  nearest : ∀ q', q' <+: p → q.length < q'.length → (tree.at? q').bind acc = none

/-- No object on the way from the root down to position `p` (both ends included) is accepted. -/
def NoneUpTo (acc : Val → Option MatchInfo) (tree : Val) (p : Path) : Prop := ∀ q, q <+: p → (tree.at? q).bind acc = none

/-- Some object inside `v` (`v` itself included) is accepted, `s` is the position in `v` of the first one in document order,
containers before their contents, and `a` the answer on it. -/
structure FirstInside (acc : Val → Option MatchInfo) (v : Val) (s : Path) (a : MatchInfo) : Prop where
  accepted : (v.at? s).bind acc = some a
  first : ∀ s', (s' <+: s ∧ s' ≠ s) ∨ before s' s = true → (v.at? s').bind acc = none

/-- What the matcher returns when its condition holds because of another object: the candidate, with the bindings made
there, without replacements. -/
def relayed (c : Ctx) (v : Val) (a : MatchInfo) : MatchInfo := ⟨createMatch c v, a.bindings, []⟩

/-- The object at position `p` and the objects that contain it, from the inside out. -/
def containers (tree : Val) (p : Path) : List Val := (List.range (p.length + 1)).filterMap fun i => tree.at? (p.take (p.length - i))

/-- The matcher tried on each of the objects; going up by one costs three levels of recursion depth. -/
def attempts (c : Ctx) (env : Env) (m : Matcher) : Nat → List Val → List (List Key → MOut)
  | _, [] => []
  | n, w :: ws => run c n env m w :: attempts c env m (n - 3) ws

mutual
/-- The matcher tried on the object and all that is in it, in document order, containers first; going down by one costs three
levels of recursion depth. -/
def attemptsIn (c : Ctx) (env : Env) (m : Matcher) (n : Nat) : Val → List (List Key → MOut)
  | .const i x => [run c n env m (.const i x)]
  | .list i vs => run c n env m (.list i vs) :: attemptsInAll c env m (n - 3) vs
  | .node i t ns vs => run c n env m (.node i t ns vs) :: attemptsInAll c env m (n - 3) vs
/-- The same for several objects, one after the other. -/
def attemptsInAll (c : Ctx) (env : Env) (m : Matcher) (n : Nat) : List Val → List (List Key → MOut)
  | [] => []
  | v :: vs => attemptsIn c env m n v ++ attemptsInAll c env m n vs
end

end Refex
