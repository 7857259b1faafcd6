import Verif.Model.Matchers
/- `find_iter` of refex/python/matcher.py: search of a whole tree. -/
namespace Refex
set_option autoImplicit false

/-- `type(v) in type_filter`, or no filter. refex/python/matcher.py:1369. -/
def passesFilter (f : TypeFilter) (ty : Str) : Bool :=
  match f with
  | none => true
  | some s => decide (ty ∈ s)

/-- One top-level attempt: a new context that shares the keys of earlier successes, the type filter first.
refex/python/matcher.py:1367-1372; `MatchContext.new`, refex/python/matcher.py:305-307. -/
def attempt (c : Ctx) (n : Nat) (m : Matcher) (done : List Key) (v : Val) : MOut :=
  match typeFilter n [] m with
  | .error e => .error e
  | .ok f => if passesFilter f v.ty then run { c with done := done } n [] m v [] else .ok (none, [])

/-- The loop of `find_iter` over the stack (top first): a `MatchError` skips the object and all inside it, a match
is yielded and nothing inside it searched, otherwise the children are pushed, first child on top. Only a match
records its keys (`update_success`). The output is what is yielded and the exception that ended the generator, if any.
`att` is `attempt`. refex/python/matcher.py:1363-1388, 330-332. -/
def findLoop (att : List Key → Val → MOut) (stack : List Val) (done : List Key) : List MatchInfo × Option MExc :=
  match stack with
  | [] => ([], none)
  | v :: rest =>
    match att done v with
    | .error .matchError => findLoop att rest done
    | .error e => ([], some e)
    | .ok (some mi, ks) => let r := findLoop att rest (done ++ ks); (mi :: r.1, r.2)
    | .ok (none, _) => findLoop att (v.children ++ rest) done
  termination_by Val.sizes stack
  decreasing_by
    all_goals first
      | (have := Val.size_pos v; simp only [Val.sizes]; omega)
      | (have := Val.size_children v; simp only [Val.sizes_append, Val.sizes]; omega)

/-- `find_iter(matcher, parsed)`, with recursion depth `n` available to the matcher. refex/python/matcher.py:1348-1388. -/
def treeFind (c : Ctx) (n : Nat) (m : Matcher) : List MatchInfo × Option MExc :=
  findLoop (attempt c n m) [c.tree] c.done

end Refex
