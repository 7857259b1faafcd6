import Verif.Props.MatcherSem
import Verif.Props.TypeFilters
/-
Property C74, continued: recursive matchers, and examples.
-/
namespace Refex
set_option autoImplicit false

/-- The same for alternatives in different environments. -/
theorem firstHit_of_filtered_env {c : Ctx} {n : Nat} {v : Val} (l : List ((Env × Matcher) × TypeFilter))
    (hl : ∀ p ∈ l, typeFilter n p.1.1 p.1.2 = .ok p.2) (ks ks' : List Key) :
    (∀ mi, firstMatch ((l.filter (fun p => admits p.2 v.ty)).map fun p => run c n p.1.1 p.1.2 v) ks = .ok (some mi, ks') →
      FirstHit (l.map fun p => run c n p.1.1 p.1.2 v) ks mi ks') ∧
    (firstMatch ((l.filter (fun p => admits p.2 v.ty)).map fun p => run c n p.1.1 p.1.2 v) ks = .ok (none, ks') →
      AllMiss (l.map fun p => run c n p.1.1 p.1.2 v) ks ks') := by
  induction l generalizing ks with
  | nil => exact ⟨fun mi h => by simp [firstMatch] at h, fun h => by simp [firstMatch] at h; subst h; exact .nil⟩
  | cons p l ih =>
    rw [List.filter_cons]
    have ih := fun ks => ih (fun q hq => hl q (List.mem_cons_of_mem _ hq)) ks
    cases ha : admits p.2 v.ty with
    | false =>
      have hn := C39_type_filter_sound c n n p.1.1 p.1.2 p.2 v (hl p (by simp)) ha
      simp only [Bool.false_eq_true, if_false, List.map_cons]
      exact ⟨fun mi h => .never hn ((ih ks).1 mi h), fun h => .never hn ((ih ks).2 h)⟩
    | true =>
      simp only [if_true, List.map_cons, firstMatch]
      constructor
      · intro mi h
        split at h
        · cases h
        · rename_i ks1 e
          exact .miss e ((ih ks1).1 mi h)
        · rename_i mi1 ks1 e
          cases h
          exact .hit e
      · intro h
        split at h
        · cases h
        · rename_i ks1 e
          exact .miss e ((ih ks1).2 h)
        · cases h

/-- **C74**: `RecursivelyWrapped(inner, lambda r: wrapper)` accepts what `inner` accepts, or else what the wrapper accepts
with the recursive matcher itself in place of `r`; where it accepts nothing, neither does. -/
theorem C74_recursively_wrapped (c : Ctx) (n : Nat) (env : Env) (i w : Matcher) (v : Val) (ks ks' : List Key) :
    (∀ mi, Hits (run c (n + 1) env (.recWrapped i w) v) ks mi ks' →
      FirstHit [run c n env i v, run c n ((i, w) :: env) w v] ks mi ks') ∧
    (Misses (run c (n + 1) env (.recWrapped i w) v) ks ks' → AllMiss [run c n env i v, run c n ((i, w) :: env) w v] ks ks') ∧
    (∀ (v' : Val) (ks : List Key), run c (n + 1) ((i, w) :: env) (.recurse 0) v' ks = run c n env (.recWrapped i w) v' ks) := by
  refine and_assoc.1 ⟨?_, fun v' ks => rfl⟩
  unfold Hits Misses
  simp only [run]
  cases h1 : typeFilter n env i with
  | error e => simp
  | ok f =>
    cases h2 : typeFilter n ((i, w) :: env) w with
    | error e => simp
    | ok f' =>
      simp only
      have hl : ∀ p ∈ [((env, i), f), (((i, w) :: env, w), f')], typeFilter n p.1.1 p.1.2 = .ok p.2 := by
        intro p hp
        simp only [List.mem_cons, List.not_mem_nil, or_false] at hp
        rcases hp with rfl | rfl
        · exact h1
        · exact h2
      have hnd : ∀ p ∈ [((env, i), f), (((i, w) :: env, w), f')], ∀ tys, p.2 = some tys → tys.Nodup := by
        intro p hp tys e
        exact typeFilter_nodup n _ _ _ (by rw [← e]; exact hl p hp)
      rw [dispatch_eq _ hnd, List.map_map]
      exact firstHit_of_filtered_env _ hl ks ks'

/-- **C74**: `MaybeWrapped(inner, wrapper)` accepts what `inner` accepts, as `inner` does; only where `inner` does not match is the wrapper
asked; where it accepts nothing, neither does. -/
theorem C74_maybe_wrapped (c : Ctx) (n : Nat) (env : Env) (inner w : Matcher) (v : Val) (ks ks' : List Key) :
    (∀ mi, Hits (run c (n + 1) env (maybeWrapped inner w) v) ks mi ks' → FirstHit [run c n env inner v, run c n env w v] ks mi ks') ∧
    (Misses (run c (n + 1) env (maybeWrapped inner w) v) ks ks' → AllMiss [run c n env inner v, run c n env w v] ks ks') :=
  C40_anyOf_first c n env [inner, w] v ks ks'

/-! ### Examples -/

/-- A file `f(x)`, with a regular expression `(?P<g>f)(.|(?P<h>y))*` that matches spans beginning at 0. -/
def exSemCtx : Ctx := { exCtx with
  text := str "f(x)"
  tok := fun i => if i = 1 then some (0, 4) else if i = 2 then some (0, 1) else if i = 3 then some (2, 3) else none
  lineno := fun i => if i = 1 then some 1 else none
  comment := fun _ => false
  rxGroups := fun _ => [str "g", str "h"]
  rxMatch := fun _ a _ => if a = 0 then some (fun l => if l = str "g" then some (0, 1) else none) else none
  rxSearch := fun rx => if rx = str "f" then some (fun _ => none) else none }

/-- `x`. -/
def exSemX : Val := .node 3 (str "Name") [str "id"] [.const 7 (.str (str "x"))]

/-- `f(x)`. -/
def exSemCall : Val := .node 1 (str "Call") [str "func", str "args"] [.node 2 (str "Name") [str "id"] [.const 6 (.str (str "f"))], .list 4 [exSemX]]

-- The regular expression matches `f(x)` (binding g to f and h to nothing), not `x`.
example : (∃ mi, run exSemCtx 3 [] (.matchesRegex (str "r") .anything) exSemCall [] = .ok (some mi, []) ∧
      mi.bindings.get? (str "g") = some ⟨.span (str "f") (some (0, 1)), .merge, .keepLast⟩ ∧
      mi.bindings.get? (str "h") = some ⟨.span [] none, .merge, .keepLast⟩) ∧
    run exSemCtx 3 [] (.matchesRegex (str "r") .anything) exSemX [] = .ok (none, []) := ⟨⟨_, rfl, rfl, rfl⟩, rfl⟩

-- Items from the front and from the back, and out of range.
example : (∃ mi, run exSemCtx 3 [] (.hasItem (-2) (.typeIs (str "Name"))) (.list 9 [exSemX, exSemCall]) [] = .ok (some mi, [])) ∧
    run exSemCtx 3 [] (.hasItem (-1) (.typeIs (str "Name"))) (.list 9 [exSemX, exSemCall]) [] = .ok (none, []) ∧
    run exSemCtx 3 [] (.hasItem (-3) .anything) (.list 9 [exSemX, exSemCall]) [] = .ok (none, []) := ⟨⟨_, rfl⟩, rfl, rfl⟩

example : ItemAt (.list 9 [exSemX, exSemCall]) (-2) exSemX := ItemAt.back (k := 1) (.list _ _) rfl

-- A node matcher with a list inside, binding an argument.
example : ∃ mi, run exSemCtx 9 [] (.node (str "Call") [str "func", str "args"]
      [.anything, .contains (.bind (str "a") (.typeIs (str "Name")) none none)]) exSemCall [] = .ok (some mi, []) ∧
    mi.bindings.get? (str "a") = some ⟨.lexical exSemX (2, 3), .merge, .keepLast⟩ := ⟨_, rfl, rfl⟩

example : PyEqual (.list 1 [.const 2 (.int 1), .const 3 (.str (str "a"))]) (.list 4 [.const 5 (.bool true), .const 6 (.str (str "a"))]) :=
  .cons (.whole _ _ (.int 1) .true) (.cons (.same _ _ _) (.nil _ _))
example : PyEqual (.const 2 (.other (str "float") (str "1.0") (some 1))) (.const 5 (.bool true)) ∧
    ¬ PyEqual (.const 2 (.other (str "float") (str "1.5") none)) (.const 5 (.int 1)) :=
  ⟨.whole _ _ (.float _ 1) .true, fun h => by cases h with | whole _ _ h => cases h⟩

example : (∃ mi, run exSemCtx 3 [] (.comments false .anything) exSemCall [] = .ok (some mi, [])) ∧
    (∃ mi, run exSemCtx 3 [] (.inLines [2, 1]) exSemCall [] = .ok (some mi, [])) ∧
    run exSemCtx 3 [] (.inLines [2]) exSemCall [] = .ok (none, []) ∧
    run exSemCtx 3 [] (.comments true .anything) (.list 4 []) [] = .error .typeError := ⟨⟨_, rfl⟩, ⟨_, rfl⟩, rfl, rfl⟩

-- `RecursivelyWrapped(TypeIs(Name), lambda r: HasItem(0, r))` goes through any number of lists.
example : ∃ mi, run exSemCtx 20 [] (.recWrapped (.typeIs (str "Name")) (.hasItem 0 (.recurse 0))) (.list 8 [.list 9 [exSemX]]) [] =
    .ok (some mi, []) := ⟨_, rfl⟩

/-- `MaybeWrapped`: the call is no name, so the wrapper decides. -/
example : ∃ mi, Hits (run exSemCtx 5 [] (maybeWrapped (.typeIs (str "Name")) (.bind (str "w") (.typeIs (str "Call")) none none)) exSemCall) [] mi [] ∧
    mi.bindings.keys = [str "w"] := ⟨_, rfl, rfl⟩

end Refex
