import Verif.Model.Matchers
/- What a pattern matches: instances of the pattern tree. -/
namespace Refex
set_option autoImplicit false

/-- What stands in the place of each metavariable occurrence, from left to right. -/
abbrev Occs := List (Label × Val)

/-- What a pattern tree says at a node: a metavariable with a name, an anonymous one, or nothing special. -/
inductive Hole
  | named (x : Label)
  | anonymous
  | none
  deriving DecidableEq

mutual
/-- `v` is an instance of the pattern tree `t`: equal except that something allowed stands in the place of every
metavariable, and that the context (`ctx`) of names does not count. Leaves are compared by Python's `==`; positions and
object identities do not count. `occ` lists what stands for the metavariables. -/
inductive Instance (hole : Val → Hole) (allowed : Label → Val → Prop) : Val → Val → Occs → Prop
  | named {t x v} : hole t = .named x → allowed x v → Instance hole allowed t v [(x, v)]
  | anonymous {t v} : hole t = .anonymous → Instance hole allowed t v []
  | const {i j c d} : hole (.const i c) = .none → d.pyEq c = true → Instance hole allowed (.const i c) (.const j d) []
  | list {i j ts vs occ} : hole (.list i ts) = .none → Instances hole allowed ts vs occ → Instance hole allowed (.list i ts) (.list j vs) occ
  | node {i j ty ns ts vs occ} : hole (.node i ty ns ts) = .none → FieldInstances hole allowed ty ns ts vs occ →
      Instance hole allowed (.node i ty ns ts) (.node j ty ns vs) occ
/-- Item by item. -/
inductive Instances (hole : Val → Hole) (allowed : Label → Val → Prop) : List Val → List Val → Occs → Prop
  | nil : Instances hole allowed [] [] []
  | cons {t ts v vs o occ} : Instance hole allowed t v o → Instances hole allowed ts vs occ →
      Instances hole allowed (t :: ts) (v :: vs) (o ++ occ)
/-- Field by field, for a node of type `ty`. -/
inductive FieldInstances (hole : Val → Hole) (allowed : Label → Val → Prop) : Str → List Str → List Val → List Val → Occs → Prop
  | nil {ty} : FieldInstances hole allowed ty [] [] [] []
  | ctx {t ns ts v vs occ} : FieldInstances hole allowed (str "Name") ns ts vs occ →
      FieldInstances hole allowed (str "Name") (str "ctx" :: ns) (t :: ts) (v :: vs) occ
  | cons {ty n t ns ts v vs o occ} : ¬ (ty = str "Name" ∧ n = str "ctx") → Instance hole allowed t v o →
      FieldInstances hole allowed ty ns ts vs occ → FieldInstances hole allowed ty (n :: ns) (t :: ts) (v :: vs) (o ++ occ)
end

/-- The metavariables of a pattern tree are names, told apart by their identifier. -/
def holeAt (what : Str → Hole) : Val → Hole
  | .node i ty ns vs =>
    if ty = str "Name" then
      (match (Val.node i ty ns vs).getattr (str "id") with
       | .const _ (.str s) => what s
       | _ => .none)
    else .none
  | _ => .none

/-- A grammar: which names are node types, and the fields of each, with whether they hold a list. -/
structure Grammar where
  nodeType : Str → Prop
  fields : Str → List (Str × Bool)

/-- The value is a tree of the grammar, standing where a list (`true`) or a single value (`false`) belongs. -/
inductive Parsed (g : Grammar) : Bool → Val → Prop
  | const {i c} : ¬ g.nodeType (Val.const i c).ty → Parsed g false (.const i c)
  | list {i vs} : (∀ v ∈ vs, Parsed g false v) → Parsed g true (.list i vs)
  | node {i t ns vs} : g.nodeType t → ns = (g.fields t).map Prod.fst → ns.Nodup → vs.length = ns.length →
      (∀ (k : Nat) f v, (g.fields t)[k]? = some f → vs[k]? = some v → Parsed g f.2 v) → Parsed g false (.node i t ns vs)

/-- The values that stand for `x`, from left to right. -/
def Occs.of (occ : Occs) (x : Label) : List Val := (occ.filter (fun p => decide (p.1 = x))).map Prod.snd

/-- The two values count as the same code: neither is a string, and `ast_equivalent` holds (see C46). -/
def Alike (a b : Val) : Prop :=
  (∀ i s, a ≠ .const i (.str s)) ∧ (∀ i s, b ≠ .const i (.str s)) ∧ astEquivalent a b = true

/-- Every value is like some later one, except the last. -/
def Linked (vs : List Val) : Prop :=
  ∀ (i : Nat) a, vs[i]? = some a → i + 1 < vs.length → ∃ (j : Nat) (b : Val), i < j ∧ vs[j]? = some b ∧ Alike a b

/-- Every value is like every later one. -/
def AllAlike (vs : List Val) : Prop :=
  ∀ (i j : Nat) (a b : Val), i < j → vs[i]? = some a → vs[j]? = some b → Alike a b

/-- The restriction accepts exactly what is allowed, binds nothing, and reports the candidate as the match. -/
def Restricts (c : Ctx) (n : Nat) (env : Env) (m : Matcher) (allowed : Val → Prop) : Prop :=
  ∀ v ks, (allowed v ∧ run c n env m v ks = .ok (some ⟨createMatch c v, [], []⟩, ks)) ∨
    (¬ allowed v ∧ run c n env m v ks = .ok (none, ks))

/-- The same tree: positions, identities and the context of names do not count; leaves are compared by `==`. -/
inductive SameTree : Val → Val → Prop
  | const {i j c d} : d.pyEq c = true → SameTree (.const i c) (.const j d)
  | list {i j ts vs} : ts.length = vs.length → (∀ (k : Nat) t v, ts[k]? = some t → vs[k]? = some v → SameTree t v) →
      SameTree (.list i ts) (.list j vs)
  | node {i j ty ns ts vs} : ts.length = vs.length →
      (∀ (k : Nat) n t v, ns[k]? = some n → ts[k]? = some t → vs[k]? = some v → ¬ (ty = str "Name" ∧ n = str "ctx") → SameTree t v) →
      SameTree (.node i ty ns ts) (.node j ty ns vs)

/-- The meaning of an identifier in a pattern, given the identifiers standing for anonymous metavariables and those
standing for named ones (with their names). -/
def metaNames (anonymous : List Str) (variables : List (Label × Str)) (s : Str) : Hole :=
  match variables.find? (fun e => decide (e.2 = s)) with
  | some e => .named e.1
  | none => if s ∈ anonymous then .anonymous else .none

/-- The restrictions accept what is allowed, given recursion depth `N`; without a restriction everything is allowed. -/
def RestrictionsAllow (c : Ctx) (env : Env) (N : Nat) (restrictions : Dict Label Matcher) (allowed : Label → Val → Prop) : Prop :=
  (∀ x m, restrictions.get? x = some m → ∀ n, N ≤ n → Restricts c n env m (allowed x)) ∧ 1 ≤ N ∧
  ∀ x, restrictions.get? x = none → ∀ v, allowed x v

end Refex
