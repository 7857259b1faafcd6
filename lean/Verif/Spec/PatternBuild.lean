import Verif.Spec.Layout
import Verif.Spec.Patterns
import Verif.Model.PatternBuild
/- Specification of which patterns are accepted and what they mean. -/
namespace Refex
set_option autoImplicit false

/-- What an identifier of a renamed pattern means, given the pairs of variables and new names. -/
def meaningOf (l : List (Str × Str)) (s : Str) : Hole :=
  match l.find? (fun p => decide (p.2 = s)) with
  | none => .none
  | some p => if p.1 = str "_" then .anonymous else .named p.1

/-- The node has this value in this field. -/
def FieldIs (v : Val) (field : Str) (w : Val) : Prop := ∃ i ty ns vs, v = .node i ty ns vs ∧ Val.lookup ns vs field = some w

/-- The tree to be matched is this part of the tree of the pattern: the only expression, the only statement, all of it. -/
inductive Intended : PatternKind → Val → Val → Prop
  | expr {tree s e i} : tree.ty = str "Module" → FieldIs tree (str "body") (.list i [s]) → s.ty = str "Expr" → FieldIs s (str "value") e →
      Intended .expr tree e
  | stmt {tree s i} : tree.ty = str "Module" → FieldIs tree (str "body") (.list i [s]) → Intended .stmt tree s
  | module {tree} : Intended .module tree tree

/-- What is known of the trees the parser makes: they are modules, with a list of statements, which are nodes; an expression
statement has its value. Variables occur in the statements only, and in an expression statement in its value only. -/
structure ParserTree (tree : Val) : Prop where
  syntactic : Syntactic tree
  isModule : tree.ty = str "Module"
  body : ∃ i ss, FieldIs tree (str "body") (.list i ss) ∧ ∀ s ∈ ss, s.isNode = true ∧ (s.ty = str "Expr" → ∃ e, FieldIs s (str "value") e)
  names : ∀ n, NameIn tree n → ∃ i ss s, FieldIs tree (str "body") (.list i ss) ∧ s ∈ ss ∧ NameIn s n ∧
    ∀ e, s.ty = str "Expr" → FieldIs s (str "value") e → NameIn e n

/-- `Renamed ρ t t'`: the same tree, except that the variable references with names that `ρ` renames have new names. -/
inductive RenamedTree (ρ : Str → Option Str) : Val → Val → Prop
  | const {i c} : RenamedTree ρ (.const i c) (.const i c)
  | list {i vs ws} : vs.length = ws.length → (∀ (k : Nat) v w, vs[k]? = some v → ws[k]? = some w → RenamedTree ρ v w) →
      RenamedTree ρ (.list i vs) (.list i ws)
  | name {i vs ws x y ns} : strField (.node i (str "Name") ns vs) (str "id") = some x → ρ x = some y →
      strField (.node i (str "Name") ns ws) (str "id") = some y → RenamedTree ρ (.node i (str "Name") ns vs) (.node i (str "Name") ns ws)
  | node {i t ns vs ws} : (∀ x, t = str "Name" → strField (.node i t ns vs) (str "id") = some x → ρ x = none) → vs.length = ws.length →
      (∀ (k : Nat) v w, vs[k]? = some v → ws[k]? = some w → RenamedTree ρ v w) → RenamedTree ρ (.node i t ns vs) (.node i t ns ws)

/-- Reading a pattern made of these pieces: `s` is its text with every `$x` replaced by a new name, and `l` are, in order, the variables
and the new names. New names are identifiers and no other tokens of the pattern; two occurrences have the same name exactly if they are of
the same variable other than `_`. A newline that had been added at the end may be missing. -/
def Reading (ps : List (Str × Str)) (added : Bool) (l : List (Str × Str)) (s : Str) : Prop :=
  ∃ qs kept, (qs = ps ∨ added = true ∧ ∃ g, ps = qs ++ [(g, str "\n")]) ∧ Replaces qs l kept s ∧
    (∀ p ∈ l, isVariable p.2 = true ∧ p.2 ∉ kept) ∧
    (∀ (j k : Nat) x y a b, j ≠ k → l[j]? = some (x, a) → l[k]? = some (y, b) → (a = b ↔ x = y ∧ x ≠ str "_"))

/-- The matcher finds instances of the tree, in which identifiers mean what `what` says, under these restrictions: see C59. A match is an
instance with linked occurrences, and binds each variable to its last occurrence; an instance with occurrences all alike is a match. -/
def MatchesInstances (m : Matcher) (what : Str → Hole) (restrictions : Dict Label Matcher) (t : Val) : Prop :=
  ∀ (c : Ctx) (env : Env) (N : Nat) (allowed : Label → Val → Prop), RestrictionsAllow c env N restrictions allowed →
    ∀ (g : Grammar), ¬ g.nodeType (str "list") → Parsed g false t → ∀ (b : Bool) (v : Val), Parsed g b v →
    ∀ (n : Nat), 2 * t.size + N + 4 ≤ n → ∀ (ks : List Key),
      ((run c n env m v ks = .ok (none, ks)) ∨
        ∃ mi occ, run c n env m v ks = .ok (some mi, ks) ∧ Instance (holeAt what) allowed t v occ ∧ (∀ x, Linked (occ.of x)) ∧
          mi.obj = createMatch c v ∧
          ∀ x, mi.bindings.get? x = (occ.of x).getLast?.map fun w => ⟨createMatch c w, .merge, .keepLast⟩) ∧
      ∀ occ, Instance (holeAt what) allowed t v occ → (∀ x, AllAlike (occ.of x)) →
        ∃ mi, run c n env m v ks = .ok (some mi, ks) ∧
          ∀ x, mi.bindings.get? x = (occ.of x).getLast?.map fun w => ⟨createMatch c w, .merge, .keepLast⟩

/-- Every restriction is for a named variable of the pattern. -/
def RestrictionsKnown (restrictions : Dict Label Matcher) (l : List (Str × Str)) : Prop :=
  ∀ k m, (k, m) ∈ restrictions → k ≠ str "_" ∧ ∃ n, (k, n) ∈ l

/-- Every named variable of the pattern is a variable reference in the tree. -/
def AllFound (tree : Val) (l : List (Str × Str)) : Prop := ∀ x n, (x, n) ∈ l → x ≠ str "_" → NameIn tree n

/-- A name to bind: an ASCII letter or underscore, then word characters, and not two underscores at the start. -/
structure BindName (word : Char → Bool) (x : Str) : Prop where
  shape : ∃ a s, x = a :: s ∧ (a.isAlpha = true ∨ a = '_') ∧ ∀ ch ∈ s, word ch = true
  user : ¬ (str "__") <+: x

/-- No variable begins with two underscores. -/
def NoneReserved (l : List (Str × Str)) : Prop := ∀ x n, (x, n) ∈ l → ¬ (str "__") <+: x

/-- What comes of a pattern read as `l` and `s`. -/
inductive BuildResult (parse : Str → Option Val) (kind : PatternKind) (restrictions : Dict Label Matcher) (l : List (Str × Str)) (s : Str) :
    Except Exc Matcher → Prop
  | unknown : ¬ RestrictionsKnown restrictions l → BuildResult parse kind restrictions l s (.error .keyError)
  | reserved : RestrictionsKnown restrictions l → ¬ NoneReserved l → BuildResult parse kind restrictions l s (.error .valueError)
  | syntaxError : RestrictionsKnown restrictions l → NoneReserved l → parse s = none → BuildResult parse kind restrictions l s (.error .valueError)
  | lost {tree} : RestrictionsKnown restrictions l → NoneReserved l → parse s = some tree → ¬ AllFound tree l →
      BuildResult parse kind restrictions l s (.error .valueError)
  | shape {tree} : RestrictionsKnown restrictions l → NoneReserved l → parse s = some tree → AllFound tree l → (∀ t, ¬ Intended kind tree t) →
      BuildResult parse kind restrictions l s (.error .valueError)
  | made {tree t m} : RestrictionsKnown restrictions l → NoneReserved l → parse s = some tree → AllFound tree l → Intended kind tree t →
      MatchesInstances m (meaningOf l) restrictions t → BuildResult parse kind restrictions l s (.ok m)

/-- The tree of the source of a function with these statements. -/
def FunctionSource (tree : Val) (ss : List Val) : Prop :=
  ∃ i f fs j, FieldIs tree (str "body") (.list i (f :: fs)) ∧ FieldIs f (str "body") (.list j ss)

/-- A string literal as a statement. -/
def Docstring (s : Val) : Prop :=
  s.ty = str "Expr" ∧ ∃ e i x, FieldIs s (str "value") e ∧ e.ty = str "Constant" ∧ FieldIs e (str "value") (.const i (.str x))

/-- The first statement after the docstring, if there is one. -/
inductive FirstStatement : List Val → Val → Prop
  | docstring {d s ss} : Docstring d → FirstStatement (d :: s :: ss) s
  | plain {s ss} : ¬ Docstring s → FirstStatement (s :: ss) s

/-- The parameters of a function stand for anything. -/
def parametersMean (args : List Label) (s : Str) : Hole := if s ∈ args then .named s else .none

/-- The new name of a parameter. -/
def newName (l : List (Label × Str)) (x : Str) : Option Str := (l.find? fun p => decide (p.1 = x)).map Prod.snd

end Refex
