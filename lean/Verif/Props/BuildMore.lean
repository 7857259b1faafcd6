import Verif.Props.Build
import Verif.Props.CompileText
/- C92: constants, what `AllOf` does with values, and a concrete expression. -/
namespace Refex
set_option autoImplicit false

theorem zipIdx_get? (d : Dict Str Thing) (k : Nat) (n : Str) :
    Dict.get? (((d.map Prod.fst).zipIdx k).map fun p => (p.1, PVal.obj p.2)) n = none ∧ d.get? n = none ∨
    ∃ i t, Dict.get? (((d.map Prod.fst).zipIdx k).map fun p => (p.1, PVal.obj p.2)) n = some (.obj (k + i)) ∧ d[i]? = some (n, t) ∧ d.get? n = some t := by
  induction d generalizing k with
  | nil => exact .inl ⟨rfl, rfl⟩
  | cons e d ih =>
    obtain ⟨x, t⟩ := e
    simp only [List.map_cons, List.zipIdx_cons, Dict.get?]
    by_cases h : x = n
    · subst h
      exact .inr ⟨0, t, by simp, rfl, by simp⟩
    · simp only [if_neg h]
      rcases ih (k + 1) with h1 | ⟨i, t', h1, h2, h3⟩
      · exact .inl h1
      · exact .inr ⟨i + 1, t', by rw [h1]; congr 2; omega, h2, h3⟩

/-- **C92**, constants: the names that expressions may use are exactly `_`, which is `Anything()`, and the strategies of `Bind` and `Rebind`. -/
theorem C92_constants (n : Str) (t : Thing) :
    (∃ i, (constantObjects registeredConstants).1.get? n = some (.obj i) ∧ (constantObjects registeredConstants).2[i]? = some t) ↔ IsConstant n t := by
  have h1 : (∃ i, (constantObjects registeredConstants).1.get? n = some (.obj i) ∧ (constantObjects registeredConstants).2[i]? = some t) ↔
      registeredConstants.get? n = some t := by
    have h := zipIdx_get? registeredConstants 0 n
    simp only [constantObjects]
    constructor
    · rintro ⟨i, h2, h3⟩
      rcases h with h | ⟨j, t', h4, h5, h6⟩
      · rw [h.1] at h2; cases h2
      · rw [h4] at h2
        simp only [Nat.zero_add, Option.some.injEq, PVal.obj.injEq] at h2
        subst h2
        rw [List.getElem?_map, h5] at h3
        simp only [Option.map_some, Option.some.injEq] at h3
        rw [h6, h3]
    · intro h2
      rcases h with h | ⟨j, t', h4, h5, h6⟩
      · rw [h.2] at h2; cases h2
      · rw [h6] at h2
        cases h2
        exact ⟨j, by rw [h4, Nat.zero_add], by rw [List.getElem?_map, h5]; rfl⟩
  rw [h1]
  constructor
  · intro h
    have h := Dict.get?_some_mem h
    simp only [registeredConstants, List.mem_cons, List.not_mem_nil, or_false, Prod.mk.injEq] at h
    rcases h with ⟨rfl, rfl⟩ | ⟨rfl, rfl⟩ | ⟨rfl, rfl⟩ | ⟨rfl, rfl⟩ | ⟨rfl, rfl⟩ | ⟨rfl, rfl⟩ | ⟨rfl, rfl⟩ | ⟨rfl, rfl⟩ | ⟨rfl, rfl⟩ | ⟨rfl, rfl⟩
    · exact .anything
    · exact .conflict (c := .merge)
    · exact .conflict (c := .skip)
    · exact .conflict (c := .error)
    · exact .conflict (c := .mergeIdentical)
    · exact .conflict (c := .mergeIdenticalOrError)
    · exact .conflict (c := .mergeEquivalentAst)
    · exact .conflict (c := .mergeEquivalentAstOrError)
    · exact .merge (m := .keepFirst)
    · exact .merge (m := .keepLast)
  · intro h
    cases h with
    | anything => rfl
    | conflict => rename_i c; cases c <;> rfl
    | merge => rename_i m; cases m <;> rfl

/-- It is not so that every matcher class takes values in place of matchers: `AllOf` and `AnyOf` of something that is no matcher make no matcher that can be
used (where `ItemsAre`, `Unless` and the others put what is equal to the value). -/
theorem C92_allof_value_false (E : MakeEnv) (self : Nat) {n : Str} {s : String} (hs : s ∈ ["AllOf", "AnyOf"]) (hr : RefersTo n (str s)) (c : Const) (args : List PVal)
    (hc : .const c ∈ args) : callClass E self n args [] = .ok none := by
  have key : plainMatchers E args = none := by
    cases h : plainMatchers E args with
    | none => rfl
    | some ms =>
      have h := plainMatchers_iff.1 h
      obtain ⟨m, _, i, hi, _⟩ := forall2_partner_left h _ hc
      cases hi
  simp only [List.mem_cons, List.not_mem_nil, or_false] at hs
  rcases hs with rfl | rfl
  · unfold callClass
    rw [classNamed_special (cls := .allOf) hr rfl]
    simp only [Cls.signature, key]
    rfl
  · unfold callClass
    rw [classNamed_special (cls := .anyOf) hr rfl]
    simp only [Cls.signature, key]
    rfl

/-! ### A concrete expression: `base_matchers.Bind("x", AnyOf(Num(n=5), Name(id="a"), _), on_merge=BindMerge.KEEP_LAST)` -/

/-- The world of the concrete expression. -/
def mkWorld : EvalWorld where
  callables := [str "base_matchers.Bind", str "AnyOf", str "Num", str "Name"]
  constants := (constantObjects registeredConstants).1
  minus := fun t r => .other t (str "-" ++ r) none
  fields := fun ty => if ty = str "Name" then some [str "id", str "ctx"] else none
  word := fun c => c.isAlphanum
  key := fun _ => 0
  pattern := fun _ _ _ _ => .error .typeError

/-- The objects there are before: the constants. -/
def mkObjects : List Thing := (constantObjects registeredConstants).2

/-- The concrete expression. -/
def mkExpr : EExpr :=
  .call (.attribute (.name (str "base_matchers")) (str "Bind")) [.const (.str (str "x")),
    .call (.name (str "AnyOf")) [.call (.name (str "Num")) [] [some (str "n")] [.const (.int 5)],
      .call (.name (str "Name")) [] [some (str "id")] [.const (.str (str "a"))], .name (str "_")] [] []]
    [some (str "on_merge")] [.attribute (.name (str "BindMerge")) (str "KEEP_LAST")]

/-- The matchers of the calls. -/
def mkNum : Matcher := .constant [str "int", str "float", str "complex"] (.equals (.const 0 (.int 5)))
/-- The matchers of the calls. -/
def mkName : Matcher := .node (str "Name") [str "id", str "ctx"] [.equals (.const 0 (.str (str "a"))), .anything]
/-- The matchers of the calls. -/
def mkBind : Matcher := .bind (str "x") (.anyOf [mkNum, mkName, .anything]) none (some .keepLast)

theorem mkBuilds : Builds mkWorld mkObjects mkExpr (.obj 13) (mkObjects ++ [.matcher mkNum, .matcher mkName, .matcher (.anyOf [mkNum, mkName, .anything]), .matcher mkBind]) := by
  refine (C92_expression mkWorld ?_ mkObjects ?_ mkExpr _ _).1 ⟨rfl, ?_⟩
  · intro ty fs h
    simp only [mkWorld] at h
    split at h
    · cases h; decide
    · cases h
  · intro t ht
    simp only [mkObjects, constantObjects, registeredConstants, List.map, List.mem_cons, List.not_mem_nil, or_false] at ht
    rcases ht with rfl | rfl | rfl | rfl | rfl | rfl | rfl | rfl | rfl | rfl <;> intro e <;> cases e
  · intro t ht
    simp only [mkObjects, constantObjects, registeredConstants, List.map, List.cons_append, List.nil_append, List.mem_cons, List.not_mem_nil, or_false] at ht
    rcases ht with rfl | rfl | rfl | rfl | rfl | rfl | rfl | rfl | rfl | rfl | rfl | rfl | rfl | rfl <;> intro e <;> cases e

/-- The hypotheses of C92 are met by the concrete expression, whose value is the matcher that it looks like. -/
example : ∃ v st', build mkWorld mkExpr mkObjects = .ok (v, st') ∧ ∃ i, v = .obj i ∧ (mkWorld.now st').thing i = .matcher mkBind :=
  ⟨_, _, rfl, 13, rfl, rfl⟩

end Refex
