import Verif.Props.Termination
import Verif.Props.BuiltinSearchExamples
import Verif.Props.PatternBuild
/- Fixers that are applied one after the other. -/
namespace Refex
set_option autoImplicit false

mutual
/-- A check that names are simple. -/
def simpleCheck : Val → Bool
  | .const _ _ => true
  | .list _ vs => simpleChecks vs
  | .node _ ty _ vs => (decide (ty ≠ str "Name") || vs.all fun v => v.children.isEmpty) && simpleChecks vs
/-- One after the other. -/
def simpleChecks : List Val → Bool
  | [] => true
  | v :: vs => simpleCheck v && simpleChecks vs
end

theorem simpleChecks_mem : ∀ {vs : List Val} {v : Val}, simpleChecks vs = true → v ∈ vs → simpleCheck v = true
  | _ :: _, _, h, hv => by
    rw [simpleChecks, Bool.and_eq_true] at h
    rcases List.mem_cons.1 hv with rfl | hv
    · exact h.1
    · exact simpleChecks_mem h.2 hv

theorem simple_child {t u : Val} (h : simpleCheck t = true) (hu : u ∈ t.children) : simpleCheck u = true := by
  cases t with
  | const i c => cases hu
  | list i vs => rw [simpleCheck] at h; exact simpleChecks_mem h hu
  | node i ty ns vs => rw [simpleCheck, Bool.and_eq_true] at h; exact simpleChecks_mem h.2 hu

theorem simple_at {t : Val} (h : simpleCheck t = true) {p : Path} {w : Val} (hp : t.at? p = some w) : simpleCheck w = true := by
  induction p generalizing t with
  | nil => cases hp; exact h
  | cons k p ih =>
    rw [at?_cons] at hp
    cases hc : t.children[k]? with
    | none => rw [hc] at hp; cases hp
    | some u => rw [hc] at hp; exact ih (simple_child h (List.mem_of_getElem? hc)) hp

theorem simpleNames_of_check {t : Val} (h : simpleCheck t = true) : SimpleNames t := by
  intro p q w u hp hty hq hne
  have hw := simple_at h hp
  match w, q, hty, hq, hne with
  | .node i ty ns vs, k :: q, hty, hq, _ =>
    cases show ty = str "Name" from hty
    rw [simpleCheck, Bool.and_eq_true, decide_eq_false (by simp), Bool.false_or] at hw
    rw [at?_cons] at hq
    cases hc : (Val.node i (str "Name") ns vs).children[k]? with
    | none => rw [hc] at hq; cases hq
    | some x =>
      rw [hc] at hq
      have : x.children = [] := by simpa using List.all_eq_true.1 hw.1 x (List.mem_of_getElem? hc)
      rw [at?_leaf this hq]
      exact this
  | .list i vs, _, hty, _, _ => exact absurd (show str "list" = _ from hty) (by decide)
  | .const i c, k :: q, _, hq, _ => simp [at?_cons, Val.children] at hq

/-- `5` -/
def exFive : Val := .node 50 (str "Constant") [str "value", str "kind"] [.const 51 (.int 5), .const 52 .none]

/-- `x op 5` -/
def exCompareFive (op : String) : Val :=
  .node 40 (str "Compare") [str "left", str "ops", str "comparators"] [exNameAt 29 (str "x"), .list 41 [.node 42 (str op) [] []], .list 43 [exFive]]

/-- `if not x is 5: …`, as far as it matters: the condition. -/
def exNotFive : Val := .node 60 (str "Expr") [str "value"] [.node 61 (str "UnaryOp") [str "op", str "operand"] [.node 62 (str "Not") [] [], exCompareFive "Is"]]

theorem compareFive (op : String) : (Code.compare vA (str op) vB).Reads (exCompareFive op) [(str "a", exNameAt 29 (str "x")), (str "b", exFive)] :=
  .compare (o := [(str "a", exNameAt 29 (str "x"))]) .var ⟨41, rfl⟩ ⟨42, rfl⟩ ⟨43, rfl⟩ .var

theorem compareFive' (op : String) : (Code.compare vLhs (str op) vRhs).Reads (exCompareFive op) [(str "lhs", exNameAt 29 (str "x")), (str "rhs", exFive)] :=
  .compare (o := [(str "lhs", exNameAt 29 (str "x"))]) .var ⟨41, rfl⟩ ⟨42, rfl⟩ ⟨43, rfl⟩ .var

/-- `not x is 5` becomes `x is not 5`, and that `x != 5`. -/
example : FixSteps (fun ch => ch.isDigit = true) 2 exNotFive (.node 60 (str "Expr") [str "value"] [exCompareFive "NotEq"]) := by
  refine .more (t' := .node 60 (str "Expr") [str "value"] [exCompareFive "IsNot"]) (simpleNames_of_check (by decide +kernel)) ?_
    (.more (t' := .node 60 (str "Expr") [str "value"] [exCompareFive "NotEq"]) (simpleNames_of_check (by decide +kernel)) ?_ .none)
  · refine ⟨{ bsFile with tree := exNotFive }, [], [0], _, exCompareFive "IsNot", rfl,
      .rule (r := idiomRules[0]) (occ := [(str "a", exNameAt 29 (str "x")), (str "b", exFive)]) (by simp [builtinRules]) rfl ⟨.not ⟨62, rfl⟩ (compareFive "Is"), ?_, ?_, trivial⟩ (compareFive "IsNot") ?_,
      .node (k := 0) (n := str "value") rfl rfl rfl rfl .here fun l a b hl ha _ => ?_⟩
    · intro x
      refine allAlike_short ?_
      rw [occs_of_length]
      exact count_le_of (l := [str "a", str "b"]) (by decide) x
    · intro x w _ k hk
      cases hk
    · intro x w' hx
      simp only [List.mem_cons, List.not_mem_nil, or_false, Prod.mk.injEq] at hx
      rcases hx with ⟨rfl, rfl⟩ | ⟨rfl, rfl⟩ <;> exact ⟨_, rfl, SameTree.refl _⟩
    · match l, hl, ha with
      | l + 1, _, ha => cases ha
  · refine ⟨{ bsFile with tree := .node 60 (str "Expr") [str "value"] [exCompareFive "IsNot"] }, [], [0], _, exCompareFive "NotEq", rfl,
      .rule (r := literalRules[1]) (occ := [(str "lhs", exNameAt 29 (str "x")), (str "rhs", exFive)]) (by simp [builtinRules]) rfl ⟨compareFive' "IsNot", ?_, ?_, trivial⟩ (compareFive' "NotEq") ?_,
      .node (k := 0) (n := str "value") rfl rfl rfl rfl .here fun l a b hl ha _ => ?_⟩
    · intro x
      refine allAlike_short ?_
      rw [occs_of_length]
      exact count_le_of (l := [str "lhs", str "rhs"]) (by decide) x
    · intro x w hx k hk
      simp only [List.mem_cons, List.not_mem_nil, or_false, Prod.mk.injEq] at hx
      rcases hx with ⟨rfl, rfl⟩ | ⟨rfl, rfl⟩
      · exact absurd hk (by decide +revert)
      · have : k = .literal := Option.some.inj (hk.symm.trans (by decide))
        subst this
        exact ⟨rfl, by decide⟩
    · intro x w' hx
      simp only [List.mem_cons, List.not_mem_nil, or_false, Prod.mk.injEq] at hx
      rcases hx with ⟨rfl, rfl⟩ | ⟨rfl, rfl⟩ <;> exact ⟨_, rfl, SameTree.refl _⟩
    · match l, hl, ha with
      | l + 1, _, ha => cases ha

end Refex
