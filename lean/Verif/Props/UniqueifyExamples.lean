import Verif.Props.Uniqueify
/- C63: examples. -/
namespace Refex
set_option autoImplicit false

/-- `a + a` as CPython's parser makes it: one `Load()` in two places. -/
def exShared : Val :=
  .node 1 (str "BinOp") [str "left", str "op", str "right"]
    [.node 2 (str "Name") [str "id", str "ctx"] [.const 5 (.str (str "a")), .node 7 (str "Load") [] []],
     .node 3 (str "Add") [] [],
     .node 4 (str "Name") [str "id", str "ctx"] [.const 5 (.str (str "a")), .node 7 (str "Load") [] []]]

/-- The store that holds it. -/
def exStore : Nat → Obj
  | 1 => .node (str "BinOp") [str "left", str "op", str "right"] [2, 3, 4]
  | 2 => .node (str "Name") [str "id", str "ctx"] [5, 7]
  | 3 => .node (str "Add") [] []
  | 4 => .node (str "Name") [str "id", str "ctx"] [5, 7]
  | 5 => .const (.str (str "a"))
  | 7 => .node (str "Load") [] []
  | _ => .const .none

/-- The tree is not free of sharing, and the theorem applies to it. -/
example : ¬ Unshared exShared := fun h => by
  have := h.distinct [0, 1] [2, 1] _ _ rfl rfl rfl (fun _ _ => by simp)
  simp at this

example : ∃ s' tree', uniqueify exShared.size exStore 8 1 = some (s', tree'.ident) ∧ tree'.Reads s'.store ∧
    tree'.forget = exShared.forget ∧ Unshared tree' :=
  C63_uniqueify (tree := exShared) rfl (by simp [exShared, Val.Reads, Val.ReadsAll, exStore, Val.ident]) (by decide) (by decide) (by decide) (by decide)
    (Nat.le_refl _)

/-- The second `Load()` is the new object. -/
example : (uniqueify 20 exStore 8 1).map (fun r => (r.2, r.1.next, r.1.seen)) = some (1, 9, [1, 4, 3, 2, 7]) := by decide

/-- A node with a node inside, in two places. -/
def exSharedBig : Val :=
  .node 1 (str "Pair") [str "left", str "right"]
    [.node 2 (str "Name") [str "ctx"] [.node 3 (str "Load") [] []], .node 2 (str "Name") [str "ctx"] [.node 3 (str "Load") [] []]]

/-- The store that holds it. -/
def exStoreBig : Nat → Obj
  | 1 => .node (str "Pair") [str "left", str "right"] [2, 2]
  | 2 => .node (str "Name") [str "ctx"] [3]
  | 3 => .node (str "Load") [] []
  | _ => .const .none

/-- C63 without the condition on compound nodes is false: the copy is shallow, so a node shared together with what is inside it is
copied, but what is inside stays shared. -/
theorem C63_compound_false : exSharedBig.Reads exStoreBig ∧ (∀ j ∈ exSharedBig.ids, j < 4) ∧ exSharedBig.flat = true ∧ exSharedBig.wellShaped = true ∧
    ∃ s' tree', uniqueify exSharedBig.size exStoreBig 4 1 = some (s', tree'.ident) ∧ tree'.Reads s'.store ∧ ¬ Unshared tree' := by
  refine ⟨by simp [exSharedBig, Val.Reads, Val.ReadsAll, exStoreBig, Val.ident], by decide, by decide, by decide, ?_⟩
  obtain ⟨s', h⟩ : ∃ s', uniqueify exSharedBig.size exStoreBig 4 1 = some (s', 1) := ⟨_, rfl⟩
  refine ⟨s', .node 1 (str "Pair") [str "left", str "right"]
    [.node 2 (str "Name") [str "ctx"] [.node 4 (str "Load") [] []], .node 5 (str "Name") [str "ctx"] [.node 4 (str "Load") [] []]], h, ?_, ?_⟩
  · have h' : some (s', 1) = uniqueify exSharedBig.size exStoreBig 4 1 := h.symm
    have e : uniqueify exSharedBig.size exStoreBig 4 1 = some (((uniqueify exSharedBig.size exStoreBig 4 1).get rfl).1, 1) := rfl
    rw [e] at h'
    simp only [Option.some.injEq, Prod.mk.injEq, and_true] at h'
    subst h'
    exact ⟨rfl, ⟨rfl, ⟨rfl, trivial⟩, trivial⟩, ⟨rfl, ⟨rfl, trivial⟩, trivial⟩, trivial⟩
  · intro hu
    have := hu.distinct [0, 0] [1, 0] _ _ rfl rfl rfl (fun _ _ => by simp)
    simp at this

end Refex
