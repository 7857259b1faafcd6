import Verif.Spec.Uniqueify
import Verif.Props.Nav
/- C63: after parsing, every node stands in one place. -/
namespace Refex
set_option autoImplicit false

theorem idsAll_append (a b : List Val) : Val.idsAll (a ++ b) = Val.idsAll a ++ Val.idsAll b := by
  induction a with
  | nil => rfl
  | cons v a ih => simp [Val.idsAll, ih]

theorem compoundAll_append (a b : List Val) : Val.compoundAll (a ++ b) = Val.compoundAll a ++ Val.compoundAll b := by
  induction a with
  | nil => rfl
  | cons v a ih => simp [Val.compoundAll, ih]

theorem forgetAll_append (a b : List Val) : Val.forgetAll (a ++ b) = Val.forgetAll a ++ Val.forgetAll b := by
  induction a with
  | nil => rfl
  | cons v a ih => simp [Val.forgetAll, ih]

theorem readsAll_append (st : Nat → Obj) (a b : List Val) : Val.ReadsAll st (a ++ b) ↔ Val.ReadsAll st a ∧ Val.ReadsAll st b := by
  induction a with
  | nil => simp [Val.ReadsAll]
  | cons v a ih => simp [Val.ReadsAll, ih, and_assoc]

theorem flatAll_append (a b : List Val) : Val.flatAll (a ++ b) = (Val.flatAll a && Val.flatAll b) := by
  induction a with
  | nil => simp [Val.flatAll]
  | cons v a ih => simp [Val.flatAll, ih, Bool.and_assoc]

mutual
theorem compound_sub_ids : ∀ (v : Val) (i : Nat), i ∈ v.compound → i ∈ v.ids
  | .const _ _, i, h => by simp [Val.compound] at h
  | .list j vs, i, h => by
    simp only [Val.compound, List.mem_cons] at h
    simp only [Val.ids, List.mem_cons]
    exact h.imp id (compoundAll_sub_ids vs i)
  | .node j _ _ vs, i, h => by
    simp only [Val.compound, List.mem_append] at h
    simp only [Val.ids, List.mem_cons]
    refine h.imp (fun h => ?_) (compoundAll_sub_ids vs i)
    split at h <;> simp_all
theorem compoundAll_sub_ids : ∀ (vs : List Val) (i : Nat), i ∈ Val.compoundAll vs → i ∈ Val.idsAll vs
  | [], i, h => by simp [Val.compoundAll] at h
  | v :: vs, i, h => by
    simp only [Val.compoundAll, List.mem_append] at h
    simp only [Val.idsAll, List.mem_append]
    exact h.imp (compound_sub_ids v i) (compoundAll_sub_ids vs i)
end

mutual
/-- Identities of nodes and lists. -/
def Val.innerIds : Val → List Nat
  | .const _ _ => []
  | .list i vs => i :: Val.innerIdsAll vs
  | .node i _ _ vs => i :: Val.innerIdsAll vs
/-- Of several trees. -/
def Val.innerIdsAll : List Val → List Nat
  | [] => []
  | v :: vs => v.innerIds ++ Val.innerIdsAll vs
end

mutual
/-- Identities of nodes. -/
def Val.nodeIds : Val → List Nat
  | .const _ _ => []
  | .list _ vs => Val.nodeIdsAll vs
  | .node i _ _ vs => i :: Val.nodeIdsAll vs
/-- Of several trees. -/
def Val.nodeIdsAll : List Val → List Nat
  | [] => []
  | v :: vs => v.nodeIds ++ Val.nodeIdsAll vs
end

theorem innerIdsAll_append (a b : List Val) : Val.innerIdsAll (a ++ b) = Val.innerIdsAll a ++ Val.innerIdsAll b := by
  induction a with
  | nil => rfl
  | cons v a ih => simp [Val.innerIdsAll, ih]

theorem nodeIdsAll_append (a b : List Val) : Val.nodeIdsAll (a ++ b) = Val.nodeIdsAll a ++ Val.nodeIdsAll b := by
  induction a with
  | nil => rfl
  | cons v a ih => simp [Val.nodeIdsAll, ih]

mutual
theorem inner_sub_ids : ∀ (v : Val) (i : Nat), i ∈ v.innerIds → i ∈ v.ids
  | .const _ _, i, h => by simp [Val.innerIds] at h
  | .list j vs, i, h => by
    simp only [Val.innerIds, List.mem_cons] at h
    simp only [Val.ids, List.mem_cons]
    exact h.imp id (innerAll_sub_ids vs i)
  | .node j _ _ vs, i, h => by
    simp only [Val.innerIds, List.mem_cons] at h
    simp only [Val.ids, List.mem_cons]
    exact h.imp id (innerAll_sub_ids vs i)
theorem innerAll_sub_ids : ∀ (vs : List Val) (i : Nat), i ∈ Val.innerIdsAll vs → i ∈ Val.idsAll vs
  | [], i, h => by simp [Val.innerIdsAll] at h
  | v :: vs, i, h => by
    simp only [Val.innerIdsAll, List.mem_append] at h
    simp only [Val.idsAll, List.mem_append]
    exact h.imp (inner_sub_ids v i) (innerAll_sub_ids vs i)
end

mutual
theorem node_sub_ids : ∀ (v : Val) (i : Nat), i ∈ v.nodeIds → i ∈ v.ids
  | .const _ _, i, h => by simp [Val.nodeIds] at h
  | .list j vs, i, h => by
    simp only [Val.nodeIds] at h
    simp only [Val.ids, List.mem_cons]
    exact Or.inr (nodeAll_sub_ids vs i h)
  | .node j _ _ vs, i, h => by
    simp only [Val.nodeIds, List.mem_cons] at h
    simp only [Val.ids, List.mem_cons]
    exact h.imp id (nodeAll_sub_ids vs i)
theorem nodeAll_sub_ids : ∀ (vs : List Val) (i : Nat), i ∈ Val.nodeIdsAll vs → i ∈ Val.idsAll vs
  | [], i, h => by simp [Val.nodeIdsAll] at h
  | v :: vs, i, h => by
    simp only [Val.nodeIdsAll, List.mem_append] at h
    simp only [Val.idsAll, List.mem_append]
    exact h.imp (node_sub_ids v i) (nodeAll_sub_ids vs i)
end

mutual
/-- A node or list is a node, or it is in `compound`. -/
theorem inner_cases : ∀ (v : Val) (i : Nat), i ∈ v.innerIds → i ∈ v.nodeIds ∨ i ∈ v.compound
  | .const _ _, i, h => by simp [Val.innerIds] at h
  | .list j vs, i, h => by
    simp only [Val.innerIds, List.mem_cons] at h
    simp only [Val.nodeIds, Val.compound, List.mem_cons]
    rcases h with h | h
    · exact Or.inr (Or.inl h)
    · exact (innerAll_cases vs i h).imp id Or.inr
  | .node j _ _ vs, i, h => by
    simp only [Val.innerIds, List.mem_cons] at h
    simp only [Val.nodeIds, Val.compound, List.mem_cons, List.mem_append]
    rcases h with h | h
    · exact Or.inl (Or.inl h)
    · exact (innerAll_cases vs i h).imp Or.inr Or.inr
theorem innerAll_cases : ∀ (vs : List Val) (i : Nat), i ∈ Val.innerIdsAll vs → i ∈ Val.nodeIdsAll vs ∨ i ∈ Val.compoundAll vs
  | [], i, h => by simp [Val.innerIdsAll] at h
  | v :: vs, i, h => by
    simp only [Val.innerIdsAll, List.mem_append] at h
    simp only [Val.nodeIdsAll, Val.compoundAll, List.mem_append]
    rcases h with h | h
    · exact (inner_cases v i h).imp Or.inl Or.inl
    · exact (innerAll_cases vs i h).imp Or.inr Or.inr
end

mutual
theorem reads_frame {st st' : Nat → Obj} : ∀ (v : Val), (∀ j ∈ v.ids, st' j = st j) → v.Reads st → v.Reads st'
  | .const i c, h, r => by
    simp only [Val.Reads] at *
    rw [h i (by simp [Val.ids])]; exact r
  | .list i vs, h, r => by
    simp only [Val.Reads] at *
    rw [h i (by simp [Val.ids])]
    exact ⟨r.1, readsAll_frame vs (fun j hj => h j (by simp [Val.ids, hj])) r.2⟩
  | .node i t ns vs, h, r => by
    simp only [Val.Reads] at *
    rw [h i (by simp [Val.ids])]
    exact ⟨r.1, readsAll_frame vs (fun j hj => h j (by simp [Val.ids, hj])) r.2⟩
theorem readsAll_frame {st st' : Nat → Obj} : ∀ (vs : List Val), (∀ j ∈ Val.idsAll vs, st' j = st j) → Val.ReadsAll st vs →
    Val.ReadsAll st' vs
  | [], _, _ => trivial
  | v :: vs, h, r => by
    simp only [Val.ReadsAll] at *
    exact ⟨reads_frame v (fun j hj => h j (by simp [Val.idsAll, hj])) r.1, readsAll_frame vs (fun j hj => h j (by simp [Val.idsAll, hj])) r.2⟩
end

/-- What is asked before visiting the trees `a`. -/
structure Ready (s : UState) (a : List Val) : Prop where
  reads : Val.ReadsAll s.store a
  once : ∀ i ∈ Val.compoundAll a, (Val.idsAll a).count i = 1
  unseen : ∀ i ∈ Val.compoundAll a, i ∉ s.seen
  bound : ∀ i ∈ Val.idsAll a, i < s.next
  flat : Val.flatAll a = true

/-- What holds after visiting the trees `a`, which became `b`. -/
structure Visited (s s' : UState) (a b : List Val) : Prop where
  next_le : s.next ≤ s'.next
  reads : Val.ReadsAll s'.store b
  forget : Val.forgetAll b = Val.forgetAll a
  ids : ∀ i ∈ Val.idsAll b, i ∈ Val.idsAll a ∨ (s.next ≤ i ∧ i < s'.next)
  inner : ∀ i ∈ Val.innerIdsAll b, (i ∈ Val.innerIdsAll a ∧ i ∉ s.seen) ∨ (s.next ≤ i ∧ i < s'.next)
  nodup : (Val.innerIdsAll b).Nodup
  seen : ∀ i, i ∈ s'.seen ↔ i ∈ s.seen ∨ i ∈ Val.nodeIdsAll a

/-- Only the compound objects of `a` and those in `x` were changed. -/
def Frame (s s' : UState) (a : List Val) (x : List Nat) : Prop :=
  ∀ j, j < s.next → j ∉ Val.compoundAll a → j ∉ x → s'.store j = s.store j

theorem Ready.left {s : UState} {a b : List Val} (h : Ready s (a ++ b)) : Ready s a := by
  obtain ⟨h1, h2, h3, h4, h5⟩ := h
  rw [readsAll_append] at h1
  rw [compoundAll_append] at h2 h3
  rw [idsAll_append] at h2 h4
  rw [flatAll_append, Bool.and_eq_true] at h5
  refine ⟨h1.1, fun i hi => ?_, fun i hi => h3 i (by simp [hi]), fun i hi => h4 i (by simp [hi]), h5.1⟩
  have := h2 i (by simp [hi])
  have h6 := compoundAll_sub_ids a i hi
  have h7 := List.count_pos_iff.2 h6
  rw [List.count_append] at this
  omega

/-- A compound object of one part is not in the other. -/
theorem Ready.apart {s : UState} {a b : List Val} (h : Ready s (a ++ b)) {i : Nat} :
    (i ∈ Val.compoundAll a → i ∉ Val.idsAll b) ∧ (i ∈ Val.compoundAll b → i ∉ Val.idsAll a) := by
  have h2 := h.once
  rw [compoundAll_append, idsAll_append] at h2
  constructor
  · intro hi hj
    have := h2 i (by simp [hi])
    have h6 := List.count_pos_iff.2 (compoundAll_sub_ids a i hi)
    have h7 := List.count_pos_iff.2 hj
    rw [List.count_append] at this
    omega
  · intro hi hj
    have := h2 i (by simp [hi])
    have h6 := List.count_pos_iff.2 (compoundAll_sub_ids b i hi)
    have h7 := List.count_pos_iff.2 hj
    rw [List.count_append] at this
    omega

theorem Ready.right {s s' : UState} {a a' b : List Val} {x : List Nat} (h : Ready s (a ++ b)) (hv : Visited s s' a a')
    (hf : Frame s s' a x) (hx : ∀ i ∈ x, i ∉ Val.idsAll b) : Ready s' b := by
  have hap := fun i => h.apart (i := i)
  obtain ⟨h1, h2, h3, h4, h5⟩ := h
  rw [readsAll_append] at h1
  rw [compoundAll_append] at h2 h3
  rw [idsAll_append] at h2 h4
  rw [flatAll_append, Bool.and_eq_true] at h5
  refine ⟨?_, fun i hi => ?_, fun i hi => ?_, fun i hi => ?_, h5.2⟩
  · refine readsAll_frame b (fun j hj => hf j (h4 j (by simp [hj])) (fun hc => (hap j).1 hc hj) (fun hc => hx j hc hj)) h1.2
  · have := h2 i (by simp [hi])
    have h6 := List.count_pos_iff.2 (compoundAll_sub_ids b i hi)
    rw [List.count_append] at this
    omega
  · rw [hv.seen]
    rintro (h6 | h6)
    · exact h3 i (by simp [hi]) h6
    · exact (hap i).2 hi (nodeAll_sub_ids a i h6)
  · exact Nat.lt_of_lt_of_le (h4 i (by simp [hi])) hv.next_le

theorem Frame.comp {s s1 s2 : UState} {a b : List Val} {x : List Nat} (hn : s.next ≤ s1.next) (h1 : Frame s s1 a x) (h2 : Frame s1 s2 b x) :
    Frame s s2 (a ++ b) x := by
  intro j hj hc hx
  rw [compoundAll_append, List.mem_append, not_or] at hc
  rw [h2 j (by omega) hc.2 hx, h1 j hj hc.1 hx]

theorem Visited.comp {s s1 s2 : UState} {a a' b b' : List Val} {x : List Nat} (hr : Ready s (a ++ b)) (hx : ∀ i ∈ x, i ∉ Val.idsAll a)
    (hxn : ∀ i ∈ x, i < s.next)
    (h1 : Visited s s1 a a') (h2 : Visited s1 s2 b b') (hf : Frame s1 s2 b x) : Visited s s2 (a ++ b) (a' ++ b') := by
  have hap := fun i => hr.apart (i := i)
  have hb := hr.bound
  have hlt : ∀ i ∈ Val.idsAll a, i < s.next := fun i hi => hb i (by simp [idsAll_append, hi])
  have hltb : ∀ i ∈ Val.idsAll b, i < s.next := fun i hi => hb i (by simp [idsAll_append, hi])
  have n1 := h1.next_le
  have n2 := h2.next_le
  refine ⟨by omega, ?_, ?_, ?_, ?_, ?_, ?_⟩
  · rw [readsAll_append]
    refine ⟨readsAll_frame a' (fun j hj => ?_) h1.reads, h2.reads⟩
    rcases h1.ids j hj with h3 | h3
    · exact hf j (by have := hlt j h3; omega) (fun hc => (hap j).2 hc h3) (fun hc => hx j hc h3)
    · exact hf j h3.2 (fun hc => by have := hltb j (compoundAll_sub_ids b j hc); omega) (fun hc => by have := hxn j hc; omega)
  · rw [forgetAll_append, forgetAll_append, h1.forget, h2.forget]
  · intro i hi
    rw [idsAll_append, List.mem_append] at *
    rcases hi with hi | hi
    · rcases h1.ids i hi with h3 | h3
      · exact Or.inl (Or.inl h3)
      · exact Or.inr (by omega)
    · rcases h2.ids i hi with h3 | h3
      · exact Or.inl (Or.inr h3)
      · exact Or.inr (by omega)
  · intro i hi
    rw [innerIdsAll_append, List.mem_append] at *
    rcases hi with hi | hi
    · rcases h1.inner i hi with h3 | h3
      · exact Or.inl ⟨Or.inl h3.1, h3.2⟩
      · exact Or.inr (by omega)
    · rcases h2.inner i hi with h3 | h3
      · refine Or.inl ⟨Or.inr h3.1, fun h => h3.2 ((h1.seen i).2 (Or.inl h))⟩
      · exact Or.inr (by omega)
  · rw [innerIdsAll_append, List.nodup_append]
    refine ⟨h1.nodup, h2.nodup, ?_⟩
    rintro i hi j hj rfl
    rcases h1.inner i hi with h3 | h3
    · rcases h2.inner i hj with h4 | h4
      · rcases innerAll_cases a i h3.1 with h5 | h5
        · exact h4.2 ((h1.seen i).2 (Or.inr h5))
        · exact (hap i).1 h5 (innerAll_sub_ids b i h4.1)
      · have := hlt i (innerAll_sub_ids a i h3.1); omega
    · rcases h2.inner i hj with h4 | h4
      · have := hltb i (innerAll_sub_ids b i h4.1); omega
      · omega
  · intro i
    rw [h2.seen, h1.seen, nodeIdsAll_append, List.mem_append, or_assoc]

theorem visited_nil (s : UState) : Visited s s [] [] :=
  ⟨Nat.le_refl _, trivial, rfl, by simp [Val.idsAll], by simp [Val.innerIdsAll], List.nodup_nil, by simp [Val.nodeIdsAll]⟩

theorem visited_const {s : UState} {i : Nat} {c : Const} (h : Ready s [.const i c]) : Visited s s [.const i c] [.const i c] :=
  ⟨Nat.le_refl _, h.reads, rfl, fun i hi => Or.inl hi, by simp [Val.innerIdsAll, Val.innerIds],
    by simp [Val.innerIdsAll, Val.innerIds], by simp [Val.nodeIdsAll, Val.nodeIds]⟩

theorem frame_refl (s : UState) (a : List Val) (x : List Nat) : Frame s s a x := fun _ _ _ _ => rfl

/-- What the recursion gives: visiting a node within depth `n`. -/
def VisitsNodes (n : Nat) (visit : UState → Nat → Option (UState × Nat)) : Prop :=
  ∀ (s : UState) (i : Nat) (t : Str) (ns : List Str) (vs : List Val), (Val.node i t ns vs).size ≤ n → Ready s [.node i t ns vs] →
    ∃ s' w, visit s i = some (s', w.ident) ∧ Visited s s' [.node i t ns vs] [w] ∧ Frame s s' [.node i t ns vs] []

theorem visit_items {n : Nat} {visit : UState → Nat → Option (UState × Nat)} (hv : VisitsNodes n visit) : ∀ (vs : List Val) (s : UState),
    Val.sizes vs ≤ n → Ready s vs → vs.all (fun v => !v.isList) = true →
    ∃ s' ws, visitItemsIn visit s (vs.map Val.ident) = some (s', ws.map Val.ident) ∧ Visited s s' vs ws ∧ Frame s s' vs []
  | [], s, _, _, _ => ⟨s, [], rfl, visited_nil s, frame_refl s [] []⟩
  | v :: vs, s, hn, hr, hl => by
    simp only [Val.sizes] at hn
    simp only [List.all_cons, Bool.and_eq_true] at hl
    have hr' : Ready s ([v] ++ vs) := hr
    have hr1 := hr'.left
    have step : ∃ s1 w, Visited s s1 [v] [w] ∧ Frame s s1 [v] [] ∧
        (∀ s2 rs, visitItemsIn visit s1 (vs.map Val.ident) = some (s2, rs) →
          visitItemsIn visit s ((v :: vs).map Val.ident) = some (s2, w.ident :: rs)) := by
      cases v with
      | const i c =>
        have hs : s.store i = .const c := hr1.reads.1
        refine ⟨s, .const i c, visited_const hr1, frame_refl _ _ _, fun s2 rs h => ?_⟩
        simp only [List.map_cons, visitItemsIn, Val.ident, hs]
        rw [h]
      | list i ws => simp [Val.isList] at hl
      | node i t ns ws =>
        obtain ⟨s1, w, e, h1, h2⟩ := hv s i t ns ws (by omega) hr1
        have hs : s.store i = .node t ns (ws.map Val.ident) := hr1.reads.1.1
        refine ⟨s1, w, h1, h2, fun s2 rs h => ?_⟩
        simp only [List.map_cons, visitItemsIn, Val.ident, hs, e]
        rw [h]
    obtain ⟨s1, w, h1, h2, h3⟩ := step
    have hr2 := hr'.right h1 h2 (by simp)
    obtain ⟨s2, ws, e, h4, h5⟩ := visit_items hv vs s1 (by omega) hr2 hl.2
    exact ⟨s2, w :: ws, h3 _ _ e, Visited.comp hr' (by simp) (by simp) h1 h4 h5, Frame.comp h1.next_le h2 h5⟩

theorem put_same (s : UState) (i : Nat) (o : Obj) : (s.put i o).store i = o := by simp [UState.put]

theorem put_other (s : UState) {i j : Nat} (o : Obj) (h : j ≠ i) : (s.put i o).store j = s.store j := by simp [UState.put, h]

/-- Visiting a list in a field. -/
theorem visited_list {s s' : UState} {i : Nat} {vs ws : List Val} (hr : Ready s [.list i vs]) (hv : Visited s s' vs ws)
    (hf : Frame s s' vs []) : Visited s (s'.put i (.list (ws.map Val.ident))) [.list i vs] [.list i ws] ∧
      Frame s (s'.put i (.list (ws.map Val.ident))) [.list i vs] [] := by
  have hone := hr.once i (by simp [Val.compoundAll, Val.compound])
  simp only [Val.idsAll, Val.ids, List.append_nil, List.count_cons_self] at hone
  have hnot : i ∉ Val.idsAll vs := fun h => by have := List.count_pos_iff.2 h; omega
  have hb : i < s.next := hr.bound i (by simp [Val.idsAll, Val.ids])
  have hnot' : i ∉ Val.idsAll ws := fun h => by
    rcases hv.ids i h with h | h
    · exact hnot h
    · omega
  have huns : i ∉ s.seen := hr.unseen i (by simp [Val.compoundAll, Val.compound])
  refine ⟨⟨hv.next_le, ?_, ?_, ?_, ?_, ?_, ?_⟩, ?_⟩
  · refine ⟨⟨put_same _ _ _, readsAll_frame ws (fun j hj => put_other _ _ (fun e => hnot' (e ▸ hj))) hv.reads⟩, trivial⟩
  · simp [Val.forgetAll, Val.forget, hv.forget]
  · intro j hj
    simp only [Val.idsAll, Val.ids, List.append_nil, List.mem_cons] at *
    rcases hj with hj | hj
    · exact Or.inl (Or.inl hj)
    · exact (hv.ids j hj).imp Or.inr id
  · intro j hj
    simp only [Val.innerIdsAll, Val.innerIds, List.append_nil, List.mem_cons] at *
    rcases hj with hj | hj
    · subst hj; exact Or.inl ⟨Or.inl rfl, huns⟩
    · exact (hv.inner j hj).imp (fun h => ⟨Or.inr h.1, h.2⟩) id
  · simp only [Val.innerIdsAll, Val.innerIds, List.append_nil, List.nodup_cons]
    exact ⟨fun h => hnot' (innerAll_sub_ids ws i h), hv.nodup⟩
  · intro j
    simp only [Val.nodeIdsAll, Val.nodeIds, List.append_nil]
    exact hv.seen j
  · intro j hj hc _
    simp only [Val.compoundAll, Val.compound, List.append_nil, List.mem_cons, not_or] at hc
    rw [put_other _ _ hc.1]
    exact hf j hj hc.2 (by simp)

theorem visit_fields {n : Nat} {visit : UState → Nat → Option (UState × Nat)} (hv : VisitsNodes n visit) {id : Nat} {ty : Str} {ns : List Str} :
    ∀ (vs : List Val) (ds : List Nat) (s : UState), Val.sizes vs ≤ n → Ready s vs → s.store id = .node ty ns (ds ++ vs.map Val.ident) →
    id < s.next → id ∉ Val.idsAll vs →
    ∃ s' ws, visitFieldsIn visit id vs.length ds.length s = some s' ∧ s'.store id = .node ty ns (ds ++ ws.map Val.ident) ∧
      Visited s s' vs ws ∧ Frame s s' vs [id]
  | [], ds, s, _, _, hs, _, _ => ⟨s, [], rfl, hs, visited_nil s, frame_refl _ _ _⟩
  | v :: vs, ds, s, hn, hr, hs, hb, hid => by
    simp only [Val.sizes] at hn
    have hr' : Ready s ([v] ++ vs) := hr
    have hr1 := hr'.left
    simp only [Val.idsAll, List.mem_append, not_or] at hid
    have hget : (ds ++ (v :: vs).map Val.ident)[ds.length]? = some v.ident := by simp
    have step : ∃ s1 w, Visited s s1 [v] [w] ∧ Frame s s1 [v] [id] ∧
        s1.store id = .node ty ns ((ds ++ [w.ident]) ++ vs.map Val.ident) ∧
        visitFieldsIn visit id (v :: vs).length ds.length s = visitFieldsIn visit id vs.length (ds.length + 1) s1 := by
      cases v with
      | const i c =>
        have hsi : s.store i = .const c := hr1.reads.1
        refine ⟨s, .const i c, visited_const hr1, frame_refl _ _ _, by rw [hs]; simp [Val.ident], ?_⟩
        simp only [List.length_cons, visitFieldsIn, hs, hget]
        simp only [Val.ident, hsi]
      | list i items =>
        have hsi : s.store i = .list (items.map Val.ident) := hr1.reads.1.1
        have hfl := hr1.flat
        simp only [Val.flatAll, Val.flat, Bool.and_true, Bool.and_eq_true] at hfl
        have hone := hr1.once
        simp only [Val.compoundAll, Val.compound, Val.idsAll, Val.ids, List.append_nil, List.mem_cons] at hone
        have hri : Ready s items := by
          have h2 := hr1.unseen
          have h3 := hr1.bound
          simp only [Val.compoundAll, Val.compound, Val.idsAll, Val.ids, List.append_nil, List.mem_cons] at h2 h3
          refine ⟨hr1.reads.1.2, fun j hj => ?_, fun j hj => h2 j (Or.inr hj), fun j hj => h3 j (Or.inr hj), hfl.2⟩
          have h4 := hone j (Or.inr hj)
          have h5 := List.count_pos_iff.2 (compoundAll_sub_ids items j hj)
          rw [List.count_cons] at h4
          split at h4 <;> omega
        obtain ⟨s1, ws, e, h1, h2⟩ := visit_items hv items s (by simp only [Val.size] at hn; omega) hri hfl.1
        obtain ⟨h3, h4⟩ := visited_list hr1 h1 h2
        have hne : id ≠ i := by
          intro e; apply hid.1; simp [Val.ids, e]
        have hnid : id ∉ Val.compoundAll items := fun h => hid.1 (by simp only [Val.ids, List.mem_cons]; exact Or.inr (compoundAll_sub_ids items id h))
        refine ⟨s1.put i (.list (ws.map Val.ident)), .list i ws, h3, fun j a b _ => h4 j a b (by simp), ?_, ?_⟩
        · rw [put_other _ _ hne, h2 id hb hnid (by simp), hs]; simp [Val.ident]
        · simp only [List.length_cons, visitFieldsIn, hs, hget]
          simp only [Val.ident, hsi, e]
      | node i t ms ws =>
        have hsi : s.store i = .node t ms (ws.map Val.ident) := hr1.reads.1.1
        obtain ⟨s1, w, e, h1, h2⟩ := hv s i t ms ws (by omega) hr1
        have hnid : id ∉ Val.compoundAll [.node i t ms ws] := fun h => hid.1 (by
          have := compoundAll_sub_ids _ id h
          simpa [Val.idsAll] using this)
        have hs1 : s1.store id = .node ty ns (ds ++ i :: vs.map Val.ident) := by
          rw [h2 id hb hnid (by simp), hs]; rfl
        have hwid : id ∉ Val.idsAll [w] := fun h => by
          rcases h1.ids id h with h | h
          · exact hid.1 (by simpa [Val.idsAll] using h)
          · omega
        refine ⟨s1.put id (.node ty ns ((ds ++ [w.ident]) ++ vs.map Val.ident)), w, ?_, ?_, put_same _ _ _, ?_⟩
        · refine ⟨h1.next_le, ?_, h1.forget, h1.ids, h1.inner, h1.nodup, h1.seen⟩
          exact readsAll_frame _ (fun j hj => put_other _ _ (fun e => hwid (e ▸ hj))) h1.reads
        · intro j a b c
          rw [put_other _ _ (by simpa using c)]
          exact h2 j a b (by simp)
        · simp only [List.length_cons, visitFieldsIn, hs, hget]
          simp only [Val.ident, hsi, e, hs1]
          simp
    obtain ⟨s1, w, h1, h2, h3, h4⟩ := step
    have hx : ∀ i ∈ [id], i ∉ Val.idsAll vs := by simpa using hid.2
    have hr2 := hr'.right h1 h2 hx
    obtain ⟨s2, ws, e, h5, h6, h7⟩ := visit_fields hv vs (ds ++ [w.ident]) s1 (by omega) hr2 h3
      (Nat.lt_of_lt_of_le hb h1.next_le) hid.2
    refine ⟨s2, w :: ws, ?_, by simpa using h5, ?_, Frame.comp h1.next_le h2 h7⟩
    · rw [h4]; simpa using e
    · exact Visited.comp hr' (x := [id]) (by simpa [Val.idsAll] using hid.1) (by simpa using hb) h1 h6 h7

/-- The fields of a node all of whose fields are leaves stay as they are. -/
theorem visit_leaf_fields {visit : UState → Nat → Option (UState × Nat)} {id : Nat} {ty : Str} {ns : List Str} :
    ∀ (vs : List Val) (ds : List Nat) (s : UState), vs.all Val.isConst = true → Val.ReadsAll s.store vs →
    s.store id = .node ty ns (ds ++ vs.map Val.ident) → visitFieldsIn visit id vs.length ds.length s = some s
  | [], _, _, _, _, _ => rfl
  | v :: vs, ds, s, hc, hr, hs => by
    simp only [List.all_cons, Bool.and_eq_true] at hc
    cases v with
    | list _ _ => simp [Val.isConst] at hc
    | node _ _ _ _ => simp [Val.isConst] at hc
    | const i c =>
      have hsi : s.store i = .const c := hr.1
      have hget : (ds ++ (Val.const i c :: vs).map Val.ident)[ds.length]? = some i := by simp [Val.ident]
      simp only [List.length_cons, visitFieldsIn, hs, hget, hsi]
      have := visit_leaf_fields (visit := visit) vs (ds ++ [i]) s hc.2 hr.2 (ty := ty) (ns := ns) (by rw [hs]; simp [Val.ident])
      simpa using this

theorem leaf_ids {vs : List Val} (h : vs.all Val.isConst = true) : Val.innerIdsAll vs = [] ∧ Val.nodeIdsAll vs = [] ∧ Val.compoundAll vs = [] := by
  induction vs with
  | nil => simp [Val.innerIdsAll, Val.nodeIdsAll, Val.compoundAll]
  | cons v vs ih =>
    simp only [List.all_cons, Bool.and_eq_true] at h
    obtain ⟨a, b, c⟩ := ih h.2
    cases v with
    | list _ _ => simp [Val.isConst] at h
    | node _ _ _ _ => simp [Val.isConst] at h
    | const i k => simp [Val.innerIdsAll, Val.nodeIdsAll, Val.compoundAll, Val.innerIds, Val.nodeIds, Val.compound, a, b, c]

theorem unique_visit : ∀ n, VisitsNodes n (uniqueVisit n)
  | 0 => fun s i t ns vs hn _ => by simp [Val.size] at hn
  | n + 1 => fun s i t ns vs hn hr => by
    have ih := unique_visit n
    have hsi : s.store i = .node t ns (vs.map Val.ident) := hr.reads.1.1
    have hb : i < s.next := hr.bound i (by simp [Val.idsAll, Val.ids])
    have hfl := hr.flat
    simp only [Val.flatAll, Val.flat, Bool.and_true] at hfl
    have hunf : uniqueVisit (n + 1) s i = match visitFieldsIn (uniqueVisit n) i vs.length 0 s with
      | none => none
      | some s => if i ∈ s.seen then some ({ s.put s.next (s.store i) with next := s.next + 1 }, s.next)
          else some ({ s with seen := i :: s.seen }, i) := by
      simp only [uniqueVisit, hsi, List.length_map]
      rfl
    by_cases hc : vs.all Val.isConst = true
    · -- a node with leaves only
      obtain ⟨l1, l2, l3⟩ := leaf_ids hc
      have e := visit_leaf_fields (visit := uniqueVisit n) (id := i) vs [] s hc hr.reads.1.2 (by simpa using hsi)
      simp only [List.length_nil] at e
      rw [hunf, e]
      by_cases hs : i ∈ s.seen
      · -- seen before: a copy
        refine ⟨{ s.put s.next (s.store i) with next := s.next + 1 }, .node s.next t ns vs, ?_, ?_, ?_⟩
        · simp only [hs, if_true, Val.ident]
        · refine ⟨Nat.le_succ _, ?_, ?_, ?_, ?_, ?_, ?_⟩
          · refine ⟨⟨by simpa [UState.put] using hsi, ?_⟩, trivial⟩
            refine readsAll_frame vs (fun j hj => ?_) hr.reads.1.2
            have := hr.bound j (by simp [Val.idsAll, Val.ids, hj])
            simp only [UState.put]
            rw [if_neg (by omega)]
          · simp [Val.forgetAll, Val.forget]
          · intro j hj
            simp only [Val.idsAll, Val.ids, List.append_nil, List.mem_cons] at *
            rcases hj with hj | hj
            · exact Or.inr (by omega)
            · exact Or.inl (Or.inr hj)
          · intro j hj
            simp only [Val.innerIdsAll, Val.innerIds, List.append_nil, List.mem_cons, l1, List.not_mem_nil, or_false] at *
            exact Or.inr (by omega)
          · simp [Val.innerIdsAll, Val.innerIds, l1]
          · intro j
            simp only [Val.nodeIdsAll, Val.nodeIds, l2, List.append_nil, List.mem_singleton, UState.put]
            exact ⟨Or.inl, fun h => h.elim id (fun e => e ▸ hs)⟩
        · intro j hj _ _
          simp only [UState.put]
          rw [if_neg (by omega)]
      · refine ⟨{ s with seen := i :: s.seen }, .node i t ns vs, by simp only [hs, if_false, Val.ident], ?_, frame_refl _ _ _⟩
        refine ⟨Nat.le_refl _, hr.reads, rfl, fun j hj => Or.inl hj, ?_, by simp [Val.innerIdsAll, Val.innerIds, l1], ?_⟩
        · intro j hj
          simp only [Val.innerIdsAll, Val.innerIds, List.append_nil, List.mem_cons, l1, List.not_mem_nil, or_false] at *
          exact Or.inl ⟨hj, hj ▸ hs⟩
        · intro j
          simp only [Val.nodeIdsAll, Val.nodeIds, l2, List.append_nil, List.mem_cons, List.not_mem_nil, or_false]
          exact Or.comm
    · -- a node with nodes or lists inside stands in one place
      have hcomp : i ∈ Val.compoundAll [.node i t ns vs] := by simp [Val.compoundAll, Val.compound, hc]
      have hone := hr.once
      simp only [Val.compoundAll, Val.compound, hc, Val.idsAll, Val.ids, List.append_nil] at hone
      have hnot : i ∉ Val.idsAll vs := fun h => by
        have h1 := hone i (by simp)
        have := List.count_pos_iff.2 h
        rw [List.count_cons_self] at h1
        omega
      have huns : i ∉ s.seen := hr.unseen i hcomp
      have hrv : Ready s vs := by
        have h2 := hr.unseen
        have h3 := hr.bound
        simp only [Val.compoundAll, Val.compound, Val.idsAll, Val.ids, List.append_nil, List.mem_cons, List.mem_append] at h2 h3
        refine ⟨hr.reads.1.2, fun j hj => ?_, fun j hj => h2 j (Or.inr hj), fun j hj => h3 j (Or.inr hj), hfl⟩
        have h4 := hone j (by simp [hj])
        have h5 := List.count_pos_iff.2 (compoundAll_sub_ids vs j hj)
        rw [List.count_cons] at h4
        split at h4 <;> omega
      obtain ⟨s1, ws, e, h1, h2, h3⟩ := visit_fields ih (id := i) vs [] s (by simp only [Val.size] at hn; omega) hrv
        (by simpa using hsi) hb hnot
      simp only [List.length_nil, List.nil_append] at e h1
      rw [hunf, e]
      have hs1 : i ∉ s1.seen := by
        rw [h2.seen]
        rintro (h | h)
        · exact huns h
        · exact hnot (nodeAll_sub_ids vs i h)
      have hnot' : i ∉ Val.idsAll ws := fun h => by
        rcases h2.ids i h with h | h
        · exact hnot h
        · omega
      refine ⟨{ s1 with seen := i :: s1.seen }, .node i t ns ws, by simp only [hs1, if_false, Val.ident], ?_, ?_⟩
      · refine ⟨h2.next_le, ⟨⟨h1, h2.reads⟩, trivial⟩, by simp [Val.forgetAll, Val.forget, h2.forget], ?_, ?_, ?_, ?_⟩
        · intro j hj
          simp only [Val.idsAll, Val.ids, List.append_nil, List.mem_cons] at *
          rcases hj with hj | hj
          · exact Or.inl (Or.inl hj)
          · exact (h2.ids j hj).imp Or.inr id
        · intro j hj
          simp only [Val.innerIdsAll, Val.innerIds, List.append_nil, List.mem_cons] at *
          rcases hj with hj | hj
          · subst hj; exact Or.inl ⟨Or.inl rfl, huns⟩
          · exact (h2.inner j hj).imp (fun h => ⟨Or.inr h.1, h.2⟩) id
        · simp only [Val.innerIdsAll, Val.innerIds, List.append_nil, List.nodup_cons]
          exact ⟨fun h => hnot' (innerAll_sub_ids ws i h), h2.nodup⟩
        · intro j
          simp only [Val.nodeIdsAll, Val.nodeIds, List.append_nil, List.mem_cons, h2.seen]
          constructor
          · rintro (h | h | h)
            · exact Or.inr (Or.inl h)
            · exact Or.inl h
            · exact Or.inr (Or.inr h)
          · rintro (h | h | h)
            · exact Or.inr (Or.inl h)
            · exact Or.inl h
            · exact Or.inr (Or.inr h)
      · intro j hj hcj _
        simp only [Val.compoundAll, Val.compound, hc, List.append_nil, List.mem_append, not_or] at hcj
        exact h3 j hj hcj.2 (by simpa using hcj.1)

/-! ### From distinct identities to places -/

theorem mem_innerIdsAll {vs : List Val} {i : Nat} : i ∈ Val.innerIdsAll vs ↔ ∃ v ∈ vs, i ∈ v.innerIds := by
  induction vs with
  | nil => simp [Val.innerIdsAll]
  | cons v vs ih => simp [Val.innerIdsAll, ih]

theorem innerIds_children {v : Val} (h : v.isConst = false) : v.innerIds = v.ident :: Val.innerIdsAll v.children := by
  cases v <;> simp [Val.isConst] at h <;> simp [Val.innerIds, Val.ident, Val.children]

theorem at_inner : ∀ (p : Path) (v w : Val), v.at? p = some w → w.isConst = false → w.ident ∈ v.innerIds
  | [], v, w, h, hc => by
    simp only [Val.at?, Option.some.injEq] at h; subst h
    rw [innerIds_children hc]; simp
  | k :: p, v, w, h, hc => by
    rw [at?_cons] at h
    cases hk : v.children[k]? with
    | none => simp [hk] at h
    | some x =>
      simp only [hk, Option.bind_some] at h
      have h1 := at_inner p x w h hc
      have hx := List.mem_of_getElem? hk
      have hv : v.isConst = false := by
        cases v <;> simp [Val.isConst, Val.children] at *
      rw [innerIds_children hv, List.mem_cons]
      exact Or.inr (mem_innerIdsAll.2 ⟨x, hx, h1⟩)

theorem innerAll_at {vs : List Val} (hn : (Val.innerIdsAll vs).Nodup) : ∀ {k l : Nat} {x y : Val} {i : Nat}, vs[k]? = some x → vs[l]? = some y →
    i ∈ x.innerIds → i ∈ y.innerIds → k = l := by
  induction vs with
  | nil => intro k l x y i h; simp at h
  | cons v vs ih =>
    intro k l x y i hk hl hx hy
    simp only [Val.innerIdsAll, List.nodup_append] at hn
    cases k with
    | zero =>
      cases l with
      | zero => rfl
      | succ l =>
        simp only [List.getElem?_cons_zero, Option.some.injEq, List.getElem?_cons_succ] at hk hl
        subst hk
        exact absurd rfl (hn.2.2 i hx i (mem_innerIdsAll.2 ⟨y, List.mem_of_getElem? hl, hy⟩))
    | succ k =>
      cases l with
      | zero =>
        simp only [List.getElem?_cons_zero, Option.some.injEq, List.getElem?_cons_succ] at hk hl
        subst hl
        exact absurd rfl (hn.2.2 i hy i (mem_innerIdsAll.2 ⟨x, List.mem_of_getElem? hk, hx⟩))
      | succ l =>
        simp only [List.getElem?_cons_succ] at hk hl
        rw [ih hn.2.1 hk hl hx hy]

theorem innerAll_nodup_mem {x : Val} : ∀ {vs : List Val}, (Val.innerIdsAll vs).Nodup → x ∈ vs → x.innerIds.Nodup
  | y :: ys, h, hx => by
    simp only [Val.innerIdsAll, List.nodup_append] at h
    rcases List.mem_cons.1 hx with rfl | hx
    · exact h.1
    · exact innerAll_nodup_mem h.2.1 hx

theorem readsAll_mem {st : Nat → Obj} {x : Val} : ∀ {vs : List Val}, Val.ReadsAll st vs → x ∈ vs → x.Reads st
  | y :: ys, h, hx => by
    rcases List.mem_cons.1 hx with rfl | hx
    · exact h.1
    · exact readsAll_mem h.2 hx

theorem wellShapedAll_mem {x : Val} : ∀ {vs : List Val}, Val.wellShapedAll vs = true → x ∈ vs → x.wellShaped = true
  | y :: ys, h, hx => by
    simp only [Val.wellShapedAll, Bool.and_eq_true] at h
    rcases List.mem_cons.1 hx with rfl | hx
    · exact h.1
    · exact wellShapedAll_mem h.2 hx

theorem innerIds_child_nodup {v x : Val} {k : Nat} (hn : v.innerIds.Nodup) (hk : v.children[k]? = some x) : x.innerIds.Nodup := by
  have hv : v.isConst = false := by
    cases v <;> simp [Val.isConst, Val.children] at *
  rw [innerIds_children hv, List.nodup_cons] at hn
  exact innerAll_nodup_mem hn.2 (List.mem_of_getElem? hk)

theorem place_unique : ∀ (p q : Path) (t v w : Val), t.innerIds.Nodup → t.at? p = some v → t.at? q = some w → v.ident = w.ident →
    v.isConst = false → w.isConst = false → p = q
  | [], [], _, _, _, _, _, _, _, _, _ => rfl
  | [], l :: q, t, v, w, hn, hv, hw, he, hcv, hcw => by
    simp only [Val.at?, Option.some.injEq] at hv; subst hv
    rw [at?_cons] at hw
    cases hl : t.children[l]? with
    | none => simp [hl] at hw
    | some y =>
      simp only [hl, Option.bind_some] at hw
      rw [innerIds_children hcv, List.nodup_cons] at hn
      exact absurd (he ▸ mem_innerIdsAll.2 ⟨y, List.mem_of_getElem? hl, at_inner q y w hw hcw⟩) hn.1
  | k :: p, [], t, v, w, hn, hv, hw, he, hcv, hcw => by
    simp only [Val.at?, Option.some.injEq] at hw; subst hw
    rw [at?_cons] at hv
    cases hl : t.children[k]? with
    | none => simp [hl] at hv
    | some y =>
      simp only [hl, Option.bind_some] at hv
      rw [innerIds_children hcw, List.nodup_cons] at hn
      exact absurd (he ▸ mem_innerIdsAll.2 ⟨y, List.mem_of_getElem? hl, at_inner p y v hv hcv⟩) hn.1
  | k :: p, l :: q, t, v, w, hn, hv, hw, he, hcv, hcw => by
    rw [at?_cons] at hv hw
    cases hk : t.children[k]? with
    | none => simp [hk] at hv
    | some x =>
      cases hl : t.children[l]? with
      | none => simp [hl] at hw
      | some y =>
        simp only [hk, hl, Option.bind_some] at hv hw
        have htc : t.isConst = false := by
          cases t <;> simp [Val.isConst, Val.children] at *
        have hn' := hn
        rw [innerIds_children htc, List.nodup_cons] at hn'
        have : k = l := innerAll_at hn'.2 hk hl (at_inner p x v hv hcv) (he ▸ at_inner q y w hw hcw)
        subst this
        rw [hk] at hl
        simp only [Option.some.injEq] at hl; subst hl
        rw [place_unique p q x v w (innerIds_child_nodup hn hk) hv hw he hcv hcw]

theorem reads_at {st : Nat → Obj} : ∀ (p : Path) (t v : Val), t.Reads st → t.at? p = some v → v.Reads st
  | [], t, v, h, hv => by simp only [Val.at?, Option.some.injEq] at hv; exact hv ▸ h
  | k :: p, t, v, h, hv => by
    rw [at?_cons] at hv
    cases hk : t.children[k]? with
    | none => simp [hk] at hv
    | some x =>
      simp only [hk, Option.bind_some] at hv
      have hall : Val.ReadsAll st t.children := by
        cases t with
        | const i c => simp [Val.children] at hk
        | list i vs => exact h.2
        | node i a b vs => exact h.2
      exact reads_at p x v (readsAll_mem hall (List.mem_of_getElem? hk)) hv

theorem forgetAll_length : ∀ (vs ws : List Val), Val.forgetAll vs = Val.forgetAll ws → vs.length = ws.length
  | [], [], _ => rfl
  | [], _ :: _, h => by simp [Val.forgetAll] at h
  | _ :: _, [], h => by simp [Val.forgetAll] at h
  | v :: vs, w :: ws, h => by
    simp only [Val.forgetAll, List.cons.injEq] at h
    simp [forgetAll_length vs ws h.2]

mutual
theorem wellShaped_forget : ∀ (v w : Val), v.forget = w.forget → v.wellShaped = w.wellShaped
  | .const _ _, .const _ _, _ => rfl
  | .const _ _, .list _ _, h => by simp [Val.forget] at h
  | .const _ _, .node _ _ _ _, h => by simp [Val.forget] at h
  | .list _ _, .const _ _, h => by simp [Val.forget] at h
  | .list _ vs, .list _ ws, h => by
    simp only [Val.forget, Val.list.injEq, true_and] at h
    simp [Val.wellShaped, wellShapedAll_forget vs ws h]
  | .list _ _, .node _ _ _ _, h => by simp [Val.forget] at h
  | .node _ _ _ _, .const _ _, h => by simp [Val.forget] at h
  | .node _ _ _ _, .list _ _, h => by simp [Val.forget] at h
  | .node _ t ns vs, .node _ t' ns' ws, h => by
    simp only [Val.forget, Val.node.injEq, true_and] at h
    obtain ⟨rfl, rfl, h⟩ := h
    simp [Val.wellShaped, wellShapedAll_forget vs ws h, forgetAll_length vs ws h]
theorem wellShapedAll_forget : ∀ (vs ws : List Val), Val.forgetAll vs = Val.forgetAll ws → Val.wellShapedAll vs = Val.wellShapedAll ws
  | [], [], _ => rfl
  | [], _ :: _, h => by simp [Val.forgetAll] at h
  | _ :: _, [], h => by simp [Val.forgetAll] at h
  | v :: vs, w :: ws, h => by
    simp only [Val.forgetAll, List.cons.injEq] at h
    simp [Val.wellShapedAll, wellShaped_forget v w h.1, wellShapedAll_forget vs ws h.2]
end

theorem wellShaped_at : ∀ (p : Path) (t v : Val), t.wellShaped = true → t.at? p = some v → v.wellShaped = true
  | [], t, v, h, hv => by simp only [Val.at?, Option.some.injEq] at hv; exact hv ▸ h
  | k :: p, t, v, h, hv => by
    rw [at?_cons] at hv
    cases hk : t.children[k]? with
    | none => simp [hk] at hv
    | some x =>
      simp only [hk, Option.bind_some] at hv
      have hall : Val.wellShapedAll t.children = true := by
        cases t with
        | const i c => simp [Val.children] at hk
        | list i vs => exact h
        | node i a b vs => simp only [Val.wellShaped, Bool.and_eq_true] at h; exact h.2
      exact wellShaped_at p x v (wellShapedAll_mem hall (List.mem_of_getElem? hk)) hv

theorem unshared_of_reads {st : Nat → Obj} {t : Val} (hr : t.Reads st) (hn : t.innerIds.Nodup) (hs : t.wellShaped = true) : Unshared t := by
  constructor
  · intro p q v w hv hw he hi
    have hcv : v.isConst = false := by
      cases v with
      | const i c => exact absurd rfl (hi i c)
      | list _ _ => rfl
      | node _ _ _ _ => rfl
    have hcw : w.isConst = false := by
      have r1 := reads_at p t v hr hv
      have r2 := reads_at q t w hr hw
      cases w with
      | list _ _ => rfl
      | node _ _ _ _ => rfl
      | const j c =>
        exfalso
        simp only [Val.Reads] at r2
        cases v with
        | const i c => exact hi i c rfl
        | list i vs =>
          simp only [Val.ident] at he; subst he
          rw [Val.Reads] at r1; rw [r1.1] at r2; exact absurd r2 (by simp)
        | node i a b vs =>
          simp only [Val.ident] at he; subst he
          rw [Val.Reads] at r1; rw [r1.1] at r2; exact absurd r2 (by simp)
    exact place_unique p q t v w hn hv hw he hcv hcw
  · intro p i t' ns vs hv
    have := wellShaped_at p t _ hs hv
    simp only [Val.wellShaped, Bool.and_eq_true, decide_eq_true_eq] at this
    exact this.1

/-- C63: what `_uniqueify_distinct_ast` returns, read from the store after it has run, is the same tree up to identities, and every
node and list in it stands in one place. It is asked that the tree's compound objects (lists, and nodes with nodes or lists inside)
stand in one place already, as they do after `ast.parse`; nodes such as `Load()` may be shared in any way. The depth needed is
at most the size of the tree. -/
theorem C63_uniqueify {st : Nat → Obj} {next n : Nat} {tree : Val} {i : Nat} {ty : Str} {ns : List Str} {vs : List Val}
    (ht : tree = .node i ty ns vs) (hreads : tree.Reads st) (hfresh : ∀ j ∈ tree.ids, j < next)
    (honce : ∀ j ∈ tree.compound, tree.ids.count j = 1) (hflat : tree.flat = true) (hshaped : tree.wellShaped = true)
    (hn : tree.size ≤ n) :
    ∃ s' tree', uniqueify n st next tree.ident = some (s', tree'.ident) ∧ tree'.Reads s'.store ∧ tree'.forget = tree.forget ∧ Unshared tree' := by
  subst ht
  have hr : Ready { store := st, next := next } [.node i ty ns vs] := by
    refine ⟨⟨hreads, trivial⟩, ?_, by simp, ?_, ?_⟩
    · simpa [Val.compoundAll, Val.idsAll] using honce
    · simpa [Val.idsAll] using hfresh
    · simpa [Val.flatAll] using hflat
  obtain ⟨s', w, e, h1, _⟩ := unique_visit n _ i ty ns vs hn hr
  have hf : w.forget = (Val.node i ty ns vs).forget := by simpa [Val.forgetAll] using h1.forget
  refine ⟨s', w, e, h1.reads.1, hf, unshared_of_reads h1.reads.1 ?_ ?_⟩
  · simpa [Val.innerIdsAll] using h1.nodup
  · rw [wellShaped_forget _ _ hf]; exact hshaped

end Refex
