import Verif.Spec.Termination
import Verif.Props.BuiltinRules
/- C87: applying the built-in fixers again and again comes to an end. -/
namespace Refex
set_option autoImplicit false

/-! ### Weights -/

/-- The names of attributes that fixers replace. -/
def attrWeight (a : Str) : Nat :=
  if a ∈ [str "utcfromtimestamp", str "utcnow"] then 2
  else if a ∈ [str "assertItemsEqual", str "assertTrue", str "assertFalse", str "assertLen", str "load", str "load_all", str "error"] then 1 else 0

def keywordWeight (a : Str) : Nat := if a = str "default" then 2 else 0

def typeWeight (ty : Str) : Nat := if ty ∈ [str "Not", str "Is", str "IsNot"] then 1 else if ty ∈ [str "ListComp", str "SetComp"] then 2 else 0

def isSetName : Val → Bool
  | .node _ ty ns [.const _ (.str s), _] => decide (ty = str "Name") && decide (ns = [str "id", str "ctx"]) && decide (s = str "set")
  | _ => false

def isSetCode (v : Val) : Bool := decide (v.ty = str "Set") || decide (v.ty = str "SetComp") ||
  match v with
  | .node _ ty ns vs => decide (ty = str "Call") && decide (ns = [str "func", str "args", str "keywords"]) && match vs with | f :: _ => isSetName f | _ => false
  | _ => false

def isNameOrAttr (v : Val) : Bool := decide (v.ty = str "Name" ∨ v.ty = str "Attribute")

def attrPart : List Val → Nat
  | _ :: .const _ (.str a) :: _ => attrWeight a
  | _ => 0

def keywordPart : List Val → Nat
  | .const _ (.str a) :: _ => keywordWeight a
  | _ => 0

def binPart : List Val → Nat
  | _ :: _ :: r :: _ => if isNameOrAttr r then 1 else 0
  | _ => 0

def assignPart : List Val → Nat
  | _ :: v :: _ => if isSetCode v then 2 else 0
  | _ => 0

def ownWeight (ty : Str) (ns : List Str) (vs : List Val) : Nat :=
  if ty = str "Attribute" then (if ns = [str "value", str "attr", str "ctx"] then attrPart vs else 0)
  else if ty = str "keyword" then (if ns = [str "arg", str "value"] then keywordPart vs else 0)
  else if ty = str "BinOp" then (if ns = [str "left", str "op", str "right"] then binPart vs else 0)
  else if ty = str "Assign" then (if ns = [str "targets", str "value", str "type_comment"] then assignPart vs else 0)
  else typeWeight ty

mutual
def weight : Val → Nat
  | .const _ _ => 0
  | .list _ vs => weights vs
  | .node _ ty ns vs => if ty = str "Name" then 1 else ownWeight ty ns vs + fieldWeights vs ns
def weights : List Val → Nat
  | [] => 0
  | v :: vs => weight v + weights vs
def fieldWeights : List Val → List Str → Nat
  | [], _ => 0
  | v :: vs, ns => match ns with
    | [] => 0
    | _ :: ns => weight v + fieldWeights vs ns
end

theorem weights_le : ∀ {ts us : List Val}, ts.length = us.length → (∀ (k : Nat) a b, ts[k]? = some a → us[k]? = some b → weight b ≤ weight a) → weights us ≤ weights ts
  | [], [], _, _ => Nat.le_refl _
  | t :: ts, u :: us, hl, h => by
    rw [weights, weights]
    have h0 := h 0 t u rfl rfl
    have := weights_le (ts := ts) (us := us) (by simpa using hl) fun k a b ha hb => h (k + 1) a b (by simpa using ha) (by simpa using hb)
    omega

theorem weights_lt : ∀ {ts us : List Val} {k : Nat} {t u : Val}, ts.length = us.length → (∀ (k : Nat) a b, ts[k]? = some a → us[k]? = some b → weight b ≤ weight a) →
    ts[k]? = some t → us[k]? = some u → weight u < weight t → weights us < weights ts
  | [], _, k, t, u, _, _, h1, _, _ => by simp at h1
  | _ :: _, [], k, t, u, hl, _, _, _, _ => by simp at hl
  | t :: ts, u :: us, 0, t', u', hl, h, h1, h2, h3 => by
    simp only [List.getElem?_cons_zero, Option.some.injEq] at h1 h2
    subst h1 h2
    rw [weights, weights]
    have := weights_le (ts := ts) (us := us) (by simpa using hl) fun k a b ha hb => h (k + 1) a b (by simpa using ha) (by simpa using hb)
    omega
  | t :: ts, u :: us, k + 1, t', u', hl, h, h1, h2, h3 => by
    rw [weights, weights]
    have h0 := h 0 t u rfl rfl
    have := weights_lt (ts := ts) (us := us) (k := k) (by simpa using hl) (fun k a b ha hb => h (k + 1) a b (by simpa using ha) (by simpa using hb))
      (by simpa using h1) (by simpa using h2) h3
    omega

theorem fieldWeights_le : ∀ {ts us : List Val} {ns : List Str}, ts.length = us.length →
    (∀ (k : Nat) n a b, ns[k]? = some n → ts[k]? = some a → us[k]? = some b → weight b ≤ weight a) → fieldWeights us ns ≤ fieldWeights ts ns
  | [], [], _, _, _ => Nat.le_refl _
  | t :: ts, u :: us, [], _, _ => by rw [fieldWeights, fieldWeights]; exact Nat.le_refl _
  | t :: ts, u :: us, n :: ns, hl, h => by
    rw [fieldWeights, fieldWeights]
    have h0 := h 0 n t u rfl rfl rfl
    have := fieldWeights_le (ts := ts) (us := us) (ns := ns) (by simpa using hl) fun k n a b hn ha hb => h (k + 1) n a b (by simpa using hn) (by simpa using ha) (by simpa using hb)
    show weight u + _ ≤ weight t + _
    omega

theorem fieldWeights_lt : ∀ {ts us : List Val} {ns : List Str} {k : Nat} {n : Str} {t u : Val}, ts.length = us.length →
    (∀ (k : Nat) n a b, ns[k]? = some n → ts[k]? = some a → us[k]? = some b → weight b ≤ weight a) →
    ns[k]? = some n → ts[k]? = some t → us[k]? = some u → weight u < weight t → fieldWeights us ns < fieldWeights ts ns
  | [], _, _, k, n, t, u, _, _, _, h1, _, _ => by simp at h1
  | _ :: _, [], _, k, n, t, u, hl, _, _, _, _, _ => by simp at hl
  | _ :: _, _ :: _, [], k, n, t, u, hl, _, h0, _, _, _ => by simp at h0
  | t :: ts, u :: us, m :: ns, 0, n, t', u', hl, h, _, h1, h2, h3 => by
    simp only [List.getElem?_cons_zero, Option.some.injEq] at h1 h2
    subst h1 h2
    rw [fieldWeights, fieldWeights]
    have := fieldWeights_le (ts := ts) (us := us) (ns := ns) (by simpa using hl) fun k n a b hn ha hb => h (k + 1) n a b (by simpa using hn) (by simpa using ha) (by simpa using hb)
    show weight u + _ < weight t + _
    omega
  | t :: ts, u :: us, m :: ns, k + 1, n, t', u', hl, h, h0, h1, h2, h3 => by
    rw [fieldWeights, fieldWeights]
    have h4 := h 0 m t u rfl rfl rfl
    have := fieldWeights_lt (ts := ts) (us := us) (ns := ns) (k := k) (by simpa using hl)
      (fun k n a b hn ha hb => h (k + 1) n a b (by simpa using hn) (by simpa using ha) (by simpa using hb)) (by simpa using h0) (by simpa using h1) (by simpa using h2) h3
    show weight u + _ < weight t + _
    omega

/-! ### What the surroundings see -/

/-- What a replacement must not become. -/
structure Tame (u u' : Val) : Prop where
  named : isNameOrAttr u' = true → isNameOrAttr u = true
  set : isSetCode u' = true → isSetCode u = true
  setName : isSetName u' = true → isSetName u = true
  text : ∀ i s, u' = .const i (.str s) → ∃ j, u = .const j (.str s)

theorem own_le {ty : Str} {ns : List Str} {ts us : List Val} (hl : ts.length = us.length)
    (h : ∀ (k : Nat) n a b, ns[k]? = some n → ts[k]? = some a → us[k]? = some b → Tame a b) : ownWeight ty ns us ≤ ownWeight ty ns ts := by
  unfold ownWeight
  split
  · split
    · rename_i hns
      match ts, us, hl with
      | [], [], _ => exact Nat.le_refl _
      | [t], [u], _ => simp [attrPart]
      | t :: t1 :: ts, u :: u1 :: us, _ =>
        have h1 := h 1 (str "attr") t1 u1 (by rw [hns]; rfl) rfl rfl
        unfold attrPart
        split
        · rename_i a i s b e
          cases e
          obtain ⟨j, rfl⟩ := h1.text _ _ rfl
          exact Nat.le_refl _
        · omega
    · exact Nat.le_refl _
  split
  · split
    · rename_i hns
      match ts, us, hl with
      | [], [], _ => exact Nat.le_refl _
      | t :: ts, u :: us, _ =>
        have h1 := h 0 (str "arg") t u (by rw [hns]; rfl) rfl rfl
        unfold keywordPart
        split
        · rename_i i s b e
          cases e
          obtain ⟨j, rfl⟩ := h1.text _ _ rfl
          exact Nat.le_refl _
        · omega
    · exact Nat.le_refl _
  split
  · split
    · rename_i hns
      match ts, us, hl with
      | [], [], _ => exact Nat.le_refl _
      | [t], [u], _ => simp [binPart]
      | [t, t1], [u, u1], _ => simp [binPart]
      | t :: t1 :: t2 :: ts, u :: u1 :: u2 :: us, _ =>
        have h1 := h 2 (str "right") t2 u2 (by rw [hns]; rfl) rfl rfl
        simp only [binPart]
        split
        · rename_i e; rw [if_pos (h1.named e)]; exact Nat.le_refl _
        · omega
    · exact Nat.le_refl _
  split
  · split
    · rename_i hns
      match ts, us, hl with
      | [], [], _ => exact Nat.le_refl _
      | [t], [u], _ => simp [assignPart]
      | t :: t1 :: ts, u :: u1 :: us, _ =>
        have h1 := h 1 (str "value") t1 u1 (by rw [hns]; rfl) rfl rfl
        simp only [assignPart]
        split
        · rename_i e; rw [if_pos (h1.set e)]; exact Nat.le_refl _
        · omega
    · exact Nat.le_refl _
  · exact Nat.le_refl _

/-- A node whose parts change tamely changes tamely. -/
theorem tame_node {i j : Nat} {ty : Str} {ns : List Str} {ts us : List Val} (hl : ts.length = us.length)
    (h : ∀ (k : Nat) n a b, ns[k]? = some n → ts[k]? = some a → us[k]? = some b → ¬ (ty = str "Name" ∧ n = str "ctx") → Tame a b) :
    Tame (.node i ty ns ts) (.node j ty ns us) where
  named h := h
  set hs := by
    simp only [isSetCode, Bool.or_eq_true, Bool.and_eq_true] at hs ⊢
    rcases hs with hs | ⟨⟨h1, h2⟩, h3⟩
    · exact .inl hs
    · right
      refine ⟨⟨h1, h2⟩, ?_⟩
      match ts, us, hl with
      | [], [], _ => exact h3
      | t :: ts, u :: us, _ =>
        have hns := of_decide_eq_true h2
        refine (h 0 (str "func") t u (by rw [hns]; rfl) rfl rfl ?_).setName h3
        rintro ⟨_, e⟩
        revert e; decide
  setName hs := by
    unfold isSetName at hs
    split at hs
    · rename_i i' ty' ns' i2 s v e
      cases e
      simp only [Bool.and_eq_true, decide_eq_true_eq] at hs
      obtain ⟨⟨h1, h2⟩, h3⟩ := hs
      match ts, hl with
      | [t, t1], _ =>
        obtain ⟨j', rfl⟩ := (h 0 (str "id") t _ (by rw [h2]; rfl) rfl rfl (by rintro ⟨_, e⟩; revert e; decide)).text _ _ rfl
        simp [isSetName, h1, h2, h3]
    · cases hs
  text i s h := by cases h

theorem eq_of_pyEq_none {c d : Const} (h : d.pyEq c = true) (hd : d.whole? = none) : d = c := by
  unfold Const.pyEq at h
  rw [hd] at h
  exact of_decide_eq_true h

theorem whole_none {j : Nat} {d : Const}
    (hd : (Val.const j d).ty ≠ str "bool" ∧ (Val.const j d).ty ≠ str "int" ∧ (Val.const j d).ty ≠ str "float" ∧ (Val.const j d).ty ≠ str "complex") :
    d.whole? = none := by
  cases d with
  | bool b => exact absurd rfl hd.1
  | int b => exact absurd rfl hd.2.1
  | other t r w => exact if_neg fun h => h.elim hd.2.2.1 hd.2.2.2
  | _ => rfl

theorem const_ty {i j : Nat} {c d : Const} (h : d.pyEq c = true) {t : Str}
    (ht : t ≠ str "bool" ∧ t ≠ str "int" ∧ t ≠ str "float" ∧ t ≠ str "complex") (hd : (Val.const j d).ty = t) : (Val.const i c).ty = t := by
  subst hd
  have e := eq_of_pyEq_none h (whole_none ht)
  subst e
  cases d <;> rfl

theorem sameTree_tame_const {i j : Nat} {c d : Const} (h : d.pyEq c = true) (h' : ∀ k s, Val.const j d = .const k (.str s) → ∃ j, Val.const i c = .const j (.str s)) :
    Tame (.const i c) (.const j d) := by
  refine ⟨fun hs => decide_eq_true ?_, fun hs => ?_, fun h => (by cases h), h'⟩
  · rcases of_decide_eq_true hs with e | e
    · exact .inl (const_ty h (by decide) e)
    · exact .inr (const_ty h (by decide) e)
  · simp only [isSetCode, Bool.or_false, Bool.or_eq_true, decide_eq_true_eq] at hs ⊢
    rcases hs with e | e
    · exact .inl (const_ty h (by decide) e)
    · exact .inr (const_ty h (by decide) e)

theorem sameTree_text {a b : Val} (h : SameTree a b) : ∀ i s, b = .const i (.str s) → ∃ j, a = .const j (.str s) := by
  rintro i s rfl
  cases h with
  | const hp =>
    rename_i j c
    have hp := (eq_of_pyEq_none hp rfl).symm
    subst hp
    exact ⟨j, rfl⟩

theorem sameTree_tame {a b : Val} (h : SameTree a b) : Tame a b := by
  induction h with
  | const hp => exact sameTree_tame_const hp (sameTree_text (.const hp))
  | list hl h _ => exact ⟨fun h => h, fun h => h, fun h => (by cases h), fun _ _ h => (by cases h)⟩
  | node hl h ih => exact tame_node hl fun k n a b h1 h2 h3 h4 => ih k n a b h1 h2 h3 h4

theorem sameTree_weight {a b : Val} (h : SameTree a b) : weight b ≤ weight a := by
  induction h with
  | const _ => rw [weight, weight]; exact Nat.le_refl _
  | list hl _ ih => rw [weight, weight]; exact weights_le hl ih
  | node hl h ih =>
    rename_i i j ty ns ts vs
    rw [weight, weight]
    split
    · exact Nat.le_refl _
    · rename_i hne
      have h1 := own_le (ty := ty) (ns := ns) hl fun k n a b h1 h2 h3 => sameTree_tame (h k n a b h1 h2 h3 fun e => hne e.1)
      have h2 := fieldWeights_le (ns := ns) hl fun k n a b h1 h2 h3 => ih k n a b h1 h2 h3 fun e => hne e.1
      omega

/-! ### The weight of code -/

mutual
def Code.cost : Code → Nat
  | .var _ => 0
  | .name _ => 1
  | .int _ => 0
  | .attr e a => attrWeight a + e.cost
  | .call f as ks => f.cost + (Code.costs as + Code.costs ks)
  | .keyword a e => keywordWeight a + e.cost
  | .compare l op r => l.cost + (weight (.node 0 op [] []) + r.cost)
  | .not e => 1 + e.cost
  | .mod l r => l.cost + r.cost
  | .tuple1 e => e.cost
  | .emptyList => 0
  | .emptyDict => 0
  | .comp _ e t i => 2 + (e.cost + (t.cost + i.cost))
  | .assign t e => t.cost + e.cost
  | .expr e => e.cost
def Code.costs : List Code → Nat
  | [] => 0
  | e :: es => e.cost + Code.costs es
end

mutual
/-- No operators and no assignments. -/
def Code.plain : Code → Bool
  | .attr e _ => e.plain
  | .call f as ks => f.plain && (Code.plains as && Code.plains ks)
  | .keyword _ e => e.plain
  | .compare l _ r => l.plain && r.plain
  | .not e => e.plain
  | .mod _ _ => false
  | .tuple1 e => e.plain
  | .comp _ e t i => e.plain && (t.plain && i.plain)
  | .assign _ _ => false
  | .expr e => e.plain
  | _ => true
def Code.plains : List Code → Bool
  | [] => true
  | e :: es => e.plain && Code.plains es
end

def occWeight (occ : Occs) : Nat := (occ.map fun e => weight e.2).sum

theorem occWeight_append (o o' : Occs) : occWeight (o ++ o') = occWeight o + occWeight o' := by simp [occWeight]

theorem plain_weight {ty : Str} {v : Val} (h : PlainNode ty v) : weight v = weight (.node 0 ty [] []) := by
  obtain ⟨i, rfl⟩ := h
  rw [weight, weight]

theorem single_weight {v w : Val} (h : Single v w) : weight v = weight w := by
  obtain ⟨i, rfl⟩ := h
  rw [weight, weights, weights]; rfl

theorem load_weight : weight (.node 0 (str "Load") [] []) = 0 := by decide +kernel
theorem not_weight : weight (.node 0 (str "Not") [] []) = 1 := by decide +kernel
theorem mod_weight : weight (.node 0 (str "Mod") [] []) = 0 := by decide +kernel

theorem weight_node {i : Nat} {ty : Str} {ns : List Str} {vs : List Val} (h : ty ≠ str "Name") :
    weight (.node i ty ns vs) = ownWeight ty ns vs + fieldWeights vs ns := by rw [weight, if_neg h]

theorem weight_const (i : Nat) (c : Const) : weight (.const i c) = 0 := by rw [weight]

theorem fieldWeights_cons (v : Val) (vs : List Val) (n : Str) (ns : List Str) : fieldWeights (v :: vs) (n :: ns) = weight v + fieldWeights vs ns := by
  rw [fieldWeights]

theorem own_other {ty : Str} (h : ty ∉ [str "Attribute", str "keyword", str "BinOp", str "Assign"]) (ns : List Str) (vs : List Val) : ownWeight ty ns vs = typeWeight ty := by
  simp only [List.mem_cons, List.not_mem_nil, or_false, not_or] at h
  rw [ownWeight, if_neg h.1, if_neg h.2.1, if_neg h.2.2.1, if_neg h.2.2.2]

theorem own_zero {ty : Str} (h : ty ∉ [str "Attribute", str "keyword", str "BinOp", str "Assign"]) (ht : typeWeight ty = 0) (ns : List Str) (vs : List Val) : ownWeight ty ns vs = 0 :=
  (own_other h ns vs).trans ht

theorem own_call {ns : List Str} {vs : List Val} : ownWeight (str "Call") ns vs = 0 := own_zero (by decide) (by decide) ns vs

theorem own_comp (set : Bool) (ns : List Str) (vs : List Val) : ownWeight (if set then str "SetComp" else str "ListComp") ns vs = 2 := by
  rw [own_other (by cases set <;> decide)]; cases set <;> decide

mutual
theorem weight_ge : ∀ (p : Code) {v : Val} {occ : Occs}, p.Reads v occ → p.cost + occWeight occ ≤ weight v
  | .var x, v, occ, h => by cases h; simp [Code.cost, occWeight]
  | .name s, v, occ, h => by cases h; rw [weight, if_pos rfl]; simp [Code.cost, occWeight]
  | .int n, v, occ, h => by cases h; simp [Code.cost, occWeight]
  | .attr e a, v, occ, h => by
    cases h with | attr h hl =>
    have := weight_ge e h
    rw [weight_node (by decide)]
    simp only [fieldWeights_cons, Code.cost, ownWeight, attrPart, if_true]
    omega
  | .call f as ks, v, occ, h => by
    cases h with | call h h1 h2 =>
    have := weight_ge f h
    have := weights_ge as h1
    have := weights_ge ks h2
    rw [weight_node (by decide)]
    simp only [fieldWeights_cons, Code.cost, occWeight_append]
    rw [weight.eq_2, weight.eq_2]
    omega
  | .keyword a e, v, occ, h => by
    cases h with | keyword h =>
    have := weight_ge e h
    rw [weight_node (by decide)]
    simp only [fieldWeights_cons, Code.cost]
    have : ownWeight (str "keyword") = fun ns vs => if ns = [str "arg", str "value"] then keywordPart vs else 0 := by
      funext ns vs; unfold ownWeight; rw [if_neg (by decide), if_pos rfl]
    rw [this]
    simp only [if_true, keywordPart]
    omega
  | .compare l op r, v, occ, h => by
    cases h with | compare h h1 h2 h3 h4 =>
    have := weight_ge l h
    have := weight_ge r h4
    have := single_weight h1
    have := single_weight h3
    have := plain_weight h2
    rw [weight_node (by decide)]
    simp only [fieldWeights_cons, Code.cost, occWeight_append]
    omega
  | .not e, v, occ, h => by
    cases h with | not h1 h =>
    have := weight_ge e h
    have := plain_weight h1
    have := not_weight
    rw [weight_node (by decide)]
    simp only [fieldWeights_cons, Code.cost]
    omega
  | .mod l r, v, occ, h => by
    cases h with | mod h h1 h2 =>
    have := weight_ge l h
    have := weight_ge r h2
    rw [weight_node (by decide)]
    simp only [fieldWeights_cons, Code.cost, occWeight_append]
    omega
  | .tuple1 e, v, occ, h => by
    cases h with | tuple1 h1 h h2 =>
    have := weight_ge e h
    have := single_weight h1
    rw [weight_node (by decide)]
    simp only [fieldWeights_cons, Code.cost]
    omega
  | .emptyList, v, occ, h => by cases h; simp [Code.cost, occWeight]
  | .emptyDict, v, occ, h => by cases h; simp [Code.cost, occWeight]
  | .comp set e t it, v, occ, h => by
    cases h with | comp h h1 h2 h3 h4 =>
    have := weight_ge e h
    have := weight_ge t h2
    have := weight_ge it h3
    have h5 := single_weight h1
    rw [weight_node (by decide)] at h5
    rw [weight_node (by cases set <;> decide)]
    have : ∀ ns vs, ownWeight (if set then str "SetComp" else str "ListComp") ns vs = 2 := own_comp set
    simp only [fieldWeights_cons, Code.cost, occWeight_append, this] at h5 ⊢
    omega
  | .assign t e, v, occ, h => by
    cases h with | assign h1 h2 h3 =>
    have := weight_ge t h2
    have := weight_ge e h3
    have := single_weight h1
    rw [weight_node (by decide)]
    simp only [fieldWeights_cons, Code.cost, occWeight_append]
    omega
  | .expr e, v, occ, h => by
    cases h with | expr h =>
    have := weight_ge e h
    rw [weight_node (by decide)]
    simp only [fieldWeights_cons, Code.cost]
    omega
theorem weights_ge : ∀ (ps : List Code) {vs : List Val} {occ : Occs}, CodesRead ps vs occ → Code.costs ps + occWeight occ ≤ weights vs
  | [], vs, occ, h => by cases h; simp [Code.costs, occWeight]
  | p :: ps, vs, occ, h => by
    cases h with | cons h h1 =>
    have := weight_ge p h
    have := weights_ge ps h1
    simp only [Code.costs, occWeight_append, weights]
    omega
end

theorem fieldWeights_nil (ns : List Str) : fieldWeights [] ns = 0 := by rw [fieldWeights]

theorem own_keyword (ns : List Str) (vs : List Val) : ownWeight (str "keyword") ns vs = if ns = [str "arg", str "value"] then keywordPart vs else 0 := by
  unfold ownWeight; rw [if_neg (by decide), if_pos rfl]

mutual
theorem weight_le : ∀ (p : Code) {v : Val} {occ : Occs}, p.plain = true → p.Reads v occ → weight v ≤ p.cost + occWeight occ
  | .var x, v, occ, _, h => by cases h; simp [Code.cost, occWeight]
  | .name s, v, occ, _, h => by cases h; rw [weight, if_pos rfl]; simp [Code.cost, occWeight]
  | .int n, v, occ, _, h => by
    cases h
    rw [weight_node (by decide)]
    have : ∀ ns vs, ownWeight (str "Constant") ns vs = 0 := own_zero (by decide) (by decide)
    simp only [fieldWeights_cons, fieldWeights_nil, Code.cost, this, weight_const]
    omega
  | .attr e a, v, occ, hp, h => by
    cases h with | attr h hl =>
    have := weight_le e (by simpa [Code.plain] using hp) h
    have := plain_weight hl
    have := load_weight
    rw [weight_node (by decide)]
    simp only [fieldWeights_cons, fieldWeights_nil, Code.cost, ownWeight, attrPart, if_true, weight_const]
    omega
  | .call f as ks, v, occ, hp, h => by
    cases h with | call h h1 h2 =>
    simp only [Code.plain, Bool.and_eq_true] at hp
    have := weight_le f hp.1 h
    have := weights_le' as hp.2.1 h1
    have := weights_le' ks hp.2.2 h2
    rw [weight_node (by decide)]
    simp only [fieldWeights_cons, fieldWeights_nil, Code.cost, occWeight_append, own_call]
    rw [weight.eq_2, weight.eq_2]
    omega
  | .keyword a e, v, occ, hp, h => by
    cases h with | keyword h =>
    have := weight_le e (by simpa [Code.plain] using hp) h
    rw [weight_node (by decide)]
    simp only [fieldWeights_cons, fieldWeights_nil, Code.cost, own_keyword, if_true, keywordPart, weight_const]
    omega
  | .compare l op r, v, occ, hp, h => by
    cases h with | compare h h1 h2 h3 h4 =>
    simp only [Code.plain, Bool.and_eq_true] at hp
    have := weight_le l hp.1 h
    have := weight_le r hp.2 h4
    have := single_weight h1
    have := single_weight h3
    have := plain_weight h2
    rw [weight_node (by decide)]
    have : ∀ ns vs, ownWeight (str "Compare") ns vs = 0 := own_zero (by decide) (by decide)
    simp only [fieldWeights_cons, fieldWeights_nil, Code.cost, occWeight_append, this]
    omega
  | .not e, v, occ, hp, h => by
    cases h with | not h1 h =>
    have := weight_le e (by simpa [Code.plain] using hp) h
    have := plain_weight h1
    have := not_weight
    rw [weight_node (by decide)]
    have : ∀ ns vs, ownWeight (str "UnaryOp") ns vs = 0 := own_zero (by decide) (by decide)
    simp only [fieldWeights_cons, fieldWeights_nil, Code.cost, this]
    omega
  | .mod l r, v, occ, hp, h => by cases hp
  | .tuple1 e, v, occ, hp, h => by
    cases h with | tuple1 h1 h h2 =>
    have := weight_le e (by simpa [Code.plain] using hp) h
    have := single_weight h1
    have := plain_weight h2
    have := load_weight
    rw [weight_node (by decide)]
    have : ∀ ns vs, ownWeight (str "Tuple") ns vs = 0 := own_zero (by decide) (by decide)
    simp only [fieldWeights_cons, fieldWeights_nil, Code.cost, this]
    omega
  | .emptyList, v, occ, _, h => by
    cases h with | emptyList hl =>
    have := plain_weight hl
    have := load_weight
    rw [weight_node (by decide)]
    have : ∀ ns vs, ownWeight (str "List") ns vs = 0 := own_zero (by decide) (by decide)
    simp only [fieldWeights_cons, fieldWeights_nil, Code.cost, this, weight.eq_2, weights]
    omega
  | .emptyDict, v, occ, _, h => by
    cases h
    rw [weight_node (by decide)]
    have : ∀ ns vs, ownWeight (str "Dict") ns vs = 0 := own_zero (by decide) (by decide)
    simp only [fieldWeights_cons, fieldWeights_nil, Code.cost, this, weight.eq_2, weights]
    omega
  | .comp set e t it, v, occ, hp, h => by
    cases h with | comp h h1 h2 h3 h4 =>
    simp only [Code.plain, Bool.and_eq_true] at hp
    have := weight_le e hp.1 h
    have := weight_le t hp.2.1 h2
    have := weight_le it hp.2.2 h3
    have h5 := single_weight h1
    rw [weight_node (by decide)] at h5
    rw [weight_node (by cases set <;> decide)]
    have : ∀ ns vs, ownWeight (if set then str "SetComp" else str "ListComp") ns vs = 2 := own_comp set
    have h6 : ∀ ns vs, ownWeight (str "comprehension") ns vs = 0 := own_zero (by decide) (by decide)
    simp only [fieldWeights_cons, fieldWeights_nil, Code.cost, occWeight_append, this, h6, weight.eq_2, weight_const, weights] at h5 ⊢
    omega
  | .assign t e, v, occ, hp, h => by cases hp
  | .expr e, v, occ, hp, h => by
    cases h with | expr h =>
    have := weight_le e (by simpa [Code.plain] using hp) h
    rw [weight_node (by decide)]
    have : ∀ ns vs, ownWeight (str "Expr") ns vs = 0 := own_zero (by decide) (by decide)
    simp only [fieldWeights_cons, fieldWeights_nil, Code.cost, this]
    omega
theorem weights_le' : ∀ (ps : List Code) {vs : List Val} {occ : Occs}, Code.plains ps = true → CodesRead ps vs occ → weights vs ≤ Code.costs ps + occWeight occ
  | [], vs, occ, _, h => by cases h; simp [Code.costs, occWeight, weights]
  | p :: ps, vs, occ, hp, h => by
    cases h with | cons h h1 =>
    simp only [Code.plains, Bool.and_eq_true] at hp
    have := weight_le p hp.1 h
    have := weights_le' ps hp.2 h1
    simp only [Code.costs, occWeight_append, weights]
    omega
end

/-- Every metavariable occurs at most once in the new code, and then in the old. -/
theorem occWeight_le {occ : Occs} : ∀ {occ' : Occs}, (∀ x, (occ'.map Prod.fst).count x ≤ 1) → (∀ x w', (x, w') ∈ occ' → ∃ w, (x, w) ∈ occ ∧ weight w' ≤ weight w) →
    occWeight occ' ≤ occWeight occ := by
  intro occ'
  induction occ' generalizing occ with
  | nil => intro _ _; simp [occWeight]
  | cons e occ' ih =>
    obtain ⟨x, w'⟩ := e
    intro hc h
    obtain ⟨w, hw, hle⟩ := h x w' (List.mem_cons_self ..)
    have h1 : occWeight occ' ≤ occWeight (occ.filter fun e => decide (e.1 ≠ x)) := by
      refine ih (fun y => ?_) fun y u hy => ?_
      · have := hc y
        rw [List.map_cons, List.count_cons] at this
        omega
      · obtain ⟨w1, h2, h3⟩ := h y u (List.mem_cons_of_mem _ hy)
        refine ⟨w1, List.mem_filter.2 ⟨h2, decide_eq_true ?_⟩, h3⟩
        rintro rfl
        have := hc y
        rw [List.map_cons, List.count_cons_self] at this
        have : 0 < (occ'.map Prod.fst).count y := List.count_pos_iff.2 (List.mem_map_of_mem (f := Prod.fst) hy)
        omega
    have h2 : ∀ (l : Occs), (x, w) ∈ l → weight w + occWeight (l.filter fun e => decide (e.1 ≠ x)) ≤ occWeight l := by
      intro l
      have h0 : ∀ (l : Occs), occWeight (l.filter fun e => decide (e.1 ≠ x)) ≤ occWeight l := by
        intro l
        induction l with
        | nil => simp
        | cons e l ih => rw [List.filter_cons]; split <;> simp only [occWeight, List.map_cons, List.sum_cons] at ih ⊢ <;> omega
      induction l with
      | nil => intro h; cases h
      | cons e l ih =>
        intro hm
        rcases List.mem_cons.1 hm with rfl | hm
        · rw [List.filter_cons_of_neg (by simp)]
          have := h0 l
          simp only [occWeight, List.map_cons, List.sum_cons] at this ⊢
          omega
        · have := ih hm
          rw [List.filter_cons]
          split <;> simp only [occWeight, List.map_cons, List.sum_cons] at this ⊢ <;> omega
    have := h2 occ hw
    simp only [occWeight, List.map_cons, List.sum_cons] at this h1 ⊢
    omega

/-! ### Fixers -/

theorem getLast_mem {occ : Occs} {x : Label} {w : Val} (h : (occ.of x).getLast? = some w) : (x, w) ∈ occ := by
  have h1 := List.mem_of_getLast? h
  obtain ⟨⟨y, u⟩, h2, rfl⟩ := List.mem_map.1 h1
  obtain ⟨h3, h4⟩ := List.mem_filter.1 h2
  have : y = x := by simpa using h4
  subst this
  exact h3

def tameCode : Code → Code → Bool
  | old, .call (.name s) _ _ => decide (s ≠ str "set") || (match old with | .comp true _ _ _ => true | _ => false)
  | _, .call (.attr _ _) _ _ => true
  | _, .compare _ _ _ => true
  | _, .mod _ _ => true
  | _, .assign _ _ => true
  | .attr _ _, .attr _ _ => true
  | _, _ => false

theorem isSetCode_eq (i : Nat) (ty : Str) (ns : List Str) (vs : List Val) : isSetCode (.node i ty ns vs) = (decide (ty = str "Set") || decide (ty = str "SetComp") ||
    (decide (ty = str "Call") && decide (ns = [str "func", str "args", str "keywords"]) && match vs with | f :: _ => isSetName f | _ => false)) := rfl

theorem isSetCode_node {i : Nat} {ty : Str} {ns : List Str} {vs : List Val} (h : ty ∉ [str "Set", str "SetComp", str "Call"]) : isSetCode (.node i ty ns vs) = false := by
  simp only [List.mem_cons, List.not_mem_nil, or_false, not_or] at h
  rw [isSetCode_eq, decide_eq_false h.1, decide_eq_false h.2.1, decide_eq_false h.2.2]
  rfl

theorem isSetCode_call {i : Nat} {f : Val} {vs : List Val} : isSetCode (.node i (str "Call") [str "func", str "args", str "keywords"] (f :: vs)) = isSetName f := by
  rw [isSetCode_eq, decide_eq_false (by decide), decide_eq_false (by decide), decide_eq_true rfl, decide_eq_true rfl]
  simp

theorem isSetName_node {i : Nat} {ty : Str} {ns : List Str} {vs : List Val} (h : ty ≠ str "Name") : isSetName (.node i ty ns vs) = false := by
  unfold isSetName
  split
  · rename_i e
    cases e
    rw [decide_eq_false h]; rfl
  · rfl

theorem isSetName_name {i j : Nat} {s : Str} {ctx : Val} : isSetName (.node i (str "Name") [str "id", str "ctx"] [.const j (.str s), ctx]) = decide (s = str "set") := by
  simp [isSetName]

theorem isNameOrAttr_node {i : Nat} {ty : Str} {ns : List Str} {vs : List Val} (h : ty ∉ [str "Name", str "Attribute"]) : isNameOrAttr (.node i ty ns vs) = false := by
  refine decide_eq_false ?_
  rintro (e | e)
  · exact h (List.mem_cons.2 (.inl e))
  · exact h (List.mem_cons.2 (.inr (List.mem_singleton.2 e)))

/-- A node that nothing around looks at. -/
theorem tame_other {v : Val} {i : Nat} {ty : Str} {ns : List Str} {vs : List Val} (h : ty ∉ [str "Name", str "Attribute"]) (h' : ty ∉ [str "Set", str "SetComp", str "Call"]) :
    Tame v (.node i ty ns vs) where
  named e := by rw [isNameOrAttr_node h] at e; cases e
  set e := by rw [isSetCode_node h'] at e; cases e
  setName e := by rw [isSetName_node fun e => h (by rw [e]; exact List.mem_cons_self ..)] at e; cases e
  text _ _ e := by cases e

theorem tame_call {v : Val} {i : Nat} {f : Val} {vs : List Val} (h : isSetName f = true → isSetCode v = true) :
    Tame v (.node i (str "Call") [str "func", str "args", str "keywords"] (f :: vs)) where
  named e := by rw [isNameOrAttr_node (by decide)] at e; cases e
  set e := by rw [isSetCode_call] at e; exact h e
  setName e := by rw [isSetName_node (by decide)] at e; cases e
  text _ _ e := by cases e

theorem tame_attribute {i i' : Nat} {ns ns' : List Str} {vs vs' : List Val} : Tame (.node i (str "Attribute") ns vs) (.node i' (str "Attribute") ns' vs') where
  named e := e
  set e := by rw [isSetCode_node (by decide)] at e; cases e
  setName e := by rw [isSetName_node (by decide)] at e; cases e
  text _ _ e := by cases e

theorem isSetCode_ty {v : Val} (h : v.ty = str "Set" ∨ v.ty = str "SetComp") : isSetCode v = true := by
  unfold isSetCode
  rcases h with h | h <;> rw [decide_eq_true h] <;> simp

theorem tame_code {old new : Code} {v v' : Val} {occ occ' : Occs} (h : tameCode old new = true) (ho : old.Reads v occ) (hn : new.Reads v' occ') : Tame v v' := by
  unfold tameCode at h
  split at h
  · cases hn with | call hf h1 h2 =>
    cases hf
    refine tame_call fun hs => ?_
    rw [isSetName_name] at hs
    rcases Bool.or_eq_true_iff.1 h with h | h
    · exact absurd (of_decide_eq_true hs) (of_decide_eq_true h)
    · split at h
      · cases ho
        exact isSetCode_ty (.inr rfl)
      · cases h
  · cases hn with | call hf h1 h2 =>
    cases hf
    refine tame_call fun hs => ?_
    rw [isSetName_node (by decide)] at hs
    cases hs
  · cases hn
    exact tame_other (by decide) (by decide)
  · cases hn
    exact tame_other (by decide) (by decide)
  · cases hn
    exact tame_other (by decide) (by decide)
  · cases hn
    cases ho
    exact tame_attribute
  · cases h

theorem builtin_tame : ∀ r ∈ builtinRules, tameCode r.old r.new = true := by decide +kernel

theorem builtin_cost : ∀ r ∈ unittestRules ++ idiomRules ++ datetimeRules ++ (literalRules ++ yamlRules), r.new.plain = true ∧ r.new.cost < r.old.cost := by decide +kernel

theorem builtin_split {r : Rule} (h : r ∈ builtinRules) : r ∈ unittestRules ++ idiomRules ++ datetimeRules ++ (literalRules ++ yamlRules) ∨ r ∈ parensRules ∨ r ∈ constantRules := by
  simp only [builtinRules, List.mem_append] at h ⊢
  grind

theorem own_binop (vs : List Val) : ownWeight (str "BinOp") [str "left", str "op", str "right"] vs = binPart vs := by
  unfold ownWeight; rw [if_neg (by decide), if_neg (by decide), if_pos rfl, if_pos rfl]

theorem own_assign (vs : List Val) : ownWeight (str "Assign") [str "targets", str "value", str "type_comment"] vs = assignPart vs := by
  unfold ownWeight; rw [if_neg (by decide), if_neg (by decide), if_neg (by decide), if_pos rfl, if_pos rfl]

/-- An assignment of a set weighs more. -/
theorem assign_ge {t e : Code} {v : Val} {occ : Occs} (h : (Code.assign t e).Reads v occ) (hs : ∀ u o, e.Reads u o → (∀ x ∈ o, x ∈ occ) → isSetCode u = true) :
    2 + (t.cost + e.cost) + occWeight occ ≤ weight v := by
  cases h with | assign h1 h2 h3 =>
  have := weight_ge t h2
  have := weight_ge e h3
  have := single_weight h1
  rw [weight_node (by decide), own_assign, assignPart, if_pos (hs _ _ h3 fun x hx => List.mem_append_right _ hx)]
  simp only [fieldWeights_cons, occWeight_append]
  omega

theorem frozen_le {x : Label} {v : Val} {occ : Occs} (h : (Code.assign (.var (str "constant")) (.call (.name (str "frozenset")) [.var x] [])).Reads v occ) :
    weight v ≤ 1 + occWeight occ := by
  cases h with | assign h1 h2 h3 =>
  have a := weight_le _ rfl h2
  have b := weight_le _ rfl h3
  have := single_weight h1
  rw [weight_node (by decide), own_assign, assignPart]
  have : ∀ {u : Val} {o : Occs}, (Code.call (.name (str "frozenset")) [.var x] []).Reads u o → isSetCode u = false := by
    intro u o h
    cases h with | call h _ _ =>
    cases h
    rw [isSetCode_call, isSetName_name]; decide
  rw [if_neg (by rw [this h3]; decide)]
  simp only [fieldWeights_cons, fieldWeights_nil, occWeight_append, weight_const, Code.cost, Code.costs] at a b ⊢
  omega

section

variable {digit : Char → Prop} {c : Ctx} {ss : List TopStmt}

theorem rule_decreases {r : Rule} {v v' : Val} {occ occ' : Occs} (hr : r ∈ builtinRules) (h : r.Shows digit c ss v occ) (hn : r.new.Reads v' occ')
    (hs : ∀ x w', (x, w') ∈ occ' → ∃ w, (occ.of x).getLast? = some w ∧ SameTree w w') : weight v' < weight v := by
  have ho : occWeight occ' ≤ occWeight occ := by
    refine occWeight_le (fun x => ?_) fun x w' hx => ?_
    · rw [reads_vars _ hn]
      exact count_le_of (builtin_once r hr) x
    · obtain ⟨w, h1, h2⟩ := hs x w' hx
      exact ⟨w, getLast_mem h1, sameTree_weight h2⟩
  rcases builtin_split hr with h1 | h1 | h1
  · obtain ⟨hp, hc⟩ := builtin_cost r h1
    have := weight_ge _ h.reads
    have := weight_le _ hp hn
    omega
  · have e := List.mem_singleton.1 h1
    have ha := h.allowed
    have hv := h.reads
    rw [e] at hv hn ha
    have hv : (Code.mod vA vB).Reads v occ := hv
    have hn : (Code.mod vA (.tuple1 vB)).Reads v' occ' := hn
    cases hv with | mod a1 a2 a3 =>
    cases hn with | mod b1 b2 b3 =>
    have c1 := weight_ge _ a1
    have c2 := weight_ge _ a3
    have d1 := weight_le _ rfl b1
    have d2 := weight_le _ rfl b3
    have d3 := plain_weight b2
    have d4 := mod_weight
    rw [weight_node (by decide), weight_node (by decide), own_binop, own_binop, binPart, binPart]
    rename_i i1 lv1 op1 rv1 q1 q2 i2 lv2 op2 rv2 q3 q4
    have e1 : isNameOrAttr rv1 = true := by
      cases a3
      have := ha (str "b") _ (List.mem_append_right _ (List.mem_singleton.2 rfl)) .nameOrAttribute (by decide)
      exact decide_eq_true this.symm
    rw [if_pos e1]
    have e2 : ∀ {u : Val} {o : Occs}, (Code.tuple1 vB).Reads u o → isNameOrAttr u = false := by
      intro u o h
      cases h
      exact isNameOrAttr_node (by decide)
    rw [if_neg (by rw [e2 b3]; decide)]
    simp only [fieldWeights_cons, fieldWeights_nil, occWeight_append, Code.cost, vA, vB] at *
    omega
  · have ha := h.allowed
    have hv := h.reads
    simp only [constantRules, List.mem_cons, List.not_mem_nil, or_false] at h1
    rcases h1 with e | e | e
    · rw [e] at hv hn ha
      have c1 := assign_ge (t := .var (str "constant")) (e := .var (str "set")) hv fun u o hu ho => by
        cases hu
        exact isSetCode_ty (.inl (ha (str "set") _ (ho _ (List.mem_singleton.2 rfl)) .set (by decide)))
      have c2 := frozen_le hn
      omega
    · rw [e] at hv hn ha
      have c1 := assign_ge (t := .var (str "constant")) (e := .var (str "setcomp")) hv fun u o hu ho => by
        cases hu
        exact isSetCode_ty (.inr (ha (str "setcomp") _ (ho _ (List.mem_singleton.2 rfl)) .setComp (by decide)))
      have c2 := frozen_le hn
      omega
    · rw [e] at hv hn ha
      have c1 := assign_ge (t := .var (str "constant")) (e := .call (.name (str "set")) [.var (str "iterable")] []) hv fun u o hu ho => by
        cases hu with | call hf _ _ =>
        cases hf
        rw [isSetCode_call, isSetName_name]; decide
      have c2 := frozen_le hn
      omega

theorem reads_children : ∀ {p : Code} {v : Val} {occ : Occs}, p.Reads v occ → (∀ x, p ≠ .var x) → v.children ≠ []
  | _, _, _, .var, h => absurd rfl (h _)
  | _, _, _, .name, _ => by intro h; cases h
  | _, _, _, .int _, _ => by intro h; cases h
  | _, _, _, .attr _ _, _ => by intro h; cases h
  | _, _, _, .call _ _ _, _ => by intro h; cases h
  | _, _, _, .keyword _, _ => by intro h; cases h
  | _, _, _, .compare _ _ _ _ _, _ => by intro h; cases h
  | _, _, _, .not _ _, _ => by intro h; cases h
  | _, _, _, .mod _ _ _, _ => by intro h; cases h
  | _, _, _, .tuple1 _ _ _, _ => by intro h; cases h
  | _, _, _, .emptyList _, _ => by intro h; cases h
  | _, _, _, .emptyDict, _ => by intro h; cases h
  | _, _, _, .comp _ _ _ _ _, _ => by intro h; cases h
  | _, _, _, .assign _ _ _, _ => by intro h; cases h
  | _, _, _, .expr _, _ => by intro h; cases h

def Code.isVar : Code → Bool
  | .var _ => true
  | _ => false

theorem builtin_notVar : ∀ r ∈ builtinRules, r.old.isVar = false := by decide +kernel

/-- What a fixer does makes the code lighter. -/
theorem fixes_decreases {p : Path} {v v' : Val} (h : Fixes digit c ss p v v') : weight v' < weight v ∧ Tame v v' ∧ v.children ≠ [] := by
  cases h with
  | rule hr _ hsh hn hs =>
    refine ⟨rule_decreases hr hsh hn hs, tame_code (builtin_tame _ hr) hsh.reads hn, reads_children hsh.reads fun x e => ?_⟩
    have := builtin_notVar _ hr
    rw [e] at this
    cases this
  | attrib hd hnew h3 hk h5 hr =>
    rename_i p q w i d text new
    obtain ⟨f, args, kws, _, _, pre, post, _, ⟨value, ⟨i1, j1, rfl⟩, _⟩, _⟩ := hk
    have hw : weight v' = 1 ∧ ∃ i1 j1 u, v' = .node i1 (str "keyword") [str "arg", str "value"] [.const j1 (.str (str "factory")), u] := by
      have : ∃ s, new = .keyword (str "factory") (.name s) := by
        have := List.mem_of_getElem? hnew
        simp only [attribFactory, List.mem_cons, List.not_mem_nil, or_false] at this
        rcases this with rfl | rfl | rfl <;> exact ⟨_, rfl⟩
      obtain ⟨s, rfl⟩ := this
      have h1 := weight_le _ rfl hr
      have h2 := weight_ge _ hr
      cases hr
      have e : (Code.keyword (str "factory") (.name s)).cost = 1 := by
        simp only [Code.cost]
        have : keywordWeight (str "factory") = 0 := by decide
        omega
      simp only [e, occWeight, List.map_nil, List.sum_nil] at h1 h2
      exact ⟨by omega, _, _, _, rfl⟩
    obtain ⟨hw, i2, j2, u, rfl⟩ := hw
    refine ⟨?_, tame_other (by decide) (by decide), by intro h; cases h⟩
    rw [hw, weight_node (by decide), own_keyword, if_pos rfl, keywordPart]
    have : keywordWeight (str "default") = 2 := by decide
    omega
  | loggingError _ hl hr =>
    obtain ⟨args, kws, _, h1, _⟩ := hl
    refine ⟨?_, ?_, reads_children h1 fun x e => by cases e⟩
    · have a := weight_ge _ h1
      have b := weight_le _ rfl hr
      have e1 : (Code.attr (.name (str "logging")) (str "error")).cost = 2 := by decide +kernel
      have e2 : (Code.attr (.name (str "logging")) (str "exception")).cost = 1 := by decide +kernel
      simp only [e1, e2, occWeight, List.map_nil, List.sum_nil] at a b
      omega
    · cases h1
      cases hr
      exact tame_attribute
  | loggingException h3 hl hv hc hf ht =>
    rename_i a f s i call func arg
    obtain ⟨h1, h2, _⟩ := hl
    subst hv
    obtain ⟨i1, j1, k1, rfl⟩ := hc
    obtain ⟨i2, j2, k2, s2, rfl⟩ := ht
    refine ⟨?_, tame_other (by decide) (by decide), reads_children h1 fun x e => by cases e⟩
    have c1 := weight_ge _ h1
    have e1 : (Code.expr (.call (.attr (.name (str "logging")) (str "exception")) [.var (str "arg")] [])).cost = 1 := by decide +kernel
    have e2 : (Code.attr (.name (str "logging")) (str "exception")).cost = 1 := by decide +kernel
    have c2 := weight_le _ rfl hf
    have c3 : weight a = 1 := by
      obtain ⟨i3, j3, ctx, rfl⟩ := h2
      rw [weight, if_pos rfl]
    simp only [e1, e2, occWeight, List.map_nil, List.sum_nil, List.map_cons, List.sum_cons, c3] at c1 c2
    rw [weight_node (by decide), own_zero (by decide) (by decide), fieldWeights_cons, weight_node (by decide), own_call]
    simp only [fieldWeights_cons, fieldWeights_nil, weight.eq_2, weights]
    rw [weight_node (by decide), own_zero (by decide) (by decide)]
    simp only [fieldWeights_cons, fieldWeights_nil, weight_const]
    omega

theorem rewritten_at {v v' : Val} {p : Path} {t t' : Val} (h : RewrittenAt v v' p t t') : t.at? p = some v := by
  induction h with
  | here => rfl
  | list hl h1 h2 h3 h4 ih => rw [at?_cons, Val.children, h1]; exact ih
  | node hl h0 h1 h2 h3 h4 ih => rw [at?_cons, Val.children, h1]; exact ih

theorem simpleNames_child {t u : Val} {k : Nat} (h : SimpleNames t) (hk : t.children[k]? = some u) : SimpleNames u := by
  intro p q w x hp hty hq hne
  refine h (k :: p) q w x ?_ hty hq hne
  rw [at?_cons, hk]
  exact hp

theorem rewritten_decreases {v v' : Val} {p : Path} {t t' : Val} (h : RewrittenAt v v' p t t') (hn : SimpleNames t) (hw : weight v' < weight v) (ht : Tame v v')
    (hc : v.children ≠ []) : weight t' < weight t ∧ Tame t t' := by
  induction h with
  | here => exact ⟨hw, ht⟩
  | list hl h1 h2 h3 h4 ih =>
    rename_i i j k p t u ts us
    have := ih (simpleNames_child (k := k) hn h1)
    refine ⟨?_, ⟨fun h => h, fun h => h, fun h => (by cases h), fun _ _ h => (by cases h)⟩⟩
    rw [weight, weight]
    refine weights_lt hl (fun l a b ha hb => ?_) h1 h2 this.1
    by_cases hlk : l = k
    · subst hlk
      rw [h1] at ha
      rw [h2] at hb
      cases ha
      cases hb
      exact Nat.le_of_lt this.1
    · exact sameTree_weight (h4 l a b hlk ha hb)
  | node hl h0 h1 h2 h3 h4 ih =>
    rename_i i j ty ns n k p t u ts us
    have := ih (simpleNames_child (k := k) hn h1)
    have hne : ty ≠ str "Name" := by
      rintro rfl
      refine hc (hn [] (k :: p) _ v rfl rfl ?_ (by intro h; cases h))
      rw [at?_cons, Val.children, h1]
      exact rewritten_at h3
    have htame : ∀ (l : Nat) n a b, ns[l]? = some n → ts[l]? = some a → us[l]? = some b → Tame a b := by
      intro l n a b _ ha hb
      by_cases hlk : l = k
      · subst hlk
        rw [h1] at ha
        rw [h2] at hb
        cases ha
        cases hb
        exact this.2
      · exact sameTree_tame (h4 l a b hlk ha hb)
    refine ⟨?_, tame_node hl fun l n a b h1 h2 h3 _ => htame l n a b h1 h2 h3⟩
    rw [weight_node hne, weight_node hne]
    have a1 := own_le (ty := ty) hl htame
    have a2 := fieldWeights_lt (ns := ns) hl (fun l n a b _ ha hb => by
      by_cases hlk : l = k
      · subst hlk
        rw [h1] at ha
        rw [h2] at hb
        cases ha
        cases hb
        exact Nat.le_of_lt this.1
      · exact sameTree_weight (h4 l a b hlk ha hb)) h0 h1 h2 this.1
    omega

end

theorem fixStep_decreases {digit : Char → Prop} {t t' : Val} (hn : SimpleNames t) (h : FixStep digit t t') : weight t' < weight t := by
  obtain ⟨c, ss, p, v, v', _, hf, hr⟩ := h
  obtain ⟨h1, h2, h3⟩ := fixes_decreases hf
  exact (rewritten_decreases hr hn h1 h2 h3).1

theorem own_le_two (ty : Str) (ns : List Str) (vs : List Val) : ownWeight ty ns vs ≤ 2 := by
  have h1 : ∀ a, attrWeight a ≤ 2 := by intro a; unfold attrWeight; split <;> (try split) <;> omega
  have h2 : ∀ a, keywordWeight a ≤ 2 := by intro a; unfold keywordWeight; split <;> omega
  have h3 : typeWeight ty ≤ 2 := by unfold typeWeight; split <;> (try split) <;> omega
  have h4 : attrPart vs ≤ 2 := by unfold attrPart; split; exact h1 _; omega
  have h5 : keywordPart vs ≤ 2 := by unfold keywordPart; split; exact h2 _; omega
  have h6 : binPart vs ≤ 2 := by unfold binPart; split; split <;> omega; omega
  have h7 : assignPart vs ≤ 2 := by unfold assignPart; split; split <;> omega; omega
  unfold ownWeight
  repeat' split
  all_goals first | assumption | omega

mutual
theorem weight_size : ∀ (v : Val), weight v ≤ 2 * v.size
  | .const _ _ => by rw [weight]; omega
  | .list _ vs => by
    have := weights_size vs
    rw [weight, Val.size]; omega
  | .node _ ty ns vs => by
    have := fieldWeights_size vs ns
    have := own_le_two ty ns vs
    rw [weight, Val.size]
    split <;> omega
theorem weights_size : ∀ (vs : List Val), weights vs ≤ 2 * Val.sizes vs
  | [] => by rw [weights]; omega
  | v :: vs => by
    have := weight_size v
    have := weights_size vs
    rw [weights, Val.sizes]; omega
theorem fieldWeights_size : ∀ (vs : List Val) (ns : List Str), fieldWeights vs ns ≤ 2 * Val.sizes vs
  | [], _ => by rw [fieldWeights]; omega
  | v :: vs, [] => by rw [fieldWeights]; omega
  | v :: vs, n :: ns => by
    have := weight_size v
    have := fieldWeights_size vs ns
    rw [fieldWeights_cons, Val.sizes]; omega
end

/-- C87: applying the built-in fixers one after the other, anywhere in the file and in any order, comes to an end: after at most twice as
many applications as the file has objects in its tree, none applies any more. -/
theorem C87_bound {digit : Char → Prop} {n : Nat} {t t' : Val} (h : FixSteps digit n t t') : n ≤ 2 * t.size := by
  have : ∀ {n t t'}, FixSteps digit n t t' → n + weight t' ≤ weight t := by
    intro n t t' h
    induction h with
    | none => omega
    | more hn hs _ ih =>
      have := fixStep_decreases hn hs
      omega
  have h1 := this h
  have h2 := weight_size t
  omega

/-- C87: no sequence of applications goes on for ever. -/
theorem C87_terminates {digit : Char → Prop} (f : Nat → Val) (hn : ∀ k, SimpleNames (f k)) : ¬ ∀ k, FixStep digit (f k) (f (k + 1)) := by
  intro h
  have : ∀ k, weight (f k) + k ≤ weight (f 0) := by
    intro k
    induction k with
    | zero => omega
    | succ k ih =>
      have := fixStep_decreases (hn k) (h k)
      omega
  have := this (weight (f 0) + 1)
  omega

/-- C87: such an application is what a rule of the program does: what it puts in the place of a match is, when it is parsed, what
`Fixes` says (if the code that stands for the metavariables has a place in the file). -/
theorem C87_rule {mangle : Label → Str} {g : Grammar} {c : Ctx} {env : Env} {ss : List TopStmt} {digit : Char → Prop}
    {r : Rule} (hr : r ∈ builtinRules) (hmo : Mangles mangle r.old) (hmn : Mangles mangle r.new) (hg : PythonGrammar g)
    (hrx : RegexFits digit c) (hss : FileTree c.tree ss) {n m : Nat} {penv : PyEnv} (henv : penv.Fits g) {t : PyTemplate}
    (ht : t.astMatcher = r.kind.template.matcher (r.new.pattern mangle []))
    {b : Bool} {p : Path} {v : Val} (hp : c.tree.at? p = some v) (hv : Parsed g b v) (hn : 2 * (r.old.val mangle).size + 9 ≤ n) {ks ks' : List Key} {mi : MatchInfo}
    (hrun : run c n env (r.fixer mangle).matcher v ks = .ok (some mi, ks'))
    {ms : Dict Label PyMatch} (hw : ms.WF) (hms : ∀ x bd, mi.bindings.get? x = some bd → ∃ pm, ms.get? x = some pm ∧ pm.obj = bd.value)
    {text : Str} (h : t.substituteMatch m penv (some c) mi.obj ms = .ok text)
    (hloc : ∀ occ x w, r.old.Reads v occ → (x, w) ∈ occ → ∃ sp, createMatch c w = .lexical w sp ∧ penv.isExpr w = true ∧ Parsed g false w) :
    ∃ replacement cc v', (text = replacement ∨ text = str "(" ++ replacement ++ str ")") ∧
      penv.parse replacement = some cc ∧ r.kind.template.Part cc.tree v' ∧ Fixes digit c ss p v v' := by
  obtain ⟨replacement, cc, occ, e, occ', h1, h2, h3, h4, h5, h6⟩ := C81_replaces hr hmo hmn hg hrx hss henv ht hv hn hrun hw hms h
  refine ⟨replacement, cc, e, h1, h2, h3, .rule hr hp h4 h5 fun x w' hx => ?_⟩
  obtain ⟨w, hw, hs⟩ := h6 x w' hx
  obtain ⟨sp, k1, k2, k3⟩ := hloc occ x w h4.reads (getLast_mem hw)
  exact ⟨w, hw, hs w sp k1 k2 k3⟩

end Refex
