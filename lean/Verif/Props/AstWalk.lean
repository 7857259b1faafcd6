import Verif.Spec.AstWalk
import Verif.Props.AstEq
import Verif.Props.MatcherSem
/- C46: the exact outcome of `ast_equivalent`. -/
namespace Refex
set_option autoImplicit false

theorem astEqLoop_skip_all (ps rest : List (Val × Val)) (h : ∀ p ∈ ps, ∀ rest, astEqLoop (p :: rest) = astEqLoop rest) :
    astEqLoop (ps ++ rest) = astEqLoop rest := by
  induction ps with
  | nil => rfl
  | cons p ps ih => rw [List.cons_append, h p (by simp), ih (fun q hq => h q (by simp [hq]))]

theorem astEqLoop_stop_at (ps rest : List (Val × Val)) (k : Nat) (p : Val × Val) (r : Bool) (hk : ps[k]? = some p)
    (hb : ∀ (m : Nat) q, m < k → ps[m]? = some q → ∀ rest, astEqLoop (q :: rest) = astEqLoop rest)
    (hp : ∀ rest, astEqLoop (p :: rest) = r) : astEqLoop (ps ++ rest) = r := by
  induction ps generalizing k with
  | nil => simp at hk
  | cons q ps ih =>
    cases k with
    | zero => simp at hk; subst hk; exact hp _
    | succ k =>
      rw [List.cons_append, hb 0 q (by omega) rfl]
      exact ih k (by simpa using hk) (fun m q' hm hq => hb (m + 1) q' (by omega) (by simpa using hq))

theorem zip_index {α β : Type} {l : List α} {r : List β} {k : Nat} {p : α × β} :
    (l.zip r)[k]? = some p ↔ l[k]? = some p.1 ∧ r[k]? = some p.2 := by
  rw [List.getElem?_zip_eq_some]

theorem loop_value_eq {a b : Val} (hn : a.isNode = false ∨ b.isNode = false) (rest : List (Val × Val)) :
    astEqLoop ((a, b) :: rest) = if a.pyEq b then astEqLoop rest else false := by
  rw [astEqLoop]
  intro _ _ _ _ _ _ _ _ h1 h2
  subst h1 h2
  simp [Val.isNode] at hn

theorem conforms_node_child {fields : Str → List Str} {i : Nat} {t : Str} {ns : List Str} {vs : List Val} {k : Nat} {v : Val}
    (h : Conforms fields (.node i t ns vs)) (hk : vs[k]? = some v) : Conforms fields v := by
  cases h with
  | node _ _ _ _ h => exact h v (List.mem_of_getElem? hk)

theorem loop_node_same {fields : Str → List Str} {i j : Nat} {t : Str} {ns ns' : List Str} {vs ws : List Val}
    (ha : Conforms fields (.node i t ns vs)) (hb : Conforms fields (.node j t ns' ws)) (rest : List (Val × Val)) :
    astEqLoop ((.node i t ns vs, .node j t ns' ws) :: rest) = astEqLoop (vs.zip ws ++ rest) := by
  rw [astEqLoop]
  simp only [if_true]
  rw [(conforms_pairs ha hb).2.2]

theorem sameWalk_loop {fields : Str → List Str} {a b : Val} (h : SameWalk a b) :
    Conforms fields a → Conforms fields b → ∀ rest, astEqLoop ((a, b) :: rest) = astEqLoop rest := by
  induction h with
  | value hn he => intro _ _ rest; rw [loop_value_eq hn, if_pos ((pyEq_iff _ _).2 he)]
  | node hl hc ih =>
    intro ha hb rest
    rw [loop_node_same ha hb]
    refine astEqLoop_skip_all _ _ ?_
    intro p hp
    obtain ⟨k, h1, h2⟩ := zip_mem_index hp
    exact ih k p.1 p.2 h1 h2 (conforms_node_child ha h1) (conforms_node_child hb h2)

theorem firstDiff_loop {fields : Str → List Str} {x y a b : Val} (h : FirstDiff x y a b) :
    Conforms fields a → Conforms fields b → ∀ rest, astEqLoop ((a, b) :: rest) = (isExprContext x && isExprContext y) := by
  induction h with
  | types h1 h2 h3 =>
    intro _ _ rest
    cases x with
    | const i c => cases h1
    | list i vs => cases h1
    | node i t ns vs =>
      cases y with
      | const j c => cases h2
      | list j ws => cases h2
      | node j t' ns' ws =>
        have hne : ¬ t = t' := h3
        rw [astEqLoop]
        simp only [hne, if_false]
  | value hn he =>
    intro _ _ rest
    rw [loop_value_eq hn, if_neg (fun h => he ((pyEq_iff _ _).1 h))]
    cases x <;> cases y <;> simp_all [Val.isNode, isExprContext]
  | field k h1 h2 hb _ ih =>
    intro ca cb rest
    rw [loop_node_same ca cb]
    refine astEqLoop_stop_at _ _ k (_, _) _ (zip_index.2 ⟨h1, h2⟩) ?_ (ih (conforms_node_child ca h1) (conforms_node_child cb h2))
    intro m q hm hq
    obtain ⟨q1, q2⟩ := zip_index.1 hq
    exact sameWalk_loop (hb m q.1 q.2 hm q1 q2) (conforms_node_child ca q1) (conforms_node_child cb q2)

theorem first_failure {P : Nat → Prop} (n : Nat) (h : ∃ k, k < n ∧ ¬ P k) : ∃ k, k < n ∧ ¬ P k ∧ ∀ m, m < k → P m := by
  induction n with
  | zero => obtain ⟨k, hk, _⟩ := h; omega
  | succ n ih =>
    rcases Classical.em (∃ k, k < n ∧ ¬ P k) with h' | h'
    · obtain ⟨k, a, b, c⟩ := ih h'; exact ⟨k, by omega, b, c⟩
    · obtain ⟨k, a, b⟩ := h
      have hk : k = n := by
        apply Classical.byContradiction; intro hne; exact h' ⟨k, by omega, b⟩
      subst hk
      exact ⟨k, a, b, fun m hm => Classical.byContradiction (fun hp => h' ⟨m, hm, hp⟩)⟩

theorem size_of_index {vs : List Val} {k : Nat} {v : Val} (h : vs[k]? = some v) : v.size ≤ Val.sizes vs := by
  induction vs generalizing k with
  | nil => simp at h
  | cons w vs ih =>
    simp only [Val.sizes]
    cases k with
    | zero => simp at h; subst h; omega
    | succ k => have := ih (k := k) (by simpa using h); omega

/-- The walk either finds no difference or has a first one. -/
theorem walk_total {fields : Str → List Str} (n : Nat) : ∀ a b : Val, a.size ≤ n → Conforms fields a → Conforms fields b →
    SameWalk a b ∨ ∃ x y, FirstDiff x y a b := by
  induction n with
  | zero => intro a b h; have := Val.size_pos a; omega
  | succ n ih =>
    intro a b hs ha hb
    rcases Classical.em (a.isNode = false ∨ b.isNode = false) with hn | hn
    · rcases Classical.em (PyEqual a b) with he | he
      · exact Or.inl (.value hn he)
      · exact Or.inr ⟨a, b, .value hn he⟩
    · cases a with
      | const i c => simp [Val.isNode] at hn
      | list i vs => simp [Val.isNode] at hn
      | node i t ns vs =>
        cases b with
        | const j c => simp [Val.isNode] at hn
        | list j ws => simp [Val.isNode] at hn
        | node j t' ns' ws =>
          by_cases ht : t = t'
          · subst ht
            obtain ⟨_, hl, _⟩ := conforms_pairs ha hb
            rcases Classical.em (∃ k, k < vs.length ∧ ¬ (∀ v w, vs[k]? = some v → ws[k]? = some w → SameWalk v w)) with h | h
            · obtain ⟨k, hk, hf, hm⟩ := first_failure _ h
              right
              have e1 : vs[k]? = some vs[k] := List.getElem?_eq_getElem hk
              have e2 : ws[k]? = some (ws[k]'(by omega)) := List.getElem?_eq_getElem (by omega)
              have := size_of_index e1
              rcases ih vs[k] (ws[k]'(by omega)) (by simp [Val.size] at hs; omega) (conforms_node_child ha e1) (conforms_node_child hb e2) with h' | ⟨x, y, h'⟩
              · exact absurd (fun v w a b => by rw [e1] at a; rw [e2] at b; cases a; cases b; exact h') hf
              · exact ⟨x, y, .field k e1 e2 (fun m v w hlt a b => hm m hlt v w a b) h'⟩
            · left
              refine .node hl ?_
              intro k v w a b
              apply Classical.byContradiction
              intro hc
              refine h ⟨k, ?_, fun hh => hc (hh v w a b)⟩
              exact (List.getElem?_eq_some_iff.1 a).1
          · exact Or.inr ⟨_, _, .types rfl rfl ht⟩

/-- **C46**: what counts as an expression context. -/
theorem C46_contexts (v : Val) : isExprContext v = true ↔ IsContext v := by
  cases v with
  | const i c => exact ⟨fun h => (by cases h), fun h => (by cases h.1)⟩
  | list i vs => exact ⟨fun h => (by cases h), fun h => (by cases h.1)⟩
  | node i t ns vs => exact ⟨fun h => ⟨rfl, of_decide_eq_true h⟩, fun h => decide_eq_true h.2⟩

/-- **C46**: two trees are equivalent exactly when they are the same object, or the left-to-right walk through their
fields finds no difference, or the first difference it finds is between two expression contexts. -/
theorem C46_exact {fields : Str → List Str} {a b : Val} (ha : Conforms fields a) (hb : Conforms fields b) :
    astEquivalent a b = true ↔ a.ident = b.ident ∨ SameWalk a b ∨
      ∃ x y, FirstDiff x y a b ∧ IsContext x ∧ IsContext y := by
  simp only [← C46_contexts]
  unfold astEquivalent
  split
  · rename_i h; simp [h]
  · rename_i h
    constructor
    · intro he
      right
      rcases walk_total (fields := fields) a.size a b (Nat.le_refl _) ha hb with hw | ⟨x, y, hw⟩
      · exact Or.inl hw
      · rw [firstDiff_loop hw ha hb] at he
        exact Or.inr ⟨x, y, hw, by simpa using he⟩
    · rintro (he | hw | ⟨x, y, hw, h1, h2⟩)
      · exact absurd he h
      · rw [sameWalk_loop hw ha hb, astEqLoop]
      · rw [firstDiff_loop hw ha hb, h1, h2]; rfl

/-- The two outcomes of the walk exclude each other. -/
theorem walk_exclusive {a b x y : Val} (hw : SameWalk a b) : ¬ FirstDiff x y a b := by
  intro hd
  induction hd with
  | types h1 h2 h3 =>
    cases hw with
    | value hn _ => rw [h1, h2] at hn; simp at hn
    | node _ _ => exact h3 rfl
  | value hn hne =>
    cases hw with
    | value _ he => exact hne he
    | node _ _ => simp [Val.isNode] at hn
  | field k h1 h2 hb' _ ih =>
    cases hw with
    | value hn _ => simp [Val.isNode] at hn
    | node hl hh => exact ih (hh k _ _ h1 h2)

/-- **C46**: two different objects are told apart exactly when the walk has a first difference that is not between two
expression contexts. -/
theorem C46_told_apart {fields : Str → List Str} {a b : Val} (ha : Conforms fields a) (hb : Conforms fields b) (hid : a.ident ≠ b.ident) :
    astEquivalent a b = false ↔ ∃ x y, FirstDiff x y a b ∧ ¬ (IsContext x ∧ IsContext y) := by
  simp only [← C46_contexts]
  unfold astEquivalent
  rw [if_neg hid]
  constructor
  · intro he
    rcases walk_total (fields := fields) a.size a b (Nat.le_refl _) ha hb with hw | ⟨x, y, hw⟩
    · rw [sameWalk_loop hw ha hb, astEqLoop] at he; cases he
    · rw [firstDiff_loop hw ha hb] at he
      exact ⟨x, y, hw, by intro hc; simp [hc.1, hc.2] at he⟩
  · rintro ⟨x, y, hw, h⟩
    rw [firstDiff_loop hw ha hb]
    cases h1 : isExprContext x <;> cases h2 : isExprContext y <;> simp_all

/-- Non-vacuity: `x` read and `x` written first differ in their contexts, `x` and `y` in their names. -/
example : FirstDiff (.node 3 (str "Load") [] []) (.node 7 (str "Store") [] []) (exName 1 "x" "Load") (exName 5 "x" "Store") ∧
    FirstDiff (.const 2 (.str (str "x"))) (.const 6 (.str (str "y"))) (exName 1 "x" "Load") (exName 5 "y" "Store") ∧
    SameWalk (exName 1 "x" "Load") (exName 5 "x" "Load") := by
  refine ⟨.field 1 rfl rfl ?_ (.types rfl rfl (by decide)), .field 0 rfl rfl (by omega) (.value (Or.inl rfl) ?_), .node rfl ?_⟩
  · intro m v w hm h1 h2
    have : m = 0 := by omega
    subst this
    simp at h1 h2; subst h1 h2
    exact .value (Or.inl rfl) (.same ..)
  · intro h; cases h with | whole _ _ h => cases h
  · intro k v w h1 h2
    match k with
    | 0 => simp at h1 h2; subst h1 h2; exact .value (Or.inl rfl) (.same ..)
    | 1 => simp at h1 h2; subst h1 h2; exact .node rfl (by simp)
    | k + 2 => simp at h1

end Refex
