import Verif.Props.PatternTokens
import Verif.Props.Patterns
/- C49: which patterns are rejected because of misplaced metavariables. -/
namespace Refex
set_option autoImplicit false

theorem at?_cons (v : Val) (i : Nat) (p : Path) : v.at? (i :: p) = (v.children[i]?).bind (·.at? p) := by
  rw [Val.at?.eq_def]; simp only; cases v.children[i]? <;> rfl

theorem nameIn_cases (v : Val) (s : Str) :
    NameIn v s ↔ (v.ty = str "Name" ∧ strField v (str "id") = some s) ∨ ∃ w ∈ v.children, NameIn w s := by
  constructor
  · rintro ⟨p, u, h1, h2, h3⟩
    cases p with
    | nil => cases h1; exact Or.inl ⟨h2, h3⟩
    | cons i p =>
      rw [at?_cons] at h1
      cases hc : v.children[i]? with
      | none => rw [hc] at h1; cases h1
      | some w =>
        rw [hc] at h1
        exact Or.inr ⟨w, List.mem_of_getElem? hc, p, u, h1, h2, h3⟩
  · rintro (⟨h1, h2⟩ | ⟨w, hw, p, u, h1, h2, h3⟩)
    · exact ⟨[], v, rfl, h1, h2⟩
    · obtain ⟨i, hi⟩ := List.mem_iff_getElem?.1 hw
      exact ⟨i :: p, u, by rw [at?_cons, hi]; exact h1, h2, h3⟩

theorem Syntactic.child {v w : Val} (h : Syntactic v) (hw : w ∈ v.children) : Syntactic w := by
  obtain ⟨i, hi⟩ := List.mem_iff_getElem?.1 hw
  have e : ∀ p, v.at? (i :: p) = w.at? p := fun p => by rw [at?_cons, hi]; rfl
  exact ⟨fun p j vs hp => h.flat (i :: p) j vs ((e p).trans hp), fun p u hp => h.names (i :: p) u ((e p).trans hp)⟩

theorem mem_visitItems {s : Str} : ∀ vs, s ∈ visitItems vs ↔ ∃ w ∈ vs, s ∈ visitNames w := by
  intro vs
  induction vs with
  | nil => simp [visitItems]
  | cons v vs ih => simp [visitItems, ih]

theorem mem_visitFields {s : Str} : ∀ vs, s ∈ visitFields vs ↔
    ∃ w ∈ vs, s ∈ visitNames w ∨ ∃ i us, w = .list i us ∧ s ∈ visitItems us := by
  intro vs
  induction vs with
  | nil => simp [visitFields]
  | cons v vs ih =>
    cases v with
    | list i us =>
      rw [visitFields, List.mem_append, ih]
      constructor
      · rintro (h | ⟨w, hw, h⟩)
        · exact ⟨_, by simp, Or.inr ⟨i, us, rfl, h⟩⟩
        · exact ⟨w, by simp [hw], h⟩
      · rintro ⟨w, hw, h⟩
        rcases List.mem_cons.1 hw with rfl | hw
        · rcases h with h | ⟨j, us', e, h⟩
          · simp [visitNames] at h
          · cases e; exact Or.inl h
        · exact Or.inr ⟨w, hw, h⟩
    | const i c =>
      rw [visitFields, List.mem_append, ih]
      · simp [visitNames]
      · rintro i us ⟨⟩
    | node i t ns us =>
      rw [visitFields, List.mem_append, ih]
      · simp
      · rintro i us ⟨⟩

theorem visit_names : ∀ (n : Nat) (v : Val), v.size ≤ n → Syntactic v →
    (v.isList = false → ∀ s, s ∈ visitNames v ↔ NameIn v s) ∧
    (∀ i us, v = .list i us → ∀ s, s ∈ visitItems us ↔ NameIn v s) := by
  intro n
  induction n with
  | zero => intro v hn; cases v <;> simp [Val.size] at hn <;> omega
  | succ n ih =>
    intro v hn hs
    have hsz : ∀ w ∈ v.children, w.size ≤ n := by
      intro w hw
      have h1 := Val.size_children v
      have h2 : ∀ (vs : List Val), w ∈ vs → w.size ≤ Val.sizes vs := by
        intro vs
        induction vs with
        | nil => simp
        | cons u us ih =>
          intro h
          rcases List.mem_cons.1 h with rfl | h
          · simp [Val.sizes]
          · have := ih h; simp [Val.sizes]; omega
      have := h2 _ hw; omega
    cases v with
    | const i c =>
      refine ⟨fun _ s => ?_, fun _ _ e => by cases e⟩
      rw [nameIn_cases]; simp [visitNames, strField, Val.getattr, Val.pyNone, Val.children]
    | list i us =>
      refine ⟨fun h => by simp [Val.isList] at h, fun j vs e s => ?_⟩
      cases e
      rw [mem_visitItems, nameIn_cases]
      simp only [strField, Val.getattr, Val.pyNone, Val.children]
      constructor
      · rintro ⟨w, hw, h⟩
        exact Or.inr ⟨w, hw, ((ih w (hsz w hw) (hs.child hw)).1 (hs.flat [] i us rfl w hw) s).1 h⟩
      · rintro (⟨_, h⟩ | ⟨w, hw, h⟩)
        · cases h
        · exact ⟨w, hw, ((ih w (hsz w hw) (hs.child hw)).1 (hs.flat [] i us rfl w hw) s).2 h⟩
    | node i t ns us =>
      refine ⟨fun _ s => ?_, fun _ _ e => by cases e⟩
      rw [visitNames, nameIn_cases]
      by_cases ht : t = str "Name"
      · rw [if_pos ht]
        constructor
        · intro h; exact Or.inl ⟨ht, by simpa using h⟩
        · rintro (⟨_, h⟩ | ⟨w, hw, p, u, h1, h2, h3⟩)
          · simpa using h
          · exfalso
            obtain ⟨k, hk⟩ := List.mem_iff_getElem?.1 hw
            exact hs.names [] _ rfl rfl ht k p u (by rw [at?_cons, hk]; exact h1) h2
      · rw [if_neg ht, mem_visitFields]
        constructor
        · rintro ⟨w, hw, h | ⟨j, vs, rfl, h⟩⟩
          · refine Or.inr ⟨w, hw, ?_⟩
            cases w with
            | list j vs => simp [visitNames] at h
            | const j c => simp [visitNames] at h
            | node j t' ns' us' => exact ((ih _ (hsz _ hw) (hs.child hw)).1 rfl s).1 h
          · exact Or.inr ⟨_, hw, ((ih _ (hsz _ hw) (hs.child hw)).2 j vs rfl s).1 h⟩
        · rintro (⟨h, _⟩ | ⟨w, hw, h⟩)
          · exact absurd h ht
          · refine ⟨w, hw, ?_⟩
            cases w with
            | list j vs => exact Or.inr ⟨j, vs, rfl, ((ih _ (hsz _ hw) (hs.child hw)).2 j vs rfl s).2 h⟩
            | const j c => exact Or.inl (((ih _ (hsz _ hw) (hs.child hw)).1 rfl s).2 h)
            | node j t' ns' us' => exact Or.inl (((ih _ (hsz _ hw) (hs.child hw)).1 rfl s).2 h)

theorem inverted_get? {variables : Dict Label Str} (hn : (variables.map Prod.snd).Nodup) : ∀ (d : Dict Str Label) (s : Str),
    (∀ e ∈ variables, d.get? e.2 = none) →
    (variables.foldl (fun (d : Dict Str Label) e => d.set e.2 e.1) d).get? s =
      ((variables.find? (fun e => decide (e.2 = s))).map Prod.fst).or (d.get? s) := by
  induction variables with
  | nil => intro d s _; simp
  | cons e vs ih =>
    intro d s hd
    obtain ⟨x, a⟩ := e
    simp only [List.map_cons, List.nodup_cons] at hn
    rw [List.foldl_cons, ih hn.2, Dict.get?_set, List.find?_cons]
    · by_cases h : a = s
      · subst h
        simp only [decide_true, if_true, Option.map_some, Option.some_or]
        have : vs.find? (fun e => decide (e.2 = a)) = none := by
          rw [List.find?_eq_none]
          intro e he hc
          exact hn.1 (by simpa using ⟨e.1, by have := of_decide_eq_true hc; rw [← this]; exact he⟩)
        rw [this]; rfl
      · have h' : ¬ s = a := fun e => h e.symm
        simp [h, h']
    · intro e he
      rw [Dict.get?_set, if_neg]
      · exact hd e (by simp [he])
      · rintro rfl
        exact hn.1 (by simpa using ⟨e.1, he⟩)

/-- What holds of **C49**: a pattern is accepted iff every named metavariable stands *somewhere* as a variable reference of the
tree. Not so: that *every* occurrence does, and that the anonymous ones do; see `C49_lost_occurrence_false` and
`C49_anonymous_false`. -/
theorem C49_accepts_iff {tree : Val} (ht : Syntactic tree) (hl : tree.isList = false) {variables : Dict Label Str}
    (hk : (variables.map Prod.fst).Nodup) (hn : (variables.map Prod.snd).Nodup) :
    verifyVariables tree variables = true ↔ ∀ x s, variables.get? x = some s → NameIn tree s := by
  have hget : ∀ x s, variables.get? x = some s ↔ (x, s) ∈ variables := by
    intro x s
    induction variables with
    | nil => simp [Dict.get?]
    | cons e vs ih =>
      obtain ⟨y, a⟩ := e
      simp only [List.map_cons, List.nodup_cons] at hk hn
      rw [Dict.get?]
      by_cases h : y = x
      · subst h
        simp only [if_true, Option.some.injEq, List.mem_cons, Prod.mk.injEq, true_and]
        constructor
        · intro h; exact Or.inl h.symm
        · rintro (h | h)
          · exact h.symm
          · exact absurd (by simpa using ⟨s, h⟩) hk.1
      · rw [if_neg h, ih hk.2 hn.2]
        simp only [List.mem_cons, Prod.mk.injEq]
        constructor
        · exact Or.inr
        · rintro (⟨h', _⟩ | h')
          · exact absurd h'.symm h
          · exact h'
  have hvis := (visit_names _ tree (Nat.le_refl _) ht).1 hl
  have hinv : ∀ s x, (variables.foldl (fun (d : Dict Str Label) e => d.set e.2 e.1) []).get? s = some x ↔ (x, s) ∈ variables := by
    intro s x
    rw [inverted_get? hn [] s (fun _ _ => rfl)]
    simp only [Dict.get?, Option.or_none, Option.map_eq_some_iff]
    constructor
    · rintro ⟨e, he, rfl⟩
      have h1 := List.mem_of_find?_eq_some he
      have h2 := List.find?_some he
      simp only [decide_eq_true_eq] at h2
      subst h2; exact h1
    · intro h
      cases hf : variables.find? (fun e => decide (e.2 = s)) with
      | none => rw [List.find?_eq_none] at hf; exact absurd (by simp) (hf _ h)
      | some e =>
        refine ⟨e, rfl, ?_⟩
        have h1 := List.mem_of_find?_eq_some hf
        have h2 := List.find?_some hf
        simp only [decide_eq_true_eq] at h2
        obtain ⟨y, a⟩ := e
        simp only at h2
        subst h2
        have key : ∀ (vs : List (Label × Str)), (vs.map Prod.snd).Nodup → (y, a) ∈ vs → (x, a) ∈ vs → y = x := by
          intro vs
          induction vs with
          | nil => simp
          | cons v vs ih =>
            intro g1 g2 g3
            simp only [List.map_cons, List.nodup_cons] at g1
            rcases List.mem_cons.1 g2 with rfl | g2'
            · rcases List.mem_cons.1 g3 with g3 | g3
              · cases g3; rfl
              · exact absurd (by simpa using ⟨x, g3⟩) g1.1
            · rcases List.mem_cons.1 g3 with rfl | g3'
              · exact absurd (by simpa using ⟨y, g2'⟩) g1.1
              · exact ih g1.2 g2' g3'
        exact key _ hn h1 h
  unfold verifyVariables
  simp only [List.all_eq_true, decide_eq_true_eq, List.mem_filterMap, hinv, Dict.keys, List.mem_map]
  constructor
  · rintro h x s hx
    obtain ⟨s', h1, h2⟩ := h x ⟨(x, s), (hget x s).1 hx, rfl⟩
    rw [← hget, hx] at h2; cases h2
    exact (hvis s).1 h1
  · rintro h x ⟨⟨y, s⟩, h1, rfl⟩
    exact ⟨s, (hvis s).2 (h y s ((hget y s).2 h1)), h1⟩

/-- `foo.ATTR + NAME`. -/
def exAttrPlus (attr : Str) (right : Val) : Val :=
  .node 1 (str "BinOp") [str "left", str "op", str "right"]
    [.node 2 (str "Attribute") [str "value", str "attr", str "ctx"] [exName 3 "foo" "Load", .const 6 (.str attr), .node 7 (str "Load") [] []],
     .node 8 (str "Add") [] [], right]

/-- **C49** fails: `foo.$x + $x` is accepted, although the first `$x` is an attribute name: it is then taken literally
(`foo.gensym_x`). -/
theorem C49_lost_occurrence_false :
    verifyVariables (exAttrPlus (str "gensym_x") (exName 9 "gensym_x" "Load")) [(str "x", str "gensym_x")] = true ∧
    StoredElsewhere (exAttrPlus (str "gensym_x") (exName 9 "gensym_x" "Load")) (str "gensym_x") := by
  constructor
  · decide
  · exact ⟨[0], 1, 6, _, rfl, by decide, rfl⟩

/-- **C49** fails: `foo.$_ + 1` is accepted (there are no named metavariables), the anonymous ones being no part of the
check: `$_` is then taken literally (`foo.gensym__`). -/
theorem C49_anonymous_false :
    verifyVariables (exAttrPlus (str "gensym__") (.const 9 (.int 1))) [] = true ∧
    StoredElsewhere (exAttrPlus (str "gensym__") (.const 9 (.int 1))) (str "gensym__") :=
  ⟨rfl, [0], 1, 6, _, rfl, by decide, rfl⟩

/-- The other cases: `foo.$x + 1` alone is rejected. -/
example : verifyVariables (exAttrPlus (str "gensym_x") (.const 9 (.int 1))) [(str "x", str "gensym_x")] = false := by decide

/-- The hypotheses of the theorem can be met by such a tree. -/
example : Syntactic (exName 9 "gensym_x" "Load") := by
  refine ⟨fun p i vs h => ?_, fun p v h1 h2 h3 i q w h4 => ?_⟩
  · match p, h with
    | [], h => cases h
    | [0], h => cases h
    | [1], h => cases h
    | 0 :: k :: p, h => simp [exName, Val.at?, Val.children] at h
    | 1 :: k :: p, h => simp [exName, Val.at?, Val.children] at h
    | (k + 2) :: p, h => simp [exName, Val.at?, Val.children] at h
  · match p, h1 with
    | [], h1 =>
      cases h1
      match i, q, h4 with
      | 0, [], h4 => cases h4; decide
      | 1, [], h4 => cases h4; decide
      | 0, k :: q, h4 => simp [exName, Val.at?, Val.children] at h4
      | 1, k :: q, h4 => simp [exName, Val.at?, Val.children] at h4
      | k + 2, q, h4 => simp [exName, Val.at?, Val.children] at h4
    | [0], h1 => cases h1; simp [Val.isNode] at h2
    | [1], h1 => cases h1; exact absurd h3 (by decide)
    | 0 :: k :: p, h1 => simp [exName, Val.at?, Val.children] at h1
    | 1 :: k :: p, h1 => simp [exName, Val.at?, Val.children] at h1
    | (k + 2) :: p, h1 => simp [exName, Val.at?, Val.children] at h1

end Refex
