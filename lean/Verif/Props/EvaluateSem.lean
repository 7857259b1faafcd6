import Verif.Spec.EvaluateSem
import Verif.Props.AstEq
import Verif.Props.Evaluate
/- C54: the value of a matcher expression. -/
namespace Refex
set_option autoImplicit false

/-! ### `==` on keys is an equivalence -/

theorem Const.keyEq_symm {a b : Const} (h : a.pyEq b = true) : b.pyEq a = true := by
  unfold Const.pyEq at h ⊢
  cases ha : a.whole? <;> cases hb : b.whole? <;> simp only [ha, hb] at h ⊢ <;>
    exact decide_eq_true (of_decide_eq_true h).symm

theorem Const.keyEq_trans {a b c : Const} (h : a.pyEq b = true) (h' : b.pyEq c = true) : a.pyEq c = true := by
  unfold Const.pyEq at h h' ⊢
  cases ha : a.whole? <;> cases hb : b.whole? <;> cases hc : c.whole? <;> simp only [ha, hb, hc] at h h' ⊢ <;>
    have h1 := of_decide_eq_true h <;> have h2 := of_decide_eq_true h' <;>
    first
      | exact decide_eq_true (h1.trans h2)
      | (subst h1; simp_all)
      | (subst h2; simp_all)

mutual
theorem keyEq_refl : ∀ v : PVal, v.hashable = true → v.keyEq v = true
  | .const c, _ => by simp only [PVal.keyEq]; exact pyEq_refl_const c
  | .tuple vs, h => by simp only [PVal.keyEq]; exact keysEq_refl vs (by simpa [PVal.hashable] using h)
  | .obj i, _ => by simp [PVal.keyEq]
  | .list _, h => by simp [PVal.hashable] at h
  | .dict _, h => by simp [PVal.hashable] at h
  | .set _, h => by simp [PVal.hashable] at h
theorem keysEq_refl : ∀ vs : List PVal, PVal.hashables vs = true → PVal.keysEq vs vs = true
  | [], _ => rfl
  | v :: vs, h => by
    simp only [PVal.hashables, Bool.and_eq_true] at h
    simp only [PVal.keysEq, keyEq_refl v h.1, keysEq_refl vs h.2, Bool.and_self]
end

mutual
theorem keyEq_symm : ∀ a b : PVal, a.keyEq b = true → b.keyEq a = true
  | .const c, b, h => by cases b <;> simp only [PVal.keyEq] at h ⊢ <;> first | exact Const.keyEq_symm h | cases h
  | .tuple vs, b, h => by cases b <;> simp only [PVal.keyEq] at h ⊢ <;> first | exact keysEq_symm _ _ h | cases h
  | .obj i, b, h => by cases b <;> simp [PVal.keyEq] at h ⊢; exact h.symm
  | .list _, b, h => by cases b <;> simp [PVal.keyEq] at h
  | .dict _, b, h => by cases b <;> simp [PVal.keyEq] at h
  | .set _, b, h => by cases b <;> simp [PVal.keyEq] at h
theorem keysEq_symm : ∀ a b : List PVal, PVal.keysEq a b = true → PVal.keysEq b a = true
  | [], b, h => by cases b <;> simp [PVal.keysEq] at h ⊢
  | v :: vs, b, h => by
    cases b with
    | nil => simp [PVal.keysEq] at h
    | cons w ws =>
      simp only [PVal.keysEq, Bool.and_eq_true] at h ⊢
      exact ⟨keyEq_symm v w h.1, keysEq_symm vs ws h.2⟩
end

mutual
theorem keyEq_trans : ∀ a b c : PVal, a.keyEq b = true → b.keyEq c = true → a.keyEq c = true
  | .const x, b, c, h, h' => by
    cases b <;> cases c <;> simp only [PVal.keyEq] at h h' ⊢ <;> first | exact Const.keyEq_trans h h' | cases h | cases h'
  | .tuple vs, b, c, h, h' => by
    cases b <;> cases c <;> simp only [PVal.keyEq] at h h' ⊢ <;> first | exact keysEq_trans _ _ _ h h' | cases h | cases h'
  | .obj i, b, c, h, h' => by cases b <;> cases c <;> simp [PVal.keyEq] at h h' ⊢; omega
  | .list _, b, _, h, _ => by cases b <;> simp [PVal.keyEq] at h
  | .dict _, b, _, h, _ => by cases b <;> simp [PVal.keyEq] at h
  | .set _, b, _, h, _ => by cases b <;> simp [PVal.keyEq] at h
theorem keysEq_trans : ∀ a b c : List PVal, PVal.keysEq a b = true → PVal.keysEq b c = true → PVal.keysEq a c = true
  | [], b, c, h, h' => by cases b <;> cases c <;> simp [PVal.keysEq] at h h' ⊢
  | v :: vs, b, c, h, h' => by
    cases b with
    | nil => simp [PVal.keysEq] at h
    | cons w ws =>
      cases c with
      | nil => simp [PVal.keysEq] at h'
      | cons x xs =>
        simp only [PVal.keysEq, Bool.and_eq_true] at h h' ⊢
        exact ⟨keyEq_trans v w x h.1 h'.1, keysEq_trans vs ws xs h.2 h'.2⟩
end

/-! ### Sets -/

theorem firstOfEach_fun {seen vs a b : List PVal} (h : FirstOfEach seen vs a) (h' : FirstOfEach seen vs b) : a = b := by
  induction h generalizing b with
  | nil => cases h'; rfl
  | keep h1 _ ih =>
    cases h' with
    | keep _ h2 => rw [ih h2]
    | skip h2 h3 _ => rw [h1 _ h2] at h3; cases h3
  | skip h1 h2 _ ih =>
    cases h' with
    | keep h3 _ => rw [h3 _ h1] at h2; cases h2
    | skip _ _ h3 => exact ih h3

theorem setPut_fold (vs seen : List PVal) : ∃ out, vs.foldl setPut seen = seen ++ out ∧ FirstOfEach seen vs out := by
  induction vs generalizing seen with
  | nil => exact ⟨[], by simp, .nil⟩
  | cons v vs ih =>
    by_cases h : seen.any (·.keyEq v) = true
    · obtain ⟨out, h1, h2⟩ := ih seen
      have hput : setPut seen v = seen := by unfold setPut; rw [if_pos h]
      obtain ⟨u, hu, hv⟩ := List.any_eq_true.1 h
      exact ⟨out, by rw [List.foldl_cons, hput, h1], .skip hu hv h2⟩
    · have hput : setPut seen v = seen ++ [v] := by unfold setPut; rw [if_neg h]
      obtain ⟨out, h1, h2⟩ := ih (seen ++ [v])
      simp only [List.any_eq_true, not_exists, not_and, Bool.not_eq_true] at h
      exact ⟨v :: out, by rw [List.foldl_cons, hput, h1]; simp, .keep h h2⟩

/-! ### Dicts -/

/-- `dictPut` on pairs. -/
def putPair : List (PVal × PVal) → PVal → PVal → List (PVal × PVal)
  | (k', v') :: d, k, v => if k'.keyEq k then (k', v) :: d else (k', v') :: putPair d k v
  | [], k, v => [(k, v)]

theorem dictPut_flat (d : List (PVal × PVal)) (k v : PVal) : dictPut (flatItems d) k v = flatItems (putPair d k v) := by
  induction d with
  | nil => rfl
  | cons p d ih =>
    obtain ⟨k', v'⟩ := p
    simp only [flatItems, dictPut, putPair]
    split
    · rfl
    · rw [ih]; rfl

theorem firstOfEach_snoc_new {seen vs out : List PVal} {v : PVal} (h : FirstOfEach seen vs out)
    (hn : ∀ u ∈ seen ++ out, u.keyEq v = false) : FirstOfEach seen (vs ++ [v]) (out ++ [v]) := by
  induction h with
  | nil => exact .keep (by simpa using hn) .nil
  | keep h1 _ ih => exact .keep h1 (ih (by simpa using hn))
  | skip h1 h2 _ ih => exact .skip h1 h2 (ih hn)

theorem firstOfEach_snoc_old {seen vs out : List PVal} {u v : PVal} (h : FirstOfEach seen vs out) (hu : u ∈ seen ++ out)
    (hv : u.keyEq v = true) : FirstOfEach seen (vs ++ [v]) out := by
  induction h with
  | nil => exact .skip (by simpa using hu) hv .nil
  | keep h1 _ ih => exact .keep h1 (ih (by simpa using hu))
  | skip h1 h2 _ ih => exact .skip h1 h2 (ih hu)

/-- The values kept are pairwise different. -/
theorem firstOfEach_distinct {seen vs out : List PVal} (h : FirstOfEach seen vs out) :
    out.Pairwise (fun a b => a.keyEq b = false) ∧ ∀ u ∈ seen, ∀ v ∈ out, u.keyEq v = false := by
  induction h with
  | nil => simp
  | keep h1 _ ih =>
    refine ⟨List.pairwise_cons.2 ⟨fun b hb => ih.2 _ (by simp) b hb, ih.1⟩, ?_⟩
    intro u hu w hw
    rcases List.mem_cons.1 hw with rfl | hw
    · exact h1 u hu
    · exact ih.2 u (by simp [hu]) w hw
  | skip _ _ _ ih => exact ih

theorem putPair_cases (d : List (PVal × PVal)) (k v : PVal) :
    ((∀ p ∈ d, p.1.keyEq k = false) ∧ putPair d k v = d ++ [(k, v)]) ∨
    ∃ pre k' w post, d = pre ++ (k', w) :: post ∧ k'.keyEq k = true ∧ putPair d k v = pre ++ (k', v) :: post := by
  induction d with
  | nil => exact .inl ⟨by simp, rfl⟩
  | cons p d ih =>
    obtain ⟨k', v'⟩ := p
    simp only [putPair]
    by_cases h : k'.keyEq k = true
    · rw [if_pos h]
      exact .inr ⟨[], k', v', d, rfl, h, rfl⟩
    · rw [if_neg h]
      rcases ih with ⟨h1, h2⟩ | ⟨pre, a, w, post, rfl, h2, h3⟩
      · refine .inl ⟨fun p hp => ?_, by rw [h2]; rfl⟩
        rcases List.mem_cons.1 hp with rfl | hp
        · simpa using h
        · exact h1 p hp
      · exact .inr ⟨(k', v') :: pre, a, w, post, rfl, h2, by rw [h3]; rfl⟩

theorem dictOf_put {pairs out : List (PVal × PVal)} (h : DictOf pairs out) (k v : PVal) (hk : k.hashable = true) :
    DictOf (pairs ++ [(k, v)]) (putPair out k v) := by
  have old : ∀ p ∈ out, p.1.keyEq k = false → LastValue (pairs ++ [(k, v)]) p.1 p.2 := by
    intro p hp hne
    obtain ⟨pre, k', post, h1, h2, h3⟩ := h.values p hp
    refine ⟨pre, k', post ++ [(k, v)], by rw [h1]; simp, h2, fun q hq => ?_⟩
    rcases List.mem_append.1 hq with hq | hq
    · exact h3 q hq
    · simp only [List.mem_singleton] at hq; subst hq; exact hne
  rcases putPair_cases out k v with ⟨hn, he⟩ | ⟨pre, k', w, post, ho, hk', he⟩
  · rw [he]
    refine ⟨?_, fun p hp => ?_⟩
    · rw [List.map_append, List.map_append]
      refine firstOfEach_snoc_new h.keys fun u hu => ?_
      rw [List.nil_append] at hu
      obtain ⟨p, hp, rfl⟩ := List.mem_map.1 hu
      exact hn p hp
    · rcases List.mem_append.1 hp with hp | hp
      · exact old p hp (hn p hp)
      · simp only [List.mem_singleton] at hp
        subst hp
        exact ⟨pairs, k, [], rfl, keyEq_refl k hk, by simp⟩
  · rw [he]
    have hdist := (firstOfEach_distinct h.keys).1
    rw [ho, List.map_append, List.map_cons] at hdist
    obtain ⟨_, hd2, hd3⟩ := List.pairwise_append.1 hdist
    refine ⟨?_, fun p hp => ?_⟩
    · have hkeys := h.keys
      rw [ho] at hkeys
      have : (pre ++ (k', v) :: post).map Prod.fst = (pre ++ (k', w) :: post).map Prod.fst := by simp
      rw [this, List.map_append (f := Prod.fst) (l₁ := pairs)]
      exact firstOfEach_snoc_old hkeys (u := k') (by simp) hk'
    · have other : ∀ q ∈ pre ++ post, q.1.keyEq k = false := by
        intro q hq
        cases hqk : q.1.keyEq k with
        | false => rfl
        | true =>
          rcases List.mem_append.1 hq with hq | hq
          · have h1 := hd3 q.1 (List.mem_map_of_mem hq) k' (by simp)
            rw [keyEq_trans _ _ _ hqk (keyEq_symm _ _ hk')] at h1
            cases h1
          · have h1 := (List.pairwise_cons.1 hd2).1 q.1 (List.mem_map_of_mem hq)
            rw [keyEq_trans _ _ _ hk' (keyEq_symm _ _ hqk)] at h1
            cases h1
      have hin : ∀ q ∈ pre ++ post, q ∈ out := by
        intro q hq
        rw [ho]
        rcases List.mem_append.1 hq with hq | hq <;> simp [hq]
      rcases List.mem_append.1 hp with hp | hp
      · exact old p (hin p (by simp [hp])) (other p (by simp [hp]))
      · rcases List.mem_cons.1 hp with rfl | hp
        · exact ⟨pairs, k, [], rfl, hk', by simp⟩
        · exact old p (hin p (by simp [hp])) (other p (by simp [hp]))

theorem dictOf_fold (rest pairs out : List (PVal × PVal)) (h : DictOf pairs out) (hk : ∀ p ∈ rest, p.1.hashable = true) :
    ∃ out', rest.foldl (fun d p => dictPut d p.1 p.2) (flatItems out) = flatItems out' ∧ DictOf (pairs ++ rest) out' := by
  induction rest generalizing pairs out with
  | nil => exact ⟨out, rfl, by simpa using h⟩
  | cons p rest ih =>
    obtain ⟨k, v⟩ := p
    rw [List.foldl_cons, dictPut_flat]
    obtain ⟨out', h1, h2⟩ := ih (pairs ++ [(k, v)]) _ (dictOf_put h k v (hk (k, v) (by simp))) fun p hp => hk p (by simp [hp])
    exact ⟨out', h1, by simpa using h2⟩

theorem lastValue_fun {pairs : List (PVal × PVal)} {k v w : PVal} (h : LastValue pairs k v) (h' : LastValue pairs k w) : v = w := by
  obtain ⟨pre, k1, post, h1, h2, h3⟩ := h
  obtain ⟨pre', k2, post', h4, h5, h6⟩ := h'
  rw [h1] at h4
  clear h1
  induction pre generalizing pre' with
  | nil =>
    cases pre' with
    | nil => simp at h4; exact h4.1.2
    | cons q pre' =>
      simp only [List.nil_append, List.cons_append, List.cons.injEq] at h4
      have := h3 (k2, w) (by rw [h4.2]; simp)
      rw [h5] at this; cases this
  | cons p pre ih =>
    cases pre' with
    | nil =>
      simp only [List.nil_append, List.cons_append, List.cons.injEq] at h4
      have := h6 (k1, v) (by rw [← h4.2]; simp)
      rw [h2] at this; cases this
    | cons q pre' =>
      simp only [List.cons_append, List.cons.injEq] at h4
      exact ih pre' h4.2

theorem dictOf_fun {pairs a b : List (PVal × PVal)} (h : DictOf pairs a) (h' : DictOf pairs b) : a = b := by
  have hk := firstOfEach_fun h.keys h'.keys
  have hv := h.values
  have hv' := h'.values
  clear h h'
  induction a generalizing b with
  | nil => cases b with
    | nil => rfl
    | cons _ _ => simp at hk
  | cons x a ih =>
    cases b with
    | nil => simp at hk
    | cons y b =>
      simp only [List.map_cons, List.cons.injEq] at hk
      have h1 := hv x (by simp)
      have h2 := hv' y (by simp)
      rw [← hk.1] at h2
      rw [ih hk.2 (fun kv h => hv kv (by simp [h])) (fun kv h => hv' kv (by simp [h])), Prod.ext hk.1 (lastValue_fun h1 h2)]

/-! ### Converting the parts -/

theorem convertAll_cons_ok {env : EvalEnv} {e : EExpr} {es : List EExpr} {vs : List PVal} :
    (convertAll env (e :: es)).2 = .ok vs ↔ ∃ w ws, (convert env e).2 = .ok w ∧ (convertAll env es).2 = .ok ws ∧ vs = w :: ws := by
  simp only [convertAll, EOut.andThen]
  cases (convert env e).2 with
  | error _ => simp
  | ok w =>
    cases (convertAll env es).2 with
    | error _ => simp
    | ok ws => simp only [Except.ok.injEq]; constructor
               · intro h; exact ⟨w, ws, rfl, rfl, h.symm⟩
               · rintro ⟨_, _, rfl, rfl, rfl⟩; rfl

theorem convertSet_ok (env : EvalEnv) (es : List EExpr) (acc : List PVal) (v : PVal) :
    (convertSet env es acc).2 = .ok v ↔
      ∃ vs, (convertAll env es).2 = .ok vs ∧ (∀ w ∈ vs, w.hashable = true) ∧ v = .set (vs.foldl setPut acc) := by
  induction es generalizing acc with
  | nil =>
    simp only [convertSet, convertAll, Except.ok.injEq]
    constructor
    · intro h; exact ⟨[], rfl, by simp, h.symm⟩
    · rintro ⟨vs, rfl, _, h⟩; exact h.symm
  | cons e es ih =>
    simp only [convertSet, EOut.andThen]
    cases hc : (convert env e).2 with
    | error err => simp [convertAll_cons_ok, hc]
    | ok w =>
      simp only
      by_cases hw : w.hashable = true
      · simp only [hw, if_true, ih, convertAll_cons_ok, hc, Except.ok.injEq]
        constructor
        · rintro ⟨vs, h1, h2, h3⟩
          refine ⟨w :: vs, ⟨w, vs, rfl, h1, rfl⟩, fun x hx => ?_, h3⟩
          rcases List.mem_cons.1 hx with rfl | hx
          · exact hw
          · exact h2 x hx
        · rintro ⟨_, ⟨_, vs, rfl, h1, rfl⟩, h2, h3⟩
          exact ⟨vs, h1, fun x hx => h2 x (by simp [hx]), h3⟩
      · simp only [hw, Bool.false_eq_true, if_false, convertAll_cons_ok, hc, Except.ok.injEq]
        constructor
        · intro h; cases h
        · rintro ⟨_, ⟨_, vs, rfl, h1, rfl⟩, h2, h3⟩
          exact absurd (h2 w (by simp)) hw

theorem convertDict_ok (env : EvalEnv) : ∀ (es : List EExpr) (acc : List PVal) (v : PVal), (convertDict env es acc).2 = .ok v ↔
      ∃ pairs, (convertAll env es).2 = .ok (flatItems pairs) ∧ (∀ p ∈ pairs, p.1.hashable = true) ∧
        v = .dict (pairs.foldl (fun d p => dictPut d p.1 p.2) acc)
  | [], acc, v => by
    simp only [convertDict, convertAll, Except.ok.injEq]
    constructor
    · intro h; exact ⟨[], rfl, by simp, h.symm⟩
    · rintro ⟨pairs, h1, _, h3⟩
      cases pairs with
      | nil => exact h3.symm
      | cons p ps => simp [flatItems] at h1
  | [e], acc, v => by
    simp only [convertDict]
    constructor
    · intro h; cases h
    · rintro ⟨pairs, h1, _, _⟩
      obtain ⟨w, ws, _, h2, h3⟩ := convertAll_cons_ok.1 h1
      simp only [convertAll, Except.ok.injEq] at h2
      subst h2
      cases pairs with
      | nil => simp [flatItems] at h3
      | cons p ps => simp [flatItems] at h3
  | k :: e :: es, acc, v => by
    simp only [convertDict, EOut.andThen]
    cases hk : (convert env k).2 with
    | error err =>
      simp only
      constructor
      · intro h; cases h
      · rintro ⟨pairs, h1, _⟩
        obtain ⟨w, ws, h2, _⟩ := convertAll_cons_ok.1 h1
        rw [hk] at h2; cases h2
    | ok a =>
      simp only
      cases he : (convert env e).2 with
      | error err =>
        simp only
        constructor
        · intro h; cases h
        · rintro ⟨pairs, h1, _⟩
          obtain ⟨w, ws, _, h2, _⟩ := convertAll_cons_ok.1 h1
          obtain ⟨w', ws', h3, _⟩ := convertAll_cons_ok.1 h2
          rw [he] at h3; cases h3
      | ok b =>
        simp only
        have key : ∀ pairs, (convertAll env (k :: e :: es)).2 = .ok (flatItems pairs) ↔
            ∃ ps, pairs = (a, b) :: ps ∧ (convertAll env es).2 = .ok (flatItems ps) := by
          intro pairs
          rw [convertAll_cons_ok]
          constructor
          · rintro ⟨w, ws, h1, h2, h3⟩
            obtain ⟨w', ws', h4, h5, h6⟩ := convertAll_cons_ok.1 h2
            rw [hk] at h1; cases h1
            rw [he] at h4; cases h4
            subst h6
            cases pairs with
            | nil => simp [flatItems] at h3
            | cons p ps =>
              obtain ⟨x, y⟩ := p
              simp only [flatItems, List.cons.injEq] at h3
              obtain ⟨rfl, rfl, rfl⟩ := h3
              exact ⟨ps, rfl, h5⟩
          · rintro ⟨ps, rfl, h⟩
            exact ⟨a, b :: flatItems ps, hk, convertAll_cons_ok.2 ⟨b, flatItems ps, he, h, rfl⟩, rfl⟩
        by_cases ha : a.hashable = true
        · simp only [ha, if_true]
          rw [convertDict_ok env es]
          constructor
          · rintro ⟨ps, h1, h2, h3⟩
            refine ⟨(a, b) :: ps, (key _).2 ⟨ps, rfl, h1⟩, fun p hp => ?_, h3⟩
            rcases List.mem_cons.1 hp with rfl | hp
            · exact ha
            · exact h2 p hp
          · rintro ⟨pairs, h1, h2, h3⟩
            obtain ⟨ps, rfl, h4⟩ := (key _).1 h1
            exact ⟨ps, h4, fun p hp => h2 p (by simp [hp]), h3⟩
        · simp only [ha, Bool.false_eq_true, if_false]
          constructor
          · intro h; cases h
          · rintro ⟨pairs, h1, h2, h3⟩
            obtain ⟨ps, rfl, h4⟩ := (key _).1 h1
            exact absurd (h2 (a, b) (by simp)) ha

theorem convertName_ok {env : EvalEnv} {e : EExpr} {v : PVal} :
    (convertName env e).2 = .ok v ↔ ∃ n, Dotted e n ∧ env.constants.get? n = some v := by
  unfold convertName
  constructor
  · intro h
    split at h
    · cases h
    · cases h
    · rename_i n hn
      split at h
      · rename_i w hw
        cases h
        exact ⟨n, (dottedName_iff e n).1 hn, hw⟩
      · cases h
  · rintro ⟨n, h1, h2⟩
    rw [(dottedName_iff e n).2 h1]
    simp only [h2]

mutual
theorem convert_evals (env : EvalEnv) : ∀ e v, (convert env e).2 = .ok v → Evals env e v
  | .const c, v, h => by simp only [convert, Except.ok.injEq] at h; subst h; exact .const
  | .usub (.const c), v, h => by
    simp only [convert] at h
    split at h
    · rename_i hn
      simp only [Except.ok.injEq] at h
      subst h
      cases c with
      | int i => simp only [EvalEnv.zeroMinus, Int.zero_sub]; exact .minusInt
      | other t r n => exact .minusOther (of_decide_eq_true hn)
      | _ => simp [Const.isNum] at hn
    · cases h
  | .usub (.usub _), v, h => by simp [convert] at h
  | .usub (.tuple _), v, h => by simp [convert] at h
  | .usub (.list _), v, h => by simp [convert] at h
  | .usub (.dict _), v, h => by simp [convert] at h
  | .usub (.set _), v, h => by simp [convert] at h
  | .usub (.call _ _ _ _), v, h => by simp [convert] at h
  | .usub (.starred _), v, h => by simp [convert] at h
  | .usub (.name _), v, h => by simp [convert] at h
  | .usub (.attribute _ _), v, h => by simp [convert] at h
  | .usub .other, v, h => by simp [convert] at h
  | .tuple es, v, h => by
    simp only [convert] at h
    obtain ⟨vs, h1, h2⟩ := andThen_inv h
    simp only [Except.ok.injEq] at h2
    subst h2
    exact .tuple (convertAll_evals env es vs h1)
  | .list es, v, h => by
    simp only [convert] at h
    obtain ⟨vs, h1, h2⟩ := andThen_inv h
    simp only [Except.ok.injEq] at h2
    subst h2
    exact .list (convertAll_evals env es vs h1)
  | .dict es, v, h => by
    simp only [convert] at h
    obtain ⟨pairs, h1, h2, rfl⟩ := (convertDict_ok env es [] v).1 h
    obtain ⟨out, h3, h4⟩ := dictOf_fold pairs [] [] ⟨.nil, by simp⟩ h2
    rw [show ([] : List PVal) = flatItems [] from rfl, h3]
    exact .dict (convertAll_evals env es _ h1) h2 (by simpa using h4)
  | .set es, v, h => by
    simp only [convert] at h
    obtain ⟨vs, h1, h2, rfl⟩ := (convertSet_ok env es [] v).1 h
    obtain ⟨out, h3, h4⟩ := setPut_fold vs []
    rw [h3]
    exact .set (convertAll_evals env es _ h1) h2 h4
  | .call f args kns kvs, v, h => by
    simp only [convert] at h
    split at h
    · cases h
    · rename_i hs
      obtain ⟨hs1, hs2⟩ := not_starred hs
      split at h
      · cases h
      · cases h
      · rename_i n hn
        split at h
        · rename_i hc
          obtain ⟨as, h1, h2⟩ := andThen_inv h
          obtain ⟨ks, h3, h4⟩ := andThen_inv h2
          exact .call ((dottedName_iff f n).1 hn) hc hs1 hs2 (convertAll_evals env args as h1) (convertAll_evals env kvs ks h3) h4
        · cases h
  | .starred _, v, h => by simp [convert] at h
  | .name s, v, h => by
    simp only [convert] at h
    obtain ⟨n, h1, h2⟩ := convertName_ok.1 h
    exact .constant h1 h2
  | .attribute w a, v, h => by
    simp only [convert] at h
    obtain ⟨n, h1, h2⟩ := convertName_ok.1 h
    exact .constant h1 h2
  | .other, v, h => by simp [convert] at h
theorem convertAll_evals (env : EvalEnv) : ∀ es vs, (convertAll env es).2 = .ok vs → EvalsAll env es vs
  | [], vs, h => by simp only [convertAll, Except.ok.injEq] at h; subst h; exact .nil
  | e :: es, vs, h => by
    obtain ⟨w, ws, h1, h2, rfl⟩ := convertAll_cons_ok.1 h
    exact .cons (convert_evals env e w h1) (convertAll_evals env es ws h2)
end

mutual
theorem evals_convert (env : EvalEnv) : ∀ {e v}, Evals env e v → (convert env e).2 = .ok v
  | _, _, .const => by simp only [convert]
  | _, _, .minusInt => by simp [convert, Const.isNum, EvalEnv.zeroMinus]
  | _, _, .minusOther h => by
    simp only [convert]
    rw [if_pos]
    · rfl
    · exact decide_eq_true h
  | _, _, .tuple h => by simp only [convert, EOut.andThen, evalsAll_convert env h]
  | _, _, .list h => by simp only [convert, EOut.andThen, evalsAll_convert env h]
  | _, _, .set h h1 h2 => by
    simp only [convert]
    rw [convertSet_ok]
    refine ⟨_, evalsAll_convert env h, h1, ?_⟩
    obtain ⟨out, h3, h4⟩ := setPut_fold _ []
    rw [h3, firstOfEach_fun h2 h4]; rfl
  | _, _, .dict h h1 h2 => by
    simp only [convert]
    rw [convertDict_ok]
    refine ⟨_, evalsAll_convert env h, h1, ?_⟩
    obtain ⟨out, h3, h4⟩ := dictOf_fold _ [] [] ⟨.nil, by simp⟩ h1
    rw [show ([] : List PVal) = flatItems [] from rfl, h3, dictOf_fun h2 (by simpa using h4)]
  | _, _, .call (f := f) (n := n) (args := args) (kns := kns) hd hc hs1 hs2 h h' hv => by
    simp only [convert]
    rw [if_neg, (dottedName_iff f n).2 hd]
    · simp only [if_pos hc, EOut.andThen, evalsAll_convert env h, evalsAll_convert env h', hv]
    · intro hs
      exact starred_iff.1 hs ⟨hs1, hs2⟩
  | _, _, .constant hd hv => by
    rcases dotted_not hd with ⟨s, rfl⟩ | ⟨w, a, rfl⟩
    · simp only [convert]; exact convertName_ok.2 ⟨_, hd, hv⟩
    · simp only [convert]; exact convertName_ok.2 ⟨_, hd, hv⟩
theorem evalsAll_convert (env : EvalEnv) : ∀ {es vs}, EvalsAll env es vs → (convertAll env es).2 = .ok vs
  | _, _, .nil => by simp only [convertAll]
  | _, _, .cons h hs => convertAll_cons_ok.2 ⟨_, _, evals_convert env h, evalsAll_convert env hs, rfl⟩
end

/-- **C54**: evaluation gives a value exactly when the expression has one, and it is that one. -/
theorem C54_value (env : EvalEnv) (e : EExpr) (v : PVal) : (convert env e).2 = .ok v ↔ Evals env e v :=
  ⟨convert_evals env e v, evals_convert env⟩

/-- **C54**: `compile_matcher` gives the value; it reports a user error exactly when the evaluation ends in SyntaxError; whatever
else is raised (TypeError, what a callable raises) passes. -/
theorem C54_compile (env : EvalEnv) (e : EExpr) :
    (∀ v, compileMatcher env e = .ok (some v) ↔ Evals env e v) ∧
    (compileMatcher env e = .ok none ↔ (convert env e).2 = .error .syntaxError) ∧
    ∀ err, compileMatcher env e = .error err ↔ (convert env e).2 = .error err ∧ err ≠ .syntaxError := by
  have hv := C54_value env e
  unfold compileMatcher
  cases h : (convert env e).2 with
  | ok w =>
    rw [h] at hv
    refine ⟨fun v => ?_, by simp, by simp⟩
    rw [← hv v]; simp
  | error err =>
    rw [h] at hv
    cases err with
    | syntaxError => exact ⟨fun v => by rw [← hv v]; simp, by simp, fun x => by cases x <;> simp⟩
    | typeError => exact ⟨fun v => by rw [← hv v]; simp, by simp, fun x => by cases x <;> simp⟩
    | callee n => exact ⟨fun v => by rw [← hv v]; simp, by simp, fun x => by cases x <;> simp⟩

/-- **C54**: keyword arguments reach the callable under their names, in order. (The parser refuses equal names.) -/
theorem C54_keyword_arguments (ns : List Str) (ks : List PVal) (hn : ns.Nodup) (hl : ns.length = ks.length) :
    kwDict (ns.map some) ks = ns.zip ks := by
  have key : ∀ (ns : List Str) (ks : List PVal) (acc : Dict Str PVal), ns.Nodup → (∀ n ∈ ns, n ∉ acc.map Prod.fst) → ns.length = ks.length →
      ((ns.map some).zip ks).foldl (fun (d : Dict Str PVal) p => match p.1 with | some n => d.set n p.2 | none => d) acc = acc ++ ns.zip ks := by
    intro ns
    induction ns with
    | nil => intro ks acc _ _ _; simp
    | cons n ns ih =>
      intro ks acc hnd hacc hl
      cases ks with
      | nil => simp at hl
      | cons k ks =>
        obtain ⟨h1, h2⟩ := List.nodup_cons.1 hnd
        have hset : ∀ acc : Dict Str PVal, n ∉ acc.map Prod.fst → acc.set n k = acc ++ [(n, k)] := by
          intro acc
          induction acc with
          | nil => intro _; rfl
          | cons p acc ih =>
            intro h
            simp only [List.map_cons, List.mem_cons, not_or] at h
            obtain ⟨a, b⟩ := p
            simp only [Dict.set]
            rw [if_neg fun e => h.1 e.symm, ih h.2]; rfl
        simp only [List.map_cons, List.zip_cons_cons, List.foldl_cons]
        rw [hset acc (hacc n (by simp)), ih ks _ h2 ?_ (by simpa using hl)]
        · simp
        · intro m hm
          simp only [List.map_append, List.map_cons, List.map_nil, List.mem_append, List.mem_singleton, not_or]
          exact ⟨hacc m (by simp [hm]), fun e => h1 (e ▸ hm)⟩
  exact key ns ks [] hn (by simp) hl

-- `{1: f(), True: m.c}` is the dict `{1: m.c}`, and `{1, True, 2}` is `{1, 2}`.
def exDupDict : EExpr := .dict [.const (.int 1), .call (.name (str "f")) [] [] [], .const (.bool true), .attribute (.name (str "m")) (str "c")]
example : Evals exEvalEnv exDupDict (.dict [.const (.int 1), .obj 1]) := (C54_value _ _ _).1 rfl
example : Evals exEvalEnv (.set [.const (.int 1), .const (.bool true), .const (.int 2)]) (.set [.const (.int 1), .const (.int 2)]) :=
  (C54_value _ _ _).1 rfl

end Refex
