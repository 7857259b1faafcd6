import Verif.Spec.Find
import Verif.Props.TypeFilters
/- C45: `find_iter` reports exactly the outermost matches, in document order. -/
namespace Refex
set_option autoImplicit false

/-- `findLoop` with the positions of the stacked objects, and reports instead of results. -/
def findReports (att : List Key → Val → MOut) (stack : List (Path × Val)) (done : List Key) :
    List Report × Option MExc :=
  match stack with
  | [] => ([], none)
  | (p, v) :: rest =>
    match att done v with
    | .error .matchError => findReports att rest done
    | .error e => ([], some e)
    | .ok (some mi, ks) => let r := findReports att rest (done ++ ks); (⟨p, mi, ks⟩ :: r.1, r.2)
    | .ok (none, _) => findReports att (((enumFrom 0 v.children).map fun q => (p ++ [q.1], q.2)) ++ rest) done
  termination_by Val.sizes (stack.map Prod.snd)
  decreasing_by
    all_goals first
      | (have := Val.size_pos v; simp only [List.map_cons, Val.sizes]; omega)
      | (have := Val.size_children v
         have e : ∀ i (l : List Val), (enumFrom i l).map Prod.snd = l := by
           intro i l; induction l generalizing i with
           | nil => rfl
           | cons x xs ih => simp [enumFrom, ih]
         simp only [List.map_append, List.map_map, List.map_cons, Val.sizes_append, Val.sizes]
         have e2 : List.map (Prod.snd ∘ fun q : Nat × Val => (p ++ [q.1], q.2)) (enumFrom 0 v.children) = v.children := by
           rw [← e 0 v.children]; simp [Function.comp_def, e]
         rw [e2]; omega)

theorem enumFrom_snd {α : Type} (i : Nat) (l : List α) : (enumFrom i l).map Prod.snd = l := by
  induction l generalizing i with
  | nil => rfl
  | cons x xs ih => simp [enumFrom, ih]

theorem mem_enumFrom {α : Type} (i : Nat) (l : List α) (q : Nat × α) :
    q ∈ enumFrom i l ↔ i ≤ q.1 ∧ l[q.1 - i]? = some q.2 := by
  induction l generalizing i with
  | nil => simp [enumFrom]
  | cons x xs ih =>
    obtain ⟨k, y⟩ := q
    simp only [enumFrom, List.mem_cons, ih, Prod.mk.injEq]
    by_cases h : k = i
    · subst h; simp only [true_and, Nat.sub_self, List.getElem?_cons_zero, Option.some.injEq, Nat.le_refl]
      constructor
      · rintro (h | h)
        · exact h.symm
        · omega
      · exact fun h => Or.inl h.symm
    · constructor
      · rintro (h' | ⟨h1, h2⟩)
        · exact absurd h'.1 h
        · refine ⟨by omega, ?_⟩
          obtain ⟨j, rfl⟩ : ∃ j, k = i + 1 + j := ⟨k - (i + 1), by omega⟩
          rw [show i + 1 + j - i = j + 1 by omega, List.getElem?_cons_succ]
          rw [show i + 1 + j - (i + 1) = j by omega] at h2
          exact h2
      · rintro ⟨h1, h2⟩
        right
        refine ⟨by omega, ?_⟩
        obtain ⟨j, rfl⟩ : ∃ j, k = i + 1 + j := ⟨k - (i + 1), by omega⟩
        rw [show i + 1 + j - i = j + 1 by omega, List.getElem?_cons_succ] at h2
        rw [show i + 1 + j - (i + 1) = j by omega]
        exact h2

/-- The ghost positions change nothing. -/
theorem findReports_eq (att : List Key → Val → MOut) (stack : List (Path × Val)) (done : List Key) :
    findLoop att (stack.map Prod.snd) done =
      (((findReports att stack done).1.map (·.mi)), (findReports att stack done).2) := by
  induction stack, done using findReports.induct att with
  | case1 done => simp [findReports, findLoop]
  | case2 done p v rest h ih => rw [findReports]; simp only [List.map_cons]; rw [findLoop]; simp [h, ih]
  | case3 done p v rest e h1 h2 =>
    rw [findReports]; simp only [List.map_cons]; rw [findLoop, h2]
    cases e <;> first | exact absurd rfl h1 | simp
  | case4 done p v rest mi ks h ih =>
    rw [findReports]; simp only [List.map_cons]; rw [findLoop]; simp [h, ih]
  | case5 done p v rest ks h ih =>
    rw [findReports]; simp only [List.map_cons]; rw [findLoop]
    simp only [h]
    rw [← ih]
    congr 1
    rw [List.map_append, List.map_map]
    congr 1
    exact (enumFrom_snd 0 v.children).symm

theorem before_append {p q : Path} (h : before p q = true) (s t : Path) : before (p ++ s) (q ++ t) = true := by
  induction p generalizing q with
  | nil => simp [before] at h
  | cons i p ih =>
    cases q with
    | nil => simp [before] at h
    | cons j q =>
      simp only [before, Bool.or_eq_true, Bool.and_eq_true, decide_eq_true_eq, List.cons_append] at h ⊢
      rcases h with h | ⟨h, h'⟩
      · exact Or.inl h
      · exact Or.inr ⟨h, ih h'⟩

theorem before_prefix (p s : Path) : before p (p ++ s) = false ∧ before (p ++ s) p = false := by
  induction p with
  | nil => cases s <;> simp [before]
  | cons i p ih => simp [before, ih]

theorem before_asymm {p q : Path} (h : before p q = true) : before q p = false := by
  induction p generalizing q with
  | nil => simp [before] at h
  | cons i p ih =>
    cases q with
    | nil => simp [before] at h
    | cons j q =>
      simp only [before, Bool.or_eq_true, Bool.and_eq_true, decide_eq_true_eq] at h
      simp only [before, Bool.or_eq_false_iff, decide_eq_false_iff_not, Bool.and_eq_false_imp, decide_eq_true_eq]
      rcases h with h | ⟨h, h'⟩
      · exact ⟨by omega, by omega⟩
      · subst h; exact ⟨by omega, fun _ => ih h'⟩

theorem before_common (p s t : Path) : before (p ++ s) (p ++ t) = before s t := by
  induction p with
  | nil => rfl
  | cons i p ih => simp [before, ih]

/-- Positions that part stay apart. -/
theorem before_not_prefix {p q : Path} (h : before p q = true) (s t : Path) : p ++ s ≠ q ++ t := by
  intro e
  have h1 := before_append h s t
  rw [e] at h1
  have := (before_prefix (q ++ t) []).1
  simp only [List.append_nil] at this
  rw [this] at h1; cases h1

/-- What the loop reports, for the positions under the stacked ones. -/
theorem findReports_spec (att : List Key → Val → MOut) (stack : List (Path × Val)) (done : List Key)
    (hs : stack.Pairwise (fun a b => before a.1 b.1 = true)) (hn : (findReports att stack done).2 = none) :
    (findReports att stack done).1.Pairwise (fun a b => before a.path b.path = true) ∧
    (∀ r ∈ (findReports att stack done).1, ∃ e ∈ stack, ∃ q, r.path = e.1 ++ q ∧ ∃ w, e.2.at? q = some w) ∧
    ∀ e ∈ stack, ∀ q w, e.2.at? q = some w → ∀ mi ks,
      ((⟨e.1 ++ q, mi, ks⟩ : Report) ∈ (findReports att stack done).1 ↔
        att (done ++ keysBefore (findReports att stack done).1 (e.1 ++ q)) w = .ok (some mi, ks) ∧
        ∀ q' s, q = q' ++ s → s ≠ [] → ∃ w' ks', e.2.at? q' = some w' ∧
          att (done ++ keysBefore (findReports att stack done).1 (e.1 ++ q')) w' = .ok (none, ks')) := by
  induction stack, done using findReports.induct att with
  | case1 done => rw [findReports]; simp
  | case2 done p v rest h ih =>
    rw [findReports] at hn ⊢
    simp only [h] at hn ⊢
    rw [List.pairwise_cons] at hs
    obtain ⟨i1, i2, i3⟩ := ih hs.2 hn
    have hsub : ∀ r ∈ (findReports att rest done).1, before p r.path = true := by
      intro r hr
      obtain ⟨e, he, q, hq, hw⟩ := i2 r hr
      rw [hq]
      have := before_append (hs.1 e he) [] q
      simpa using this
    have hkb : ∀ q, keysBefore (findReports att rest done).1 (p ++ q) = [] := by
      intro q
      unfold keysBefore
      rw [List.filter_eq_nil_iff.2]
      · rfl
      · intro r hr
        have := before_append (hsub r hr) q []
        rw [List.append_nil] at this
        rw [before_asymm this]; simp
    refine ⟨i1, fun r hr => ?_, ?_⟩
    · obtain ⟨e, he, q, hq, hw⟩ := i2 r hr
      exact ⟨e, by simp [he], q, hq, hw⟩
    · intro e he q w hw mi ks
      rcases List.mem_cons.1 he with rfl | he
      · constructor
        · intro hr
          have := hsub _ hr
          rw [(before_prefix p q).1] at this; cases this
        · rintro ⟨h1, h2⟩
          cases q with
          | nil => 
            simp only [Val.at?, Option.some.injEq] at hw; subst hw
            rw [hkb, List.append_nil, h] at h1; cases h1
          | cons i q =>
            obtain ⟨w', ks', hw', h3⟩ := h2 [] (i :: q) rfl (by simp)
            simp only [Val.at?, Option.some.injEq] at hw'; subst hw'
            rw [hkb, List.append_nil, h] at h3; cases h3
      · exact i3 e he q w hw mi ks
  | case3 done p v rest e h1 h2 =>
    rw [findReports] at hn
    rw [h2] at hn
    cases e <;> first | exact absurd rfl h1 | cases hn
  | case4 done p v rest mi0 ks0 h ih =>
    rw [findReports] at hn ⊢
    simp only [h] at hn ⊢
    rw [List.pairwise_cons] at hs
    obtain ⟨i1, i2, i3⟩ := ih hs.2 hn
    have hsub : ∀ r ∈ (findReports att rest (done ++ ks0)).1, before p r.path = true := by
      intro r hr
      obtain ⟨e, he, q, hq, hw⟩ := i2 r hr
      rw [hq]
      have := before_append (hs.1 e he) [] q
      simpa using this
    have hkb : ∀ q, keysBefore (⟨p, mi0, ks0⟩ :: (findReports att rest (done ++ ks0)).1) (p ++ q) = [] := by
      intro q
      unfold keysBefore
      rw [List.filter_eq_nil_iff.2]
      · rfl
      · intro r hr
        rcases List.mem_cons.1 hr with rfl | hr
        · simp [(before_prefix p q).1]
        · have := before_append (hsub r hr) q []
          rw [List.append_nil] at this
          rw [before_asymm this]; simp
    have hkr : ∀ e ∈ rest, ∀ q, done ++ keysBefore (⟨p, mi0, ks0⟩ :: (findReports att rest (done ++ ks0)).1) (e.1 ++ q) =
        done ++ ks0 ++ keysBefore (findReports att rest (done ++ ks0)).1 (e.1 ++ q) := by
      intro e he q
      have := before_append (hs.1 e he) [] q
      rw [List.append_nil] at this
      simp [keysBefore, List.filter_cons, this]
    refine ⟨List.pairwise_cons.2 ⟨hsub, i1⟩, ?_, ?_⟩
    · intro r hr
      rcases List.mem_cons.1 hr with rfl | hr
      · exact ⟨(p, v), by simp, [], by simp, v, rfl⟩
      · obtain ⟨e, he, q, hq, hw⟩ := i2 r hr
        exact ⟨e, by simp [he], q, hq, hw⟩
    · intro e he q w hw mi ks
      rcases List.mem_cons.1 he with rfl | he
      · constructor
        · intro hr
          rcases List.mem_cons.1 hr with hr | hr
          · simp only [Report.mk.injEq, List.append_right_eq_self] at hr
            obtain ⟨rfl, rfl, rfl⟩ := hr
            simp only [Val.at?, Option.some.injEq] at hw; subst hw
            refine ⟨by rw [hkb, List.append_nil, h], ?_⟩
            intro q' s hq hne
            simp_all
          · have := hsub _ hr
            rw [(before_prefix p q).1] at this; cases this
        · rintro ⟨h1, h2⟩
          cases q with
          | nil =>
            simp only [Val.at?, Option.some.injEq] at hw; subst hw
            rw [hkb, List.append_nil, h] at h1; cases h1
            simp
          | cons i q =>
            obtain ⟨w', ks', hw', h3⟩ := h2 [] (i :: q) rfl (by simp)
            simp only [Val.at?, Option.some.injEq] at hw'; subst hw'
            rw [hkb, List.append_nil, h] at h3; cases h3
      · have := i3 e he q w hw mi ks
        have hnp : (⟨e.1 ++ q, mi, ks⟩ : Report) ≠ ⟨p, mi0, ks0⟩ := by
          intro h
          simp only [Report.mk.injEq] at h
          have := before_not_prefix (hs.1 e he) [] q
          rw [List.append_nil] at this
          exact this h.1.symm
        rw [List.mem_cons, or_iff_right hnp, this, hkr e he]
        simp only [hkr e he]
  | case5 done p v rest ks0 h ih =>
    rw [findReports] at hn ⊢
    simp only [h] at hn ⊢
    rw [List.pairwise_cons] at hs
    have hpw : ((List.map (fun q : Nat × Val => (p ++ [q.1], q.2)) (enumFrom 0 v.children)) ++ rest).Pairwise
        (fun a b => before a.1 b.1 = true) := by
      rw [List.pairwise_append]
      refine ⟨?_, hs.2, ?_⟩
      · rw [List.pairwise_map]
        have : ∀ i (l : List Val), (enumFrom i l).Pairwise (fun a b : Nat × Val => a.1 < b.1) := by
          intro i l
          induction l generalizing i with
          | nil => simp [enumFrom]
          | cons x xs ih =>
            simp only [enumFrom, List.pairwise_cons]
            exact ⟨fun q hq => (by have := (mem_enumFrom _ _ _).1 hq; omega), ih _⟩
        refine (this 0 v.children).imp ?_
        intro a b hab
        rw [before_common]
        simp [before, hab]
      · intro a ha b hb
        obtain ⟨q, _, rfl⟩ := List.mem_map.1 ha
        have := before_append (hs.1 b hb) [q.1] []
        simpa using this
    obtain ⟨i1, i2, i3⟩ := ih hpw hn
    generalize hR : (findReports att ((List.map (fun q : Nat × Val => (p ++ [q.1], q.2)) (enumFrom 0 v.children)) ++ rest) done).1 = R at *
    have hunder : ∀ r ∈ R, (∃ i q, r.path = p ++ i :: q) ∨ before p r.path = true := by
      intro r hr
      obtain ⟨e, he, q, hq, hw⟩ := i2 r hr
      rcases List.mem_append.1 he with he | he
      · obtain ⟨x, _, rfl⟩ := List.mem_map.1 he
        left
        exact ⟨x.1, q, by rw [hq]; simp⟩
      · right
        rw [hq]
        have := before_append (hs.1 e he) [] q
        simpa using this
    have hkp : keysBefore R p = [] := by
      unfold keysBefore
      rw [List.filter_eq_nil_iff.2]
      · rfl
      · intro r hr
        rcases hunder r hr with ⟨i, q, e⟩ | hb
        · rw [e, (before_prefix p _).2]; simp
        · rw [before_asymm hb]; simp
    refine ⟨i1, ?_, ?_⟩
    · intro r hr
      obtain ⟨e, he, q, hq, hw⟩ := i2 r hr
      rcases List.mem_append.1 he with he | he
      · obtain ⟨x, hx, rfl⟩ := List.mem_map.1 he
        obtain ⟨w, hw⟩ := hw
        have hx := ((mem_enumFrom _ _ _).1 hx).2
        simp only [Nat.sub_zero] at hx
        exact ⟨(p, v), by simp, x.1 :: q, by rw [hq]; simp, w, by simp only [Val.at?, hx]; exact hw⟩
      · exact ⟨e, by simp [he], q, hq, hw⟩
    · intro e he q w hw mi ks
      rcases List.mem_cons.1 he with rfl | he
      · cases q with
        | nil =>
          simp only [Val.at?, Option.some.injEq] at hw; subst hw
          constructor
          · intro hr
            rcases hunder _ hr with ⟨i, q, e⟩ | hb
            · simp at e
            · rw [(before_prefix p []).1] at hb; cases hb
          · rintro ⟨h1, _⟩
            simp only [List.append_nil] at h1
            rw [hkp, List.append_nil, h] at h1; cases h1
        | cons i q =>
          simp only [Val.at?] at hw
          cases hc : v.children[i]? with
          | none => rw [hc] at hw; cases hw
          | some u =>
            rw [hc] at hw
            simp only at hw
            have hmem : (p ++ [i], u) ∈ (List.map (fun q : Nat × Val => (p ++ [q.1], q.2)) (enumFrom 0 v.children)) ++ rest := by
              rw [List.mem_append]; left
              exact List.mem_map.2 ⟨(i, u), (mem_enumFrom _ _ _).2 ⟨by omega, by simpa using hc⟩, rfl⟩
            have := i3 _ hmem q w hw mi ks
            simp only [List.append_assoc, List.singleton_append] at this
            show (⟨p ++ i :: q, mi, ks⟩ : Report) ∈ R ↔ _
            rw [this]
            refine and_congr_right fun _ => ⟨fun h2 => ?_, fun h2 => ?_⟩
            · intro q' s hq hne
              cases q' with
              | nil => exact ⟨v, ks0, rfl, by rw [List.append_nil, hkp, List.append_nil]; exact h⟩
              | cons j q' =>
                simp only [List.cons_append, List.cons.injEq] at hq
                obtain ⟨rfl, hq⟩ := hq
                obtain ⟨w', ks', hw', h3⟩ := h2 q' s hq hne
                exact ⟨w', ks', by simp only [Val.at?, hc]; exact hw', h3⟩
            · intro q' s hq hne
              obtain ⟨w', ks', hw', h3⟩ := h2 (i :: q') s (by rw [hq]; simp) hne
              simp only [Val.at?, hc] at hw'
              exact ⟨w', ks', hw', h3⟩
      · exact i3 e (by simp [he]) q w hw mi ks

/-- The reports of a whole tree. -/
theorem findReports_outermost (att : List Key → Val → MOut) (tree : Val) (done : List Key)
    (h : (findReports att [([], tree)] done).2 = none) : Outermost att tree done (findReports att [([], tree)] done).1 := by
  obtain ⟨h1, h2, h3⟩ := findReports_spec att [([], tree)] done (by simp) h
  refine ⟨h1, ?_⟩
  rintro ⟨p, mi, ks⟩
  constructor
  · intro hr
    obtain ⟨e, he, q, hq, w, hw⟩ := h2 _ hr
    simp only [List.mem_singleton] at he
    subst he
    simp only [List.nil_append] at hq
    subst hq
    have := (h3 ([], tree) (by simp) p w hw mi ks).1 hr
    refine ⟨⟨w, hw, by simpa using this.1⟩, fun q s hq hne => ?_⟩
    obtain ⟨w', ks', a, b⟩ := this.2 q s hq hne
    exact ⟨ks', w', a, by simpa using b⟩
  · rintro ⟨⟨w, hw, ha⟩, hb⟩
    refine (h3 ([], tree) (by simp) p w hw mi ks).2 ⟨by simpa using ha, fun q s hq hne => ?_⟩
    obtain ⟨ks', w', a, b⟩ := hb q s hq hne
    exact ⟨w', ks', a, by simpa using b⟩

/-- **C45**: a search that raises nothing reports exactly the outermost matches, each tried with the `Once` keys of the
reports before it, in document order, never one inside another. -/
theorem C45_reports_outermost (c : Ctx) (n : Nat) (m : Matcher) (h : (treeFind c n m).2 = none) :
    ∃ rs : List Report, (treeFind c n m).1 = rs.map (·.mi) ∧ Outermost (attempt c n m) c.tree c.done rs := by
  have e := findReports_eq (attempt c n m) [([], c.tree)] c.done
  simp only [List.map_cons, List.map_nil] at e
  unfold treeFind at h ⊢
  rw [e] at h ⊢
  exact ⟨_, rfl, findReports_outermost _ _ _ h⟩

/-- **C45** for a matcher whose outcome does not depend on earlier matches: a position is reported iff the matcher
matches there and at no position above it matches or raises. -/
theorem C45_stateless (c : Ctx) (n : Nat) (m : Matcher) (h : (treeFind c n m).2 = none)
    (hs : Stateless (attempt c n m)) :
    ∃ rs : List Report, (treeFind c n m).1 = rs.map (·.mi) ∧
      rs.Pairwise (fun a b => before a.path b.path = true) ∧
      ∀ p mi, (∃ ks, ⟨p, mi, ks⟩ ∈ rs) ↔
        (∃ v ks, c.tree.at? p = some v ∧ attempt c n m [] v = .ok (some mi, ks)) ∧
        ∀ q s, p = q ++ s → s ≠ [] → ∃ v ks, c.tree.at? q = some v ∧ attempt c n m [] v = .ok (none, ks) := by
  obtain ⟨rs, h1, h2, h3⟩ := C45_reports_outermost c n m h
  refine ⟨rs, h1, h2, fun p mi => ⟨?_, ?_⟩⟩
  · rintro ⟨ks, hr⟩
    obtain ⟨⟨v, hv, ha⟩, hb⟩ := (h3 _).1 hr
    refine ⟨⟨v, ks, hv, by rw [← ha]; exact hs _ _ _⟩, fun q s hq hne => ?_⟩
    obtain ⟨ks', w, hw, hb⟩ := hb q s hq hne
    exact ⟨w, ks', hw, by rw [← hb]; exact hs _ _ _⟩
  · rintro ⟨⟨v, ks, hv, ha⟩, hb⟩
    refine ⟨ks, (h3 _).2 ⟨⟨v, hv, by rw [← ha]; exact hs _ _ _⟩, fun q s hq hne => ?_⟩⟩
    obtain ⟨w, ks', hw, hb⟩ := hb q s hq hne
    exact ⟨ks', w, hw, by rw [← hb]; exact hs _ _ _⟩

/-- Every exception counted as a `MatchError`. -/
def lenient (att : List Key → Val → MOut) (ks : List Key) (v : Val) : MOut :=
  match att ks v with
  | .error _ => .error .matchError
  | r => r

theorem findLoop_lenient (att : List Key → Val → MOut) (stack : List Val) (done : List Key) :
    (findLoop att stack done).1 <+: (findLoop (lenient att) stack done).1 ∧ (findLoop (lenient att) stack done).2 = none := by
  induction stack, done using findLoop.induct (lenient att) with
  | case1 done => simp [findLoop]
  | case2 done v rest h ih =>
    rw [findLoop]
    conv => rhs; rw [findLoop]
    simp only [h]
    refine ⟨?_, ih.2⟩
    conv => rhs; rw [findLoop]
    simp only [h]
    unfold lenient at h
    split at h
    · rename_i e he
      rw [he]
      cases e <;> first | exact ih.1 | exact List.nil_prefix
    · rename_i r hr
      exact absurd h (hr _)
  | case3 done v rest e h1 h2 =>
    exfalso
    unfold lenient at h2
    split at h2
    · cases h2; exact h1 rfl
    · rename_i r hr; exact hr _ h2
  | case4 done v rest mi ks h ih =>
    have ha : att done v = .ok (some mi, ks) := by
      unfold lenient at h
      split at h
      · cases h
      · exact h
    rw [findLoop, ha]
    conv => lhs; rhs; rw [findLoop]
    conv => rhs; rw [findLoop]
    simp only [h]
    exact ⟨(List.prefix_cons_inj mi).2 ih.1, ih.2⟩
  | case5 done v rest ks h ih =>
    have ha : att done v = .ok (none, ks) := by
      unfold lenient at h
      split at h
      · cases h
      · exact h
    rw [findLoop, ha]
    conv => lhs; rhs; rw [findLoop]
    conv => rhs; rw [findLoop]
    simp only [h]
    exact ih

/-- **C45**: what a search has yielded when an exception ends it is an initial part of what the same search reports when
the error only skips the object it happened on. -/
theorem C45_aborted_prefix (c : Ctx) (n : Nat) (m : Matcher) :
    ∃ rs : List Report, Outermost (lenient (attempt c n m)) c.tree c.done rs ∧ (treeFind c n m).1 <+: rs.map (·.mi) := by
  have hl := findLoop_lenient (attempt c n m) [c.tree] c.done
  have e := findReports_eq (lenient (attempt c n m)) [([], c.tree)] c.done
  simp only [List.map_cons, List.map_nil] at e
  have h0 : (findReports (lenient (attempt c n m)) [([], c.tree)] c.done).2 = none := by
    rw [e] at hl; exact hl.2
  refine ⟨_, findReports_outermost _ _ _ h0, ?_⟩
  have := hl.1
  rw [e] at this
  exact this

/-- **C45**: no reported position contains another, and no position is reported twice. -/
theorem C45_never_nested {att : List Key → Val → MOut} {tree : Val} {done : List Key} {rs : List Report}
    (h : Outermost att tree done rs) : rs.Pairwise fun a b => ∀ s, a.path ++ s ≠ b.path ∧ b.path ++ s ≠ a.path := by
  refine h.1.imp ?_
  intro a b hab s
  constructor
  · intro e
    rw [← e, (before_prefix _ _).1] at hab; cases hab
  · intro e
    rw [← e, (before_prefix _ _).2] at hab; cases hab

theorem findLoop_hit {att : List Key → Val → MOut} {v : Val} {rest : List Val} {done ks : List Key} {mi : MatchInfo}
    (h : att done v = .ok (some mi, ks)) : findLoop att (v :: rest) done =
      (mi :: (findLoop att rest (done ++ ks)).1, (findLoop att rest (done ++ ks)).2) := by
  rw [findLoop, h]

theorem findLoop_miss {att : List Key → Val → MOut} {v : Val} {rest : List Val} {done ks : List Key}
    (h : att done v = .ok (none, ks)) : findLoop att (v :: rest) done = findLoop att (v.children ++ rest) done := by
  rw [findLoop, h]

theorem findLoop_err {att : List Key → Val → MOut} {v : Val} {rest : List Val} {done : List Key}
    (h : att done v = .error .matchError) : findLoop att (v :: rest) done = findLoop att rest done := by
  rw [findLoop, h]

/-- `f(f(x))`, `f(y)` in a list: calls as nodes with a list of arguments. -/
def exCalls : Val :=
  .node 1 (str "Module") [str "body"] [.list 2
    [.node 3 (str "Call") [str "args"] [.list 4 [.node 5 (str "Call") [str "args"] [.list 6 []]]],
     .node 7 (str "Expr") [str "value"] [.node 8 (str "Call") [str "args"] [.list 9 []]]]]

/-- Non-vacuity of C45: three calls, of which the inner one of the nested pair is not reported. -/
example : treeFind { exCtx with tree := exCalls } 3 (.bind (str "c") (.typeIs (str "Call")) none none) =
    ([⟨.object (.node 3 (str "Call") [str "args"] [.list 4 [.node 5 (str "Call") [str "args"] [.list 6 []]]]),
        [(str "c", ⟨.object (.node 3 (str "Call") [str "args"] [.list 4 [.node 5 (str "Call") [str "args"] [.list 6 []]]]), .merge, .keepLast⟩)], []⟩,
      ⟨.object (.node 8 (str "Call") [str "args"] [.list 9 []]),
        [(str "c", ⟨.object (.node 8 (str "Call") [str "args"] [.list 9 []]), .merge, .keepLast⟩)], []⟩], none) := by
  unfold treeFind
  simp only [exCtx, exCalls]
  rw [findLoop_miss (ks := []) rfl]
  simp only [Val.children, List.append_nil]
  rw [findLoop_miss (ks := []) rfl]
  simp only [Val.children, List.append_nil]
  rw [findLoop_hit (ks := []) (mi := ⟨.object (.node 3 (str "Call") [str "args"] [.list 4 [.node 5 (str "Call") [str "args"] [.list 6 []]]]),
        [(str "c", ⟨.object (.node 3 (str "Call") [str "args"] [.list 4 [.node 5 (str "Call") [str "args"] [.list 6 []]]]), .merge, .keepLast⟩)], []⟩) rfl]
  rw [findLoop_miss (ks := []) rfl]
  simp only [Val.children, List.append_nil]
  rw [findLoop_hit (ks := []) (mi := ⟨.object (.node 8 (str "Call") [str "args"] [.list 9 []]),
        [(str "c", ⟨.object (.node 8 (str "Call") [str "args"] [.list 9 []]), .merge, .keepLast⟩)], []⟩) rfl]
  simp [findLoop]

/-- The search without the type filter. -/
def unfiltered (c : Ctx) (n : Nat) (m : Matcher) (done : List Key) (v : Val) : MOut :=
  run { c with done := done } n [] m v []

theorem findLoop_congr {att att' : List Key → Val → MOut}
    (h : ∀ ks v, att ks v = att' ks v ∨ (∃ a b, att ks v = .ok (none, a) ∧ att' ks v = .ok (none, b)))
    (stack : List Val) (done : List Key) : findLoop att stack done = findLoop att' stack done := by
  induction stack, done using findLoop.induct att with
  | case1 done => simp [findLoop]
  | case2 done v rest e ih =>
    rcases h done v with h1 | ⟨a, b, h1, h2⟩
    · rw [findLoop_err e, findLoop_err (h1 ▸ e), ih]
    · rw [e] at h1; cases h1
  | case3 done v rest x h1 e =>
    rcases h done v with h2 | ⟨a, b, h2, h3⟩
    · rw [findLoop, findLoop, ← h2, e]
      cases x <;> first | exact absurd rfl h1 | rfl
    · rw [e] at h2; cases h2
  | case4 done v rest mi ks e ih =>
    rcases h done v with h2 | ⟨a, b, h2, h3⟩
    · rw [findLoop_hit e, findLoop_hit (h2 ▸ e), ih]
    · rw [e] at h2; cases h2
  | case5 done v rest ks e ih =>
    rcases h done v with h2 | ⟨a, b, h2, h3⟩
    · rw [findLoop_miss e, findLoop_miss (h2 ▸ e), ih]
    · rw [findLoop_miss e, findLoop_miss h3, ih]

/-- **C39**: searching with the type filter gives the same results as searching without it, if the matcher raises
nothing on objects the filter excludes. -/
theorem C39_search_same (c : Ctx) (n : Nat) (m : Matcher) (f : TypeFilter) (hf : typeFilter n [] m = .ok f)
    (hr : ∀ done v, passesFilter f v.ty = false → ∀ e, unfiltered c n m done v ≠ .error e) :
    treeFind c n m = findLoop (unfiltered c n m) [c.tree] c.done := by
  unfold treeFind
  refine findLoop_congr ?_ _ _
  intro ks v
  unfold attempt
  rw [hf]
  simp only
  cases hp : passesFilter f v.ty with
  | true => left; simp [unfiltered]
  | false =>
    right
    have ha : admits f v.ty = false := by
      unfold passesFilter at hp
      cases f <;> simp_all [admits]
    have := C39_type_filter_sound { c with done := ks } n n [] m f v hf ha
    cases hu : unfiltered c n m ks v with
    | error e => exact absurd hu (hr ks v hp e)
    | ok r =>
      obtain ⟨r, k⟩ := r
      cases r with
      | none => exact ⟨[], k, by simp, rfl⟩
      | some mi => exact absurd hu (this [] mi k)

/-- A matcher that raises on everything but strings, and does not match anything but strings. -/
def exRaising : Matcher :=
  .allOf [.anyOf [.typeIs (str "str"),
    .allOf [.bind (str "x") .anything (some .error) none, .bind (str "x") .anything (some .error) none]],
    .typeIs (str "str")]

/-- A tree with a string in it. -/
def exStrTree : Ctx := { exCtx with tree := .node 1 (str "Expr") [str "value"] [exStr] }

/-- **C39**, refutation of "skipping by type_filter never changes a search result": the filter keeps a matcher from
raising `MatchError` on the root, after which nothing inside would be searched. -/
theorem C39_search_same_false :
    (treeFind exStrTree 5 exRaising).1.length = 1 ∧
    (findLoop (unfiltered exStrTree 5 exRaising) [exStrTree.tree] exStrTree.done).1.length = 0 := by
  constructor
  · unfold treeFind
    simp only [exStrTree]
    rw [findLoop_miss (ks := []) rfl]
    simp only [Val.children, List.append_nil]
    rw [findLoop_hit (ks := []) (mi := ⟨.string (str "s"), [], []⟩) rfl]
    simp [findLoop]
  · simp only [exStrTree]
    rw [findLoop_err rfl]
    simp [findLoop]

/-- Non-vacuity of C39_search_same: a typed matcher on a tree with other types. -/
example : typeFilter 2 [] (.typeIs (str "Call")) = .ok (some [str "Call"]) ∧
    (∀ done v, passesFilter (some [str "Call"]) v.ty = false → ∀ e, unfiltered exCtx 2 (.typeIs (str "Call")) done v ≠ .error e) := by
  refine ⟨rfl, fun done v h e => ?_⟩
  simp only [unfiltered, run]
  split <;> simp [found]

end Refex
