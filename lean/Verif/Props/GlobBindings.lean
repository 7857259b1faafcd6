import Verif.Spec.GlobBindings
import Verif.Props.Glob
import Verif.Props.Items
/-! # C42 for item matchers that bind -/
namespace Refex
set_option autoImplicit false

/-- The matcher matches the item with this result, for some state of the `Once` matchers. -/
def HitsItem (c : Ctx) (n : Nat) (env : Env) (m : Matcher) (x : Val) (mi : MatchInfo) : Prop := ∃ ks ks', run c n env m x ks = .ok (some mi, ks')

theorem fitsWith_of_allHit {c : Ctx} {n : Nat} {env : Env} {ms : List Matcher} {vs : List Val} (hl : vs.length = ms.length) {ks ks' : List Key} {mis : List MatchInfo}
    (h : AllHit (List.zipWith (fun m w => run c n env m w) ms vs) ks mis ks') : FitsWith (HitsItem c n env) (ms.map some) vs mis := by
  induction ms generalizing vs ks mis with
  | nil => cases vs with
    | nil => cases h; exact .nil
    | cons => simp at hl
  | cons m ms ih => cases vs with
    | nil => simp at hl
    | cons v vs =>
      simp only [List.zipWith_cons_cons] at h
      cases h with
      | cons h1 h2 => exact .item ⟨_, _, h1⟩ (ih (by simpa using hl) h2)

theorem fitsWith_append {hits : Matcher → Val → MatchInfo → Prop} {ms : List Matcher} {ys : List Val} {mis : List MatchInfo} (h : FitsWith hits (ms.map some) ys mis)
    {ps : List (Option Matcher)} {zs : List Val} {mis' : List MatchInfo} (h' : FitsWith hits ps zs mis') :
    FitsWith hits (ms.map some ++ ps) (ys ++ zs) (mis ++ mis') := by
  induction ms generalizing ys mis with
  | nil => cases h; exact h'
  | cons m ms ih =>
    cases h with
    | item h1 h2 => exact .item h1 (ih h2)

theorem searchBlock_sound {c : Ctx} {n : Nat} {env : Env} {block : List Matcher} {v : Val} {xs : List Val} (hv : seqItems v = some xs) (k : Nat) (pos : Int)
    (ks ks' : List Key) (mi : MatchInfo) (e : Int) (h : searchBlock c (n + 4) env v block k pos ks = .ok (some (mi, e), ks')) :
    ∃ j : Int, pos ≤ j ∧ j < pos + k ∧ e = j + block.length ∧ (pySliceInt xs j (j + block.length)).length = block.length ∧
      ∃ mis, FitsWith (HitsItem c (n + 2) env) (block.map some) (pySliceInt xs j (j + block.length)) mis ∧ MergeAll [] (mis.map (·.bindings)) mi.bindings := by
  induction k generalizing pos ks with
  | zero => simp [searchBlock] at h
  | succ k ih =>
    simp only [searchBlock] at h
    split at h
    · cases h
    · rename_i mi' ks1 hr
      simp only [Except.ok.injEq, Prod.mk.injEq, Option.some.injEq] at h
      obtain ⟨⟨rfl, rfl⟩, rfl⟩ := h
      have hs := seqItems_slice hv pos (pos + block.length)
      obtain ⟨vs, h1, h2, mis, h3, h4, h5, h6⟩ := (C43_items_are c n env block _ ks ks1 mi' (.inr (by rw [hs]; simp))).1 hr
      rw [hs] at h1
      cases h1
      exact ⟨pos, Int.le_refl _, by omega, rfl, h2, mis, fitsWith_of_allHit h2 h3, h5⟩
    · rename_i ks1 hr
      obtain ⟨j, h1, h2, h3⟩ := ih _ _ h
      exact ⟨j, by omega, by omega, h3⟩

theorem globLoop_fin_sound {c : Ctx} {n : Nat} {env : Env} {ms : List Matcher} {v : Val} {xs : List Val} (hv : seqItems v = some xs) (pos : Int) (b : Bindings)
    (ks ks' : List Key) (mi : MatchInfo) (h : globLoop c (n + 4) env v xs.length (finBlock ms) true pos b ks = .ok (.matched mi, ks')) :
    ∃ mis, (∃ sk tl, xs = sk ++ tl ∧ FitsWith (HitsItem c (n + 2) env) (ms.map some) tl mis) ∧ MergesGroups b mis mi.bindings ∧ mi.obj = createMatch c v := by
  unfold finBlock at h
  cases ms with
  | nil =>
    simp only [List.isEmpty_nil, if_true, globLoop, Bool.true_eq_false, and_false, if_false, Except.ok.injEq, Prod.mk.injEq, GlobRes.matched.injEq] at h
    obtain ⟨rfl, rfl⟩ := h
    exact ⟨[], ⟨xs, [], by simp, .nil⟩, .nil, rfl⟩
  | cons m ms =>
    simp only [List.isEmpty_cons, Bool.false_eq_true, if_false, globLoop, List.isEmpty_nil, and_self, if_true] at h
    generalize hB : (m :: ms) = B at *
    rw [show ((xs.length : Int) - B.length + 1 - (xs.length - B.length)).toNat = 1 by omega] at h
    split at h
    · cases h
    · cases h
    · rename_i mi' e ks1 hs
      obtain ⟨j, h1, h2, h3, h4, mis, h5, h6⟩ := searchBlock_sound hv _ _ _ _ _ _ hs
      have hj : j = (xs.length : Int) - B.length := by omega
      have hle : B.length ≤ xs.length := by
        have := pySliceInt_length xs j (j + B.length)
        omega
      split at h
      · cases h
      · cases h
      · rename_i b1 hm
        split at h
        · cases h
        · simp only [Except.ok.injEq, Prod.mk.injEq, GlobRes.matched.injEq] at h
          obtain ⟨rfl, rfl⟩ := h
          refine ⟨mis, ⟨xs.take (xs.length - B.length), _, ?_, h5⟩, ?_, rfl⟩
          · have e := pySliceInt_nat xs (xs.length - B.length) B.length
            rw [show ((xs.length - B.length : Nat) : Int) = j by omega] at e
            have hl : (xs.drop (xs.length - B.length)).length ≤ B.length := by rw [List.length_drop]; omega
            rw [e, List.take_of_length_le hl, List.take_append_drop]
          · have := MergesGroups.group h6 hm .nil
            simpa using this

theorem globLoop_sound {c : Ctx} {n : Nat} {env : Env} {ms : List Matcher} {v : Val} {xs : List Val} (hv : seqItems v = some xs)
    (bs : List GlobBlock) (hbs : Good bs) (s : Bool) (pos : Nat) (b : Bindings) (ks ks' : List Key) (mi : MatchInfo)
    (h : globLoop c (n + 4) env v xs.length (bs ++ finBlock ms) s pos b ks = .ok (.matched mi, ks')) :
    ∃ mis mis', FitsWith (HitsItem c (n + 2) env) (if s then none :: unblock bs else unblock bs) (xs.drop pos) mis ∧
      (∃ sk tl, xs = sk ++ tl ∧ FitsWith (HitsItem c (n + 2) env) (ms.map some) tl mis') ∧ MergesGroups b (mis ++ mis') mi.bindings ∧
      mi.obj = createMatch c v := by
  have hstar : ∀ (ps : List (Option Matcher)) (ys : List Val) mis, FitsWith (HitsItem c (n + 2) env) ps ys mis → FitsWith (HitsItem c (n + 2) env) (none :: ps) ys mis :=
    fun ps ys mis h => by simpa using FitsWith.star [] h
  induction hbs generalizing s pos b ks with
  | last =>
    simp only [List.cons_append, List.nil_append, globLoop] at h
    obtain ⟨mis, h1, h2, h3⟩ := globLoop_fin_sound hv _ _ _ _ _ h
    refine ⟨[], mis, ?_, h1, h2, h3⟩
    have h1 : FitsWith (HitsItem c (n + 2) env) [none] (xs.drop pos) [] := by simpa using FitsWith.star (xs.drop pos) FitsWith.nil
    cases s
    · exact h1
    · exact hstar _ _ _ h1
  | @star l hl ih =>
    simp only [List.cons_append, globLoop] at h
    obtain ⟨mis, mis', h1, h2⟩ := ih _ _ _ _ h
    refine ⟨mis, mis', ?_, h2⟩
    simp only [if_true] at h1
    cases s
    · exact h1
    · exact hstar _ _ _ h1
  | @items block l hne hl ih =>
    rw [List.cons_append, globLoop] at h
    simp only [List.cons_append, List.isEmpty_cons, Bool.false_eq_true, and_false, if_false] at h
    split at h
    · cases h
    · cases h
    · rename_i mi' e ks1 hs
      obtain ⟨j, h1, h2, h3, h4, mis, h5, h6⟩ := searchBlock_sound hv _ _ _ _ _ _ hs
      have hpos : 0 < block.length := List.length_pos_iff.2 hne
      split at h
      · cases h
      · cases h
      · rename_i b1 hm
        obtain ⟨i, rfl⟩ : ∃ i : Nat, j = i := ⟨j.toNat, by omega⟩
        have hpi : pos ≤ i := by omega
        rw [pySliceInt_nat] at h4 h5
        have hile : i + block.length ≤ xs.length := by
          simp only [List.length_take, List.length_drop] at h4
          omega
        rw [h3, show (i : Int) + block.length = ((i + block.length : Nat) : Int) by omega] at h
        obtain ⟨mis1, mis', g1, g2, g3, g4⟩ := ih _ _ _ _ (by simpa only [List.cons_append] using h)
        simp only [Bool.false_eq_true, if_false] at g1
        have hcat := fitsWith_append h5 g1
        have hsplit : (xs.drop i).take block.length ++ xs.drop (i + block.length) = xs.drop i := by
          rw [← List.drop_drop]; exact List.take_append_drop _ _
        rw [hsplit] at hcat
        refine ⟨mis ++ mis1, mis', ?_, g2, ?_, g4⟩
        · cases s with
          | true =>
            simp only [if_true]
            have hd : xs.drop pos = (xs.drop pos).take (i - pos) ++ xs.drop i := by
              conv => lhs; rw [← List.take_append_drop (i - pos) (xs.drop pos)]
              rw [List.drop_drop, show pos + (i - pos) = i by omega]
            rw [hd]
            exact .star _ hcat
          | false =>
            have : i = pos := by
              simp only [Bool.false_eq_true, if_false] at h2
              omega
            subst this
            exact hcat
        · rw [List.append_assoc]
          exact .group h6 hm g3

/-- **C42**, for all item matchers, without stars: what matches are sequences whose items match, with the bindings of the items merged. -/
theorem C42_items (c : Ctx) (n : Nat) (env : Env) (ms : List Matcher) (v : Val) (xs : List Val) (hv : seqItems v = some xs) (ks ks' : List Key) (mi : MatchInfo)
    (h : globMatch c (n + 4) env (ms.map some) v ks = .ok (.matched mi, ks')) :
    ∃ mis, FitsWith (HitsItem c (n + 2) env) (ms.map some) xs mis ∧ MergesGroups [] mis mi.bindings ∧ mi.obj = createMatch c v := by
  unfold globMatch at h
  rw [hv] at h
  simp only [blockify, blockifyLoop_items, List.nil_append, globLoop, List.isEmpty_nil, Bool.false_eq_true, false_and, if_false] at h
  split at h
  · cases h
  · cases h
  · rename_i mi' e ks1 hs
    obtain ⟨j, h1, h2, h3, h4, mis, h5, h6⟩ := searchBlock_sound hv _ _ _ _ _ _ hs
    split at h
    · cases h
    · cases h
    · rename_i b1 hm
      split at h
      · cases h
      · rename_i he
        simp only [Except.ok.injEq, Prod.mk.injEq, GlobRes.matched.injEq] at h
        obtain ⟨rfl, rfl⟩ := h
        have hj : j = 0 := by omega
        subst hj
        have hlen : ms.length = xs.length := by
          simp only [and_true, ne_eq, Classical.not_not] at he
          omega
        have e0 := pySliceInt_nat xs 0 ms.length
        rw [show ((0 : Nat) : Int) = 0 from rfl, List.drop_zero] at e0
        rw [e0, List.take_of_length_le (by omega)] at h5
        exact ⟨mis, h5, by simpa using MergesGroups.group h6 hm .nil, rfl⟩

/-- **C42**, for all item matchers, whether they bind, raise or are stateful: if `Glob` with the pattern `ps *` followed by the item matchers `ms` matches then the items
before the last star match as the pattern says, the others match the last items, and the bindings are those of the items, merged. -/
theorem C42_any_items (c : Ctx) (n : Nat) (env : Env) (ps : List (Option Matcher)) (ms : List Matcher) (v : Val) (xs : List Val) (hv : seqItems v = some xs)
    (ks ks' : List Key) (mi : MatchInfo) (h : globMatch c (n + 4) env (ps ++ none :: ms.map some) v ks = .ok (.matched mi, ks')) :
    ∃ mis mis', FitsWith (HitsItem c (n + 2) env) (ps ++ [none]) xs mis ∧
      (∃ sk tl, xs = sk ++ tl ∧ FitsWith (HitsItem c (n + 2) env) (ms.map some) tl mis') ∧ MergesGroups [] (mis ++ mis') mi.bindings ∧
      mi.obj = createMatch c v := by
  obtain ⟨hg, hu⟩ := preBlocks_spec ps (.items [])
  have hu' : unblock (preBlocks ps (.items []) ++ [.star]) = ps ++ [none] := by
    rw [unblock_append, hu]; simp [unblock]
  unfold globMatch at h
  rw [hv] at h
  simp only [blockify, blockifyLoop_star, blockifyLoop_last] at h
  have := globLoop_sound (ms := ms) hv _ hg false 0 [] ks ks' mi (by rw [List.append_assoc]; simpa using h)
  simpa only [Bool.false_eq_true, if_false, hu', List.drop_zero] using this

-- Item matchers that bind: the pattern `* x * x *` on `[b, b]`, and `x x` on it.
example : ∃ mi, globMatch exCtx 6 [] ([none, some exX, none, some exX] ++ none :: ([] : List Matcher).map some) (.list 9 [exB, exB]) [] = .ok (.matched mi, []) ∧
    mi.bindings.keys = [str "x"] := ⟨_, rfl, rfl⟩
example : ∃ mi, globMatch exCtx 6 [] ([exX, exX].map some) (.list 9 [exB, exB]) [] = .ok (.matched mi, []) := ⟨_, rfl⟩

end Refex
