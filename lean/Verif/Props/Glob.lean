import Verif.Spec.Glob
import Verif.Props.Items
/- C42: `Glob`. -/
namespace Refex
set_option autoImplicit false

/-- Consecutive matchers accept consecutive items, all of them. -/
def fitsBlock (acc : Matcher → Val → Bool) : List Matcher → List Val → Bool
  | [], [] => true
  | m :: ms, x :: xs => acc m x && fitsBlock acc ms xs
  | _, _ => false

theorem fitsBlock_length {acc : Matcher → Val → Bool} {ms : List Matcher} {xs : List Val} (h : fitsBlock acc ms xs = true) :
    xs.length = ms.length := by
  induction ms generalizing xs with
  | nil => cases xs <;> simp_all [fitsBlock]
  | cons m ms ih =>
    cases xs with
    | nil => simp [fitsBlock] at h
    | cons x xs => simp only [fitsBlock, Bool.and_eq_true] at h; simp [ih h.2]

theorem fits_block_append {acc : Matcher → Val → Bool} (ms : List Matcher) (ps : List (Option Matcher)) (xs : List Val) :
    Fits acc (ms.map some ++ ps) xs ↔ fitsBlock acc ms (xs.take ms.length) = true ∧ Fits acc ps (xs.drop ms.length) := by
  induction ms generalizing xs with
  | nil => simp [fitsBlock]
  | cons m ms ih =>
    cases xs with
    | nil =>
      simp only [List.map_cons, List.cons_append, List.take_nil, fitsBlock]
      constructor
      · intro h; cases h
      · intro h; cases h.1
    | cons x xs =>
      simp only [List.map_cons, List.cons_append, List.length_cons, List.take_succ_cons, List.drop_succ_cons, fitsBlock,
        Bool.and_eq_true]
      constructor
      · intro h
        cases h with
        | item h1 h2 => have := (ih xs).1 h2; exact ⟨⟨h1, this.1⟩, this.2⟩
      · rintro ⟨⟨h1, h2⟩, h3⟩
        exact .item h1 ((ih xs).2 ⟨h2, h3⟩)

theorem fits_star {acc : Matcher → Val → Bool} (ps : List (Option Matcher)) (xs : List Val) :
    Fits acc (none :: ps) xs ↔ ∃ j, j ≤ xs.length ∧ Fits acc ps (xs.drop j) := by
  constructor
  · intro h
    cases h with
    | star sk h => exact ⟨sk.length, by simp, by simpa using h⟩
  · rintro ⟨j, _, h⟩
    have := Fits.star (xs.take j) h
    rwa [List.take_append_drop] at this

theorem fits_star_mono {acc : Matcher → Val → Bool} {ps : List (Option Matcher)} {xs : List Val} {i j : Nat} (h : i ≤ j)
    (hf : Fits acc (none :: ps) (xs.drop j)) : Fits acc (none :: ps) (xs.drop i) := by
  rw [fits_star] at hf ⊢
  obtain ⟨k, hk, hf⟩ := hf
  rw [List.drop_drop] at hf
  by_cases hj : j ≤ xs.length
  · refine ⟨j - i + k, by simp only [List.length_drop] at hk ⊢; omega, ?_⟩
    rw [List.drop_drop, show i + (j - i + k) = j + k by omega]; exact hf
  · refine ⟨xs.length - i, by simp, ?_⟩
    rw [List.drop_drop]
    rw [List.drop_eq_nil_of_le (by omega)] at hf
    rw [List.drop_eq_nil_of_le (by omega)]; exact hf

/-- A block after a star: some place for it. -/
theorem fits_star_block {acc : Matcher → Val → Bool} (ms : List Matcher) (hms : ms ≠ []) (ps : List (Option Matcher)) (xs : List Val) :
    Fits acc (none :: (ms.map some ++ ps)) xs ↔
      ∃ j, j < xs.length ∧ fitsBlock acc ms ((xs.drop j).take ms.length) = true ∧ Fits acc ps (xs.drop (j + ms.length)) := by
  rw [fits_star]
  constructor
  · rintro ⟨j, hj, h⟩
    rw [fits_block_append, List.drop_drop] at h
    refine ⟨j, ?_, h⟩
    have := fitsBlock_length h.1
    have hpos : 0 < ms.length := by cases ms <;> simp_all
    simp only [List.length_take, List.length_drop] at this
    omega
  · rintro ⟨j, hj, h⟩
    exact ⟨j, by omega, (fits_block_append _ _ _).2 (by rw [List.drop_drop]; exact h)⟩

/-- A step that always, in every state, matches without bindings or always fails. -/
def PlainStep (f : List Key → MOut) (b : Bool) : Prop :=
  ∀ ks, if b then ∃ o, f ks = .ok (some ⟨o, [], []⟩, ks) else f ks = .ok (none, ks)

theorem accumulate_plain {c : Ctx} {v : Val} (l : List ((List Key → MOut) × Bool)) (h : ∀ p ∈ l, PlainStep p.1 p.2)
    (ks : List Key) : accumulate c v (l.map Prod.fst) ks =
      if l.all Prod.snd then .ok (some ⟨createMatch c v, [], []⟩, ks) else .ok (none, ks) := by
  unfold accumulate
  induction l with
  | nil => simp [accumLoop]
  | cons p l ih =>
    have hp := h p (by simp) ks
    have ih := ih (fun q hq => h q (by simp [hq]))
    simp only [List.map_cons, accumLoop, List.all_cons]
    by_cases hb : p.2 = true
    · rw [if_pos hb] at hp
      obtain ⟨o, ho⟩ := hp
      rw [ho]
      simp only [hb, Bool.true_and]
      rw [← ih]
      rfl
    · rw [if_neg hb] at hp
      rw [hp]
      simp [hb]

/-- `ItemsAre` of plain matchers on a sequence. -/
theorem itemsAre_plain {c : Ctx} {n : Nat} {env : Env} {acc : Matcher → Val → Bool} {ms : List Matcher}
    (hp : ∀ m ∈ ms, PlainItem c (n + 2) env m (acc m)) {v : Val} {xs : List Val} (hv : seqItems v = some xs) (ks : List Key) :
    run c (n + 4) env (.itemsAre ms) v ks =
      if fitsBlock acc ms xs then .ok (some ⟨createMatch c v, [], []⟩, ks) else .ok (none, ks) := by
  have hrun : run c (n + 4) env (.itemsAre ms) v ks = accumulate c v
      (run c (n + 3) env (.unlessM (.hasItem ms.length .anything)) v ::
        (enumFrom 0 ms).map fun p => run c (n + 3) env (.hasItem p.1 p.2) v) ks := by
    rw [run]
  let l : List ((List Key → MOut) × Bool) :=
    (run c (n + 3) env (.unlessM (.hasItem ms.length .anything)) v, decide (xs.length ≤ ms.length)) ::
      (enumFrom 0 ms).map fun p => (run c (n + 3) env (.hasItem p.1 p.2) v,
        match xs[p.1]? with
        | some x => acc p.2 x
        | none => false)
  have hl : l.map Prod.fst = (run c (n + 3) env (.unlessM (.hasItem ms.length .anything)) v ::
        (enumFrom 0 ms).map fun p => run c (n + 3) env (.hasItem p.1 p.2) v) := by
    simp only [l, List.map_cons, List.map_map]; rfl
  have hmem : ∀ (i : Nat) (l : List Matcher), ∀ p ∈ enumFrom i l, p.2 ∈ l := by
    intro i l
    induction l generalizing i with
    | nil => simp [enumFrom]
    | cons x xs ih =>
      intro p hp
      simp only [enumFrom, List.mem_cons] at hp
      rcases hp with rfl | hp
      · simp
      · exact List.mem_cons_of_mem _ (ih _ _ hp)
  have hall : ∀ (ms : List Matcher) (i : Nat), i ≤ xs.length → ((xs.length ≤ i + ms.length ∧
      ((enumFrom i ms).all fun p => match xs[p.1]? with
        | some x => acc p.2 x
        | none => false) = true) ↔ fitsBlock acc ms (xs.drop i) = true) := by
    intro ms
    induction ms with
    | nil =>
      intro i hi
      cases hd : xs.drop i with
      | nil => have := congrArg List.length hd; simp only [List.length_drop, List.length_nil] at this; simp [enumFrom, fitsBlock]; omega
      | cons y ys => have := congrArg List.length hd; simp only [List.length_drop, List.length_cons] at this; simp [enumFrom, fitsBlock]; omega
    | cons m ms ih =>
      intro i hi
      by_cases hlt : i < xs.length
      · rw [List.drop_eq_getElem_cons hlt]
        simp only [enumFrom, List.all_cons, List.getElem?_eq_getElem hlt, fitsBlock, Bool.and_eq_true, List.length_cons]
        rw [← ih (i + 1) (by omega)]
        constructor
        · rintro ⟨a, b, d⟩; exact ⟨b, by omega, d⟩
        · rintro ⟨b, a, d⟩; exact ⟨by omega, b, d⟩
      · rw [List.drop_eq_nil_of_le (by omega)]
        simp [enumFrom, fitsBlock, List.getElem?_eq_none (by omega : xs.length ≤ i)]
  rw [hrun, ← hl, accumulate_plain l]
  · have h0 := hall ms 0 (by omega)
    have : l.all Prod.snd = fitsBlock acc ms xs := by
      rw [Bool.eq_iff_iff]
      simp only [List.drop_zero, Nat.zero_add] at h0
      rw [← h0]
      simp only [l, List.all_cons, Bool.and_eq_true, decide_eq_true_eq, List.all_map, Function.comp_def]
    rw [this]
  · intro p hpm
    rcases List.mem_cons.1 hpm with rfl | hpm
    · intro ks
      simp only [noItem_step, getItem_nat hv, decide_eq_true_eq]
      by_cases hle : xs.length ≤ ms.length
      · rw [if_pos hle, List.getElem?_eq_none hle]; exact ⟨_, rfl⟩
      · rw [if_neg hle, List.getElem?_eq_getElem (by omega)]
    · obtain ⟨q, hq, rfl⟩ := List.mem_map.1 hpm
      intro ks
      have hpl := hp q.2 (hmem _ _ _ hq)
      simp only
      rw [run, getItem_nat hv]
      cases hx : xs[q.1]? with
      | none => simp
      | some x =>
        have := hpl x ks
        simp only
        by_cases ha : acc q.2 x = true
        · rw [if_pos ha] at this ⊢
          obtain ⟨mi, h1, h2⟩ := this
          rw [h1]
          exact ⟨createMatch c v, by simp [rewrap, found, h2]⟩
        · rw [if_neg ha] at this ⊢
          rw [this]; rfl

theorem pySliceInt_nat {α : Type} (xs : List α) (a k : Nat) : pySliceInt xs a (a + k : Int) = (xs.drop a).take k := by
  unfold pySliceInt sliceBound
  have h1 : ¬ ((a : Int) < 0) := by omega
  have h2 : ¬ ((a : Int) + k < 0) := by omega
  rw [if_neg h1, if_neg h2]
  have e1 : (a : Int).toNat = a := by omega
  have e2 : ((a : Int) + k).toNat = a + k := by omega
  rw [e1, e2]
  by_cases h : a ≤ xs.length
  · rw [Nat.min_eq_left h]
    by_cases h' : a + k ≤ xs.length
    · rw [Nat.min_eq_left h', show a + k - a = k by omega]
    · rw [Nat.min_eq_right (by omega), List.take_of_length_le (by simp), List.take_of_length_le (by simp; omega)]
  · rw [Nat.min_eq_right (by omega), Nat.min_eq_right (by omega)]
    simp [List.drop_eq_nil_of_le (by omega : xs.length ≤ a)]

theorem pySliceInt_length {α : Type} (xs : List α) (a b : Int) : (pySliceInt xs a b).length ≤ xs.length := by
  unfold pySliceInt
  simp only [List.length_take, List.length_drop]; omega

theorem pySliceInt_map {α β : Type} (f : α → β) (xs : List α) (a b : Int) :
    pySliceInt (xs.map f) a b = (pySliceInt xs a b).map f := by
  simp [pySliceInt, List.map_drop, List.map_take]

theorem seqItems_slice {v : Val} {xs : List Val} (hv : seqItems v = some xs) (a b : Int) :
    seqItems (sliceVal v a b) = some (pySliceInt xs a b) := by
  match v, hv with
  | .list i vs, hv => simp only [seqItems, Option.some.injEq] at hv; subst hv; rfl
  | .const i (.str t), hv =>
    simp only [seqItems, Option.some.injEq] at hv; subst hv
    simp only [sliceVal, seqItems, Option.some.injEq]
    exact (pySliceInt_map _ _ _ _).symm
  | .const i .none, hv => simp [seqItems] at hv
  | .const i (.bool _), hv => simp [seqItems] at hv
  | .const i (.int _), hv => simp [seqItems] at hv
  | .const i .ellipsis, hv => simp [seqItems] at hv
  | .const i (.other _ _ _), hv => simp [seqItems] at hv
  | .node .., hv => simp [seqItems] at hv

/-- The first place of the range where the block fits. -/
def firstFit (acc : Matcher → Val → Bool) (ms : List Matcher) (xs : List Val) : Nat → Nat → Option Nat
  | 0, _ => none
  | k + 1, pos => if fitsBlock acc ms ((xs.drop pos).take ms.length) then some pos else firstFit acc ms xs k (pos + 1)

theorem firstFit_some {acc : Matcher → Val → Bool} {ms : List Matcher} {xs : List Val} {k pos j : Nat}
    (h : firstFit acc ms xs k pos = some j) :
    pos ≤ j ∧ j < pos + k ∧ fitsBlock acc ms ((xs.drop j).take ms.length) = true ∧
      ∀ i, pos ≤ i → i < j → fitsBlock acc ms ((xs.drop i).take ms.length) = false := by
  induction k generalizing pos with
  | zero => simp [firstFit] at h
  | succ k ih =>
    simp only [firstFit] at h
    split at h
    · rename_i hf; cases h; exact ⟨by omega, by omega, hf, fun i a b => by omega⟩
    · rename_i hf
      obtain ⟨a, b, d, e⟩ := ih h
      refine ⟨by omega, by omega, d, fun i h1 h2 => ?_⟩
      by_cases hi : i = pos
      · subst hi; simpa using hf
      · exact e i (by omega) h2

theorem firstFit_none {acc : Matcher → Val → Bool} {ms : List Matcher} {xs : List Val} {k pos : Nat}
    (h : firstFit acc ms xs k pos = none) : ∀ i, pos ≤ i → i < pos + k → fitsBlock acc ms ((xs.drop i).take ms.length) = false := by
  induction k generalizing pos with
  | zero => intro i a b; omega
  | succ k ih =>
    simp only [firstFit] at h
    split at h
    · cases h
    · rename_i hf
      intro i h1 h2
      by_cases hi : i = pos
      · subst hi; simpa using hf
      · exact ih h i (by omega) (by omega)

theorem searchBlock_plain {c : Ctx} {n : Nat} {env : Env} {acc : Matcher → Val → Bool} {ms : List Matcher}
    (hp : ∀ m ∈ ms, PlainItem c (n + 2) env m (acc m)) {v : Val} {xs : List Val} (hv : seqItems v = some xs) (k pos : Nat)
    (ks : List Key) :
    (∀ j, firstFit acc ms xs k pos = some j → ∃ o, searchBlock c (n + 4) env v ms k pos ks =
      .ok (some (⟨o, [], []⟩, ((j + ms.length : Nat) : Int)), ks)) ∧
    (firstFit acc ms xs k pos = none → searchBlock c (n + 4) env v ms k pos ks = .ok (none, ks)) := by
  induction k generalizing pos with
  | zero => simp [firstFit, searchBlock]
  | succ k ih =>
    have hi := itemsAre_plain hp (seqItems_slice hv (pos : Int) (pos + ms.length)) ks
    rw [pySliceInt_nat] at hi
    simp only [firstFit, searchBlock]
    rw [hi]
    by_cases hf : fitsBlock acc ms ((xs.drop pos).take ms.length) = true
    · rw [if_pos hf, if_pos hf]
      refine ⟨fun j hj => ?_, fun h => (by cases h)⟩
      cases hj
      exact ⟨_, by simp; rfl⟩
    · rw [if_neg hf, if_neg hf]
      have := ih (pos + 1)
      simpa using this

theorem Decides.congr {c : Ctx} {v : Val} {ks : List Key} {o : Except MExc (GlobRes × List Key)} {P Q : Prop}
    (h : Decides c v ks o P) (e : P ↔ Q) : Decides c v ks o Q := by
  unfold Decides at h ⊢; rw [← e]; exact h

/-- The pattern a list of blocks stands for. -/
def unblock : List GlobBlock → List (Option Matcher)
  | [] => []
  | .star :: bs => none :: unblock bs
  | .items ms :: bs => ms.map some ++ unblock bs

/-- Blocks that end with a star and in which a run of items is not empty and is followed by a star. -/
inductive Good : List GlobBlock → Prop
  | last : Good [.star]
  | star {l} : Good l → Good (.star :: l)
  | items {ms l} : ms ≠ [] → Good (.star :: l) → Good (.items ms :: .star :: l)

/-- The condition on a last block after a star. -/
def lastFits (acc : Matcher → Val → Bool) (xs : List Val) : List Matcher → Prop
  | ms => ms = [] ∨ (ms.length ≤ xs.length ∧ fitsBlock acc ms (xs.drop (xs.length - ms.length)) = true)

/-- The last block, if any. -/
def finBlock (ms : List Matcher) : List GlobBlock := if ms.isEmpty then [] else [.items ms]

theorem globLoop_fin {c : Ctx} {n : Nat} {env : Env} {acc : Matcher → Val → Bool} {ms : List Matcher}
    (hp : ∀ m ∈ ms, PlainItem c (n + 2) env m (acc m)) {v : Val} {xs : List Val} (hv : seqItems v = some xs) (pos : Int)
    (ks : List Key) : Decides c v ks (globLoop c (n + 4) env v xs.length (finBlock ms) true pos [] ks) (lastFits acc xs ms) := by
  unfold finBlock lastFits
  cases ms with
  | nil => left; simp [globLoop]
  | cons m ms =>
    simp only [List.isEmpty_cons, Bool.false_eq_true, if_false, globLoop, List.isEmpty_nil, and_self, if_true]
    generalize hB : (m :: ms) = B at *
    have hBne : B ≠ [] := by subst hB; simp
    rw [show ((xs.length : Int) - B.length + 1 - (xs.length - B.length)).toNat = 1 by omega]
    by_cases hle : B.length ≤ xs.length
    · have hs := searchBlock_plain hp hv 1 (xs.length - B.length) ks
      rw [show ((xs.length - B.length : Nat) : Int) = (xs.length : Int) - B.length by omega] at hs
      have hd : (xs.drop (xs.length - B.length)).take B.length = xs.drop (xs.length - B.length) := by
        apply List.take_of_length_le; simp; omega
      simp only [firstFit, hd] at hs
      by_cases hf : fitsBlock acc B (xs.drop (xs.length - B.length)) = true
      · obtain ⟨o, ho⟩ := hs.1 _ (if_pos hf)
        left
        refine ⟨Or.inr ⟨hle, hf⟩, ?_⟩
        rw [ho]
        have hm : mergeBindings [] [] = .ok (some []) := rfl
        simp only [hm]
        rw [show xs.length - B.length + B.length = xs.length by omega]
        simp [globLoop]
      · right
        refine ⟨?_, ?_⟩
        · rintro (h | h)
          · exact hBne h
          · exact hf h.2
        · rw [hs.2 (if_neg hf)]
    · right
      refine ⟨?_, ?_⟩
      · rintro (h | h)
        · exact hBne h
        · exact hle h.1
      · simp only [searchBlock]
        rw [itemsAre_plain hp (seqItems_slice hv _ _) ks, if_neg]
        intro hf
        have := fitsBlock_length hf
        have h2 := pySliceInt_length xs ((xs.length : Int) - B.length) ((xs.length : Int) - B.length + B.length)
        omega

theorem globLoop_good {c : Ctx} {n : Nat} {env : Env} {acc : Matcher → Val → Bool} {ms : List Matcher}
    {v : Val} {xs : List Val} (hv : seqItems v = some xs) (hp : ∀ m ∈ ms, PlainItem c (n + 2) env m (acc m))
    (bs : List GlobBlock) (hbs : Good bs) (hb : ∀ m, some m ∈ unblock bs → PlainItem c (n + 2) env m (acc m)) (s : Bool)
    (pos : Nat) (ks : List Key) :
    Decides c v ks (globLoop c (n + 4) env v xs.length (bs ++ finBlock ms) s pos [] ks)
      (Fits acc (if s then none :: unblock bs else unblock bs) (xs.drop pos) ∧ lastFits acc xs ms) := by
  induction hbs generalizing s pos with
  | last =>
    simp only [List.cons_append, List.nil_append, globLoop]
    refine (globLoop_fin hp hv pos ks).congr ?_
    constructor
    · intro h
      refine ⟨?_, h⟩
      have h1 : Fits acc [none] (xs.drop pos) := (fits_star _ _).2 ⟨(xs.drop pos).length, Nat.le_refl _, by rw [List.drop_length]; exact .nil⟩
      cases s
      · exact h1
      · exact (fits_star _ _).2 ⟨0, by omega, by simpa [unblock] using h1⟩
    · exact fun h => h.2
  | @star l hl ih =>
    simp only [List.cons_append, globLoop]
    refine (ih (fun m hm => hb m (by simp [unblock, hm])) true pos).congr ?_
    apply and_congr_left'
    simp only [if_true, unblock]
    cases s with
    | false => simp
    | true =>
      simp only [if_true]
      constructor
      · intro h; exact (fits_star _ _).2 ⟨0, by omega, by simpa using h⟩
      · intro h
        obtain ⟨j, hj, h⟩ := (fits_star _ _).1 h
        have := fits_star_mono (i := 0) (j := j) (by omega) h
        simpa using this
  | @items bl l hne hl ih =>
    have hpl : ∀ m ∈ bl, PlainItem c (n + 2) env m (acc m) := fun m hm => hb m (by simp [unblock, hm])
    have ih := fun pos => ih (fun m hm => hb m (by simp [unblock] at hm ⊢; exact Or.inr hm)) false pos
    simp only [List.cons_append, globLoop, List.isEmpty_cons, Bool.false_eq_true, and_false, if_false]
    have hm : mergeBindings [] [] = .ok (some []) := rfl
    cases s with
    | false =>
      simp only [Bool.false_eq_true, if_false]
      rw [show ((pos : Int) + 1 - pos).toNat = 1 by omega]
      have hs := searchBlock_plain hpl hv 1 pos ks
      simp only [firstFit] at hs
      by_cases hf : fitsBlock acc bl ((xs.drop pos).take bl.length) = true
      · obtain ⟨o, ho⟩ := hs.1 _ (if_pos hf)
        rw [ho]
        simp only [hm]
        have h1 := ih (pos + bl.length)
        simp only [List.cons_append, globLoop, Bool.false_eq_true, if_false] at h1
        refine h1.congr ?_
        apply and_congr_left'
        rw [show unblock (.items bl :: .star :: l) = bl.map some ++ unblock (.star :: l) by rfl, fits_block_append, List.drop_drop]
        simp [hf]
      · rw [hs.2 (if_neg hf)]
        right
        refine ⟨?_, rfl⟩
        rintro ⟨h, _⟩
        rw [show unblock (.items bl :: .star :: l) = bl.map some ++ unblock (.star :: l) by rfl, fits_block_append] at h
        exact hf h.1
    | true =>
      simp only [if_true]
      rw [show unblock (.items bl :: .star :: l) = bl.map some ++ unblock (.star :: l) by rfl]
      have hs := searchBlock_plain hpl hv ((xs.length : Int) - pos).toNat pos ks
      cases hff : firstFit acc bl xs ((xs.length : Int) - pos).toNat pos with
      | none =>
        rw [hs.2 hff]
        right
        refine ⟨?_, rfl⟩
        rintro ⟨h, _⟩
        rw [fits_star_block _ hne] at h
        obtain ⟨j, hj, hf, _⟩ := h
        simp only [List.length_drop] at hj
        rw [List.drop_drop] at hf
        rw [firstFit_none hff (pos + j) (by omega) (by omega)] at hf
        cases hf
      | some j =>
        obtain ⟨o, ho⟩ := hs.1 j hff
        obtain ⟨h1, h2, h3, h4⟩ := firstFit_some hff
        rw [ho]
        simp only [hm]
        have hi := ih (j + bl.length)
        simp only [List.cons_append, globLoop, Bool.false_eq_true, if_false] at hi
        refine hi.congr ?_
        apply and_congr_left'
        rw [fits_star_block _ hne]
        constructor
        · intro h
          refine ⟨j - pos, by simp; omega, ?_, ?_⟩
          · rw [List.drop_drop, show pos + (j - pos) = j by omega]; exact h3
          · rw [List.drop_drop, show pos + (j - pos + bl.length) = j + bl.length by omega]; exact h
        · rintro ⟨i, hi, hf, h⟩
          rw [List.drop_drop] at hf h
          have hij : j ≤ pos + i := by
            apply Nat.le_of_not_lt
            intro hlt
            rw [h4 (pos + i) (by omega) hlt] at hf; cases hf
          exact fits_star_mono (by omega : j + bl.length ≤ pos + (i + bl.length)) h

/-- The blocks made of what comes before a star. -/
def preBlocks : List (Option Matcher) → GlobBlock → List GlobBlock
  | [], .items [] => []
  | [], cur => [cur]
  | none :: ps, .items [] => preBlocks ps .star
  | none :: ps, cur => cur :: preBlocks ps .star
  | some m :: ps, .star => .star :: preBlocks ps (.items [m])
  | some m :: ps, .items ms => preBlocks ps (.items (ms ++ [m]))

theorem blockifyLoop_star (ps rest : List (Option Matcher)) (cur : GlobBlock) :
    blockifyLoop (ps ++ none :: rest) cur = preBlocks ps cur ++ blockifyLoop rest .star := by
  induction ps, cur using preBlocks.induct with
  | case1 => simp [blockifyLoop, preBlocks]
  | case2 cur h =>
    cases cur with
    | star => simp [blockifyLoop, preBlocks]
    | items ms =>
      cases ms with
      | nil => exact absurd rfl h
      | cons m ms => simp [blockifyLoop, preBlocks]
  | case3 ps ih => simpa [blockifyLoop, preBlocks] using ih
  | case4 ps cur h ih =>
    cases cur with
    | star => simpa [blockifyLoop, preBlocks] using ih
    | items ms =>
      cases ms with
      | nil => exact absurd rfl h
      | cons m ms => simpa [blockifyLoop, preBlocks] using ih
  | case5 m ps ih => simpa [blockifyLoop, preBlocks] using ih
  | case6 m ps ms ih => simpa [blockifyLoop, preBlocks] using ih

theorem blockifyLoop_items (ms : List Matcher) (cur : List Matcher) :
    blockifyLoop (ms.map some) (.items cur) = [.items (cur ++ ms)] := by
  induction ms generalizing cur with
  | nil => simp [blockifyLoop]
  | cons m ms ih => simp [blockifyLoop, ih]

theorem blockifyLoop_last (ms : List Matcher) : blockifyLoop (ms.map some) .star = .star :: finBlock ms := by
  cases ms with
  | nil => simp [blockifyLoop, finBlock]
  | cons m ms => simp [blockifyLoop, blockifyLoop_items, finBlock]

theorem preBlocks_star (ps : List (Option Matcher)) : ∃ l, preBlocks ps .star = .star :: l := by
  cases ps with
  | nil => exact ⟨_, rfl⟩
  | cons p ps => cases p <;> exact ⟨_, rfl⟩

theorem unblock_append (a b : List GlobBlock) : unblock (a ++ b) = unblock a ++ unblock b := by
  induction a with
  | nil => rfl
  | cons x xs ih => cases x <;> simp [unblock, ih]

theorem preBlocks_spec (ps : List (Option Matcher)) (cur : GlobBlock) :
    Good (preBlocks ps cur ++ [.star]) ∧ unblock (preBlocks ps cur) = unblock [cur] ++ ps := by
  induction ps, cur using preBlocks.induct with
  | case1 => exact ⟨.last, rfl⟩
  | case2 cur h =>
    cases cur with
    | star => exact ⟨.star .last, rfl⟩
    | items ms =>
      cases ms with
      | nil => exact absurd rfl h
      | cons m ms => exact ⟨.items (by simp) .last, by simp [preBlocks]⟩
  | case3 ps ih => simpa [preBlocks, unblock] using ih
  | case4 ps cur h ih =>
    cases cur with
    | star => exact ⟨.star ih.1, by simp [preBlocks, unblock, ih.2]⟩
    | items ms =>
      cases ms with
      | nil => exact absurd rfl h
      | cons m ms =>
        obtain ⟨l, hl⟩ := preBlocks_star ps
        refine ⟨?_, by simp [preBlocks, unblock, ih.2]⟩
        simp only [preBlocks, hl, List.cons_append] at ih ⊢
        exact .items (by simp) ih.1
  | case5 m ps ih => exact ⟨.star ih.1, by simp [preBlocks, unblock, ih.2]⟩
  | case6 m ps ms ih => simpa [preBlocks, unblock] using ih

/-- **C42**: a pattern without stars, and what `Glob` does with it: exactly as it should. -/
theorem C42_no_star (c : Ctx) (n : Nat) (env : Env) (acc : Matcher → Val → Bool) (ms : List Matcher) (v : Val) (xs : List Val)
    (hv : seqItems v = some xs) (hp : PlainPattern c (n + 2) env (ms.map some) acc) (ks : List Key) :
    Decides c v ks (globMatch c (n + 4) env (ms.map some) v ks) (Fits acc (ms.map some) xs) := by
  have hpl : ∀ m ∈ ms, PlainItem c (n + 2) env m (acc m) := fun m hm => hp m (by simp [hm])
  have hfit : Fits acc (ms.map some) xs ↔ fitsBlock acc ms (xs.take ms.length) = true ∧ xs.length = ms.length := by
    have := fits_block_append (acc := acc) ms [] xs
    rw [List.append_nil] at this
    rw [this]
    apply and_congr_right
    intro hf
    have hl := fitsBlock_length hf
    simp only [List.length_take] at hl
    constructor
    · intro h
      cases hd : xs.drop ms.length with
      | nil => have := congrArg List.length hd; simp at this; omega
      | cons y ys => rw [hd] at h; cases h
    · intro h
      rw [List.drop_eq_nil_of_le (by omega)]; exact .nil
  unfold globMatch
  rw [hv]
  simp only [blockify, blockifyLoop_items, List.nil_append, globLoop, List.isEmpty_nil, Bool.false_eq_true, false_and, if_false]
  have hs := searchBlock_plain hpl hv 1 0 ks
  simp only [firstFit, List.drop_zero] at hs
  rw [show ((0 : Int) + 1 - 0).toNat = 1 by omega]
  have hm : mergeBindings [] [] = .ok (some []) := rfl
  by_cases hf : fitsBlock acc ms (xs.take ms.length) = true
  · obtain ⟨o, ho⟩ := hs.1 _ (if_pos hf)
    rw [show ((0 : Nat) : Int) = 0 by rfl] at ho
    rw [ho]
    simp only [hm, Nat.zero_add]
    by_cases hl : xs.length = ms.length
    · left
      refine ⟨hfit.2 ⟨hf, hl⟩, ?_⟩
      rw [if_neg]; simp [hl]
    · right
      refine ⟨fun h => hl (hfit.1 h).2, ?_⟩
      rw [if_pos]; simp; omega
  · have ho := hs.2 (if_neg hf)
    rw [show ((0 : Nat) : Int) = 0 by rfl] at ho
    rw [ho]
    exact Or.inr ⟨fun h => hf (hfit.1 h).1, rfl⟩

/-- **C42**, what `Glob` does with a pattern `ps *` followed by the item matchers `ms`: it matches iff `ps *` fits the
sequence and the last items fit `ms`, without regard to whether the two overlap. -/
theorem C42_star (c : Ctx) (n : Nat) (env : Env) (acc : Matcher → Val → Bool) (ps : List (Option Matcher)) (ms : List Matcher)
    (v : Val) (xs : List Val) (hv : seqItems v = some xs)
    (hp : PlainPattern c (n + 2) env (ps ++ none :: ms.map some) acc) (ks : List Key) :
    Decides c v ks (globMatch c (n + 4) env (ps ++ none :: ms.map some) v ks)
      (Fits acc (ps ++ [none]) xs ∧ ∃ sk tl, xs = sk ++ tl ∧ Fits acc (ms.map some) tl) := by
  have hpl : ∀ m ∈ ms, PlainItem c (n + 2) env m (acc m) := fun m hm => hp m (by simp [hm])
  obtain ⟨hg, hu⟩ := preBlocks_spec ps (.items [])
  have hu' : unblock (preBlocks ps (.items []) ++ [.star]) = ps ++ [none] := by
    rw [unblock_append, hu]; simp [unblock]
  have h := globLoop_good hv hpl _ hg (fun m hm => hp m (by rw [hu'] at hm; simp at hm ⊢; exact Or.inl hm)) false 0 ks
  unfold globMatch
  rw [hv]
  simp only [blockify, blockifyLoop_star, blockifyLoop_last]
  rw [List.append_assoc] at h
  simp only [List.singleton_append] at h
  refine h.congr ?_
  simp only [Bool.false_eq_true, if_false, hu', List.drop_zero]
  apply and_congr_right'
  unfold lastFits
  have hfb : ∀ tl, Fits acc (ms.map some) tl ↔ fitsBlock acc ms tl = true := by
    intro tl
    have := fits_block_append (acc := acc) ms [] tl
    rw [List.append_nil] at this
    rw [this]
    constructor
    · rintro ⟨a, b⟩
      have hd : tl.drop ms.length = [] := by cases b' : tl.drop ms.length with
        | nil => rfl
        | cons y ys => rw [b'] at b; cases b
      have := congrArg List.length hd
      simp only [List.length_drop, List.length_nil] at this
      rwa [List.take_of_length_le (by omega)] at a
    · intro a
      have := fitsBlock_length a
      rw [List.take_of_length_le (by omega), List.drop_eq_nil_of_le (by omega)]
      exact ⟨a, .nil⟩
  constructor
  · rintro (rfl | ⟨hle, hf⟩)
    · exact ⟨xs, [], by simp, .nil⟩
    · exact ⟨xs.take (xs.length - ms.length), xs.drop (xs.length - ms.length), by simp, (hfb _).2 hf⟩
  · rintro ⟨sk, tl, rfl, hf⟩
    have hf := (hfb _).1 hf
    have hl := fitsBlock_length hf
    right
    refine ⟨by simp; omega, ?_⟩
    rw [show (sk ++ tl).length - ms.length = sk.length by simp; omega]
    simpa using hf

theorem fits_append_star {acc : Matcher → Val → Bool} {ps qs : List (Option Matcher)} {xs : List Val}
    (h : Fits acc (ps ++ none :: qs) xs) : Fits acc (ps ++ [none]) xs ∧ ∃ sk tl, xs = sk ++ tl ∧ Fits acc qs tl := by
  induction ps generalizing xs with
  | nil =>
    cases h with
    | @star _ sk tl h =>
      refine ⟨?_, sk, tl, rfl, h⟩
      have := Fits.star (acc := acc) (sk ++ tl) .nil
      simpa using this
  | cons p ps ih =>
    cases h with
    | @item m _ x xs ha h =>
      obtain ⟨h1, sk, tl, rfl, h2⟩ := ih h
      exact ⟨.item ha h1, x :: sk, tl, rfl, h2⟩
    | @star _ sk0 xs h =>
      obtain ⟨h1, sk, tl, rfl, h2⟩ := ih h
      exact ⟨.star sk0 h1, sk0 ++ sk, tl, by simp, h2⟩

/-- Every pattern has no star or a last one. -/
theorem pattern_cases (ps : List (Option Matcher)) :
    (∃ ms : List Matcher, ps = ms.map some) ∨ ∃ (ps' : List (Option Matcher)) (ms : List Matcher), ps = ps' ++ none :: ms.map some := by
  induction ps with
  | nil => exact Or.inl ⟨[], rfl⟩
  | cons p ps ih =>
    rcases ih with ⟨ms, rfl⟩ | ⟨ps', ms, rfl⟩
    · cases p with
      | none => exact Or.inr ⟨[], ms, rfl⟩
      | some m => exact Or.inl ⟨m :: ms, rfl⟩
    · exact Or.inr ⟨p :: ps', ms, rfl⟩

/-- **C42**, one half, for all patterns of matchers that bind nothing: if the sequence can be split along the pattern,
`Glob` finds it, whatever greedy choice it makes on the way. -/
theorem C42_split_is_found (c : Ctx) (n : Nat) (env : Env) (acc : Matcher → Val → Bool) (ps : List (Option Matcher))
    (v : Val) (xs : List Val) (hv : seqItems v = some xs) (hp : PlainPattern c (n + 2) env ps acc) (ks : List Key)
    (hf : Fits acc ps xs) : globMatch c (n + 4) env ps v ks = .ok (.matched ⟨createMatch c v, [], []⟩, ks) := by
  rcases pattern_cases ps with ⟨ms, rfl⟩ | ⟨ps', ms, rfl⟩
  · rcases C42_no_star c n env acc ms v xs hv hp ks with ⟨_, h⟩ | ⟨h, _⟩
    · exact h
    · exact absurd hf h
  · rcases C42_star c n env acc ps' ms v xs hv hp ks with ⟨_, h⟩ | ⟨h, _⟩
    · exact h
    · exact absurd (fits_append_star hf) h

/-- **C42**, the other half, for patterns that have no star, end with one, or have only one and do not have more item
matchers than the sequence has items: `Glob` matches only if the sequence can be split along the pattern. Not so: other
patterns, where the last block may overlap the one before (`C42_overlap_false`), and matchers that bind
(`C42_bindings_false`). -/
theorem C42_match_is_split (c : Ctx) (n : Nat) (env : Env) (acc : Matcher → Val → Bool) (ps : List (Option Matcher))
    (v : Val) (xs : List Val) (hv : seqItems v = some xs) (hp : PlainPattern c (n + 2) env ps acc) (ks ks' : List Key)
    (mi : MatchInfo)
    (hs : none ∉ ps ∨ (∃ ps', ps = ps' ++ [none]) ∨
      ∃ as bs : List Matcher, ps = as.map some ++ none :: bs.map some ∧ as.length + bs.length ≤ xs.length)
    (h : globMatch c (n + 4) env ps v ks = .ok (.matched mi, ks')) : Fits acc ps xs := by
  rcases hs with hs | ⟨ps', rfl⟩ | ⟨as, bs, rfl, hlen⟩
  · rcases pattern_cases ps with ⟨ms, rfl⟩ | ⟨ps', ms, rfl⟩
    · rcases C42_no_star c n env acc ms v xs hv hp ks with ⟨hf, _⟩ | ⟨_, e⟩
      · exact hf
      · rw [e] at h; cases h
    · simp at hs
  · rcases C42_star c n env acc ps' [] v xs hv (by simpa using hp) ks with ⟨hf, _⟩ | ⟨_, e⟩
    · exact hf.1
    · simp only [List.map_nil] at e
      rw [e] at h; cases h
  · rcases C42_star c n env acc (as.map some) bs v xs hv hp ks with ⟨⟨h1, sk, tl, rfl, h2⟩, _⟩ | ⟨_, e⟩
    · rw [fits_block_append] at h1 ⊢
      have hbl : tl.length = bs.length := by
        have := (fits_block_append (acc := acc) bs [] tl).1 (by simpa using h2)
        have hd : tl.drop bs.length = [] := by cases b' : tl.drop bs.length with
          | nil => rfl
          | cons y ys => rw [b'] at this; cases this.2
        have hl := fitsBlock_length this.1
        have := congrArg List.length hd
        simp only [List.length_drop, List.length_nil, List.length_take] at this hl
        omega
      refine ⟨h1.1, ?_⟩
      simp only [List.length_append] at hlen
      rw [List.drop_append_of_le_length (by omega)]
      exact .star _ h2
    · rw [e] at h; cases h

/-- Items `a` and `b`. -/
def exA : Val := .const 1 (.str (str "a"))
/-- See `exA`. -/
def exB : Val := .const 2 (.str (str "b"))

/-- **C42**, refutation: `Glob(['a', *, 'a'])` matches `['a']`, and `Glob(['a', *, 'b', *, 'b'])` matches
`['a', 'c', 'b']` although it is long enough; no split exists. -/
theorem C42_overlap_false :
    (∃ mi, globMatch exCtx 6 [] [some (.equals exA), none, some (.equals exA)] (.list 9 [exA]) [] = .ok (.matched mi, [])) ∧
    (∃ mi, globMatch exCtx 6 [] [some (.equals exA), none, some (.equals exB), none, some (.equals exB)]
      (.list 9 [exA, exStr, exB]) [] = .ok (.matched mi, [])) ∧
    (∀ acc, ¬ Fits acc [some (.equals exA), none, some (.equals exA)] [exA]) ∧
    (∀ acc : Matcher → Val → Bool, acc (.equals exB) exStr = false →
      ¬ Fits acc [some (.equals exA), none, some (.equals exB), none, some (.equals exB)] [exA, exStr, exB]) := by
  refine ⟨⟨_, rfl⟩, ⟨_, rfl⟩, ?_, ?_⟩
  · intro acc h
    cases h with
    | item _ h =>
      obtain ⟨j, hj, h⟩ := (fits_star _ _).1 h
      simp only [List.drop_nil] at h; cases h
  · intro acc hacc h
    cases h with
    | item _ h =>
      obtain ⟨j, hj, h⟩ := (fits_star _ _).1 h
      match j, hj with
      | 0, _ => cases h with
        | item ha _ => rw [hacc] at ha; cases ha
      | 1, _ => cases h with
        | item _ h =>
          obtain ⟨j, hj, h⟩ := (fits_star _ _).1 h
          simp only [List.drop_nil] at h; cases h
      | 2, _ => cases h
      | k + 3, hk => simp at hk

/-- A matcher that binds `x`, to the same thing every time. -/
def exX : Matcher := .bind (str "x") .anything (some .mergeIdentical) none

/-- **C42**, refutation when item matchers bind: `Glob([*, x, *, x, *])` does not match `[a, b, b]`: the first place for
the first `x` is `a`, and the search does not come back to try `b`, with which the rest would match. -/
theorem C42_bindings_false :
    globMatch exCtx 6 [] [none, some exX, none, some exX, none] (.list 9 [exA, exB, exB]) [] = .ok (.noMatch, []) ∧
    (∃ mi, run exCtx 6 [] (.itemsAre [exX, exX]) (.list 9 [exB, exB]) [] = .ok (some mi, [])) ∧
    (∃ mi, globMatch exCtx 6 [] [none, some exX, none, some exX, none] (.list 9 [exB, exB]) [] = .ok (.matched mi, [])) :=
  ⟨rfl, ⟨_, rfl⟩, ⟨_, rfl⟩⟩

/-- **C42**, refutation for candidates that are not sequences: `Glob` returns `False`, which is not `None`, the value by
which its callers recognise a failure. -/
theorem C42_not_a_sequence_false : globMatch exCtx 6 [] [] (.const 3 (.int 5)) [] = .ok (.notSequence, []) := rfl

/-- The patterns of the examples are plain. -/
theorem plain_equals (c : Ctx) (n : Nat) (env : Env) (w : Val) : PlainItem c (n + 1) env (.equals w) (fun v => v.pyEq w) := by
  intro v ks
  by_cases h : v.pyEq w = true <;> simp [run, h, found]

/-- Non-vacuity of C42: `Glob(['a', *, 'b'])` and `['a', 's', 'b']`: plain, one star, long enough, and matching. -/
example : PlainPattern exCtx 2 [] [some (.equals exA), none, some (.equals exB)]
      (fun m v => match m with
        | .equals w => v.pyEq w
        | _ => false) ∧
    ∃ mi, globMatch exCtx 4 [] [some (.equals exA), none, some (.equals exB)] (.list 9 [exA, exStr, exB]) [] = .ok (.matched mi, []) := by
  refine ⟨?_, _, rfl⟩
  intro m hm
  simp only [List.mem_cons, Option.some.injEq, reduceCtorEq, List.not_mem_nil, or_false, false_or] at hm
  rcases hm with rfl | rfl <;> exact plain_equals _ _ _ _

end Refex
