import Verif.Spec.CompileText
import Verif.Props.Render
/- C89: the texts of matcher expressions and the messages about them. -/
namespace Refex
set_option autoImplicit false

/-! ### Lines -/

theorem forall2_det {rs rs' : List Str} {ls : List Str} {R R' : Str → Str → Prop} (h : Forall2 R ls rs) (h' : Forall2 R' ls rs')
    (hd : ∀ l r r', R l r → R' l r' → r = r') : rs = rs' := by
  induction h generalizing rs' with
  | nil => cases h'; rfl
  | cons h _ ih =>
    cases h' with
    | cons h1 h2 => rw [hd _ _ _ h h1, ih h2]

theorem forall2_partner {α β : Type} {R : α → β → Prop} {as : List α} {bs : List β} (h : Forall2 R as bs) : ∀ b ∈ bs, ∃ a ∈ as, R a b := by
  induction h with
  | nil => intro b hb; cases hb
  | cons h _ ih =>
    intro b hb
    rcases List.mem_cons.1 hb with rfl | hb
    · exact ⟨_, List.mem_cons_self .., h⟩
    · obtain ⟨a, ha, h⟩ := ih b hb
      exact ⟨a, List.mem_cons_of_mem _ ha, h⟩

theorem forall2_partner_left {α β : Type} {R : α → β → Prop} {as : List α} {bs : List β} (h : Forall2 R as bs) : ∀ a ∈ as, ∃ b ∈ bs, R a b := by
  induction h with
  | nil => intro b hb; cases hb
  | cons h _ ih =>
    intro b hb
    rcases List.mem_cons.1 hb with rfl | hb
    · exact ⟨_, List.mem_cons_self .., h⟩
    · obtain ⟨a, ha, h⟩ := ih b hb
      exact ⟨a, List.mem_cons_of_mem _ ha, h⟩

theorem splitNl_ne (s : Str) : splitNl s ≠ [] := by
  cases s with
  | nil => simp [splitNl]
  | cons ch s =>
    rw [splitNl]
    split
    · simp
    · split <;> simp

theorem splitNl_line : ∀ (l : Str), '\n' ∉ l → splitNl l = [l]
  | [], _ => rfl
  | ch :: l, h => by
    rw [splitNl, if_neg (fun (e : ch = '\n') => h (by rw [e]; exact List.mem_cons_self ..)), splitNl_line l fun hm => h (List.mem_cons_of_mem _ hm)]

theorem splitNl_cons : ∀ (l s : Str), '\n' ∉ l → splitNl (l ++ '\n' :: s) = l :: splitNl s
  | [], s, _ => by rw [List.nil_append, splitNl, if_pos rfl]
  | ch :: l, s, h => by
    rw [List.cons_append, splitNl, if_neg (fun (e : ch = '\n') => h (by rw [e]; exact List.mem_cons_self ..)), splitNl_cons l s fun hm => h (List.mem_cons_of_mem _ hm)]

theorem splitNl_join : ∀ (ls : List Str), ls ≠ [] → (∀ l ∈ ls, '\n' ∉ l) → splitNl (joinWith (str "\n") ls) = ls
  | [], h, _ => absurd rfl h
  | [l], _, h => by rw [joinWith]; exact splitNl_line l (h l (List.mem_cons_self ..))
  | l :: l' :: ls, _, h => by
    rw [joinWith]
    have : l ++ str "\n" ++ joinWith (str "\n") (l' :: ls) = l ++ '\n' :: joinWith (str "\n") (l' :: ls) := by
      rw [List.append_assoc]; rfl
    rw [this, splitNl_cons l _ (h l (List.mem_cons_self ..)), splitNl_join (l' :: ls) (by simp) fun x hx => h x (List.mem_cons_of_mem _ hx)]

theorem splitNl_lines : ∀ (s : Str), (∀ l ∈ splitNl s, '\n' ∉ l) ∧ joinWith (str "\n") (splitNl s) = s
  | [] => ⟨by simp [splitNl], rfl⟩
  | ch :: s => by
    obtain ⟨h1, h2⟩ := splitNl_lines s
    rw [splitNl]
    split
    · rename_i hc
      refine ⟨fun l hl => ?_, ?_⟩
      · rcases List.mem_cons.1 hl with rfl | hl
        · simp
        · exact h1 l hl
      · cases hs : splitNl s with
        | nil => exact absurd hs (splitNl_ne s)
        | cons l ls => rw [joinWith, ← hs, h2, hc]; rfl
    · rename_i hc
      split
      · rename_i hs; exact absurd hs (splitNl_ne s)
      · rename_i l ls hs
        rw [hs] at h1 h2
        refine ⟨fun x hx => ?_, ?_⟩
        · rcases List.mem_cons.1 hx with rfl | hx
          · intro hm
            rcases List.mem_cons.1 hm with hm | hm
            · exact hc hm.symm
            · exact h1 l (List.mem_cons_self ..) hm
          · exact h1 x (List.mem_cons_of_mem _ hx)
        · cases ls with
          | nil => rw [joinWith] at h2 ⊢; rw [h2]
          | cons m ms => rw [joinWith] at h2 ⊢; rw [← h2]; rfl

/-- Every text has lines. -/
theorem hasLines (s : Str) : HasLines s (splitNl s) := ⟨splitNl_ne s, (splitNl_lines s).1, (splitNl_lines s).2.symm⟩

/-! ### Margins -/

theorem isBlankChar_iff {ch : Char} : isBlankChar ch = true ↔ ch = ' ' ∨ ch = '\t' := by simp [isBlankChar]

theorem blankLine_iff {l : Str} : l.all isBlankChar = true ↔ BlankLine l := by
  rw [List.all_eq_true]
  exact ⟨fun h ch hc => isBlankChar_iff.1 (h ch hc), fun h ch hc => isBlankChar_iff.2 (h ch hc)⟩

theorem cutMargin_prefix : ∀ (a b : Str), ¬ a <+: b → ¬ b <+: a → cutMargin a b <+: a ∧ cutMargin a b <+: b ∧
    ∀ c, c <+: a → c <+: b → c <+: cutMargin a b
  | [], b, h, _ => absurd List.nil_prefix h
  | a :: as, [], _, h => absurd List.nil_prefix h
  | a :: as, b :: bs, h1, h2 => by
    rw [cutMargin]
    split
    · rename_i e
      subst e
      obtain ⟨i1, i2, i3⟩ := cutMargin_prefix as bs (fun h => h1 (List.cons_prefix_cons.2 ⟨rfl, h⟩)) (fun h => h2 (List.cons_prefix_cons.2 ⟨rfl, h⟩))
      refine ⟨List.cons_prefix_cons.2 ⟨rfl, i1⟩, List.cons_prefix_cons.2 ⟨rfl, i2⟩, fun c hc1 hc2 => ?_⟩
      cases c with
      | nil => exact List.nil_prefix
      | cons x c =>
        obtain ⟨e, hc1⟩ := List.cons_prefix_cons.1 hc1
        obtain ⟨_, hc2⟩ := List.cons_prefix_cons.1 hc2
        exact List.cons_prefix_cons.2 ⟨e, i3 c hc1 hc2⟩
    · rename_i e
      refine ⟨List.nil_prefix, List.nil_prefix, fun c hc1 hc2 => ?_⟩
      cases c with
      | nil => exact List.nil_prefix
      | cons x c =>
        obtain ⟨e1, _⟩ := List.cons_prefix_cons.1 hc1
        obtain ⟨e2, _⟩ := List.cons_prefix_cons.1 hc2
        exact absurd (e1.symm.trans e2) e

/-- The margin is the longest common prefix. -/
theorem marginOf_some : ∀ (is : List Str) (m : Str), ∃ r, marginOf (some m) is = some r ∧ r <+: m ∧ (∀ i ∈ is, r <+: i) ∧
    ∀ c, c <+: m → (∀ i ∈ is, c <+: i) → c <+: r
  | [], m => ⟨m, rfl, List.prefix_refl _, fun i hi => (by cases hi), fun c h _ => h⟩
  | i :: is, m => by
    rw [marginOf]
    split
    · rename_i h
      rw [List.isPrefixOf_iff_prefix] at h
      obtain ⟨r, h1, h2, h3, h4⟩ := marginOf_some is m
      refine ⟨r, h1, h2, fun x hx => ?_, fun c hc h => h4 c hc fun x hx => h x (List.mem_cons_of_mem _ hx)⟩
      rcases List.mem_cons.1 hx with rfl | hx
      · exact h2.trans h
      · exact h3 x hx
    · rename_i h
      rw [List.isPrefixOf_iff_prefix] at h
      split
      · rename_i h'
        rw [List.isPrefixOf_iff_prefix] at h'
        obtain ⟨r, h1, h2, h3, h4⟩ := marginOf_some is i
        refine ⟨r, h1, h2.trans h', fun x hx => ?_, fun c hc h => h4 c (h i (List.mem_cons_self ..)) fun x hx => h x (List.mem_cons_of_mem _ hx)⟩
        rcases List.mem_cons.1 hx with rfl | hx
        · exact h2
        · exact h3 x hx
      · rename_i h'
        rw [List.isPrefixOf_iff_prefix] at h'
        obtain ⟨k1, k2, k3⟩ := cutMargin_prefix m i h h'
        obtain ⟨r, h1, h2, h3, h4⟩ := marginOf_some is (cutMargin m i)
        refine ⟨r, h1, h2.trans k1, fun x hx => ?_, fun c hc h => h4 c (k3 c hc (h i (List.mem_cons_self ..))) fun x hx => h x (List.mem_cons_of_mem _ hx)⟩
        rcases List.mem_cons.1 hx with rfl | hx
        · exact h2.trans k2
        · exact h3 x hx

theorem marginOf_cons (i : Str) (is : List Str) : ∃ r, marginOf none (i :: is) = some r ∧ (∀ x ∈ i :: is, r <+: x) ∧ ∀ c, (∀ x ∈ i :: is, c <+: x) → c <+: r := by
  obtain ⟨r, h1, h2, h3, h4⟩ := marginOf_some is i
  refine ⟨r, by rw [marginOf, h1], fun x hx => ?_, fun c h => h4 c (h i (List.mem_cons_self ..)) fun x hx => h x (List.mem_cons_of_mem _ hx)⟩
  rcases List.mem_cons.1 hx with rfl | hx
  · exact h2
  · exact h3 x hx

theorem emptyBlank_blank {l : Str} (h : BlankLine l) : emptyBlank l = [] := if_pos (blankLine_iff.2 h)
theorem emptyBlank_other {l : Str} (h : ¬ BlankLine l) : emptyBlank l = l := if_neg fun e => h (blankLine_iff.1 e)

theorem mem_indentsOf {ls : List Str} {i : Str} : i ∈ indentsOf (ls.map emptyBlank) ↔ ∃ l ∈ ls, ¬ BlankLine l ∧ i = l.takeWhile isBlankChar := by
  unfold indentsOf
  rw [List.mem_map]
  constructor
  · rintro ⟨l, hl, rfl⟩
    obtain ⟨hl, hb⟩ := List.mem_filter.1 hl
    obtain ⟨l', hl', rfl⟩ := List.mem_map.1 hl
    have hb : ¬ BlankLine (emptyBlank l') := fun h => by rw [blankLine_iff.2 h] at hb; cases hb
    have hb' : ¬ BlankLine l' := fun h => hb (by rw [emptyBlank_blank h]; intro _ h; cases h)
    exact ⟨l', hl', hb', by rw [emptyBlank_other hb']⟩
  · rintro ⟨l, hl, hb, rfl⟩
    refine ⟨l, List.mem_filter.2 ⟨List.mem_map.2 ⟨l, hl, emptyBlank_other hb⟩, ?_⟩, rfl⟩
    cases h : l.all isBlankChar with
    | false => rfl
    | true => exact absurd (blankLine_iff.1 h) hb

theorem takeWhile_blank (l : Str) : BlankLine (l.takeWhile isBlankChar) := by
  intro ch hc
  have := List.all_takeWhile (p := isBlankChar) (l := l)
  rw [List.all_eq_true] at this
  exact isBlankChar_iff.1 (this ch hc)

theorem takeWhile_prefix_of {m l : Str} (hb : BlankLine m) (h : m <+: l) : m <+: l.takeWhile isBlankChar := by
  induction m generalizing l with
  | nil => exact List.nil_prefix
  | cons a m ih =>
    obtain ⟨t, rfl⟩ := h
    rw [List.cons_append, List.takeWhile_cons_of_pos (isBlankChar_iff.2 (hb a (List.mem_cons_self ..)))]
    exact List.cons_prefix_cons.2 ⟨rfl, ih (fun ch hc => hb ch (List.mem_cons_of_mem _ hc)) (List.prefix_append ..)⟩

/-- The lines of the result. -/
def dedentLines (ls : List Str) : List Str :=
  match marginOf none (indentsOf (ls.map emptyBlank)) with
  | none => ls.map emptyBlank
  | some margin => (ls.map emptyBlank).map (dropMargin margin)

theorem dropMargin_nil (l : Str) : dropMargin [] l = l := by simp [dropMargin]

theorem dedent_lines (s : Str) : dedent s = joinWith (str "\n") (dedentLines (splitNl s)) := by
  unfold dedent dedentLines
  dsimp only
  split
  · rename_i h; simp only [h]
  · rename_i m h
    simp only [h]
    split
    · rename_i hm
      rw [List.isEmpty_iff.1 hm]
      congr 1
      exact (List.map_congr_left (g := id) fun x _ => dropMargin_nil x).symm ▸ (by simp)
    · rfl

theorem dedentLines_spec (ls : List Str) : Dedented ls (dedentLines ls) := by
  by_cases h : ∃ l ∈ ls, ¬ BlankLine l
  · obtain ⟨l0, hl0, hb0⟩ := h
    have hi0 : l0.takeWhile isBlankChar ∈ indentsOf (ls.map emptyBlank) := mem_indentsOf.2 ⟨l0, hl0, hb0, rfl⟩
    obtain ⟨r, hr, h1, h2⟩ : ∃ r, marginOf none (indentsOf (ls.map emptyBlank)) = some r ∧ (∀ x ∈ indentsOf (ls.map emptyBlank), r <+: x) ∧
        ∀ c, (∀ x ∈ indentsOf (ls.map emptyBlank), c <+: x) → c <+: r := by
      cases hi : indentsOf (ls.map emptyBlank) with
      | nil => rw [hi] at hi0; cases hi0
      | cons i is => exact marginOf_cons i is
    have hrb : BlankLine r := fun ch hc => takeWhile_blank l0 ch ((h1 _ hi0).subset hc)
    have hpre : ∀ l ∈ ls, ¬ BlankLine l → ∃ t, l = r ++ t ∧ dropMargin r (emptyBlank l) = t ∧ t ≠ [] := by
      intro l hl hb
      have hp : r <+: l := (h1 _ (mem_indentsOf.2 ⟨l, hl, hb, rfl⟩)).trans (List.takeWhile_prefix _)
      obtain ⟨t, rfl⟩ := hp
      refine ⟨t, rfl, ?_, fun e => hb (by subst e; simpa using hrb)⟩
      rw [emptyBlank_other hb, dropMargin, if_pos (List.isPrefixOf_iff_prefix.2 (List.prefix_append ..)), List.drop_left]
    have hblank : ∀ l, BlankLine l → dropMargin r (emptyBlank l) = [] := by
      intro l hb
      rw [emptyBlank_blank hb, dropMargin]
      split
      · simp
      · rfl
    have hd : dedentLines ls = ls.map fun l => dropMargin r (emptyBlank l) := by
      unfold dedentLines
      rw [hr]
      simp [List.map_map, Function.comp_def]
    refine ⟨r, hrb, ?_, fun ch hch _ => Classical.byContradiction fun hne => ?_⟩
    · rw [hd]
      clear hd hi0 hr h1 h2 hl0
      induction ls with
      | nil => exact .nil
      | cons l ls ih =>
        refine .cons ?_ (ih fun x hx => hpre x (List.mem_cons_of_mem _ hx))
        by_cases hb : BlankLine l
        · exact .inl ⟨hb, hblank l hb⟩
        · obtain ⟨t, e1, e2, _⟩ := hpre l (List.mem_cons_self ..) hb
          exact .inr ⟨hb, by show l = r ++ dropMargin r (emptyBlank l); rw [e2]; exact e1⟩
    · have hall : ∀ x ∈ indentsOf (ls.map emptyBlank), r ++ [ch] <+: x := by
        intro x hx
        obtain ⟨l, hl, hb, rfl⟩ := mem_indentsOf.1 hx
        obtain ⟨t, rfl, e2, e3⟩ := hpre l hl hb
        refine takeWhile_prefix_of (fun c hc => ?_) ?_
        · rcases List.mem_append.1 hc with hc | hc
          · exact hrb c hc
          · rw [List.mem_singleton.1 hc]; exact hch
        · cases t with
          | nil => exact absurd rfl e3
          | cons a t =>
            have : a = ch := Classical.byContradiction fun hac => hne ⟨a :: t, by rw [hd]; exact List.mem_map.2 ⟨_, hl, e2⟩, by simp, by simpa using hac⟩
            subst this
            exact ⟨t, by simp⟩
      have := (h2 _ hall).length_le
      rw [List.length_append, List.length_singleton] at this
      omega
  · have hall : ∀ l ∈ ls, BlankLine l := fun l hl => Classical.byContradiction fun hb => h ⟨l, hl, hb⟩
    have hi : indentsOf (ls.map emptyBlank) = [] := List.eq_nil_iff_forall_not_mem.2 fun x hx => by
      obtain ⟨l, hl, hb, _⟩ := mem_indentsOf.1 hx
      exact hb (hall l hl)
    have hd : dedentLines ls = ls.map emptyBlank := by unfold dedentLines; rw [hi]; rfl
    have hmem : ∀ r ∈ dedentLines ls, r = [] := fun r hr => by
      rw [hd] at hr
      obtain ⟨l, hl, rfl⟩ := List.mem_map.1 hr
      exact emptyBlank_blank (hall l hl)
    refine ⟨[], fun _ h => (by cases h), ?_, fun ch _ ⟨r, hr, hne⟩ => absurd (hmem r hr) hne⟩
    rw [hd]
    clear hd hmem hi h
    induction ls with
    | nil => exact .nil
    | cons l ls ih => exact .cons (.inl ⟨hall l (List.mem_cons_self ..), emptyBlank_blank (hall l (List.mem_cons_self ..))⟩) (ih fun x hx => hall x (List.mem_cons_of_mem _ hx))

/-- C89: what `dedent` does: the lines lose their common indentation. -/
theorem C89_dedent {text : Str} {ls : List Str} (h : HasLines text ls) : ∃ rs, Dedented ls rs ∧ HasLines (dedent text) rs := by
  obtain ⟨h1, h2, rfl⟩ := h
  have hs := dedentLines_spec ls
  refine ⟨dedentLines ls, hs, ?_, ?_, by rw [dedent_lines, splitNl_join ls h1 h2]⟩
  · obtain ⟨_, _, hf, _⟩ := hs
    intro e
    rw [e] at hf
    cases hf
    exact h1 rfl
  · obtain ⟨m, _, hf, _⟩ := hs
    intro r hr hm
    obtain ⟨l, hl, h⟩ := forall2_partner hf r hr
    rcases h with ⟨_, rfl⟩ | ⟨_, rfl⟩
    · cases hm
    · exact h2 _ hl (List.mem_append_right _ hm)

/-! ### Indentation does not matter -/

theorem margin_shorter {ls rs rs' : List Str} {m m' : Str} (hm' : BlankLine m')
    (h : Forall2 (fun l r => (BlankLine l ∧ r = []) ∨ (¬ BlankLine l ∧ l = m ++ r)) ls rs)
    (h' : Forall2 (fun l r => (BlankLine l ∧ r = []) ∨ (¬ BlankLine l ∧ l = m' ++ r)) ls rs')
    (ho : ∀ ch, (ch = ' ' ∨ ch = '\t') → (∃ r ∈ rs, r ≠ []) → ∃ r ∈ rs, r ≠ [] ∧ r.head? ≠ some ch)
    {l : Str} (hl : l ∈ ls) (hb : ¬ BlankLine l) (hmb : BlankLine m) : m'.length ≤ m.length := by
  refine Classical.byContradiction fun hlt => ?_
  obtain ⟨r0, hr0, h0⟩ := forall2_partner_left h l hl
  obtain ⟨r0', hr0', h0'⟩ := forall2_partner_left h' l hl
  have e0 : l = m ++ r0 := by rcases h0 with ⟨h, _⟩ | ⟨_, h⟩; exact absurd h hb; exact h
  have e0' : l = m' ++ r0' := by rcases h0' with ⟨h, _⟩ | ⟨_, h⟩; exact absurd h hb; exact h
  have hpre : m <+: m' := List.prefix_of_prefix_length_le (l₃ := l) ⟨r0, e0.symm⟩ ⟨r0', e0'.symm⟩ (by omega)
  obtain ⟨d, rfl⟩ := hpre
  cases d with
  | nil => simp at hlt
  | cons ch d =>
    have hne : ∃ r ∈ rs, r ≠ [] := ⟨r0, hr0, fun e => hb (by rw [e0, e, List.append_nil]; exact hmb)⟩
    obtain ⟨r, hr, hr1, hr2⟩ := ho ch (hm' ch (by simp)) hne
    obtain ⟨l1, hl1, h1⟩ := forall2_partner h r hr
    rcases h1 with ⟨_, e⟩ | ⟨hb1, e1⟩
    · exact hr1 e
    · obtain ⟨r1', _, h1'⟩ := forall2_partner_left h' l1 hl1
      rcases h1' with ⟨e, _⟩ | ⟨_, e1'⟩
      · exact hb1 e
      · rw [e1, List.append_assoc] at e1'
        have := List.append_cancel_left e1'
        rw [this] at hr2
        exact hr2 rfl

/-- C89: the specification leaves one result. -/
theorem C89_dedented_unique {ls rs rs' : List Str} (h : Dedented ls rs) (h' : Dedented ls rs') : rs = rs' := by
  obtain ⟨m, hm, hf, ho⟩ := h
  obtain ⟨m', hm', hf', ho'⟩ := h'
  refine forall2_det (R := fun l r => l ∈ ls ∧ ((BlankLine l ∧ r = []) ∨ (¬ BlankLine l ∧ l = m ++ r))) ?_ hf' fun l r r' hr hr' => ?_
  · have : ∀ {as bs : List Str} {R : Str → Str → Prop}, Forall2 R as bs → Forall2 (fun a b => a ∈ as ∧ R a b) as bs := by
      intro as bs R h
      have : ∀ {as bs : List Str} (P : Str → Prop), Forall2 R as bs → (∀ a ∈ as, P a) → Forall2 (fun a b => P a ∧ R a b) as bs := by
        intro as bs P h hp
        induction h with
        | nil => exact .nil
        | cons h _ ih => exact .cons ⟨hp _ (List.mem_cons_self ..), h⟩ (ih fun a ha => hp a (List.mem_cons_of_mem _ ha))
      exact this (· ∈ as) h fun _ h => h
    exact this hf
  · obtain ⟨hl, hr⟩ := hr
    rcases hr with ⟨hb, rfl⟩ | ⟨hb, e⟩ <;> rcases hr' with ⟨hb', rfl⟩ | ⟨hb', e'⟩
    · rfl
    · exact absurd hb hb'
    · exact absurd hb' hb
    · have h1 := margin_shorter hm' hf hf' ho hl hb hm
      have h2 := margin_shorter hm hf' hf ho' hl hb hm'
      exact (List.append_inj (e.symm.trans e') (by omega)).2

theorem blank_append {a b : Str} : BlankLine (a ++ b) ↔ BlankLine a ∧ BlankLine b := by
  unfold BlankLine
  simp only [List.mem_append]
  exact ⟨fun h => ⟨fun ch hc => h ch (.inl hc), fun ch hc => h ch (.inr hc)⟩, fun h ch hc => hc.elim (h.1 ch) (h.2 ch)⟩

theorem dedented_indented {w : Str} {ls ls' rs : List Str} (hw : BlankLine w) (hi : IndentedBy w ls ls') (h : Dedented ls rs) : Dedented ls' rs := by
  obtain ⟨m, hm, hf, ho⟩ := h
  refine ⟨w ++ m, blank_append.2 ⟨hw, hm⟩, ?_, ho⟩
  clear ho
  unfold IndentedBy at hi
  induction hi generalizing rs with
  | nil => cases hf; exact .nil
  | cons hh _ ih =>
    cases hf with
    | cons h1 h2 =>
      refine .cons ?_ (ih h2)
      rcases hh with ⟨hb, hb'⟩ | ⟨hb, rfl⟩ <;> rcases h1 with ⟨k, rfl⟩ | ⟨k, e⟩
      · exact .inl ⟨hb', rfl⟩
      · exact absurd hb k
      · exact absurd k hb
      · exact .inr ⟨fun h => hb (blank_append.1 h).2, by rw [List.append_assoc, ← e]⟩

/-- C89: a text and the text indented by some spaces and tabs have the same `dedent`. -/
theorem C89_indented {w text text' : Str} {ls ls' : List Str} (hw : BlankLine w) (h : HasLines text ls) (h' : HasLines text' ls') (hi : IndentedBy w ls ls') :
    dedent text' = dedent text := by
  obtain ⟨rs, h1, _, _, h2⟩ := C89_dedent h
  obtain ⟨rs', h3, _, _, h4⟩ := C89_dedent h'
  rw [h2, h4, C89_dedented_unique (dedented_indented hw hi h1) h3]

/-- C89: twice is once. -/
theorem C89_dedent_again (text : Str) : dedent (dedent text) = dedent text := by
  obtain ⟨rs, h1, h2⟩ := C89_dedent (hasLines text)
  obtain ⟨rs', h3, h4⟩ := C89_dedent h2
  have : Dedented rs rs := by
    obtain ⟨m, hm, hf, ho⟩ := h1
    refine ⟨[], fun _ h => (by cases h), ?_, ho⟩
    have key : ∀ r ∈ rs, (BlankLine r ∧ r = []) ∨ (¬ BlankLine r ∧ r = [] ++ r) := by
      intro r hr
      obtain ⟨l, _, h⟩ := forall2_partner hf r hr
      rcases h with ⟨_, rfl⟩ | ⟨hb, rfl⟩
      · exact .inl ⟨fun _ h => (by cases h), rfl⟩
      · exact .inr ⟨fun h => hb (blank_append.2 ⟨hm, h⟩), rfl⟩
    clear hf ho h2 h3
    induction rs with
    | nil => exact .nil
    | cons r rs ih => exact .cons (key r (List.mem_cons_self ..)) (ih fun x hx => key x (List.mem_cons_of_mem _ hx))
  rw [h4.2.2, ← C89_dedented_unique this h3, h2.2.2]

/-! ### Empty lines around the expression -/

theorem dropWhile_nl (s : Str) : ∃ k, s = List.replicate k '\n' ++ s.dropWhile (· = '\n') := by
  induction s with
  | nil => exact ⟨0, rfl⟩
  | cons ch s ih =>
    by_cases h : ch = '\n'
    · subst h
      obtain ⟨k, hk⟩ := ih
      refine ⟨k + 1, ?_⟩
      rw [List.dropWhile_cons_of_pos (by simp), List.replicate_succ, List.cons_append, ← hk]
    · exact ⟨0, by rw [List.dropWhile_cons_of_neg (by simpa using h)]; rfl⟩

theorem dropWhile_nl_head (s : Str) : (s.dropWhile (· = '\n')).head? ≠ some '\n' := by
  induction s with
  | nil => simp
  | cons ch s ih =>
    by_cases h : ch = '\n'
    · subst h; rw [List.dropWhile_cons_of_pos (by simp)]; exact ih
    · rw [List.dropWhile_cons_of_neg (by simpa using h)]; simpa using h

theorem dropWhile_replicate (k : Nat) (s : Str) : (List.replicate k '\n' ++ s).dropWhile (· = '\n') = s.dropWhile (· = '\n') := by
  induction k with
  | zero => rfl
  | succ k ih => rw [List.replicate_succ, List.cons_append, List.dropWhile_cons_of_pos (by simp), ih]

theorem dropWhile_fixed {s : Str} (h : s.head? ≠ some '\n') : s.dropWhile (· = '\n') = s := by
  cases s with
  | nil => rfl
  | cons ch s => exact List.dropWhile_cons_of_neg (by simpa using h)

/-- C89: `strip` removes the newlines at both ends. -/
theorem C89_strip (s : Str) : (∃ j k, s = List.replicate j '\n' ++ stripNl s ++ List.replicate k '\n') ∧
    (stripNl s).head? ≠ some '\n' ∧ (stripNl s).getLast? ≠ some '\n' := by
  unfold stripNl
  obtain ⟨j, hj⟩ := dropWhile_nl s
  obtain ⟨k, hk⟩ := dropWhile_nl (s.dropWhile (· = '\n')).reverse
  have hk' : s.dropWhile (· = '\n') = ((s.dropWhile (· = '\n')).reverse.dropWhile (· = '\n')).reverse ++ List.replicate k '\n' := by
    have := congrArg List.reverse hk
    rw [List.reverse_reverse, List.reverse_append, List.reverse_replicate] at this
    exact this
  refine ⟨⟨j, k, by rw [List.append_assoc, ← hk', ← hj]⟩, ?_, ?_⟩
  · intro h
    have := dropWhile_nl_head s
    rw [hk', List.head?_append, h] at this
    exact this rfl
  · rw [List.getLast?_reverse]
    exact dropWhile_nl_head _

theorem stripNl_around {t : Str} (h1 : t.head? ≠ some '\n') (h2 : t.getLast? ≠ some '\n') (j k : Nat) :
    stripNl (List.replicate j '\n' ++ t ++ List.replicate k '\n') = t := by
  unfold stripNl
  rw [List.append_assoc, dropWhile_replicate]
  cases ht : t with
  | nil =>
    have := dropWhile_replicate k []
    rw [List.append_nil] at this
    rw [List.nil_append, this]; rfl
  | cons a t' =>
    rw [← ht]
    have : (t ++ List.replicate k '\n').head? ≠ some '\n' := by rw [ht] at h1 ⊢; simpa using h1
    rw [dropWhile_fixed this, List.reverse_append, List.reverse_replicate, dropWhile_replicate, dropWhile_fixed (by rw [List.head?_reverse]; exact h2), List.reverse_reverse]

theorem stripNl_strip (s : Str) (j k : Nat) : stripNl (List.replicate j '\n' ++ s ++ List.replicate k '\n') = stripNl s := by
  obtain ⟨⟨a, b, e⟩, h1, h2⟩ := C89_strip s
  have : List.replicate j '\n' ++ s ++ List.replicate k '\n' = List.replicate (j + a) '\n' ++ stripNl s ++ List.replicate (b + k) '\n' := by
    rw [← List.replicate_append_replicate, ← List.replicate_append_replicate]
    conv => lhs; rw [e]
    simp only [List.append_assoc]
  rw [this, stripNl_around h1 h2]

theorem forall2_append {α β : Type} {R : α → β → Prop} {as as' : List α} {bs bs' : List β} (h : Forall2 R as bs) (h' : Forall2 R as' bs') : Forall2 R (as ++ as') (bs ++ bs') := by
  induction h with
  | nil => exact h'
  | cons h _ ih => exact .cons h ih

theorem dedented_around {pre ls post rs : List Str} (hpre : ∀ l ∈ pre, BlankLine l) (hpost : ∀ l ∈ post, BlankLine l) (h : Dedented ls rs) :
    Dedented (pre ++ ls ++ post) (List.replicate pre.length [] ++ rs ++ List.replicate post.length []) := by
  obtain ⟨m, hm, hf, ho⟩ := h
  have hb : ∀ (bs : List Str), (∀ l ∈ bs, BlankLine l) →
      Forall2 (fun l r => (BlankLine l ∧ r = []) ∨ (¬ BlankLine l ∧ l = m ++ r)) bs (List.replicate bs.length []) := by
    intro bs h
    induction bs with
    | nil => exact .nil
    | cons b bs ih => exact .cons (.inl ⟨h b (List.mem_cons_self ..), rfl⟩) (ih fun l hl => h l (List.mem_cons_of_mem _ hl))
  refine ⟨m, hm, forall2_append (forall2_append (hb pre hpre) hf) (hb post hpost), fun ch hch ⟨r, hr, hne⟩ => ?_⟩
  have : r ∈ rs := by
    rcases List.mem_append.1 hr with hr | hr
    · rcases List.mem_append.1 hr with hr | hr
      · exact absurd (List.eq_of_mem_replicate hr) hne
      · exact hr
    · exact absurd (List.eq_of_mem_replicate hr) hne
  obtain ⟨r', h1, h2⟩ := ho ch hch ⟨r, this, hne⟩
  exact ⟨r', List.mem_append_left _ (List.mem_append_right _ h1), h2⟩

theorem join_pre (j : Nat) {rs : List Str} (h : rs ≠ []) : joinWith (str "\n") (List.replicate j [] ++ rs) = List.replicate j '\n' ++ joinWith (str "\n") rs := by
  induction j with
  | zero => rfl
  | succ j ih =>
    rw [List.replicate_succ, List.cons_append]
    cases hh : List.replicate j [] ++ rs with
    | nil => exact absurd (List.append_eq_nil_iff.1 hh).2 h
    | cons x xs => rw [joinWith, ← hh, ih]; rfl

theorem join_post (k : Nat) : ∀ {rs : List Str}, rs ≠ [] → joinWith (str "\n") (rs ++ List.replicate k []) = joinWith (str "\n") rs ++ List.replicate k '\n'
  | [], h => absurd rfl h
  | [r], _ => by
    induction k with
    | zero => simp
    | succ k ih =>
      have : [r] ++ List.replicate (k + 1) ([] : Str) = r :: ([] :: List.replicate k []) := rfl
      rw [this]
      have hk : joinWith (str "\n") ([] :: List.replicate k []) = List.replicate k '\n' := by
        clear ih this
        induction k with
        | zero => rfl
        | succ k ih => rw [List.replicate_succ, joinWith, ih]; rfl
      show r ++ str "\n" ++ joinWith (str "\n") ([] :: List.replicate k []) = _
      rw [hk, List.append_assoc]; rfl
  | r :: r' :: rs, _ => by
    have := join_post k (rs := r' :: rs) (by simp)
    rw [List.cons_append, List.cons_append, joinWith, ← List.cons_append, this, joinWith]
    simp only [List.append_assoc]

/-- C89: a matcher expression means the same if it is indented and if blank lines stand before and after it. -/
theorem C89_compiled (penv : CompileEnv) (env : EvalEnv) {w text : Str} {ls ls' pre post : List Str} (hw : BlankLine w) (h : HasLines text ls)
    (hi : IndentedBy w ls ls') (hnl : ∀ l ∈ pre ++ ls' ++ post, '\n' ∉ l) (hpre : ∀ l ∈ pre, BlankLine l) (hpost : ∀ l ∈ post, BlankLine l) :
    compileMatcherText penv env (joinWith (str "\n") (pre ++ ls' ++ post)) = compileMatcherText penv env text := by
  obtain ⟨rs, h1, h2, _, h3⟩ := C89_dedent h
  have hne : ls' ≠ [] := by
    rintro rfl
    cases hi
    exact h.1 rfl
  obtain ⟨rs', h4, _, _, h5⟩ := C89_dedent (text := joinWith (str "\n") (pre ++ ls' ++ post)) (ls := pre ++ ls' ++ post) ⟨by simp [hne], hnl, rfl⟩
  have e := C89_dedented_unique h4 (dedented_around hpre hpost (dedented_indented hw hi h1))
  have : stripNl (dedent (joinWith (str "\n") (pre ++ ls' ++ post))) = stripNl (dedent text) := by
    rw [h5, e, join_post _ (by simp [h2]), join_pre _ h2, stripNl_strip, ← h3]
  unfold compileMatcherText
  rw [this]

/-! ### Messages -/

theorem lineEnd_iff (ch : Char) : isLineBreak ch = true ↔ LineEnd ch := by
  have e1 : ch = '\n' ↔ ch.toNat = 0x0a := ⟨fun h => by rw [h]; rfl, fun h => Char.toNat_inj.1 h⟩
  have e2 : ch = '\r' ↔ ch.toNat = 0x0d := ⟨fun h => by rw [h]; rfl, fun h => Char.toNat_inj.1 h⟩
  unfold isLineBreak LineEnd
  simp only [Bool.or_eq_true, decide_eq_true_eq, e1, e2, List.mem_cons, List.not_mem_nil, or_false]
  omega

theorem splitlines_line : ∀ (l : Str), l ≠ [] → (∀ ch ∈ l, ¬ LineEnd ch) → splitlinesKeep l = [l]
  | [], h, _ => absurd rfl h
  | [c], _, _ => rfl
  | c :: d :: l, _, h => by
    have hc : isLineBreak c = false := by
      cases hb : isLineBreak c with
      | false => rfl
      | true => exact absurd ((lineEnd_iff c).1 hb) (h c (List.mem_cons_self ..))
    have hr : c ≠ '\r' := fun e => by rw [e] at hc; revert hc; decide
    rw [splitlinesKeep, if_neg (by simp [hr]), if_neg (by simp [hc]), splitlines_line (d :: l) (by simp) fun ch hch => h ch (List.mem_cons_of_mem _ hch)]

theorem splitlines_cons : ∀ (l s : Str), (∀ ch ∈ l, ¬ LineEnd ch) → splitlinesKeep (l ++ '\n' :: s) = (l ++ ['\n']) :: splitlinesKeep s
  | [], s, _ => by
    cases s with
    | nil => rfl
    | cons d s => rw [List.nil_append, splitlinesKeep, if_neg (by simp), if_pos (by decide)]; rfl
  | c :: l, s, h => by
    have hc : isLineBreak c = false := by
      cases hb : isLineBreak c with
      | false => rfl
      | true => exact absurd ((lineEnd_iff c).1 hb) (h c (List.mem_cons_self ..))
    have hr : c ≠ '\r' := fun e => by rw [e] at hc; revert hc; decide
    have ih := splitlines_cons l s fun ch hch => h ch (List.mem_cons_of_mem _ hch)
    cases hl : l ++ '\n' :: s with
    | nil => simp at hl
    | cons d t =>
      rw [List.cons_append, hl, splitlinesKeep, if_neg (by simp [hr]), if_neg (by simp [hc]), ← hl, ih]
      rfl

/-- C89: indented text: four spaces before each line. -/
theorem C89_indent (ls : List Str) (last : Str) (h : ∀ l ∈ ls ++ [last], ∀ ch ∈ l, ¬ LineEnd ch) :
    indentText ((ls.flatMap fun l => l ++ str "\n") ++ last) =
      (ls.flatMap fun l => str "    " ++ l ++ str "\n") ++ (if last = [] then [] else str "    " ++ last) := by
  induction ls with
  | nil =>
    rw [List.flatMap_nil, List.flatMap_nil, List.nil_append, List.nil_append]
    split
    · rename_i e; subst e; rfl
    · rename_i e
      rw [indentText, splitlines_line last e (h last (by simp))]
      simp
  | cons l ls ih =>
    have ih := ih fun x hx => h x (List.mem_cons_of_mem _ hx)
    unfold indentText at ih ⊢
    have : ((l :: ls).flatMap fun l => l ++ str "\n") ++ last = l ++ '\n' :: ((ls.flatMap fun l => l ++ str "\n") ++ last) := by
      rw [List.flatMap_cons]
      simp only [List.append_assoc]
      rfl
    rw [this, splitlines_cons l _ (h l (List.mem_cons_self ..)), List.flatMap_cons, ih, List.flatMap_cons]
    simp only [List.append_assoc]
    rfl

theorem rstrip_line {line ending : Str} (hl : ∀ ch ∈ line, ¬ LineEnd ch) (he : ∀ ch ∈ ending, ch = '\r' ∨ ch = '\n') : rstripCrLf (line ++ ending) = line := by
  unfold rstripCrLf
  rw [List.reverse_append]
  have h1 : ∀ (e : Str), (∀ ch ∈ e, ch = '\r' ∨ ch = '\n') → ∀ s : Str, (e ++ s).dropWhile (fun ch => decide (ch = '\r') || decide (ch = '\n')) =
      s.dropWhile (fun ch => decide (ch = '\r') || decide (ch = '\n')) := by
    intro e
    induction e with
    | nil => intro _ s; rfl
    | cons c e ih =>
      intro h s
      rw [List.cons_append, List.dropWhile_cons_of_pos (by simpa using h c (List.mem_cons_self ..)), ih fun ch hc => h ch (List.mem_cons_of_mem _ hc)]
  rw [h1 _ fun ch hc => he ch (List.mem_reverse.1 hc)]
  have h2 : line.reverse.dropWhile (fun ch => decide (ch = '\r') || decide (ch = '\n')) = line.reverse := by
    cases hr : line.reverse with
    | nil => rfl
    | cons c r =>
      refine List.dropWhile_cons_of_neg ?_
      have := hl c (List.mem_reverse.1 (by rw [hr]; exact List.mem_cons_self ..))
      have h3 : c ≠ '\r' := fun e => this (by rw [e]; decide)
      have h4 : c ≠ '\n' := fun e => this (by rw [e]; decide)
      simp [h3, h4]
  rw [h2, List.reverse_reverse]

theorem summary_is (e : SyntaxErr) : e.Summary (str "Failed to parse Python-like source code (" ++ (match e.msg with
    | none => str "<unknown reason>"
    | some m => if m.isEmpty then str "<unknown reason>" else m) ++ str ").") := by
  unfold SyntaxErr.Summary
  cases hm : e.msg with
  | none => exact .inr ⟨.inl rfl, by decide⟩
  | some m =>
    cases m with
    | nil => exact .inr ⟨.inr rfl, by decide⟩
    | cons c m => exact .inl ⟨_, rfl, by simp, rfl⟩

/-- The line with the error, with a caret below the column. -/
theorem indent_information {line ending : Str} (hl : ∀ ch ∈ line, ¬ LineEnd ch) (he : ∀ ch ∈ ending, ch = '\r' ∨ ch = '\n') (k : Nat) :
    indentText (joinWith (str "\n") [rstripCrLf (line ++ ending), List.replicate k ' ' ++ str "^"]) =
      str "    " ++ line ++ str "\n" ++ str "    " ++ List.replicate k ' ' ++ str "^" := by
  rw [rstrip_line hl he]
  have := C89_indent [line] (List.replicate k ' ' ++ str "^") (by
    intro l hl' ch hch
    rcases List.mem_cons.1 hl' with rfl | hl'
    · exact hl ch hch
    · rw [List.mem_singleton.1 hl'] at hch
      rcases List.mem_append.1 hch with hch | hch
      · rw [List.eq_of_mem_replicate hch]; decide
      · have : str "^" = ['^'] := by decide
        rw [this] at hch
        rw [List.mem_singleton.1 hch]; decide)
  rw [if_neg (by simp [show str "^" = ['^'] by decide])] at this
  simp only [List.flatMap_cons, List.flatMap_nil, List.append_nil] at this
  have e : joinWith (str "\n") [line, List.replicate k ' ' ++ str "^"] = line ++ str "\n" ++ (List.replicate k ' ' ++ str "^") := rfl
  rw [e, this]
  simp only [List.append_assoc]

/-- C89: the message about an expression of one line shows the line with the error, and a caret below the column where it is (columns count from 1). -/
theorem C89_message_line {e : SyntaxErr} {source line ending : Str} {k : Nat} (hs : '\n' ∉ source) (ht : e.text = some (line ++ ending))
    (hl : ∀ ch ∈ line, ¬ LineEnd ch) (he : ∀ ch ∈ ending, ch = '\r' ∨ ch = '\n') (ho : e.offset = some ((k : Int) + 1)) :
    ∃ summary, e.Summary summary ∧
      userSyntaxError e source = .ok (summary ++ str "\n" ++ str "    " ++ line ++ str "\n" ++ str "    " ++ List.replicate k ' ' ++ str "^") := by
  refine ⟨_, summary_is e, ?_⟩
  unfold userSyntaxError
  simp only [ht, ho, if_neg hs]
  have : ((k : Int) + 1 - 1).toNat = k := by omega
  rw [this, indent_information hl he]
  simp only [joinWith, List.append_assoc]
  rfl

/-- C89: about several lines, it shows all of them first. -/
theorem C89_message_lines {e : SyntaxErr} {ls : List Str} {last line ending : Str} {k : Nat} (hne : ls ≠ []) (hlast : last ≠ []) (hs : ∀ l ∈ ls ++ [last], ∀ ch ∈ l, ¬ LineEnd ch)
    (ht : e.text = some (line ++ ending)) (hl : ∀ ch ∈ line, ¬ LineEnd ch) (he : ∀ ch ∈ ending, ch = '\r' ∨ ch = '\n') (ho : e.offset = some ((k : Int) + 1)) :
    ∃ summary, e.Summary summary ∧
      userSyntaxError e ((ls.flatMap fun l => l ++ str "\n") ++ last) = .ok (summary ++ str "\n\nSource:\n" ++
        (ls.flatMap fun l => str "    " ++ l ++ str "\n") ++ str "    " ++ last ++
        str "\n\nLocation:\n" ++ str "    " ++ line ++ str "\n" ++ str "    " ++ List.replicate k ' ' ++ str "^") := by
  refine ⟨_, summary_is e, ?_⟩
  have hm : '\n' ∈ (ls.flatMap fun l => l ++ str "\n") ++ last := by
    cases ls with
    | nil => exact absurd rfl hne
    | cons l ls => simp [str]
  unfold userSyntaxError
  simp only [ht, ho, if_pos hm]
  have : ((k : Int) + 1 - 1).toNat = k := by omega
  rw [this, indent_information hl he, C89_indent ls last hs, if_neg hlast]
  simp only [joinWith, List.append_assoc, List.nil_append]
  rfl

/-- C89: without a known place it shows the expression. -/
theorem C89_message_source {e : SyntaxErr} {ls : List Str} {last : Str} (hlast : last ≠ []) (hs : ∀ l ∈ ls ++ [last], ∀ ch ∈ l, ¬ LineEnd ch) (ht : e.text = none) :
    ∃ summary, e.Summary summary ∧
      userSyntaxError e ((ls.flatMap fun l => l ++ str "\n") ++ last) = .ok (summary ++ str "\n" ++ (ls.flatMap fun l => str "    " ++ l ++ str "\n") ++ str "    " ++ last) := by
  refine ⟨_, summary_is e, ?_⟩
  unfold userSyntaxError
  simp only [ht]
  rw [C89_indent ls last hs, if_neg hlast]
  simp only [joinWith, List.append_assoc]
  rfl

/-- C89: syntax errors become ValueErrors with that message about the dedented text; other errors pass; and what evaluates is the result. -/
theorem C89_errors (penv : CompileEnv) (env : EvalEnv) (input : Str) :
    (∀ e, penv.parse (stripNl (dedent input)) = .error e → ∀ m, userSyntaxError e (stripNl (dedent input)) = .ok m →
      compileMatcherText penv env input = .error (.valueError m)) ∧
    (∀ x, penv.parse (stripNl (dedent input)) = .ok x →
      (∀ v, compileMatcherText penv env input = .ok v ↔ (convert env x).2 = .ok v) ∧
      ((convert env x).2 = .error .syntaxError → ∀ m, userSyntaxError (penv.raised (stripNl (dedent input)) x) (stripNl (dedent input)) = .ok m →
        compileMatcherText penv env input = .error (.valueError m)) ∧
      (∀ n, (convert env x).2 = .error (.callee n) → compileMatcherText penv env input = .error (.callee n))) := by
  refine ⟨fun e he m hm => ?_, fun x hx => ⟨fun v => ?_, fun he m hm => ?_, fun n he => ?_⟩⟩
  · unfold compileMatcherText; simp only [he, hm]
  · unfold compileMatcherText
    simp only [hx]
    cases hc : (convert env x).2 with
    | ok w => simp
    | error err =>
      constructor
      · intro h
        exfalso
        revert h
        cases err with
        | syntaxError =>
          dsimp only
          split <;> (intro h; cases h)
        | typeError => intro h; cases h
        | callee n => intro h; cases h
      · intro h; cases h
  · unfold compileMatcherText; simp only [hx, he, hm]
  · unfold compileMatcherText; simp only [hx, he]

/-- C89: a message can always be made, except that a SyntaxError with a line but without a column ends in TypeError. -/
theorem C89_message_total (e : SyntaxErr) (source : Str) : (∃ m, userSyntaxError e source = .ok m) ↔ (e.text = none ∨ e.offset ≠ none) := by
  unfold userSyntaxError
  cases ht : e.text with
  | none => simp
  | some t =>
    cases ho : e.offset with
    | none => simp
    | some k =>
      simp only [reduceCtorEq, ne_eq, not_false_eq_true, or_true, iff_true]
      split
      · exact ⟨_, rfl⟩
      · exact ⟨_, rfl⟩

/-! ### Examples -/

/-- Non-vacuity of `C89_compiled`: an indented expression with blank lines around it. -/
example (penv : CompileEnv) (env : EvalEnv) :
    compileMatcherText penv env (str "\n   \n    f(\n\n      x)\n  ") = compileMatcherText penv env (str "f(\n\n  x)") := by
  have h1 : BlankLine (str "    ") := blankLine_iff.1 (by decide)
  exact C89_compiled penv env (w := str "    ") (text := str "f(\n\n  x)") (ls := [str "f(", [], str "  x)"]) (ls' := [str "    f(", [], str "      x)"]) (pre := [[], str "   "]) (post := [str "  "])
    h1 ⟨by simp, by decide, by decide⟩
    (.cons (.inr ⟨fun h => absurd (blankLine_iff.2 h) (by decide), by decide⟩) (.cons (.inl ⟨fun _ h => (by cases h), fun _ h => (by cases h)⟩)
      (.cons (.inr ⟨fun h => absurd (blankLine_iff.2 h) (by decide), by decide⟩) .nil)))
    (by decide) (by
      intro l hl
      rcases List.mem_cons.1 hl with rfl | hl
      · exact fun _ h => (by cases h)
      · rw [List.mem_singleton.1 hl]; exact blankLine_iff.1 (by decide))
    (by intro l hl; rw [List.mem_singleton.1 hl]; exact blankLine_iff.1 (by decide))

/-- What the message looks like. -/
example : userSyntaxError ⟨some (str "invalid syntax"), some (str "f(x y)\n"), some 5⟩ (str "f(x y)") =
    .ok (str "Failed to parse Python-like source code (invalid syntax).\n    f(x y)\n        ^") := by decide +kernel

end Refex
