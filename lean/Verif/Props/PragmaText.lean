import Verif.Spec.Pragma
import Verif.Lemmas.Dict
import Verif.Lemmas.Substitution
/-
Property C25: pragma comments.
-/
namespace Refex
set_option autoImplicit false

variable {uw : Char → Bool}

theorem word_not_space {c : Char} (h : isWordDash uw c = true) : isReSpace c = false := by
  unfold isWordDash at h
  simp only [Bool.or_eq_true, Bool.and_eq_true, decide_eq_true_eq, Bool.not_eq_true'] at h
  rcases h with ((h | h) | h) | h
  · cases hs : isReSpace c with
    | false => rfl
    | true =>
      exfalso
      simp only [Char.isAlphanum, Char.isAlpha, Char.isUpper, Char.isLower, Char.isDigit, Bool.or_eq_true, Bool.and_eq_true,
        decide_eq_true_eq, UInt32.le_iff_toNat_le] at h
      have e : c.val.toNat = c.toNat := rfl
      simp only [isReSpace, Bool.or_eq_true, Bool.and_eq_true, decide_eq_true_eq] at hs
      simp only [e] at h
      have h65 : 'A'.val.toNat = 65 := rfl
      have h90 : 'Z'.val.toNat = 90 := rfl
      have h97 : 'a'.val.toNat = 97 := rfl
      have h122 : 'z'.val.toNat = 122 := rfl
      have h48 : '0'.val.toNat = 48 := rfl
      have h57 : '9'.val.toNat = 57 := rfl
      omega
  · rw [h]; decide
  · rw [h]; decide
  · exact h.1.2

theorem value_not_space {c : Char} (h : isValueChar uw c = true) : isReSpace c = false := by
  unfold isValueChar at h
  rcases Bool.or_eq_true_iff.1 h with h | h
  · exact word_not_space h
  · rw [of_decide_eq_true h]; decide

/-- The separators of the grammar are neither word characters nor white space. -/
theorem sep_not (c : Char) (hc : c = ':' ∨ c = ',' ∨ c = '=') :
    isWordDash uw c = false ∧ isValueChar uw c = false ∧ isReSpace c = false := by
  rcases hc with rfl | rfl | rfl <;> refine ⟨?_, ?_, by decide⟩ <;> simp [isWordDash, isValueChar] <;> decide

theorem span_append {p : Char → Bool} {a b : Str} (ha : ∀ c ∈ a, p c = true) (hb : ∀ c, b.head? = some c → p c = false) :
    (a ++ b).takeWhile p = a ∧ (a ++ b).dropWhile p = b := by
  induction a with
  | nil =>
    cases b with
    | nil => simp
    | cons x b => have := hb x rfl; simp [this]
  | cons x a ih =>
    have hx := ha x (List.mem_cons_self ..)
    obtain ⟨h1, h2⟩ := ih (fun c hc => ha c (List.mem_cons_of_mem _ hc))
    simp [hx, h1, h2]

theorem mem_takeWhile {p : Char → Bool} {a : Str} {c : Char} (h : c ∈ a.takeWhile p) : p c = true := by
  induction a with
  | nil => simp at h
  | cons x a ih =>
    by_cases hx : p x = true
    · simp only [List.takeWhile_cons, hx, if_true] at h
      rcases List.mem_cons.1 h with rfl | h
      · exact hx
      · exact ih h
    · simp [hx] at h

theorem head_dropWhile {p : Char → Bool} {a : Str} {c : Char} (h : (a.dropWhile p).head? = some c) : p c = false := by
  induction a with
  | nil => simp at h
  | cons x a ih =>
    by_cases hx : p x = true
    · simp only [List.dropWhile_cons, hx, if_true] at h; exact ih h
    · simp only [List.dropWhile_cons, hx, if_false, List.head?_cons] at h
      cases h; simpa using hx

/-! ### The pieces of the recogniser -/

theorem splitLastColon_none {s : Str} : splitLastColon s = none ↔ ':' ∉ s := by
  induction s with
  | nil => simp [splitLastColon]
  | cons c cs ih =>
    simp only [splitLastColon]
    cases h : splitLastColon cs with
    | some ab =>
      simp only [reduceCtorEq, false_iff, List.mem_cons]
      intro hn
      rw [ih.2 (fun hm => hn (.inr hm))] at h; cases h
    | none =>
      have := ih.1 h
      by_cases hc : c = ':'
      · simp [hc]
      · have : ':' ≠ c := fun h => hc h.symm
        simp [hc, this, ih.1 h]

theorem splitLastColon_some {s a b : Str} : splitLastColon s = some (a, b) ↔ s = a ++ ':' :: b ∧ ':' ∉ b := by
  induction s generalizing a b with
  | nil => simp [splitLastColon]
  | cons c cs ih =>
    simp only [splitLastColon]
    cases h : splitLastColon cs with
    | some ab =>
      obtain ⟨a', b'⟩ := ab
      obtain ⟨h1, h2⟩ := ih.1 h
      simp only [Option.some.injEq, Prod.mk.injEq]
      constructor
      · rintro ⟨rfl, rfl⟩; exact ⟨by rw [h1]; rfl, h2⟩
      · rintro ⟨e, hb⟩
        cases a with
        | nil =>
          simp only [List.nil_append, List.cons.injEq] at e
          rw [← e.2, h1] at hb
          simp at hb
        | cons x a =>
          simp only [List.cons_append, List.cons.injEq] at e
          have := ih.2 ⟨e.2, hb⟩
          rw [h] at this
          simp only [Option.some.injEq, Prod.mk.injEq] at this
          exact ⟨by rw [e.1, this.1], this.2⟩
    | none =>
      have hn := splitLastColon_none.1 h
      simp only
      constructor
      · intro e
        split at e
        · rename_i hc
          cases e
          exact ⟨by rw [hc]; rfl, hn⟩
        · cases e
      · rintro ⟨e, hb⟩
        cases a with
        | nil =>
          simp only [List.nil_append, List.cons.injEq] at e
          simp [e.1, e.2]
        | cons x a =>
          simp only [List.cons_append, List.cons.injEq] at e
          rw [e.2] at hn
          simp at hn

theorem trailingTag_eq {pre tag ws : Str} (hws : Blank ws) (htag : tag ≠ [] ∧ ∀ c ∈ tag, isWordDash uw c = true)
    (hpre : ∀ c, pre.getLast? = some c → isWordDash uw c = false) : trailingTag uw (pre ++ (tag ++ ws)) = tag := by
  unfold trailingTag
  simp only [List.reverse_append, List.append_assoc]
  have h1 := (span_append (p := isReSpace) (a := ws.reverse) (b := tag.reverse ++ pre.reverse)
    (fun c hc => hws c (List.mem_reverse.1 hc)) (by
      intro c hc
      have hmem : c ∈ tag := by
        cases ht : tag.reverse with
        | nil => exact absurd (List.reverse_eq_nil_iff.1 ht) htag.1
        | cons x r =>
          rw [ht] at hc
          simp only [List.cons_append, List.head?_cons, Option.some.injEq] at hc
          subst hc
          rw [← List.mem_reverse, ht]; exact List.mem_cons_self ..
      exact word_not_space (htag.2 c hmem))).2
  rw [h1]
  have h2 := (span_append (p := isWordDash uw) (a := tag.reverse) (b := pre.reverse)
    (fun c hc => htag.2 c (List.mem_reverse.1 hc)) (by
      intro c hc
      rw [List.head?_reverse] at hc
      exact hpre c hc)).1
  rw [h2, List.reverse_reverse]

theorem trailingTag_spec (before : Str) (hne : trailingTag uw before ≠ []) :
    (∀ c ∈ trailingTag uw before, isWordDash uw c = true) ∧
    ∃ pre ws, before = pre ++ (trailingTag uw before ++ ws) ∧ Blank ws ∧
      ∀ c, pre.getLast? = some c → isWordDash uw c = false := by
  unfold trailingTag at hne ⊢
  generalize hb : before.reverse = r at hne ⊢
  have hbe : before = r.reverse := by rw [← hb, List.reverse_reverse]
  refine ⟨fun c hc => mem_takeWhile (List.mem_reverse.1 hc), ?_⟩
  refine ⟨((r.dropWhile isReSpace).dropWhile (isWordDash uw)).reverse, (r.takeWhile isReSpace).reverse, ?_, ?_, ?_⟩
  · rw [hbe, ← List.reverse_append, ← List.reverse_append, List.append_assoc, List.takeWhile_append_dropWhile,
      List.takeWhile_append_dropWhile]
  · intro c hc; exact mem_takeWhile (List.mem_reverse.1 hc)
  · intro c hc
    rw [List.getLast?_reverse] at hc
    exact head_dropWhile hc

theorem isDeclaration_iff (piece : Str) :
    isDeclaration uw piece = true ↔ ∃ d : Decl, d.Valid uw ∧ piece = d.source := by
  constructor
  · intro h
    simp only [isDeclaration] at h
    split at h
    · rename_i k ks b hk hb
      simp only [Bool.and_eq_true, Bool.not_eq_true', List.all_eq_true] at h
      obtain ⟨hv, ht⟩ := h
      refine ⟨⟨piece.takeWhile isReSpace, (piece.dropWhile isReSpace).takeWhile (isWordDash uw),
        ((piece.dropWhile isReSpace).dropWhile (isWordDash uw)).takeWhile isReSpace, b.takeWhile isReSpace,
        (b.dropWhile isReSpace).takeWhile (isValueChar uw), (b.dropWhile isReSpace).dropWhile (isValueChar uw)⟩, ?_, ?_⟩
      · refine ⟨fun c hc => mem_takeWhile hc, fun c hc => mem_takeWhile hc, fun c hc => mem_takeWhile hc, fun c hc => ht c hc,
          ⟨by simp only; rw [hk]; simp, fun c hc => mem_takeWhile hc⟩, ⟨?_, fun c hc => mem_takeWhile hc⟩⟩
        simp only
        intro hn
        rw [hn] at hv
        cases hv
      · simp only [Decl.source]
        rw [List.takeWhile_append_dropWhile, List.takeWhile_append_dropWhile, ← hb, List.takeWhile_append_dropWhile,
          List.takeWhile_append_dropWhile, List.takeWhile_append_dropWhile]
    · cases h
  · rintro ⟨d, hd, rfl⟩
    simp only [isDeclaration]
    obtain ⟨k0, ks, hk⟩ := List.exists_cons_of_ne_nil hd.key.1
    obtain ⟨v0, vs, hv⟩ := List.exists_cons_of_ne_nil hd.value.1
    have e1 : d.source.dropWhile isReSpace = d.key ++ (d.ws1 ++ ('=' :: (d.ws2 ++ (d.value ++ d.trail)))) :=
      (span_append hd.lead (by
        intro c hc
        rw [hk] at hc
        simp only [List.cons_append, List.head?_cons, Option.some.injEq] at hc
        subst hc
        exact word_not_space (hd.key.2 _ (by rw [hk]; exact List.mem_cons_self ..)))).2
    have hstop : ∀ c, (d.ws1 ++ ('=' :: (d.ws2 ++ (d.value ++ d.trail)))).head? = some c → isWordDash uw c = false := by
      intro c hc
      cases hw : d.ws1 with
      | nil => rw [hw] at hc; simp at hc; subst hc; exact (sep_not _ (by simp)).1
      | cons x w =>
        rw [hw] at hc
        simp only [List.cons_append, List.head?_cons, Option.some.injEq] at hc
        subst hc
        have := hd.ws1 x (by rw [hw]; exact List.mem_cons_self ..)
        cases hwd : isWordDash uw x with
        | false => rfl
        | true => rw [word_not_space hwd] at this; cases this
    obtain ⟨e2, e3⟩ := span_append (p := isWordDash uw) hd.key.2 hstop
    have e4 : (d.ws1 ++ ('=' :: (d.ws2 ++ (d.value ++ d.trail)))).dropWhile isReSpace = '=' :: (d.ws2 ++ (d.value ++ d.trail)) :=
      (span_append hd.ws1 (by intro c hc; simp at hc; subst hc; decide)).2
    have e5 : (d.ws2 ++ (d.value ++ d.trail)).dropWhile isReSpace = d.value ++ d.trail :=
      (span_append hd.ws2 (by
        intro c hc
        rw [hv] at hc
        simp only [List.cons_append, List.head?_cons, Option.some.injEq] at hc
        subst hc
        exact value_not_space (hd.value.2 _ (by rw [hv]; exact List.mem_cons_self ..)))).2
    obtain ⟨e6, e7⟩ := span_append (p := isValueChar uw) (a := d.value) (b := d.trail) hd.value.2 (by
      intro c hc
      have := hd.trail c (List.mem_of_mem_head? hc)
      cases hwd : isValueChar uw c with
      | false => rfl
      | true => rw [value_not_space hwd] at this; cases this)
    rw [e1, e2, e3, e4, hk]
    have hve : d.value.isEmpty = false := by rw [hv]; rfl
    simp only [e5, e6, e7, hve, Bool.not_false, Bool.true_and, List.all_eq_true]
    exact hd.trail

theorem strip_blank {a b w : Str} (ha : Blank a) (hb : Blank b) (hw : w ≠ []) (hw' : ∀ c ∈ w, isReSpace c = false) :
    stripStr (a ++ (w ++ b)) = w := by
  unfold stripStr
  obtain ⟨x, xs, rfl⟩ := List.exists_cons_of_ne_nil hw
  have e1 := (span_append (p := isReSpace) (a := a) (b := x :: xs ++ b) ha (by
    intro c hc
    simp only [List.cons_append, List.head?_cons, Option.some.injEq] at hc
    subst hc; exact hw' _ (List.mem_cons_self ..))).2
  rw [e1, List.reverse_append]
  have e2 := (span_append (p := isReSpace) (a := b.reverse) (b := (x :: xs).reverse) (fun c hc => hb c (List.mem_reverse.1 hc)) (by
    intro c hc
    exact hw' c (List.mem_reverse.1 (List.mem_of_mem_head? hc)))).2
  rw [e2, List.reverse_reverse]

theorem partitionEq_append {a b : Str} (h : '=' ∉ a) : partitionEq (a ++ '=' :: b) = (a, b) := by
  induction a with
  | nil => simp [partitionEq]
  | cons x a ih =>
    have hx : x ≠ '=' := fun hc => h (by simp [hc])
    have := ih (fun hm => h (List.mem_cons_of_mem _ hm))
    simp [partitionEq, hx, this]

theorem decl_parse {d : Decl} (hd : d.Valid uw) :
    stripStr (partitionEq d.source).1 = d.key ∧ stripStr (partitionEq d.source).2 = d.value := by
  have hne : '=' ∉ d.lead ++ (d.key ++ d.ws1) := by
    intro hm
    rcases List.mem_append.1 hm with hm | hm
    · have := hd.lead _ hm; revert this; decide
    · rcases List.mem_append.1 hm with hm | hm
      · have := hd.key.2 _ hm; rw [(sep_not (uw := uw) '=' (by simp)).1] at this; cases this
      · have := hd.ws1 _ hm; revert this; decide
  have e : d.source = (d.lead ++ (d.key ++ d.ws1)) ++ '=' :: (d.ws2 ++ (d.value ++ d.trail)) := by
    simp [Decl.source]
  rw [e, partitionEq_append hne]
  exact ⟨strip_blank hd.lead hd.ws1 hd.key.1 (fun c hc => word_not_space (hd.key.2 c hc)),
    strip_blank hd.ws2 hd.trail hd.value.1 (fun c hc => value_not_space (hd.value.2 c hc))⟩

/-- A character of a declaration is a word character, '.', '=' or white space. -/
theorem decl_chars {d : Decl} (hd : d.Valid uw) {c : Char} (hc : c ∈ d.source) :
    isValueChar uw c = true ∨ isReSpace c = true ∨ c = '=' := by
  simp only [Decl.source, List.mem_append, List.mem_cons] at hc
  rcases hc with h | h | h | h | h | h | h
  · exact .inr (.inl (hd.lead c h))
  · left; simp [isValueChar, hd.key.2 c h]
  · exact .inr (.inl (hd.ws1 c h))
  · exact .inr (.inr h)
  · exact .inr (.inl (hd.ws2 c h))
  · exact .inl (hd.value.2 c h)
  · exact .inr (.inl (hd.trail c h))

theorem decl_no {d : Decl} (hd : d.Valid uw) (c : Char) (hc : c = ':' ∨ c = ',') : c ∉ d.source := by
  intro hm
  have hs := sep_not (uw := uw) c (by rcases hc with h | h <;> simp [h])
  rcases decl_chars hd hm with h | h | h
  · rw [hs.2.1] at h; cases h
  · rw [hs.2.2] at h; cases h
  · rcases hc with rfl | rfl <;> cases h

theorem splitOn_piece (c : Char) (l rest : Str) (h : c ∉ l) : splitOn c (l ++ c :: rest) = l :: splitOn c rest := by
  induction l with
  | nil => simp [splitOn]
  | cons x xs ih =>
    have hx : x ≠ c := fun hc => h (by simp [hc])
    have := ih (fun hm => h (List.mem_cons_of_mem _ hm))
    simp [splitOn, hx, this]

theorem splitOn_single (c : Char) (l : Str) (h : c ∉ l) : splitOn c l = [l] := by
  induction l with
  | nil => simp [splitOn]
  | cons x xs ih =>
    have hx : x ≠ c := fun hc => h (by simp [hc])
    have := ih (fun hm => h (List.mem_cons_of_mem _ hm))
    simp [splitOn, hx, this]

theorem splitOn_join (c : Char) (ps : List Str) (hne : ps ≠ []) (h : ∀ p ∈ ps, c ∉ p) :
    splitOn c (joinWith [c] ps) = ps := by
  induction ps with
  | nil => exact absurd rfl hne
  | cons p ps ih =>
    cases ps with
    | nil => simp only [joinWith]; exact splitOn_single c p (h p (List.mem_cons_self ..))
    | cons q ps =>
      simp only [joinWith, List.append_assoc, List.singleton_append]
      rw [splitOn_piece c _ _ (h p (List.mem_cons_self ..)), ih (by simp) (fun x hx => h x (List.mem_cons_of_mem _ hx))]

theorem splitOn_join_trail (c : Char) (ps : List Str) (w : Str) (hne : ps ≠ []) (h : ∀ p ∈ ps, c ∉ p) (hw : c ∉ w) :
    splitOn c (joinWith [c] ps ++ c :: w) = ps ++ [w] := by
  induction ps with
  | nil => exact absurd rfl hne
  | cons p ps ih =>
    cases ps with
    | nil =>
      simp only [joinWith]
      rw [splitOn_piece c _ _ (h p (List.mem_cons_self ..)), splitOn_single c w hw]; rfl
    | cons q ps =>
      simp only [joinWith, List.append_assoc, List.singleton_append, List.cons_append]
      rw [splitOn_piece c _ _ (h p (List.mem_cons_self ..)), List.nil_append]
      rw [ih (by simp) (fun x hx => h x (List.mem_cons_of_mem _ hx))]
      rfl

theorem join_splitOn (c : Char) (s : Str) : joinWith [c] (splitOn c s) = s ∧ ∀ p ∈ splitOn c s, c ∉ p := by
  induction s with
  | nil => simp [splitOn, joinWith]
  | cons x xs ih =>
    simp only [splitOn]
    split
    · rename_i hx
      subst hx
      refine ⟨?_, ?_⟩
      · rw [joinWith_cons]; simp [splitOn_ne_nil, ih.1]
      · intro p hp
        rcases List.mem_cons.1 hp with rfl | hp
        · simp
        · exact ih.2 p hp
    · rename_i hx
      split
      · rename_i h; exact absurd h (splitOn_ne_nil _ _)
      · rename_i p ps h
        rw [h] at ih
        refine ⟨?_, ?_⟩
        · rw [joinWith_cons] at ih ⊢; rw [← ih.1]; simp
        · intro q hq
          rcases List.mem_cons.1 hq with rfl | hq
          · intro hm
            rcases List.mem_cons.1 hm with hm | hm
            · exact hx hm.symm
            · exact ih.2 p (List.mem_cons_self ..) hm
          · exact ih.2 q (List.mem_cons_of_mem _ hq)

theorem joinWith_concat (c : Char) (ps : List Str) (w : Str) (hne : ps ≠ []) :
    joinWith [c] (ps ++ [w]) = joinWith [c] ps ++ c :: w := by
  induction ps with
  | nil => exact absurd rfl hne
  | cons p ps ih =>
    cases ps with
    | nil => simp [joinWith]
    | cons q ps => simp only [List.cons_append, joinWith, List.append_assoc] at ih ⊢; rw [ih (by simp)]

theorem not_blank_decl {d : Decl} (hd : d.Valid uw) : d.source.all isReSpace = false := by
  obtain ⟨k0, ks, hk⟩ := List.exists_cons_of_ne_nil hd.key.1
  have hm : k0 ∈ d.key := by rw [hk]; exact List.mem_cons_self ..
  rw [Bool.eq_false_iff]
  intro h
  have := List.all_eq_true.1 h k0 (by simp [Decl.source, hm])
  rw [word_not_space (hd.key.2 _ hm)] at this
  cases this

theorem pieces_of_source (decls : List Decl) (hne : decls ≠ []) (hv : ∀ d ∈ decls, d.Valid uw) (trail : Str)
    (ht : trail = [] ∨ ∃ w, trail = ',' :: w ∧ Blank w) :
    declarationPieces (joinWith [','] (decls.map Decl.source) ++ trail) = decls.map Decl.source := by
  have hno : ∀ p ∈ decls.map Decl.source, ',' ∉ p := by
    intro p hp
    obtain ⟨d, hd, rfl⟩ := List.mem_map.1 hp
    exact decl_no (hv d hd) _ (.inr rfl)
  have hne' : decls.map Decl.source ≠ [] := by simpa using hne
  unfold declarationPieces
  rcases ht with rfl | ⟨w, rfl, hw⟩
  · rw [List.append_nil, splitOn_join _ _ hne' hno]
    simp only
    split
    · rename_i last p rest hr
      have hlast : last ∈ decls.map Decl.source := by
        rw [← List.mem_reverse, hr]; exact List.mem_cons_self ..
      obtain ⟨d, hd, rfl⟩ := List.mem_map.1 hlast
      rw [not_blank_decl (hv d hd)]
      simp
    · rfl
  · have hw' : ',' ∉ w := by intro hm; have := hw _ hm; revert this; decide
    rw [splitOn_join_trail _ _ _ hne' hno hw']
    simp only [List.reverse_append, List.reverse_singleton, List.singleton_append]
    cases hr : (decls.map Decl.source).reverse with
    | nil => exact absurd (List.reverse_eq_nil_iff.1 hr) hne'
    | cons p rest =>
      have : w.all isReSpace = true := List.all_eq_true.2 hw
      simp only [this, if_true]
      rw [← hr, List.reverse_reverse]

theorem pieces_spec (after : Str) :
    declarationPieces after ≠ [] ∧ ∃ trail, after = joinWith [','] (declarationPieces after) ++ trail ∧
      (trail = [] ∨ ∃ w, trail = ',' :: w ∧ Blank w) := by
  have hj := (join_splitOn ',' after).1
  have hne := splitOn_ne_nil ',' after
  unfold declarationPieces
  simp only
  generalize splitOn ',' after = ps at hj hne
  split
  · rename_i last p rest hr
    have hps : ps = (p :: rest).reverse ++ [last] := by
      rw [← List.reverse_reverse ps, hr]; simp
    split
    · rename_i hb
      refine ⟨by simp, ',' :: last, ?_, .inr ⟨last, rfl, List.all_eq_true.1 hb⟩⟩
      rw [← hj, hps, joinWith_concat _ _ _ (by simp)]
    · exact ⟨hne, [], by rw [hj]; simp, .inl rfl⟩
  · exact ⟨hne, [], by rw [hj]; simp, .inl rfl⟩

theorem fold_lookup (decls : List Decl) (hv : ∀ d ∈ decls, d.Valid uw) (acc : Dict Str Str) (k : Str) :
    Dict.get? ((decls.map Decl.source).foldl (fun d p => let kv := partitionEq p; d.set (stripStr kv.1) (stripStr kv.2)) acc) k =
      match lastValue decls k with
      | some v => some v
      | none => acc.get? k := by
  induction decls generalizing acc with
  | nil => rfl
  | cons d ds ih =>
    simp only [List.map_cons, List.foldl_cons]
    rw [ih (fun x hx => hv x (List.mem_cons_of_mem _ hx))]
    obtain ⟨e1, e2⟩ := decl_parse (hv d (List.mem_cons_self ..))
    simp only [lastValue, e1, e2]
    cases lastValue ds k with
    | some v => rfl
    | none =>
      simp only [Dict.get?_set]
      by_cases h : d.key = k
      · simp [h]
      · have : ¬ k = d.key := fun hc => h hc.symm
        simp [h, this]

theorem join_no_colon (ds : List Decl) (hv : ∀ d ∈ ds, d.Valid uw) : ':' ∉ joinWith [','] (ds.map Decl.source) := by
  induction ds with
  | nil => simp [joinWith]
  | cons d ds ih =>
    intro hm
    simp only [List.map_cons] at hm
    rw [joinWith_cons] at hm
    rcases List.mem_append.1 hm with hm | hm
    · exact decl_no (hv d (List.mem_cons_self ..)) _ (.inl rfl) hm
    · split at hm
      · simp at hm
      · simp only [List.singleton_append, List.mem_cons] at hm
        rcases hm with hm | hm
        · cases hm
        · exact ih (fun x hx => hv x (List.mem_cons_of_mem _ hx)) hm

/-- C25, recognition: a text yields a pragma exactly if it ends in `tag: key=value, ...` (a trailing comma is allowed,
arbitrary text may precede the tag). -/
theorem C25_recognised_iff (text : Str) (start stop : Nat) :
    (∃ p, pragmaFromText uw text start stop = some p) ↔ ∃ tag decls, PragmaText uw text tag decls := by
  constructor
  · rintro ⟨p, h⟩
    unfold pragmaFromText at h
    split at h
    · cases h
    · rename_i before after hs
      simp only at h
      split at h
      · cases h
      · rename_i hc
        simp only [Bool.or_eq_true, Bool.not_eq_true', not_or, Bool.not_eq_true, Bool.not_eq_false, List.isEmpty_eq_false_iff] at hc
        obtain ⟨h1, h2⟩ := hc
        obtain ⟨t1, pre, ws, t2, t3, t4⟩ := trailingTag_spec before h1
        obtain ⟨p1, trail, p2, p3⟩ := pieces_spec after
        obtain ⟨e, hcol⟩ := splitLastColon_some.1 hs
        have hd : ∃ decls : List Decl, (∀ d ∈ decls, d.Valid uw) ∧ decls.map Decl.source = declarationPieces after := by
          clear p2 hs h p1
          generalize declarationPieces after = ps at h2
          induction ps with
          | nil => exact ⟨[], by simp, rfl⟩
          | cons p ps ih =>
            rw [List.all_cons, Bool.and_eq_true] at h2
            obtain ⟨d, d1, d2⟩ := (isDeclaration_iff p).1 h2.1
            obtain ⟨ds, d3, d4⟩ := ih h2.2
            refine ⟨d :: ds, ?_, by simp [d2, d4]⟩
            intro x hx
            rcases List.mem_cons.1 hx with rfl | hx
            · exact d1
            · exact d3 x hx
        obtain ⟨decls, d1, d2⟩ := hd
        refine ⟨trailingTag uw before, decls, ⟨h1, t1⟩, ⟨?_, d1⟩, pre, ws, trail, ?_, t4, t3, p3⟩
        · rintro rfl
          exact p1 d2.symm
        · rw [e, d2, ← p2]
          conv => lhs; rw [t2]
          simp
  · rintro ⟨tag, decls, h1, ⟨h2, h3⟩, pre, ws, trail, e, hpre, hws, ht⟩
    unfold pragmaFromText
    have hs : splitLastColon text = some (pre ++ (tag ++ ws), joinWith [','] (decls.map Decl.source) ++ trail) := by
      rw [splitLastColon_some]
      refine ⟨by rw [e]; simp, ?_⟩
      intro hm
      rcases List.mem_append.1 hm with hm | hm
      · exact join_no_colon decls h3 hm
      · rcases ht with rfl | ⟨w, rfl, hw⟩
        · simp at hm
        · rcases List.mem_cons.1 hm with hm | hm
          · cases hm
          · have := hw _ hm; revert this; decide
    rw [hs]
    simp only [trailingTag_eq hws h1 hpre, pieces_of_source decls h2 h3 trail ht]
    have ha : (decls.map Decl.source).all (isDeclaration uw) = true := by
      rw [List.all_eq_true]
      intro p hp
      obtain ⟨d, hd, rfl⟩ := List.mem_map.1 hp
      exact (isDeclaration_iff _).2 ⟨d, h3 d hd, rfl⟩
    have hte : tag.isEmpty = false := by simpa using h1.1
    rw [ha, hte]
    simp

/-- C25, contents: however the text is read as `tag: key=value, ...`, the pragma has that tag, the given range, and for each key
the last value written for it, and nothing else. -/
theorem C25_faithful (text tag : Str) (decls : List Decl) (h : PragmaText uw text tag decls) (start stop : Nat) :
    ∃ p, pragmaFromText uw text start stop = some p ∧ p.tag = tag ∧ p.start = start ∧ p.stop = stop ∧
      ∀ k, p.data.get? k = lastValue decls k := by
  obtain ⟨h1, ⟨h2, h3⟩, pre, ws, trail, e, hpre, hws, ht⟩ := h
  obtain ⟨p, hp⟩ := (C25_recognised_iff (uw := uw) text start stop).2 ⟨tag, decls, h1, ⟨h2, h3⟩, pre, ws, trail, e, hpre, hws, ht⟩
  refine ⟨p, hp, ?_⟩
  unfold pragmaFromText at hp
  have hs : ∃ b a, splitLastColon text = some (b, a) := by
    cases hc : splitLastColon text with
    | none => rw [hc] at hp; cases hp
    | some ba => exact ⟨ba.1, ba.2, rfl⟩
  obtain ⟨b, a, hs⟩ := hs
  obtain ⟨e1, e2⟩ := splitLastColon_some.1 hs
  have huniq : b = pre ++ (tag ++ ws) ∧ a = joinWith [','] (decls.map Decl.source) ++ trail := by
    have hcol : ':' ∉ joinWith [','] (decls.map Decl.source) ++ trail := by
      intro hm
      rcases List.mem_append.1 hm with hm | hm
      · exact join_no_colon decls h3 hm
      · rcases ht with rfl | ⟨w, rfl, hw⟩
        · simp at hm
        · rcases List.mem_cons.1 hm with hm | hm
          · cases hm
          · have := hw _ hm; revert this; decide
    have : splitLastColon text = some (pre ++ (tag ++ ws), joinWith [','] (decls.map Decl.source) ++ trail) := by
      rw [splitLastColon_some]; exact ⟨by rw [e]; simp, hcol⟩
    rw [this] at hs
    simp only [Option.some.injEq, Prod.mk.injEq] at hs
    exact ⟨hs.1.symm, hs.2.symm⟩
  rw [hs] at hp
  simp only [huniq.1, huniq.2, trailingTag_eq hws h1 hpre, pieces_of_source decls h2 h3 trail ht] at hp
  split at hp
  · cases hp
  · simp only [Option.some.injEq] at hp
    subst hp
    refine ⟨rfl, rfl, rfl, fun k => ?_⟩
    simp only
    rw [fold_lookup decls h3]
    cases lastValue decls k <;> rfl

/-- "# see bug: refex : disable = a.b, x=1 , disable=c," -/
def exPragmaText : Str := str "# see bug: refex : disable = a.b, x=1 , disable=c,"
def exPragmaDecls : List Decl :=
  [⟨str " ", str "disable", str " ", str " ", str "a.b", []⟩, ⟨str " ", str "x", [], [], str "1", str " "⟩,
   ⟨str " ", str "disable", [], [], str "c", []⟩]
example : PragmaText (fun _ => false) exPragmaText (str "refex") exPragmaDecls := by
  refine ⟨⟨by decide, by decide⟩, ⟨by decide, ?_⟩, str "# see bug: ", str " ", str ",", by decide, ?_, by decide, .inr ⟨[], rfl, by decide⟩⟩
  · intro d hd
    simp only [exPragmaDecls, List.mem_cons, List.not_mem_nil, or_false] at hd
    rcases hd with rfl | rfl | rfl <;>
      exact ⟨by decide, by decide, by decide, by decide, ⟨by decide, by decide⟩, ⟨by decide, by decide⟩⟩
  · intro c hc
    have : c = ' ' := by
      have e : (str "# see bug: ").getLast? = some ' ' := by decide
      rw [e] at hc; exact (Option.some.inj hc).symm
    subst this; decide
example : pragmaFromText (fun _ => false) exPragmaText 3 9 =
    some ⟨str "refex", [(str "disable", str "c"), (str "x", str "1")], 3, 9⟩ := by decide
/-- A value list with commas is not a pragma at all: the second item has no '='. -/
example : pragmaFromText (fun _ => false) (str "# pylint: disable=a,b") 0 5 = none := by decide

end Refex
