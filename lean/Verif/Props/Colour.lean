import Verif.Spec.Colour
import Verif.Props.Render
import Verif.Spec.Common
/- C79: colour only decorates. C15: styles are handed out in order. -/
namespace Refex
set_option autoImplicit false

/-- A line without its line break, with decorations. -/
inductive DecLine (p : Palette) : Str → Str → Prop
  | nil : DecLine p [] []
  | char (c : Char) {d t : Str} : c ≠ '\n' → DecLine p d t → DecLine p (c :: d) (c :: t)
  | styled {style text d t : Str} : IsStyle p style → '\n' ∉ text → DecLine p d t →
      DecLine p (style ++ text ++ p.reset ++ d) (text ++ t)

theorem IsStyle.plain {p : Palette} (hp : PlainPalette p) {s : Str} (h : IsStyle p s) : ∀ c ∈ s, isLineBreak c = false := by
  have h0 : ∀ c ∈ p.red ++ p.green ++ p.bright ++ p.dim ++ p.reset, isLineBreak c = false := hp.1
  simp only [List.mem_append] at h0
  induction h with
  | none => simp
  | red _ ih => intro c hc; rcases List.mem_append.1 hc with hc | hc; exact h0 c (by simp [hc]); exact ih c hc
  | green _ ih => intro c hc; rcases List.mem_append.1 hc with hc | hc; exact h0 c (by simp [hc]); exact ih c hc
  | bright _ ih => intro c hc; rcases List.mem_append.1 hc with hc | hc; exact h0 c (by simp [hc]); exact ih c hc
  | dim _ ih => intro c hc; rcases List.mem_append.1 hc with hc | hc; exact h0 c (by simp [hc]); exact ih c hc
  | cycle n _ ih => intro c hc; rcases List.mem_append.1 hc with hc | hc; exact hp.2 n c hc; exact ih c hc

theorem reset_plain {p : Palette} (hp : PlainPalette p) : ∀ c ∈ p.reset, isLineBreak c = false := fun c hc => hp.1 c (by simp [hc])

theorem Coloured.append {p : Palette} {d t d' t' : Str} (h : Coloured p d t) (h' : Coloured p d' t') :
    Coloured p (d ++ d') (t ++ t') := by
  induction h with
  | nil => exact h'
  | char c _ ih => exact .char c ih
  | styled hs ht _ ih =>
    have := Coloured.styled hs ht ih
    simpa [List.append_assoc] using this

theorem Coloured.plain (p : Palette) (t : Str) : Coloured p t t := by
  induction t with
  | nil => exact .nil
  | cons c t ih => exact .char c ih

theorem DecLine.append {p : Palette} {d t d' t' : Str} (h : DecLine p d t) (h' : DecLine p d' t') :
    DecLine p (d ++ d') (t ++ t') := by
  induction h with
  | nil => exact h'
  | char c hc _ ih => exact .char c hc ih
  | styled hs ht _ ih =>
    have := DecLine.styled hs ht ih
    simpa [List.append_assoc] using this

theorem DecLine.decorated {p : Palette} {d t : Str} (h : DecLine p d t) : Coloured p d t := by
  induction h with
  | nil => exact .nil
  | char c hc _ ih => exact .char c ih
  | styled hs ht _ ih => exact .styled hs ht ih

theorem DecLine.no_nl {p : Palette} (hp : PlainPalette p) {d t : Str} (h : DecLine p d t) : '\n' ∉ d ∧ '\n' ∉ t := by
  have hnl : ∀ s : Str, (∀ c ∈ s, isLineBreak c = false) → '\n' ∉ s := by
    intro s hs hm; exact absurd (hs _ hm) (by decide)
  induction h with
  | nil => simp
  | char c hc _ ih => simp [ih, Ne.symm hc]
  | styled hs ht _ ih =>
    have h1 := hnl _ (hs.plain hp)
    have h2 := hnl _ (reset_plain hp)
    simp [ih, ht, h1, h2]

theorem DecLine.length {p : Palette} {d t : Str} (h : DecLine p d t) : t.length ≤ d.length := by
  induction h with
  | nil => simp
  | char c hc _ ih => simpa using ih
  | styled hs ht _ ih => simp; omega

theorem IsStyle.append {p : Palette} {s s' : Str} (h : IsStyle p s) (h' : IsStyle p s') : IsStyle p (s ++ s') := by
  induction h with
  | none => exact h'
  | red _ ih => rw [List.append_assoc]; exact .red ih
  | green _ ih => rw [List.append_assoc]; exact .green ih
  | bright _ ih => rw [List.append_assoc]; exact .bright ih
  | dim _ ih => rw [List.append_assoc]; exact .dim ih
  | cycle n _ ih => rw [List.append_assoc]; exact .cycle n ih

/-- Lines: each with its newline, and a last one that may be empty. -/
def DecLines (p : Palette) (d t : Str) : Prop :=
  ∃ (ls : List (Str × Str)) (last : Str × Str), (∀ l ∈ ls, DecLine p l.1 l.2) ∧ DecLine p last.1 last.2 ∧
    (last.2 = [] → last.1 = []) ∧
    d = ls.flatMap (fun l => l.1 ++ ['\n']) ++ last.1 ∧ t = ls.flatMap (fun l => l.2 ++ ['\n']) ++ last.2

theorem DecLines.append {p : Palette} {d t d' t' : Str} (h : DecLines p d t) (h' : DecLines p d' t') :
    DecLines p (d ++ d') (t ++ t') := by
  obtain ⟨ls, last, h1, h2, h3, rfl, rfl⟩ := h
  obtain ⟨ls', last', g1, g2, g3, rfl, rfl⟩ := h'
  cases ls' with
  | nil =>
    refine ⟨ls, (last.1 ++ last'.1, last.2 ++ last'.2), h1, h2.append g2, ?_, by simp, by simp⟩
    intro he
    simp only [List.append_eq_nil_iff] at he ⊢
    exact ⟨h3 he.1, g3 he.2⟩
  | cons l ls' =>
    refine ⟨ls ++ (last.1 ++ l.1, last.2 ++ l.2) :: ls', last', ?_, g2, g3, by simp, by simp⟩
    intro x hx
    rcases List.mem_append.1 hx with hx | hx
    · exact h1 x hx
    · rcases List.mem_cons.1 hx with rfl | hx
      · exact h2.append (g1 l (by simp))
      · exact g1 x (by simp [hx])

theorem DecLines.nil (p : Palette) : DecLines p [] [] := ⟨[], ([], []), by simp, .nil, by simp, rfl, rfl⟩

theorem DecLines.decorated {p : Palette} {d t : Str} (h : DecLines p d t) : Coloured p d t := by
  obtain ⟨ls, last, h1, h2, _, rfl, rfl⟩ := h
  refine Coloured.append ?_ h2.decorated
  clear h2
  induction ls with
  | nil => exact .nil
  | cons l ls ih =>
    simp only [List.flatMap_cons]
    exact ((h1 l (by simp)).decorated.append (.plain p _)).append (ih (fun x hx => h1 x (by simp [hx])))

/-- A styled piece of a line. -/
theorem decLine_styled (p : Palette) {style text : Str} (hs : IsStyle p style) (ht : '\n' ∉ text) :
    DecLine p (applyStyle p true style text) text := by
  have := DecLine.styled hs ht DecLine.nil
  simpa [applyStyle] using this

theorem onlyNl_piece {s : Str} (h : OnlyNl s) : ∀ l ∈ splitlinesKeep s, ('\n' ∉ l ∧ l ≠ []) ∨ ∃ t, l = t ++ ['\n'] ∧ '\n' ∉ t := by
  fun_induction splitlinesKeep s with
  | case1 => simp
  | case2 c =>
    simp only [List.mem_singleton, forall_eq]
    by_cases hc : c = '\n'
    · subst hc; exact Or.inr ⟨[], rfl, by simp⟩
    · exact Or.inl ⟨by simpa using Ne.symm hc, by simp⟩
  | case3 c d rest hc ih =>
    simp only [Bool.and_eq_true, decide_eq_true_eq] at hc
    have := h c (List.mem_cons_self ..) (by rw [hc.1]; decide)
    rw [hc.1] at this
    exact absurd this (by decide)
  | case4 c d rest h1 h2 ih =>
    have hc := h c (List.mem_cons_self ..) h2
    intro l hl
    rcases List.mem_cons.1 hl with rfl | hl
    · exact Or.inr ⟨[], by simp [hc], by simp⟩
    · exact ih (fun x hx => h x (List.mem_cons_of_mem _ hx)) l hl
  | case5 c d rest h1 h2 h3 ih =>
    have := splitlinesKeep_flatten (d :: rest)
    rw [h3] at this
    simp at this
  | case6 c d rest h1 h2 l ls h3 ih =>
    have hc : c ≠ '\n' := by intro hc; subst hc; exact h2 (by decide)
    have ih := ih (fun x hx => h x (List.mem_cons_of_mem _ hx))
    rw [h3] at ih
    intro x hx
    rcases List.mem_cons.1 hx with rfl | hx
    · rcases ih l (by simp) with ⟨h, _⟩ | ⟨t, rfl, ht⟩
      · left; simp [h, Ne.symm hc]
      · right; exact ⟨c :: t, rfl, by simp [ht, Ne.symm hc]⟩
    · exact ih x (by simp [hx])

theorem styleLines_decorated (p : Palette) {style s : Str} (hs : IsStyle p style) (h : OnlyNl s) :
    DecLines p (styleLines p true style s) s := by
  have hp := onlyNl_piece h
  have hf := splitlinesKeep_flatten s
  unfold styleLines
  have key : ∀ ls : List Str, (∀ l ∈ ls, ('\n' ∉ l ∧ l ≠ []) ∨ ∃ t, l = t ++ ['\n'] ∧ '\n' ∉ t) →
      DecLines p (ls.flatMap fun line => if line.getLast? = some '\n' then applyStyle p true style line.dropLast ++ ['\n']
        else applyStyle p true style line) ls.flatten := by
    intro ls hp
    induction ls with
    | nil => exact .nil p
    | cons l ls ih =>
      simp only [List.flatMap_cons, List.flatten_cons]
      refine DecLines.append ?_ (ih (fun x hx => hp x (by simp [hx])))
      rcases hp l (by simp) with ⟨h1, h2⟩ | ⟨t, rfl, ht⟩
      · have : l.getLast? ≠ some '\n' := fun h => h1 (List.mem_of_getLast? h)
        rw [if_neg this]
        exact ⟨[], (applyStyle p true style l, l), by simp, decLine_styled p hs h1, fun h => absurd h h2, by simp, by simp⟩
      · rw [if_pos (by simp)]
        refine ⟨[(applyStyle p true style t, t)], ([], []), ?_, .nil, by simp, ?_, by simp⟩
        · simp only [List.mem_singleton, forall_eq]; exact decLine_styled p hs ht
        · simp
  have := key (splitlinesKeep s) hp
  rw [hf] at this
  exact this

/-- Splitting decorated lines. -/
theorem splitlines_lines (ls : List Str) (h : ∀ l ∈ ls, ∀ c ∈ l, isLineBreak c = false) :
    splitlinesKeep (ls.flatMap (· ++ ['\n'])) = ls.map (· ++ ['\n']) := by
  induction ls with
  | nil => rfl
  | cons l ls ih =>
    have ih := ih (fun x hx => h x (by simp [hx]))
    have hl := h l (by simp)
    simp only [List.flatMap_cons, List.map_cons]
    clear h
    have key : ∀ l : Str, (∀ c ∈ l, isLineBreak c = false) → ∀ rest : Str,
        splitlinesKeep (l ++ ['\n'] ++ rest) = (l ++ ['\n']) :: splitlinesKeep rest := by
      intro l
      induction l with
      | nil =>
        intro _ rest
        cases rest with
        | nil => rfl
        | cons c rest =>
          simp only [List.nil_append, List.cons_append, splitlinesKeep]
          rw [if_neg (by simp), if_pos (by decide)]
      | cons c l ihl =>
        intro hc rest
        have h1 := ihl (fun x hx => hc x (by simp [hx])) rest
        have hcc := hc c (by simp)
        have hr : c ≠ '\r' := by intro e; subst e; exact absurd hcc (by decide)
        cases hq : l ++ ['\n'] ++ rest with
        | nil => simp at hq
        | cons d q =>
          rw [List.cons_append, List.cons_append, hq]
          simp only [splitlinesKeep]
          rw [← hq, if_neg (by simp [hr]), if_neg (by simp [hcc]), h1]
    rw [key l hl, ih]

theorem decLine_plain {p : Palette} (hp : PlainPalette p) {d t : Str} (h : DecLine p d t) (ht : OnlyNl t) : ∀ c ∈ d, isLineBreak c = false := by
  induction h with
  | nil => simp
  | char c hc _ ih =>
    intro x hx
    rcases List.mem_cons.1 hx with rfl | hx
    · cases hb : isLineBreak x with
      | false => rfl
      | true => exact absurd (ht x (by simp) hb) hc
    · exact ih (fun y hy => ht y (by simp [hy])) x hx
  | styled hs hn _ ih =>
    rename_i style text d t _
    intro x hx
    simp only [List.mem_append] at hx
    rcases hx with ((hx | hx) | hx) | hx
    · exact hs.plain hp x hx
    · cases hb : isLineBreak x with
      | false => rfl
      | true => have := ht x (by simp [hx]) hb; subst this; exact absurd hx hn
    · exact reset_plain hp x hx
    · exact ih (fun y hy => ht y (by simp [hy])) x hx

theorem decLine_plain_right {p : Palette} {d t : Str} (h : DecLine p d t) (ht : OnlyNl t) : ∀ c ∈ t, isLineBreak c = false := by
  induction h with
  | nil => simp
  | char c hc _ ih =>
    intro x hx
    rcases List.mem_cons.1 hx with rfl | hx
    · cases hb : isLineBreak x with
      | false => rfl
      | true => exact absurd (ht x (by simp) hb) hc
    · exact ih (fun y hy => ht y (by simp [hy])) x hx
  | styled hs hn _ ih =>
    intro x hx
    rcases List.mem_append.1 hx with hx | hx
    · cases hb : isLineBreak x with
      | false => rfl
      | true => have := ht x (by simp [hx]) hb; subst this; exact absurd hx hn
    · exact ih (fun y hy => ht y (by simp [hy])) x hx

/-- The lines of a diff block, with their mark. -/
theorem createDiff_decorated {p : Palette} (hp : PlainPalette p) {d t pre preT : Str} (hpre : DecLine p pre preT) (h : DecLines p d t)
    (ht : OnlyNl t) : DecLines p (createDiff pre d) (createDiff preT t) := by
  obtain ⟨ls, last, h1, h2, h3, e1, e2⟩ := h
  -- complete the last line
  have hone : ∀ (ls : List (Str × Str)), (∀ l ∈ ls, DecLine p l.1 l.2 ∧ OnlyNl l.2) →
      DecLines p ((splitlinesKeep (ls.flatMap fun l => l.1 ++ ['\n'])).flatMap fun l => pre ++ l)
        ((splitlinesKeep (ls.flatMap fun l => l.2 ++ ['\n'])).flatMap fun l => preT ++ l) := by
    intro ls hls
    have a1 := splitlines_lines (ls.map Prod.fst) (by
      intro l hl
      obtain ⟨x, hx, rfl⟩ := List.mem_map.1 hl
      exact decLine_plain hp (hls x hx).1 (hls x hx).2)
    have a2 := splitlines_lines (ls.map Prod.snd) (by
      intro l hl
      obtain ⟨x, hx, rfl⟩ := List.mem_map.1 hl
      exact decLine_plain_right (hls x hx).1 (hls x hx).2)
    rw [List.flatMap_map] at a1 a2
    rw [a1, a2]
    refine ⟨ls.map (fun l => (pre ++ l.1, preT ++ l.2)), ([], []), ?_, .nil, by simp, ?_, ?_⟩
    · intro x hx
      obtain ⟨l, hl, rfl⟩ := List.mem_map.1 hx
      exact hpre.append (hls l hl).1
    · simp [List.flatMap_map, Function.comp_def]
    · simp [List.flatMap_map, Function.comp_def]
  have hin : ∀ l ∈ ls, DecLine p l.1 l.2 ∧ OnlyNl l.2 := by
    intro l hl
    refine ⟨h1 l hl, fun c hc => ht c ?_⟩
    rw [e2]
    exact List.mem_append.2 (Or.inl (List.mem_flatMap.2 ⟨l, hl, by simp [hc]⟩))
  have hlast : OnlyNl last.2 := fun c hc => ht c (by rw [e2]; simp [hc])
  unfold createDiff
  by_cases hl0 : last.2 = []
  · have hl1 := h3 hl0
    rw [hl0, List.append_nil] at e2
    rw [hl1, List.append_nil] at e1
    cases ls with
    | nil => subst e1 e2; simp; exact .nil p
    | cons l ls' =>
      have g1 : d ≠ [] := by rw [e1]; simp
      have g2 : t ≠ [] := by rw [e2]; simp
      have n1 : d.getLast? = some '\n' := by
        rw [e1]; clear hin h1 e1 e2
        induction ls' generalizing l with
        | nil => simp
        | cons l' ls' ih => rw [List.flatMap_cons, List.getLast?_append, ih l']; rfl
      have n2 : t.getLast? = some '\n' := by
        rw [e2]; clear hin h1 e1 e2
        induction ls' generalizing l with
        | nil => simp
        | cons l' ls' ih => rw [List.flatMap_cons, List.getLast?_append, ih l']; rfl
      rw [if_neg g1, if_neg g2, if_pos n1, if_pos n2, e1, e2]
      exact hone _ hin
  · have hlen := h2.length
    have hl1 : last.1 ≠ [] := by
      intro h0
      rw [h0] at hlen
      exact hl0 (List.length_eq_zero_iff.1 (by simpa using hlen))
    obtain ⟨m1, m2⟩ := h2.no_nl hp
    have g1 : d ≠ [] := by rw [e1]; simp [hl1]
    have g2 : t ≠ [] := by rw [e2]; simp [hl0]
    have n1 : d.getLast? ≠ some '\n' := by
      rw [e1, List.getLast?_append]
      intro h
      cases hq : last.1.getLast? with
      | none => exact hl1 (List.getLast?_eq_none_iff.1 hq)
      | some c => rw [hq] at h; simp at h; subst h; exact m1 (List.mem_of_getLast? hq)
    have n2 : t.getLast? ≠ some '\n' := by
      rw [e2, List.getLast?_append]
      intro h
      cases hq : last.2.getLast? with
      | none => exact hl0 (List.getLast?_eq_none_iff.1 hq)
      | some c => rw [hq] at h; simp at h; subst h; exact m2 (List.mem_of_getLast? hq)
    rw [if_neg g1, if_neg g2, if_neg n1, if_neg n2, e1, e2]
    have := hone (ls ++ [last]) (by
      intro l hl
      rcases List.mem_append.1 hl with hl | hl
      · exact hin l hl
      · rw [List.mem_singleton.1 hl]; exact ⟨h2, hlast⟩)
    simpa [List.flatMap_append] using this

theorem itemDisplay_decorated (p : Palette) (contents : Str) (sub : Substitution) (σ : List Label → Str) (hσ : ∀ l, IsStyle p (σ l))
    (before isDiff : Bool) (hc : OnlyNl contents) (d : DiffItem) (hd : ∀ s l a, d = .diff s l a → OnlyNl a) :
    DecLines p (itemDisplay p true contents sub σ before isDiff d) (itemDisplay p false contents sub σ before isDiff d) ∧
      OnlyNl (itemDisplay p false contents sub σ before isDiff d) := by
  have hb : IsStyle p p.bright := by simpa using IsStyle.bright (p := p) .none
  cases d with
  | diff s l a =>
    have hst : IsStyle p ((if before then p.red else p.green) ++ p.bright) := by
      cases before
      · simpa using IsStyle.green hb
      · simpa using IsStyle.red hb
    have ho : OnlyNl (if before then slice contents s.1 s.2 else a) := by
      cases before
      · simpa using hd _ _ _ rfl
      · simpa using hc.slice s.1 s.2
    simp only [itemDisplay, styleLines_plain]
    exact ⟨styleLines_decorated p hst ho, ho⟩
  | labeled ls =>
    simp only [itemDisplay, styleLines_plain]
    refine ⟨styleLines_decorated p ?_ (hc.slice _ _), hc.slice _ _⟩
    have h1 : IsStyle p (if 1 < sub.matchedSpans.length && sameLabels ls.labels [sub.primaryLabel] then p.bright else σ ls.labels) := by
      split
      · exact hb
      · exact hσ _
    cases isDiff
    · simpa using h1
    · simp only [if_true]
      exact h1.append (by simpa using IsStyle.dim (p := p) .none)

theorem itemsDisplay_decorated (p : Palette) (contents : Str) (sub : Substitution) (σ : List Label → Str) (hσ : ∀ l, IsStyle p (σ l))
    (before isDiff : Bool) (hc : OnlyNl contents) (items : List DiffItem) (hd : ∀ s l a, .diff s l a ∈ items → OnlyNl a) :
    DecLines p (itemsDisplay p true contents sub σ before isDiff items) (itemsDisplay p false contents sub σ before isDiff items) ∧
      OnlyNl (itemsDisplay p false contents sub σ before isDiff items) := by
  unfold itemsDisplay
  induction items with
  | nil => exact ⟨.nil p, fun c hc => by simp at hc⟩
  | cons d items ih =>
    obtain ⟨a1, a2⟩ := itemDisplay_decorated p contents sub σ hσ before isDiff hc d (fun s l a e => hd s l a (by simp [e]))
    obtain ⟨b1, b2⟩ := ih (fun s l a h => hd s l a (by simp [h]))
    simp only [List.flatMap_cons]
    exact ⟨a1.append b1, a2.append b2⟩

theorem blockDisplay_decorated {p : Palette} (hp : PlainPalette p) (contents : Str) (sub : Substitution) (σ : List Label → Str)
    (hσ : ∀ l, IsStyle p (σ l)) (hc : OnlyNl contents) (b : Bool × List DiffItem) (hd : ∀ s l a, .diff s l a ∈ b.2 → OnlyNl a) :
    DecLines p (blockDisplay p true contents sub σ b) (blockDisplay p false contents sub σ b) := by
  obtain ⟨f, block⟩ := b
  have hm : ∀ s c, IsStyle p s → c ≠ '\n' → DecLine p (applyStyle p true s [c]) (applyStyle p false s [c]) :=
    fun s c hs hc => decLine_styled p hs (by simpa using Ne.symm hc)
  have hone := fun before => itemsDisplay_decorated p contents sub σ hσ before true hc block hd
  cases f with
  | true =>
    simp only [blockDisplay]
    exact (createDiff_decorated hp (hm _ _ (by simpa using IsStyle.red (p := p) .none) (by decide)) (hone true).1 (hone true).2).append
      (createDiff_decorated hp (hm _ _ (by simpa using IsStyle.green (p := p) .none) (by decide)) (hone false).1 (hone false).2)
  | false =>
    simp only [blockDisplay]
    exact createDiff_decorated hp (.char ' ' (by decide) .nil) (hone true).1 (hone true).2

theorem blocks_diff_mem (contents : Str) (items : List DiffItem) : ∀ (cur : List DiffItem) (f : Bool) (b : Bool × List DiffItem)
    (s : Span) (l : Label) (a : Str), b ∈ subDiffBlocks contents cur f items → .diff s l a ∈ b.2 → .diff s l a ∈ cur ∨ .diff s l a ∈ items := by
  induction items with
  | nil => intro cur f b s l a hb h; simp only [subDiffBlocks, List.mem_singleton] at hb; subst hb; exact Or.inl h
  | cons d items ih =>
    intro cur f b s l a hb h
    cases d with
    | diff s' l' a' =>
      simp only [subDiffBlocks] at hb
      rcases ih _ _ b s l a hb h with h | h
      · rcases List.mem_append.1 h with h | h
        · exact Or.inl h
        · right; simp only [List.mem_singleton] at h; simp [h]
      · right; simp [h]
    | labeled ls =>
      simp only [subDiffBlocks] at hb
      split at hb
      · rcases ih _ _ b s l a hb h with h | h
        · rcases List.mem_append.1 h with h | h
          · exact Or.inl h
          · simp at h
        · right; simp [h]
      · rcases List.mem_cons.1 hb with rfl | hb
        · rcases List.mem_append.1 h with h | h
          · exact Or.inl h
          · simp at h
        · rcases List.mem_append.1 hb with hb | hb
          · split at hb
            · simp only [List.mem_singleton] at hb; subst hb; simp at h
            · simp at hb
          · rcases ih _ _ b s l a hb h with h | h
            · simp at h
            · right; simp [h]

/-! ### Styles are handed out in order -/

/-- The combinations with the styles they have been given, from the `i`-th style on. -/
def stylesFrom (p : Palette) : Nat → List (List Label) → List (List Label × Str)
  | _, [] => []
  | i, l :: ls => (l, p.stream i) :: stylesFrom p (i + 1) ls

/-- The renderer has given the first styles of the sequence to these combinations of labels, no two of which are the same. -/
def HandedOut (p : Palette) (st : RState) (combos : List (List Label)) : Prop :=
  st.labelStyle = ([], []) :: stylesFrom p 0 combos ∧ st.used = combos.length ∧ (∀ l ∈ combos, l ≠ []) ∧
    combos.Pairwise (fun a b => ¬ ∀ x, x ∈ a ↔ x ∈ b)

theorem stylesFrom_append (p : Palette) (ls : List (List Label)) (l : List Label) : ∀ i,
    stylesFrom p i (ls ++ [l]) = stylesFrom p i ls ++ [(l, p.stream (i + ls.length))] := by
  induction ls with
  | nil => intro i; rfl
  | cons x ls ih => intro i; simp only [List.cons_append, stylesFrom, ih, List.length_cons]; rw [show i + 1 + ls.length = i + (ls.length + 1) by omega]

theorem styleOf_stylesFrom (p : Palette) (ls : List (List Label)) (l : List Label) : ∀ i,
    (styleOf (stylesFrom p i ls) l = none ∧ ∀ x ∈ ls, ¬ ∀ y, y ∈ x ↔ y ∈ l) ∨
    ∃ (k : Nat) (c : List Label), ls[k]? = some c ∧ (∀ y, y ∈ c ↔ y ∈ l) ∧ styleOf (stylesFrom p i ls) l = some (p.stream (i + k)) := by
  induction ls with
  | nil => intro i; exact Or.inl ⟨rfl, by simp⟩
  | cons x ls ih =>
    intro i
    simp only [stylesFrom, styleOf]
    by_cases hx : sameLabels x l = true
    · exact Or.inr ⟨0, x, rfl, sameLabels_iff.1 hx, by simp [hx]⟩
    · rw [if_neg hx]
      rcases ih (i + 1) with ⟨h1, h2⟩ | ⟨k, c, h1, h2, h3⟩
      · refine Or.inl ⟨h1, ?_⟩
        intro y hy
        rcases List.mem_cons.1 hy with rfl | hy
        · exact fun h => hx (sameLabels_iff.2 h)
        · exact h2 y hy
      · exact Or.inr ⟨k + 1, c, by simpa using h1, h2, by rw [h3]; congr 2; omega⟩

theorem sameLabels_nil {l : List Label} : sameLabels [] l = true ↔ l = [] := by
  rw [sameLabels_iff]
  cases l with
  | nil => simp
  | cons x l => simp only [List.not_mem_nil, false_iff]; constructor; exact fun h => absurd (List.mem_cons_self ..) (h x); (intro h; cases h)

theorem handedOut_style {p : Palette} {st : RState} {combos : List (List Label)} (h : HandedOut p st combos) (l : List Label) :
    (l = [] ∧ styleOf st.labelStyle l = some []) ∨
    (l ≠ [] ∧ styleOf st.labelStyle l = none ∧ ∀ x ∈ combos, ¬ ∀ y, y ∈ x ↔ y ∈ l) ∨
    ∃ (k : Nat) (c : List Label), combos[k]? = some c ∧ (∀ y, y ∈ c ↔ y ∈ l) ∧ styleOf st.labelStyle l = some (p.stream k) := by
  rw [h.1]
  simp only [styleOf]
  by_cases hl : l = []
  · left; rw [if_pos (sameLabels_nil.2 hl)]; exact ⟨hl, rfl⟩
  · right
    rw [if_neg (fun h => hl (sameLabels_nil.1 h))]
    rcases styleOf_stylesFrom p combos l 0 with ⟨h1, h2⟩ | ⟨k, c, h1, h2, h3⟩
    · exact Or.inl ⟨hl, h1, h2⟩
    · exact Or.inr ⟨k, c, h1, h2, by simpa using h3⟩

/-- This combination has a style of its own in the display: it is not just the primary label of a match with other labels. -/
def OwnStyle (sub : Substitution) (l : List Label) : Prop :=
  ¬ (1 < sub.matchedSpans.length ∧ ∀ x, x ∈ l ↔ x = sub.primaryLabel)

/-- One step of handing out. -/
theorem styleFor_handedOut {p : Palette} {st : RState} {combos : List (List Label)} (h : HandedOut p st combos) (sub : Substitution)
    (ls : LabeledSpan) : ∃ more, HandedOut p (styleFor p st sub ls).2 (combos ++ more) ∧
      (OwnStyle sub ls.labels → ls.labels = [] ∨ ∃ c ∈ combos ++ more, ∀ x, x ∈ c ↔ x ∈ ls.labels) := by
  unfold styleFor
  split
  · rename_i hc
    refine ⟨[], by simpa using h, fun ho => absurd ?_ ho⟩
    simp only [Bool.and_eq_true, decide_eq_true_eq, sameLabels_iff, List.mem_singleton] at hc
    exact hc
  · rcases handedOut_style h ls.labels with ⟨h1, h2⟩ | ⟨h1, h2, h3⟩ | ⟨k, c, h1, h2, h3⟩
    · rw [h2]; exact ⟨[], by simpa using h, fun _ => Or.inl h1⟩
    · rw [h2]
      refine ⟨[ls.labels], ⟨?_, by simp [h.2.1], ?_, ?_⟩, fun _ => Or.inr ⟨ls.labels, by simp, fun _ => Iff.rfl⟩⟩
      · simp only [h.1, h.2.1, List.cons_append, stylesFrom_append, Nat.zero_add]
      · intro l hl
        rcases List.mem_append.1 hl with hl | hl
        · exact h.2.2.1 l hl
        · rw [List.mem_singleton.1 hl]; exact h1
      · rw [List.pairwise_append]
        refine ⟨h.2.2.2, by simp, ?_⟩
        intro a ha b hb
        rw [List.mem_singleton.1 hb]
        exact h3 a ha
    · rw [h3]; exact ⟨[], by simpa using h, fun _ => Or.inr ⟨c, by simp [List.mem_of_getElem? h1], h2⟩⟩

theorem renderDiffBlock_handedOut (p : Palette) (color : Bool) (contents : Str) (sub : Substitution) (before isDiff : Bool)
    (items : List DiffItem) : ∀ (st : RState) (combos : List (List Label)), HandedOut p st combos →
      ∃ more, HandedOut p (renderDiffBlock p color contents sub before isDiff st items).2 (combos ++ more) ∧
        ∀ ls, .labeled ls ∈ items → OwnStyle sub ls.labels → ls.labels = [] ∨ ∃ c ∈ combos ++ more, ∀ x, x ∈ c ↔ x ∈ ls.labels := by
  induction items with
  | nil => intro st combos h; exact ⟨[], by simpa [renderDiffBlock] using h, by simp⟩
  | cons d items ih =>
    intro st combos h
    cases d with
    | diff s l a =>
      obtain ⟨more, h1, h2⟩ := ih st combos h
      refine ⟨more, by simpa only [renderDiffBlock] using h1, ?_⟩
      intro ls hls
      exact h2 ls (by simpa using hls)
    | labeled ls =>
      obtain ⟨m1, a1, a2⟩ := styleFor_handedOut h sub ls
      obtain ⟨m2, b1, b2⟩ := ih _ _ a1
      refine ⟨m1 ++ m2, by simpa only [renderDiffBlock, List.append_assoc] using b1, ?_⟩
      intro ls' hls ho
      simp only [List.mem_cons, DiffItem.labeled.injEq] at hls
      rcases hls with rfl | hls
      · rcases a2 ho with h | ⟨c, hc, h⟩
        · exact Or.inl h
        · exact Or.inr ⟨c, by rw [← List.append_assoc]; exact List.mem_append.2 (Or.inl hc), h⟩
      · simpa [List.append_assoc] using b2 ls' hls ho

theorem renderBlocks_handedOut (p : Palette) (color : Bool) (contents : Str) (sub : Substitution)
    (blocks : List (Bool × List DiffItem)) : ∀ (st : RState) (combos : List (List Label)), HandedOut p st combos →
      ∃ more, HandedOut p (renderBlocks p color contents sub st blocks).2 (combos ++ more) ∧
        ∀ b ∈ blocks, ∀ ls, .labeled ls ∈ b.2 → OwnStyle sub ls.labels → ls.labels = [] ∨ ∃ c ∈ combos ++ more, ∀ x, x ∈ c ↔ x ∈ ls.labels := by
  induction blocks with
  | nil => intro st combos h; exact ⟨[], by simpa [renderBlocks] using h, by simp⟩
  | cons b blocks ih =>
    intro st combos h
    obtain ⟨f, block⟩ := b
    obtain ⟨m1, a1, a2⟩ := renderDiffBlock_handedOut p color contents sub true true block st combos h
    cases f with
    | true =>
      obtain ⟨m2, b1, b2⟩ := renderDiffBlock_handedOut p color contents sub false true block _ _ a1
      obtain ⟨m3, c1, c2⟩ := ih _ _ b1
      refine ⟨m1 ++ m2 ++ m3, by simpa only [renderBlocks, List.append_assoc] using c1, ?_⟩
      intro b hb ls hls ho
      rcases List.mem_cons.1 hb with rfl | hb
      · rcases a2 ls hls ho with h | ⟨c, hc, h⟩
        · exact Or.inl h
        · refine Or.inr ⟨c, ?_, h⟩
          simp only [List.mem_append] at hc ⊢
          rcases hc with hc | hc <;> simp [hc]
      · rcases c2 b hb ls hls ho with h | ⟨c, hc, h⟩
        · exact Or.inl h
        · exact Or.inr ⟨c, by simpa only [List.append_assoc] using hc, h⟩
    | false =>
      obtain ⟨m3, c1, c2⟩ := ih _ _ a1
      refine ⟨m1 ++ m3, by simpa only [renderBlocks, List.append_assoc] using c1, ?_⟩
      intro b hb ls hls ho
      rcases List.mem_cons.1 hb with rfl | hb
      · rcases a2 ls hls ho with h | ⟨c, hc, h⟩
        · exact Or.inl h
        · refine Or.inr ⟨c, ?_, h⟩
          simp only [List.mem_append] at hc ⊢
          rcases hc with hc | hc <;> simp [hc]
      · rcases c2 b hb ls hls ho with h | ⟨c, hc, h⟩
        · exact Or.inl h
        · exact Or.inr ⟨c, by simpa only [List.append_assoc] using hc, h⟩

theorem partition_labels (contents : Str) (ls : LabeledSpan) : (partitionLabeledSpan contents ls).1.labels = ls.labels := by
  unfold partitionLabeledSpan
  split
  · rfl
  · simp only
    split <;> rfl

theorem blocks_cover (contents : Str) (items : List DiffItem) : ∀ (cur : List DiffItem) (f : Bool),
    (∀ d ∈ cur, ∃ b ∈ subDiffBlocks contents cur f items, d ∈ b.2) ∧
    ∀ ls, .labeled ls ∈ items → ∃ b ∈ subDiffBlocks contents cur f items, ∃ ls', .labeled ls' ∈ b.2 ∧ ls'.labels = ls.labels := by
  induction items with
  | nil => intro cur f; exact ⟨fun d hd => ⟨(f, cur), by simp [subDiffBlocks], hd⟩, by simp⟩
  | cons d items ih =>
    intro cur f
    cases d with
    | diff s l a =>
      simp only [subDiffBlocks]
      obtain ⟨h1, h2⟩ := ih (cur ++ [.diff s l a]) true
      exact ⟨fun d hd => h1 d (by simp [hd]), fun ls hls => h2 ls (by simpa using hls)⟩
    | labeled ls0 =>
      simp only [subDiffBlocks]
      split
      · obtain ⟨h1, h2⟩ := ih (cur ++ [.labeled (partitionLabeledSpan contents ls0).1]) f
        refine ⟨fun d hd => h1 d (by simp [hd]), fun ls hls => ?_⟩
        simp only [List.mem_cons, DiffItem.labeled.injEq] at hls
        rcases hls with rfl | hls
        · obtain ⟨b, hb, hd⟩ := h1 (.labeled (partitionLabeledSpan contents ls).1) (by simp)
          exact ⟨b, hb, _, hd, partition_labels contents ls⟩
        · exact h2 ls hls
      · rename_i last hlast
        obtain ⟨h1, h2⟩ := ih [.labeled last] false
        refine ⟨fun d hd => ⟨_, List.mem_cons_self .., by simp [hd]⟩, fun ls hls => ?_⟩
        simp only [List.mem_cons, DiffItem.labeled.injEq] at hls
        rcases hls with rfl | hls
        · exact ⟨_, List.mem_cons_self .., _, by simp, partition_labels contents ls⟩
        · obtain ⟨b, hb, hd⟩ := h2 ls hls
          exact ⟨b, List.mem_cons_of_mem _ (List.mem_append.2 (Or.inr hb)), hd⟩

theorem render_handedOut (p : Palette) (color : Bool) (format : Str → Str → Str → Except Exc Str) (st : RState) (contents : Str)
    (sub : Substitution) (combos : List (List Label)) (h : HandedOut p st combos) :
    ∃ more, HandedOut p (render p color format st contents sub).2 (combos ++ more) ∧
      ∀ items ls, asDiff sub = .ok items → .labeled ls ∈ items → OwnStyle sub ls.labels →
        ls.labels = [] ∨ ∃ c ∈ combos ++ more, ∀ x, x ∈ c ↔ x ∈ ls.labels := by
  unfold render
  cases hd : asDiff sub with
  | error e => exact ⟨[], by simpa using h, fun items ls h => by cases h⟩
  | ok items =>
    simp only
    split
    · obtain ⟨more, h1, h2⟩ := renderDiffBlock_handedOut p color contents sub true false items st combos h
      refine ⟨more, ?_, fun items' ls e hls => by cases e; exact h2 ls hls⟩
      split <;> exact h1
    · obtain ⟨more, h1, h2⟩ := renderBlocks_handedOut p color contents sub (subDiffBlocks contents [] false
        (.labeled { labels := [], span := ((lineExpandedSpan contents (some (minStart sub)) (some (maxEnd sub))).1, minStart sub) } ::
          items ++ [.labeled { labels := [], span := (maxEnd sub, (lineExpandedSpan contents (some (minStart sub)) (some (maxEnd sub))).2) }])) st combos h
      refine ⟨more, h1, fun items' ls e hls ho => ?_⟩
      cases e
      obtain ⟨b, hb, ls', h3, h4⟩ := (blocks_cover contents (.labeled { labels := [], span := ((lineExpandedSpan contents (some (minStart sub)) (some (maxEnd sub))).1, minStart sub) } ::
          items ++ [.labeled { labels := [], span := (maxEnd sub, (lineExpandedSpan contents (some (minStart sub)) (some (maxEnd sub))).2) }]) [] false).2 ls (by simp [hls])
      rw [← h4] at ho ⊢
      exact h2 b hb ls' h3 ho

theorem renderAll_handedOut (p : Palette) (color : Bool) (format : Str → Str → Str → Except Exc Str) (calls : List (Str × Substitution)) :
    ∀ (st : RState) (combos : List (List Label)), HandedOut p st combos →
      ∃ more, HandedOut p (renderAll p color format st calls).2 (combos ++ more) ∧
        ∀ c ∈ calls, ∀ items ls, asDiff c.2 = .ok items → .labeled ls ∈ items → OwnStyle c.2 ls.labels →
          ls.labels = [] ∨ ∃ k ∈ combos ++ more, ∀ x, x ∈ k ↔ x ∈ ls.labels := by
  induction calls with
  | nil => intro st combos h; exact ⟨[], by simpa [renderAll] using h, by simp⟩
  | cons c calls ih =>
    intro st combos h
    obtain ⟨contents, sub⟩ := c
    obtain ⟨m1, a1, a2⟩ := render_handedOut p color format st contents sub combos h
    obtain ⟨m2, b1, b2⟩ := ih _ _ a1
    refine ⟨m1 ++ m2, by simpa only [renderAll, List.append_assoc] using b1, ?_⟩
    intro c hc items ls e hls ho
    rcases List.mem_cons.1 hc with rfl | hc
    · rcases a2 items ls e hls ho with h | ⟨k, hk, h⟩
      · exact Or.inl h
      · exact Or.inr ⟨k, by rw [← List.append_assoc]; exact List.mem_append.2 (Or.inl hk), h⟩
    · simpa only [List.append_assoc] using b2 c hc items ls e hls ho

/-- **C15**: the styles are handed out in order: over the life of a renderer there is a list of label combinations, no two of
which are the same, such that the `k`-th of them is displayed in the `k`-th style of the sequence in every call; every
combination of labels that is displayed (other than the primary label of a match with other labels, which is bright) is on
the list, and text outside all labels has no style. -/
theorem C15_styles_in_order (p : Palette) (color : Bool) (format : Str → Str → Str → Except Exc Str) (calls : List (Str × Substitution)) :
    ∃ (combos : List (List Label)) (σ : List Label → Str), (∀ l ∈ combos, l ≠ []) ∧
      combos.Pairwise (fun a b => ¬ ∀ x, x ∈ a ↔ x ∈ b) ∧
      (∀ (k : Nat) c l, combos[k]? = some c → (∀ x, x ∈ c ↔ x ∈ l) → σ l = p.stream k) ∧ σ [] = [] ∧
      (∀ c ∈ calls, ∀ items ls, asDiff c.2 = .ok items → .labeled ls ∈ items → OwnStyle c.2 ls.labels →
        ls.labels = [] ∨ ∃ k ∈ combos, ∀ x, x ∈ k ↔ x ∈ ls.labels) ∧
      (∀ l, σ l = [] ∨ ∃ k, σ l = p.stream k) ∧
      (renderAll p color format {} calls).1 = calls.map fun c => renderWith p color format σ c.1 c.2 := by
  obtain ⟨combos, h1, h2⟩ := renderAll_handedOut p color format calls {} [] ⟨rfl, rfl, by simp, by simp⟩
  rw [List.nil_append] at h1
  obtain ⟨g, f⟩ := renderAll_spec p color format calls {}
  refine ⟨combos, fun l => (styleOf (renderAll p color format {} calls).2.labelStyle l).getD [], h1.2.2.1, h1.2.2.2, ?_, ?_, ?_, ?_, ?_⟩
  · intro k c l hk hc
    rcases handedOut_style h1 l with ⟨e, _⟩ | ⟨_, _, h3⟩ | ⟨k', c', e1, e2, e3⟩
    · subst e
      refine absurd ?_ (h1.2.2.1 c (List.mem_of_getElem? hk))
      cases c with
      | nil => rfl
      | cons x c => exact absurd ((hc x).1 (by simp)) (by simp)
    · exact absurd hc (h3 c (List.mem_of_getElem? hk))
    · simp only [e3, Option.getD_some]
      have hkk : k' = k := by
        obtain ⟨i1, j1⟩ := List.getElem?_eq_some_iff.1 hk
        obtain ⟨i2, j2⟩ := List.getElem?_eq_some_iff.1 e1
        rcases Nat.lt_trichotomy k' k with hlt | he | hlt
        · have := List.pairwise_iff_getElem.1 h1.2.2.2 k' k i2 i1 hlt
          rw [j1, j2] at this
          exact absurd (fun x => (e2 x).trans (hc x).symm) this
        · exact he
        · have := List.pairwise_iff_getElem.1 h1.2.2.2 k k' i1 i2 hlt
          rw [j1, j2] at this
          exact absurd (fun x => (hc x).trans (e2 x).symm) this
      rw [hkk]
  · have := g [] [] rfl
    simp [this]
  · intro c hc items ls e hls ho
    have := h2 c hc items ls e hls ho
    rwa [List.nil_append] at this
  · intro l
    rcases handedOut_style h1 l with ⟨_, e⟩ | ⟨_, e, _⟩ | ⟨k, c, _, _, e⟩
    · left; simp [e]
    · left; simp [e]
    · right; exact ⟨k, by simp [e]⟩
  · exact f _ (fun l s hs => by simp [hs])

/-! ### Colour only decorates -/

/-- The format of matches passes decorations on: it fails for the decorated match just as for the plain one, or gives the
decorated plain result. -/
def KeepsDecoration (p : Palette) (format : Str → Str → Str → Except Exc Str) : Prop :=
  ∀ head d t tail, Coloured p d t → (∃ e, format head d tail = .error e ∧ format head t tail = .error e) ∨
    ∃ x y, format head d tail = .ok x ∧ format head t tail = .ok y ∧ Coloured p x y

theorem itemsDisplay_plain (p : Palette) (contents : Str) (sub : Substitution) (σ τ : List Label → Str) (before isDiff : Bool)
    (items : List DiffItem) : itemsDisplay p false contents sub σ before isDiff items = itemsDisplay p false contents sub τ before isDiff items := by
  unfold itemsDisplay
  have : itemDisplay p false contents sub σ before isDiff = itemDisplay p false contents sub τ before isDiff := by
    funext d
    cases d <;> simp [itemDisplay, styleLines_plain]
  rw [this]

theorem renderWith_plain (p : Palette) (format : Str → Str → Str → Except Exc Str) (σ τ : List Label → Str) (contents : Str) (sub : Substitution) :
    renderWith p false format σ contents sub = renderWith p false format τ contents sub := by
  have hb : blockDisplay p false contents sub σ = blockDisplay p false contents sub τ := by
    funext b
    obtain ⟨f, block⟩ := b
    cases f <;> simp only [blockDisplay, itemsDisplay_plain p contents sub σ τ]
  unfold renderWith
  simp only [itemsDisplay_plain p contents sub σ τ, hb]

/-- The two outcomes are the same error, or the same kind of display, one decorated. -/
def SameButColoured (p : Palette) : Except Exc (Bool × Str) → Except Exc (Bool × Str) → Prop
  | .error e, .error e' => e = e'
  | .ok d, .ok t => d.1 = t.1 ∧ Coloured p d.2 t.2
  | _, _ => False

/-- All line breaks in the text and the replacements are newlines. -/
def NewlinesOnly (c : Str × Substitution) : Prop :=
  OnlyNl c.1 ∧ ∀ items s l a, asDiff c.2 = .ok items → .diff s l a ∈ items → OnlyNl a

theorem renderWith_decorated {p : Palette} (hp : PlainPalette p) {format : Str → Str → Str → Except Exc Str} (hf : KeepsDecoration p format)
    (σ : List Label → Str) (hσ : ∀ l, IsStyle p (σ l)) (contents : Str) (sub : Substitution) (hn : NewlinesOnly (contents, sub)) :
    SameButColoured p (renderWith p true format σ contents sub) (renderWith p false format σ contents sub) := by
  unfold renderWith
  cases hd : asDiff sub with
  | error e => exact rfl
  | ok items =>
    simp only
    have hdi : ∀ s l a, .diff s l a ∈ items → OnlyNl a := fun s l a h => hn.2 items s l a hd h
    split
    · have h1 := (itemsDisplay_decorated p contents sub σ hσ true false hn.1 items hdi).1.decorated
      rcases hf (slice contents (lineExpandedSpan contents (some (minStart sub)) (some (maxEnd sub))).1 (minStart sub)) _ _
        (slice contents (maxEnd sub) (lineExpandedSpan contents (some (minStart sub)) (some (maxEnd sub))).2) h1 with ⟨e, a, b⟩ | ⟨x, y, a, b, c⟩
      · rw [a, b]; exact rfl
      · rw [a, b]; exact ⟨rfl, c.append (.plain p _)⟩
    · refine ⟨rfl, DecLines.decorated ?_⟩
      simp only
      generalize hbl : subDiffBlocks contents [] false _ = blocks
      have hb : ∀ b ∈ blocks, ∀ s l a, .diff s l a ∈ b.2 → OnlyNl a := by
        intro b hb s l a h
        rw [← hbl] at hb
        rcases blocks_diff_mem contents _ _ _ b s l a hb h with h | h
        · simp at h
        · exact hdi s l a (by simpa using h)
      clear hbl
      induction blocks with
      | nil => exact .nil p
      | cons b blocks ih =>
        simp only [List.flatMap_cons]
        exact (blockDisplay_decorated hp contents sub σ hσ hn.1 b (hb b (by simp))).append (ih (fun x hx => hb x (by simp [hx])))

/-- **C79**: over the life of a renderer, every display with colour is the display without colour with decorations: pieces of
lines between a sequence that switches on a style and the reset sequence; no style is left on at the end of a line. -/
theorem C79_colour_decorates {p : Palette} (hp : PlainPalette p) {format : Str → Str → Str → Except Exc Str} (hf : KeepsDecoration p format)
    (calls : List (Str × Substitution)) (hn : ∀ c ∈ calls, NewlinesOnly c) :
    Forall2 (SameButColoured p) (renderAll p true format {} calls).1 (renderAll p false format {} calls).1 := by
  obtain ⟨_, σ, _, _, _, _, h5, h6, h7⟩ := C15_styles_in_order p true format calls
  obtain ⟨_, τ, _, _, _, _, g5, _, g7⟩ := C15_styles_in_order p false format calls
  rw [h7, g7]
  have hσ : ∀ l, IsStyle p (σ l) := by
    intro l
    rcases h6 l with h | ⟨k, h⟩
    · rw [h]; exact .none
    · rw [h]; simpa using IsStyle.cycle (p := p) k .none
  clear h7 g7 h5 g5
  induction calls with
  | nil => exact .nil
  | cons c calls ih =>
    simp only [List.map_cons]
    refine .cons ?_ (ih (fun x hx => hn x (by simp [hx])))
    rw [renderWith_plain p format τ σ]
    exact renderWith_decorated hp hf σ hσ c.1 c.2 (hn c (by simp))

/-- The default format passes decorations on. -/
theorem defaultFormat_keeps (p : Palette) : KeepsDecoration p defaultFormat := by
  intro head d t tail h
  exact Or.inr ⟨_, _, rfl, rfl, ((Coloured.plain p head).append h).append (.plain p tail)⟩

/-- A check for line breaks in replacements. -/
def exNewlines : DiffItem → Bool
  | .diff _ _ a => a.all fun c => !isLineBreak c || c = '\n'
  | _ => true

theorem exNewlines_ok {sub : Substitution} (h : (match asDiff sub with | .ok items => items.all exNewlines | _ => true) = true) :
    ∀ items s l a, asDiff sub = .ok items → .diff s l a ∈ items → OnlyNl a := by
  intro items s l a e hm c hc hb
  rw [e] at h
  have := List.all_eq_true.1 h _ hm
  simp only [exNewlines, List.all_eq_true] at this
  simpa [hb] using this c hc

/-- Non-vacuity of C79 and C15: the example palette, a match and a diff over several lines. -/
example : PlainPalette exPalette ∧ NewlinesOnly (exRenderText, exMatchOnly) ∧ NewlinesOnly (exDiffText, exDiffSub) := by
  refine ⟨⟨by decide, ?_⟩, ⟨by unfold OnlyNl; decide, exNewlines_ok (by decide)⟩, ⟨by unfold OnlyNl; decide, exNewlines_ok (by decide)⟩⟩
  intro n
  simp only [exPalette]
  split <;> decide

end Refex
