import Verif.Props.Spans
/- C09: what the items of a displayed diff are, also when replaced spans overlap or touch. -/
namespace Refex
set_option autoImplicit false

theorem strLe_refl : ∀ a : Str, strLe a a = true
  | [] => rfl
  | c :: a => by simp [strLe, strLe_refl a]

theorem strLe_trans : ∀ a b c : Str, strLe a b = true → strLe b c = true → strLe a c = true
  | [], _, _, _, _ => by simp [strLe]
  | _ :: _, [], _, h, _ => by simp [strLe] at h
  | _ :: _, _ :: _, [], _, h => by simp [strLe] at h
  | x :: a, y :: b, z :: c, h, h' => by
    simp only [strLe, Bool.or_eq_true, decide_eq_true_eq, Bool.and_eq_true] at *
    rcases h with h | ⟨rfl, h⟩
    · rcases h' with h' | ⟨rfl, h'⟩
      · left; omega
      · left; exact h
    · rcases h' with h' | ⟨rfl, h'⟩
      · left; exact h'
      · right; exact ⟨rfl, strLe_trans a b c h h'⟩

theorem strLe_total : ∀ a b : Str, strLe a b = true ∨ strLe b a = true
  | [], _ => by simp [strLe]
  | _ :: _, [] => by simp [strLe]
  | x :: a, y :: b => by
    simp only [strLe, Bool.or_eq_true, decide_eq_true_eq, Bool.and_eq_true]
    by_cases hxy : x = y
    · subst hxy
      rcases strLe_total a b with h | h
      · left; right; exact ⟨rfl, h⟩
      · right; right; exact ⟨rfl, h⟩
    · have : x.toNat ≠ y.toNat := fun h => hxy (Char.toNat_inj.1 h)
      omega

/-- Where the span of a label ends. -/
def endOf (spans : Dict Label Span) (l : Label) : Nat := ((spans.get? l).getD (0, 0)).2

/-- `lab` comes after `l`: it ends later, or at the same place and its name is not smaller. -/
def EndsAfter (spans : Dict Label Span) (lab l : Label) : Prop :=
  endOf spans l < endOf spans lab ∨ (endOf spans l = endOf spans lab ∧ strLe l lab = true)

theorem maxLabel_max (spans : Dict Label Span) : ∀ (ls : List Label) (b l : Label), l ∈ b :: ls → EndsAfter spans (maxLabel spans b ls) l
  | [], b, l, h => by
    simp only [List.mem_singleton] at h; subst h
    exact Or.inr ⟨rfl, strLe_refl _⟩
  | x :: ls, b, l, h => by
    have tr : ∀ u v w, EndsAfter spans u v → EndsAfter spans v w → EndsAfter spans u w := by
      rintro u v w (h | ⟨h, h'⟩) (k | ⟨k, k'⟩)
      · left; omega
      · left; omega
      · left; omega
      · right; exact ⟨by omega, strLe_trans _ _ _ k' h'⟩
    simp only [maxLabel]
    split
    · rename_i hc
      have hxb : EndsAfter spans x b := hc
      have ih := maxLabel_max spans ls x
      rcases List.mem_cons.1 h with rfl | h
      · exact tr _ _ _ (ih x (by simp)) hxb
      · exact ih l h
    · rename_i hc
      have hbx : EndsAfter spans b x := by
        show endOf spans x < endOf spans b ∨ _
        have hc' : ¬ (endOf spans b < endOf spans x ∨ (endOf spans b = endOf spans x ∧ strLe b x = true)) := hc
        rcases Nat.lt_trichotomy (endOf spans x) (endOf spans b) with h1 | h1 | h1
        · exact Or.inl h1
        · refine Or.inr ⟨h1, ?_⟩
          rcases strLe_total x b with h2 | h2
          · exact h2
          · exact absurd (Or.inr ⟨h1.symm, h2⟩) hc'
        · exact absurd (Or.inl h1) hc'
      have ih := maxLabel_max spans ls b
      rcases List.mem_cons.1 h with rfl | h
      · exact ih l (by simp)
      · rcases List.mem_cons.1 h with rfl | h
        · exact tr _ _ _ (ih b (by simp)) hbx
        · exact ih l (by simp [h])

/-- The items of a diff, read along the pieces of the match from left to right. Position `e` is the end of the last replaced text:
pieces that begin before it are passed over. Of the others, one that is part of no replaced span is shown as it is;
for one that is, the replaced span that ends last, and of several the one whose label is the greatest, is shown with its replacement. -/
inductive DiffReads (s : Substitution) : Nat → List LabeledSpan → List DiffItem → Prop
  | done (e : Nat) : DiffReads s e [] []
  | covered (e : Nat) (ls : LabeledSpan) (rest : List LabeledSpan) (items : List DiffItem) :
      ls.span.1 < e → DiffReads s e rest items → DiffReads s e (ls :: rest) items
  | same (e : Nat) (ls : LabeledSpan) (rest : List LabeledSpan) (items : List DiffItem) :
      e ≤ ls.span.1 → (∀ l ∈ ls.labels, ¬ ∃ t, ∃ r, s.replacements = some r ∧ r.get? l = some t) →
      DiffReads s e rest items → DiffReads s e (ls :: rest) (.labeled ls :: items)
  | replaced (e : Nat) (ls : LabeledSpan) (rest : List LabeledSpan) (items : List DiffItem) (lab : Label) (sp : Span) (r : Dict Label Str) (t : Str) :
      e ≤ ls.span.1 → lab ∈ ls.labels → s.replacements = some r → r.get? lab = some t → s.matchedSpans.get? lab = some sp →
      (∀ l ∈ ls.labels, r.has l = true → EndsAfter s.matchedSpans lab l) →
      DiffReads s sp.2 rest items → DiffReads s e (ls :: rest) (.diff sp lab t :: items)

theorem asDiffLoop_reads (s : Substitution) :
    ∀ (lss : List LabeledSpan) (e : Nat), (∀ ls ∈ lss, ∀ l ∈ ls.labels, s.matchedSpans.has l = true) →
      DiffReads s e lss (asDiffLoop s (s.replacements.getD []) e lss)
  | [], e, _ => DiffReads.done e
  | ls :: rest, e, h => by
    have hr := fun e => asDiffLoop_reads s rest e (fun x hx => h x (List.mem_cons_of_mem _ hx))
    simp only [asDiffLoop]
    by_cases h1 : ls.span.1 < e
    · rw [if_pos h1]; exact DiffReads.covered _ _ _ _ h1 (hr e)
    · rw [if_neg h1]
      cases hf : ls.labels.filter (fun l => (s.replacements.getD []).has l) with
      | nil =>
        refine DiffReads.same _ _ _ _ (by omega) ?_ (hr e)
        rintro l hl ⟨t, r, e1, e2⟩
        have := List.filter_eq_nil_iff.1 hf l hl
        simp [e1, Dict.has, e2] at this
      | cons l more =>
        have hm := maxLabel_mem s.matchedSpans l more
        rw [← hf] at hm
        obtain ⟨hm1, hm2⟩ := List.mem_filter.1 hm
        cases e1 : s.replacements with
        | none => rw [e1] at hm2; simp [Dict.has, Dict.get?] at hm2
        | some r =>
          rw [e1] at hm2 hf
          simp only [Option.getD_some] at hm2 hf
          obtain ⟨t, ht⟩ := Option.isSome_iff_exists.1 hm2
          obtain ⟨sp, hsp⟩ := Option.isSome_iff_exists.1 (h ls (by simp) _ hm1)
          simp only [Option.getD_some, ht, hsp]
          refine DiffReads.replaced _ _ _ _ _ _ r t (by omega) hm1 e1 ht hsp (fun l' hl' hr' => ?_) ?_
          · refine maxLabel_max _ _ _ _ ?_
            rw [← hf]; exact List.mem_filter.2 ⟨hl', hr'⟩
          · have := hr sp.2
            rw [e1] at this
            exact this

/-- C09: for every substitution with at least one span, all with start ≤ end, whatever its replacements, the diff is read off
the labelled pieces of the match as `DiffReads` says. -/
theorem C09_diff_items (s : Substitution) (hwf : s.matchedSpans.WF) (hne : s.matchedSpans ≠ [])
    (hsp : ∀ p ∈ s.matchedSpans, p.2.1 ≤ p.2.2) :
    ∃ lss items, labeledSpans s = .ok lss ∧ asDiff s = .ok items ∧ DiffReads s 0 lss items := by
  obtain ⟨lo, hi, lss, h1, _, _, _, h5, _⟩ := C08_labeled_spans s hwf hne hsp
  refine ⟨lss, _, h1, by rw [asDiff, h1], asDiffLoop_reads s lss 0 (fun ls hls l hl => ?_)⟩
  obtain ⟨p, hp, rfl, _⟩ := h5 ls hls l hl
  have key : ∀ d : Dict Label Span, p ∈ d → d.has p.1 = true := by
    intro d
    induction d with
    | nil => simp
    | cons x d ih =>
      intro hm
      obtain ⟨k, v⟩ := x
      simp only [Dict.has, Dict.get?]
      split
      · rfl
      · rcases List.mem_cons.1 hm with rfl | hm
        · simp_all
        · exact ih hm
  exact key _ hp

/-- Two replaced spans that begin together. -/
def exNested : Substitution :=
  { matchedSpans := [(str "r", (0, 6)), (str "a", (1, 3)), (str "b", (1, 5))], primaryLabel := str "r",
    replacements := some [(str "a", str "X"), (str "b", str "Y")] }

/-- The longer one is shown and the other is not. -/
example : exNested.matchedSpans.WF ∧ exNested.matchedSpans ≠ [] ∧ (∀ p ∈ exNested.matchedSpans, p.2.1 ≤ p.2.2) ∧
    asDiff exNested = .ok [.labeled ⟨(0, 1), [str "r"]⟩, .diff (1, 5) (str "b") (str "Y"), .labeled ⟨(5, 6), [str "r"]⟩] := by decide

end Refex
