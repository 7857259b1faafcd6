import Verif.Spec.FromDiff
import Verif.Lemmas.Apply
import Verif.Lemmas.Sort
import Verif.Lemmas.Dict
/- C52: minimal edits reproduce the rewritten text. -/
namespace Refex
set_option autoImplicit false

theorem diffFold (d : List DiffLine) (st : DiffState) (old keep : Str) (pos : Nat)
    (hold : st.start + old.length = st.stop) (hkeep : pos + keep.length = st.start) :
    ∃ rs, ((d ++ [DiffLine.same []]).foldl diffStep st).out = st.out ++ rs ∧
      ((d ++ [DiffLine.same []]).foldl diffStep st).pending = [] ∧
      Spliced pos (keep ++ (old ++ d.flatMap DiffLine.before)) (rs.map DiffRepl.edit)
        (keep ++ (st.pending.flatten ++ d.flatMap DiffLine.after)) ∧
      ∀ r ∈ rs, r.added.flatten ≠ [] ∨ r.start ≠ r.stop ∨ r.added ≠ [] := by
  induction d generalizing st old keep pos with
  | nil =>
    simp only [List.nil_append, List.foldl_cons, List.foldl_nil, diffStep, List.flatMap_nil, List.append_nil]
    split
    · rename_i h
      refine ⟨[⟨st.start, st.stop, st.pending⟩], rfl, rfl, ?_, ?_⟩
      · have := Spliced.edit pos ⟨st.pending.flatten, st.start, st.stop⟩ [] keep old [] [] hkeep hold (.done _ _)
        simpa [DiffRepl.edit] using this
      · intro r hr; simp only [List.mem_singleton] at hr; subst hr
        rcases h with h | h
        · exact Or.inr (Or.inr h)
        · exact Or.inr (Or.inl h)
    · rename_i h
      simp only [not_or, ne_eq, Decidable.not_not] at h
      have ho : old = [] := List.eq_nil_of_length_eq_zero (by have := h.2; omega)
      refine ⟨[], by simp, h.1, ?_, by simp⟩
      rw [h.1, ho]; simpa using Spliced.done pos keep
  | cons x d ih =>
    rw [List.cons_append, List.foldl_cons]
    cases x with
    | same l =>
      simp only [diffStep, List.flatMap_cons, DiffLine.before, DiffLine.after]
      split
      · rename_i h
        obtain ⟨rs, h1, h2, h3, h4⟩ := ih ⟨st.stop + l.length, st.stop + l.length, [],
          st.out ++ [⟨st.start, st.stop, st.pending⟩]⟩ [] l st.stop (by simp) (by simp)
        refine ⟨⟨st.start, st.stop, st.pending⟩ :: rs, by rw [h1]; simp, h2, ?_, ?_⟩
        · exact Spliced.edit pos ⟨st.pending.flatten, st.start, st.stop⟩ _ keep old _ _ hkeep hold (by simpa using h3)
        · intro r hr
          rcases List.mem_cons.1 hr with rfl | hr
          · rcases h with h | h
            · exact Or.inr (Or.inr h)
            · exact Or.inr (Or.inl h)
          · exact h4 r hr
      · rename_i h
        simp only [not_or, ne_eq, Decidable.not_not] at h
        have ho : old = [] := List.eq_nil_of_length_eq_zero (by have := h.2; omega)
        obtain ⟨rs, h1, h2, h3, h4⟩ := ih ⟨st.stop + l.length, st.stop + l.length, st.pending, st.out⟩
          [] (keep ++ l) pos (by simp) (by simp only [List.length_append]; have := h.2; omega)
        refine ⟨rs, h1, h2, ?_, h4⟩
        simpa [ho, h.1] using h3
    | added l =>
      obtain ⟨rs, h1, h2, h3, h4⟩ := ih (diffStep st (.added l)) old keep pos hold hkeep
      refine ⟨rs, h1, h2, ?_, h4⟩
      simpa [diffStep, DiffLine.before, DiffLine.after] using h3
    | removed l =>
      obtain ⟨rs, h1, h2, h3, h4⟩ := ih (diffStep st (.removed l)) (old ++ l) keep pos
        (by simp only [diffStep, List.length_append]; omega) hkeep
      refine ⟨rs, h1, h2, ?_, h4⟩
      simpa [diffStep, DiffLine.before, DiffLine.after] using h3
    | hint l =>
      obtain ⟨rs, h1, h2, h3, h4⟩ := ih st old keep pos hold hkeep
      refine ⟨rs, h1, h2, ?_, h4⟩
      simpa [DiffLine.before, DiffLine.after] using h3

/-- **C52**: for every correct diff between two texts, the replacements found rewrite the first into the
second, in order and without overlap, keeping every character outside of their spans. -/
theorem C52_reproduces (diff : List DiffLine) (before after : Str) (h : DiffBetween diff before after) :
    Spliced 0 before ((diffReplacements diff).map DiffRepl.edit) after := by
  obtain ⟨rs, h1, _, h3, _⟩ := diffFold diff {} [] [] 0 rfl rfl
  unfold diffReplacements
  rw [h1]
  simpa [h.1, h.2] using h3

/-- **C52**: a diff without changes yields no replacement, and every replacement removes or adds a line. -/
theorem C52_minimal (diff : List DiffLine) :
    (∀ r ∈ diffReplacements diff, r.start ≠ r.stop ∨ r.added ≠ []) ∧
    ((∀ x ∈ diff, ∃ l, x = .same l) → diffReplacements diff = []) := by
  refine ⟨?_, ?_⟩
  · obtain ⟨rs, h1, _, _, h4⟩ := diffFold diff {} [] [] 0 rfl rfl
    unfold diffReplacements
    rw [h1]
    intro r hr
    rcases h4 r (by simpa using hr) with h | h | h
    · exact Or.inr (fun h' => h (by simp [h']))
    · exact Or.inl h
    · exact Or.inr h
  · intro hs
    have key : ∀ (d : List DiffLine) (st : DiffState), st.pending = [] → st.start = st.stop → (∀ x ∈ d, ∃ l, x = .same l) →
        (d.foldl diffStep st).out = st.out := by
      intro d
      induction d with
      | nil => intros; rfl
      | cons x d ih =>
        intro st h1 h2 hd
        obtain ⟨l, rfl⟩ := hd x (by simp)
        rw [List.foldl_cons, ih]
        · simp [diffStep, h1, h2]
        · simp [diffStep, h1, h2]
        · simp [diffStep, h1, h2]
        · exact fun y hy => hd y (by simp [hy])
    unfold diffReplacements
    rw [key _ _ rfl rfl]
    intro x hx
    rcases List.mem_append.1 hx with hx | hx
    · exact hs x hx
    · exact ⟨[], by simpa using hx⟩

theorem diffLabel_inj {p : Label} {i j : Nat} (h : diffLabel p i = diffLabel p j) : i = j := by
  unfold diffLabel at h
  have := List.append_cancel_left h
  rw [← Nat.ofDigitChars_toDigits (b := 10) (n := i) (by decide) (by decide), this,
    Nat.ofDigitChars_toDigits (by decide) (by decide)]

/-- The substitution refex builds from the bindings and replacements (every bound span with its template's
text, refex/python/python_fixer.py / refex/search.py). -/
def diffSubstitution (primary : Label) (b : Bindings × Replacements) : Substitution where
  matchedSpans := b.1.filterMap fun e => e.2.value.span?.map fun s => (e.1, s)
  primaryLabel := primary
  replacements := some b.2

theorem diffBindings_spans (before : Str) (p : Label) (rs : List DiffRepl) (i : Nat) :
    ((diffBindings before p i rs).1.filterMap fun e => e.2.value.span?.map fun s => (e.1, s)).map Prod.snd
      = rs.map (fun r => (r.start, r.stop)) ∧
    (diffBindings before p i rs).2.map Prod.snd = rs.map (fun r => r.added.flatten) ∧
    ((diffBindings before p i rs).1.filterMap fun e => e.2.value.span?.map fun s => (e.1, s)).map Prod.fst
      = (diffBindings before p i rs).2.map Prod.fst ∧
    ∀ l ∈ (diffBindings before p i rs).2.map Prod.fst, ∃ j, i ≤ j ∧ l = diffLabel p j := by
  induction rs generalizing i with
  | nil => simp [diffBindings]
  | cons r rs ih =>
    obtain ⟨h1, h2, h3, h4⟩ := ih (i + 1)
    simp only [diffBindings, List.map_cons]
    refine ⟨?_, ?_, ?_, ?_⟩
    · rw [List.filterMap_cons]
      show _ :: List.map Prod.snd _ = _
      rw [h1]
    · simp [h2]
    · rw [List.filterMap_cons]
      show _ :: List.map Prod.fst _ = _
      rw [h3]
    · intro l hl
      rcases List.mem_cons.1 hl with rfl | hl
      · exact ⟨i, Nat.le_refl _, rfl⟩
      · obtain ⟨j, hj, e⟩ := h4 l hl; exact ⟨j, by omega, e⟩

theorem diffBindings_nodup (before : Str) (p : Label) (rs : List DiffRepl) (i : Nat) :
    (Dict.keys (diffBindings before p i rs).2).Nodup := by
  induction rs generalizing i with
  | nil => simp [diffBindings, Dict.keys]
  | cons r rs ih =>
    simp only [diffBindings, Dict.keys, List.map_cons, List.nodup_cons]
    refine ⟨?_, ih (i + 1)⟩
    intro hm
    obtain ⟨j, hj, e⟩ := (diffBindings_spans before p rs (i + 1)).2.2.2 _ hm
    have := diffLabel_inj e; omega

theorem diffEdits_aux (spans : List (Label × Span)) (reps : Replacements)
    (hk : spans.map Prod.fst = reps.map Prod.fst) (hn : (Dict.keys reps).Nodup) :
    spans.filterMap (fun p => (reps.get? p.1).map fun t => ({ text := t, start := p.2.1, stop := p.2.2 } : Repl)) =
      (spans.zip reps).map (fun x => ({ text := x.2.2, start := x.1.2.1, stop := x.1.2.2 } : Repl)) := by
  induction spans generalizing reps with
  | nil => simp
  | cons s spans ih =>
    cases reps with
    | nil => simp at hk
    | cons r reps =>
      obtain ⟨k, t⟩ := r
      obtain ⟨k', sp⟩ := s
      simp only [List.map_cons, List.cons.injEq] at hk
      obtain ⟨rfl, hk⟩ := hk
      simp only [Dict.keys, List.map_cons, List.nodup_cons] at hn
      rw [List.filterMap_cons, List.zip_cons_cons, List.map_cons]
      simp only [Dict.get?, if_true, Option.map_some]
      rw [← ih reps hk hn.2]
      congr 1
      have hcongr : ∀ (l : List (Label × Span)) (f g : Label × Span → Option Repl), (∀ x ∈ l, f x = g x) →
          l.filterMap f = l.filterMap g := by
        intro l f g hfg
        induction l with
        | nil => rfl
        | cons a l ihl =>
          rw [List.filterMap_cons, List.filterMap_cons, hfg a (by simp), ihl (fun x hx => hfg x (by simp [hx]))]
      apply hcongr
      intro p hp
      have : k' ≠ p.1 := fun h => hn.1 (by rw [h, ← hk]; exact List.mem_map.2 ⟨p, hp, rfl⟩)
      simp [Dict.get?, this]

theorem spliced_inOrder {pos : Nat} {rest out : Str} {es : List Repl} (h : Spliced pos rest es out) :
    InOrder pos es ∧ ∀ data, data.drop pos = rest → splice data pos es = out := by
  induction h with
  | done pos rest => exact ⟨trivial, fun data hd => hd⟩
  | edit pos e es keep old rest out hkeep hold h ih =>
    refine ⟨⟨by omega, by omega, ih.1⟩, fun data hd => ?_⟩
    have h1 : slice data pos e.start = keep := by
      unfold slice; rw [hd, show e.start - pos = keep.length by omega]; simp
    have h2 : data.drop e.stop = rest := by
      rw [show e.stop = pos + (keep.length + old.length) by omega, ← List.drop_drop, hd, ← List.append_assoc,
        ← List.length_append]
      simp
    rw [splice, h1, ih.2 data h2]

theorem zip_diff_edits (spans : List (Label × Span)) (reps : Replacements) (rs : List DiffRepl)
    (h1 : spans.map Prod.snd = rs.map (fun r => (r.start, r.stop)))
    (h2 : reps.map Prod.snd = rs.map (fun r => r.added.flatten)) :
    (spans.zip reps).map (fun x => ({ text := x.2.2, start := x.1.2.1, stop := x.1.2.2 } : Repl)) =
      rs.map DiffRepl.edit := by
  induction rs generalizing spans reps with
  | nil =>
    have : spans = [] := by simpa using h1
    simp [this]
  | cons r rs ih =>
    cases spans with
    | nil => simp at h1
    | cons s spans =>
      cases reps with
      | nil => simp at h2
      | cons t reps =>
        simp only [List.map_cons, List.cons.injEq] at h1 h2
        rw [List.zip_cons_cons, List.map_cons, List.map_cons, ih _ _ h1.2 h2.2, h1.1, h2.1]
        rfl

/-- **C52**: end to end: `apply_substitutions` of the substitution made of these bindings and replacements
turns the original text into the rewritten one; it never fails. -/
theorem C52_applied (diff : List DiffLine) (before after : Str) (p : Label) (h : DiffBetween diff before after) :
    applySubstitutions before [diffSubstitution p (diffBindings before p 0 (diffReplacements diff))] = .ok after := by
  obtain ⟨hio, hsp⟩ := spliced_inOrder (C52_reproduces diff before after h)
  obtain ⟨h1, h2, h3, _⟩ := diffBindings_spans before p (diffReplacements diff) 0
  have hn := diffBindings_nodup before p (diffReplacements diff) 0
  generalize hb : diffBindings before p 0 (diffReplacements diff) = b at *
  have hsorted : sortedEdits (diffSubstitution p b) = (diffReplacements diff).map DiffRepl.edit := by
    unfold sortedEdits rewriteToReplacements diffSubstitution
    simp only
    have hpw : ((diffReplacements diff).map (fun r => ((r.start, r.stop) : Span))).Pairwise
        (fun a b => spanLe a b = true) := by
      have hp := hio.pairwise
      have hbd := hio.bounds
      rw [List.pairwise_map] at hp ⊢
      refine List.Pairwise.imp_of_mem ?_ hp
      intro a c ha hc hac
      have ha' := hbd _ (List.mem_map.2 ⟨a, ha, rfl⟩)
      have hc' := hbd _ (List.mem_map.2 ⟨c, hc, rfl⟩)
      simp only [DiffRepl.edit] at hac ha' hc'
      rw [spanLe_iff]; simp only; omega
    rw [← h1, List.pairwise_map] at hpw
    rw [stableSort_of_sorted hpw, diffEdits_aux _ _ h3 hn, zip_diff_edits _ _ _ h1 h2]
  rw [apply_eq]
  have hss : sortedSubs before [diffSubstitution p b] = [diffSubstitution p b] := rfl
  rw [if_pos]
  · rw [hss]; simp only [List.flatMap_cons, List.flatMap_nil, List.append_nil]
    rw [hsorted, hsp before (by simp)]
  · rw [hss]
    have hi : InOrder 0 (sortedEdits (diffSubstitution p b)) := by rw [hsorted]; exact hio
    refine ⟨by simpa using hi, ?_⟩
    simp only [List.map_cons, List.map_nil, InOrder, and_true]
    refine ⟨Nat.zero_le _, ?_⟩
    cases hse : sortedEdits (diffSubstitution p b) with
    | nil => simp [hull]
    | cons r rs =>
      rw [hse] at hi
      rw [hull_cons]
      have := InOrder.le_lastStop hi.2.2
      simp only
      have := hi.2.1
      omega

/-- The bound text is the text it replaces. -/
theorem C52_bound_text (diff : List DiffLine) (before : Str) (p : Label) :
    ∀ e ∈ (diffBindings before p 0 (diffReplacements diff)).1,
      ∃ sp : Span, e.2.value.span? = some sp ∧ e.2.value = .span (slice before sp.1 sp.2) (some sp) := by
  have : ∀ rs i, ∀ e ∈ (diffBindings before p i rs).1,
      ∃ sp : Span, e.2.value.span? = some sp ∧ e.2.value = .span (slice before sp.1 sp.2) (some sp) := by
    intro rs
    induction rs with
    | nil => intro i e he; simp [diffBindings] at he
    | cons r rs ih =>
      intro i e he
      simp only [diffBindings, List.mem_cons] at he
      rcases he with rfl | he
      · exact ⟨(r.start, r.stop), rfl, rfl⟩
      · exact ih _ e he
  exact this _ _

/-- A diff with an interleaved change, an insertion at the end and a hint line. -/
def exDiff : List DiffLine :=
  [.same (str "a\n"), .removed (str "b\n"), .added (str "B\n"), .hint (str "^"), .removed (str "c\n"),
   .same (str "d\n"), .added (str "e")]

/-- Non-vacuity: two replacements; a change of two lines and an insertion at the end. -/
example : DiffBetween exDiff (str "a\nb\nc\nd\n") (str "a\nB\nd\ne") ∧
    diffReplacements exDiff = [⟨2, 6, [str "B\n"]⟩, ⟨8, 8, [str "e"]⟩] := by decide

end Refex
