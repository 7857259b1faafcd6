import Verif.Lemmas.Apply
/- Lemmas about `relative_to_span`. -/
namespace Refex
set_option autoImplicit false

def shiftR (a : Nat) (r : Repl) : Repl := ⟨r.text, r.start - a, r.stop - a⟩

theorem relSpans_some {a b : Nat} {m m' : Dict Label Span} (h : relSpans a b m = some m') :
    (∀ p ∈ m, a ≤ p.2.1 ∧ p.2.2 ≤ b) ∧ m' = m.map (fun p => (p.1, (p.2.1 - a, p.2.2 - a))) := by
  induction m generalizing m' with
  | nil => simp only [relSpans, Option.some.injEq] at h; subst h; simp
  | cons p rest ih =>
    obtain ⟨k, os, oe⟩ := p
    simp only [relSpans] at h
    split at h
    · rename_i hc
      simp only [Bool.and_eq_true, decide_eq_true_eq] at hc
      split at h
      · rename_i r hr
        simp only [Option.some.injEq] at h; subst h
        obtain ⟨h1, h2⟩ := ih hr
        subst h2
        refine ⟨?_, rfl⟩
        intro p hp
        rcases List.mem_cons.1 hp with rfl | hp
        · exact hc
        · exact h1 p hp
      · simp at h
    · simp at h

theorem relSpans_none_iff {a b : Nat} {m : Dict Label Span} :
    relSpans a b m = none ↔ ∃ p ∈ m, ¬ (a ≤ p.2.1 ∧ p.2.2 ≤ b) := by
  induction m with
  | nil => simp [relSpans]
  | cons p rest ih =>
    obtain ⟨k, os, oe⟩ := p
    simp only [relSpans, List.mem_cons]
    by_cases hc : a ≤ os ∧ oe ≤ b
    · rw [if_pos (by simpa using hc)]
      cases hr : relSpans a b rest with
      | none =>
        simp only [true_iff]
        obtain ⟨q, hq, hn⟩ := ih.1 hr
        exact ⟨q, Or.inr hq, hn⟩
      | some r =>
        simp only [reduceCtorEq, false_iff]
        rintro ⟨q, rfl | hq, hn⟩
        · exact hn hc
        · rw [ih.2 ⟨q, hq, hn⟩] at hr; cases hr
    · rw [if_neg (by simpa using hc)]
      simp only [true_iff]
      exact ⟨_, Or.inl rfl, hc⟩

/-- All matched spans satisfy `start ≤ end`. -/
def SpansOk (s : Substitution) : Prop := ∀ p ∈ s.matchedSpans, p.2.1 ≤ p.2.2

theorem sortedEdits_rel {s r : Substitution} {a b : Nat} (h : s.relativeToSpan a b = some r) (hw : SpansOk s) :
    sortedEdits r = (sortedEdits s).map (shiftR a) ∧ r.replacements = s.replacements ∧
    (∀ e ∈ sortedEdits s, a ≤ e.start ∧ e.start ≤ e.stop ∧ e.stop ≤ b) := by
  unfold Substitution.relativeToSpan at h
  split at h
  · rename_i m hm
    simp only [Option.some.injEq] at h; subst h
    obtain ⟨h1, h2⟩ := relSpans_some hm
    subst h2
    refine ⟨?_, rfl, ?_⟩
    · unfold sortedEdits rewriteToReplacements
      simp only
      cases s.replacements with
      | none => rfl
      | some r =>
        simp only
        rw [stableSort_map (le := fun a b : Label × Span => spanLe a.2 b.2)
          (f := fun p : Label × Span => (p.1, (p.2.1 - a, p.2.2 - a)))]
        · rw [List.filterMap_map, List.map_filterMap]
          congr 1
          funext p
          simp only [Function.comp]
          cases r.get? p.1 <;> rfl
        · intro p hp q hq
          have b1 := h1 p hp; have b2 := h1 q hq
          have b3 := hw p hp; have b4 := hw q hq
          have : (spanLe (p.2.1 - a, p.2.2 - a) (q.2.1 - a, q.2.2 - a) = true) ↔ (spanLe p.2 q.2 = true) := by
            simp only [spanLe_iff]; omega
          exact Bool.eq_iff_iff.2 this
    · intro e he
      have he' := (sortedEdits_perm s).mem_iff.1 he
      unfold editsOf at he'
      cases hr : s.replacements with
      | none => rw [hr] at he'; simp at he'
      | some r =>
        rw [hr] at he'
        simp only [List.mem_filterMap] at he'
        obtain ⟨p, hp, hpe⟩ := he'
        split at hpe
        · simp only [Option.some.injEq] at hpe; subst hpe
          have := h1 p hp; have := hw p hp
          simp only; omega
        · simp at hpe
  · simp at h

theorem InOrder_shift (a pos : Nat) (es : List Repl) (h : ∀ e ∈ es, a ≤ e.start ∧ e.start ≤ e.stop)
    (hp : a ≤ pos) : InOrder (pos - a) (es.map (shiftR a)) ↔ InOrder pos es := by
  induction es generalizing pos with
  | nil => simp [InOrder]
  | cons e es ih =>
    have he := h e (by simp)
    simp only [List.map_cons, InOrder]
    have : InOrder (shiftR a e).stop (es.map (shiftR a)) ↔ InOrder e.stop es :=
      ih e.stop (fun x hx => h x (by simp [hx])) (by omega)
    rw [this]
    simp only [shiftR]
    constructor
    · rintro ⟨h1, h2, h3⟩; exact ⟨by omega, by omega, h3⟩
    · rintro ⟨h1, h2, h3⟩; exact ⟨by omega, by omega, h3⟩

theorem InOrder_zero (a : Nat) (es : List Repl) (h : ∀ e ∈ es, a ≤ e.start) :
    InOrder 0 es ↔ InOrder a es := by
  cases es with
  | nil => simp [InOrder]
  | cons e es => have := h e (by simp); simp [InOrder, this]

theorem slice_slice (data : Str) (a b p q : Nat) (hp : a ≤ p) (hq : q ≤ b) :
    slice (slice data a b) (p - a) (q - a) = slice data p q := by
  unfold slice
  rw [List.drop_take, List.drop_drop, List.take_take]
  have e1 : a + (p - a) = p := by omega
  rw [e1]
  by_cases h : p ≤ q
  · congr 1; omega
  · have : q - p = 0 := by omega
    have h2 : q - a - (p - a) = 0 := by omega
    rw [this, h2]; simp

theorem splice_shift (data : Str) (a b pos : Nat) (es : List Repl)
    (h : ∀ e ∈ es, a ≤ e.start ∧ e.start ≤ e.stop ∧ e.stop ≤ b) (ho : InOrder pos es)
    (hp : a ≤ pos) (hb : pos ≤ b) :
    splice (slice data a b) (pos - a) (es.map (shiftR a)) ++ data.drop b = splice data pos es := by
  induction es generalizing pos with
  | nil =>
    simp only [List.map_nil, splice, slice]
    rw [List.drop_take, List.drop_drop]
    have e1 : a + (pos - a) = pos := by omega
    have e2 : b - a - (pos - a) = b - pos := by omega
    rw [e1, e2]
    have e3 : data.drop b = (data.drop pos).drop (b - pos) := by rw [List.drop_drop]; congr 1; omega
    rw [e3, List.take_append_drop]
  | cons e es ih =>
    have he := h e (by simp)
    obtain ⟨h1, h2, h3⟩ := ho
    have := ih e.stop (fun x hx => h x (by simp [hx])) h3 (by omega) he.2.2
    simp only [List.map_cons, splice, List.append_assoc]
    rw [← this]
    simp only [shiftR]
    rw [slice_slice data a b pos e.start hp (by omega)]

theorem splice_zero (data : Str) (a : Nat) (es : List Repl) (h : ∀ e ∈ es, a ≤ e.start) (_ho : InOrder a es) :
    splice data 0 es = data.take a ++ splice data a es := by
  cases es with
  | nil => simp [splice]
  | cons e es =>
    have he := h e (by simp)
    simp only [splice, slice, List.drop_zero, Nat.sub_zero]
    rw [← List.append_assoc, ← List.append_assoc, ← List.append_assoc]
    congr 2
    have : data.take e.start = data.take a ++ (data.drop a).take (e.start - a) := by
      rw [← List.take_add]; congr 1; omega
    exact this

theorem lastStop_shift (a l : Nat) (es : List Repl) :
    lastStop (l - a) (es.map (shiftR a)) = lastStop l es - a := by
  induction es generalizing l with
  | nil => rfl
  | cons e es ih => simp only [List.map_cons, lastStop, ← ih]; rfl

theorem midText_shift (data : Str) (a b l : Nat) (es : List Repl)
    (h : ∀ e ∈ es, a ≤ e.start ∧ e.start ≤ e.stop ∧ e.stop ≤ b) (hl : a ≤ l) :
    midText (slice data a b) (l - a) (es.map (shiftR a)) = midText data l es := by
  induction es generalizing l with
  | nil => rfl
  | cons e es ih =>
    have he := h e (by simp)
    simp only [List.map_cons, midText]
    rw [← ih e.stop (fun x hx => h x (by simp [hx])) (by omega)]
    simp only [shiftR]
    rw [slice_slice data a b l e.start hl (by omega)]

theorem hull_shift (data : Str) (a b : Nat) (es : List Repl) (hne : es ≠ [])
    (h : ∀ e ∈ es, a ≤ e.start ∧ e.start ≤ e.stop ∧ e.stop ≤ b) :
    hull (slice data a b) (es.map (shiftR a)) = shiftR a (hull data es) := by
  cases es with
  | nil => exact absurd rfl hne
  | cons e es =>
    have he := h e (by simp)
    simp only [List.map_cons, hull_cons]
    have h1 := midText_shift data a b e.stop es (fun x hx => h x (by simp [hx])) (by omega)
    have h2 := lastStop_shift a e.stop es
    simp only [shiftR] at h1 h2 ⊢
    rw [h1, h2]

theorem hull_bounds (data : Str) (a b : Nat) (es : List Repl) (hne : es ≠ []) (ho : InOrder 0 es)
    (h : ∀ e ∈ es, a ≤ e.start ∧ e.start ≤ e.stop ∧ e.stop ≤ b) :
    a ≤ (hull data es).start ∧ (hull data es).start ≤ (hull data es).stop ∧ (hull data es).stop ≤ b := by
  cases es with
  | nil => exact absurd rfl hne
  | cons e es =>
    have he := h e (by simp)
    simp only [hull_cons]
    have h2 : e.stop ≤ lastStop e.stop es := ho.2.2.le_lastStop
    refine ⟨he.1, by omega, ?_⟩
    have h' : ∀ x ∈ es, x.stop ≤ b := fun x hx => (h x (by simp [hx])).2.2
    have : ∀ (l : Nat) (qs : List Repl), l ≤ b → (∀ x ∈ qs, x.stop ≤ b) → lastStop l qs ≤ b := by
      intro l qs
      induction qs generalizing l with
      | nil => intro h _; exact h
      | cons q qs ih => intro _ hq; exact ih _ (hq q (by simp)) (fun x hx => hq x (by simp [hx]))
    exact this _ _ he.2.2 h'

theorem flatMap_shift (a : Nat) (f : Substitution → List Repl) (g : Substitution → Substitution)
    (ss : List Substitution) (h : ∀ s ∈ ss, f (g s) = (f s).map (shiftR a)) :
    (ss.map g).flatMap f = (ss.flatMap f).map (shiftR a) := by
  induction ss with
  | nil => rfl
  | cons s ss ih =>
    simp only [List.map_cons, List.flatMap_cons, List.map_append, h s (by simp),
      ih (fun t ht => h t (by simp [ht]))]

end Refex
