import Verif.Lemmas.Sort
import Verif.Spec.Splice
/- Lemmas about `concatenate_replacements` and `apply_substitutions`. -/
namespace Refex
set_option autoImplicit false

/-- The text built between the first edit and the last, starting after offset `l`. -/
def midText (text : Str) : Nat → List Repl → Str
  | _, [] => []
  | l, r :: rs => slice text l r.start ++ r.text ++ midText text r.stop rs

def lastStop : Nat → List Repl → Nat
  | l, [] => l
  | _, r :: rs => lastStop r.stop rs

theorem concatLoop_some (text : Str) (f l : Nat) (rs : List Repl) :
    concatLoop text (some f) (some l) rs =
      if InOrder l rs then .ok (midText text l rs, some f, some (lastStop l rs)) else .error .valueError := by
  induction rs generalizing l with
  | nil => simp [concatLoop, InOrder, midText, lastStop]
  | cons r rs ih =>
    simp only [concatLoop, ih, InOrder, midText, lastStop]
    by_cases h1 : r.start > r.stop
    · have : ¬ (l ≤ r.start ∧ r.start ≤ r.stop ∧ InOrder r.stop rs) := by omega
      simp [h1, this]
    · by_cases h2 : l > r.start
      · have : ¬ (l ≤ r.start ∧ r.start ≤ r.stop ∧ InOrder r.stop rs) := by omega
        simp [h1, h2, this]
      · have h1' : r.start ≤ r.stop := by omega
        have h2' : l ≤ r.start := by omega
        simp only [h1, h2, h1', h2', true_and, if_false]
        by_cases h : InOrder r.stop rs <;> simp [h]

theorem concat_nil (text : Str) : concatenateReplacements text [] = .ok ⟨[], 0, 0⟩ := rfl

theorem concat_cons (text : Str) (r : Repl) (rs : List Repl) :
    concatenateReplacements text (r :: rs) =
      if InOrder r.start (r :: rs) then .ok ⟨r.text ++ midText text r.stop rs, r.start, lastStop r.stop rs⟩
      else .error .valueError := by
  simp only [concatenateReplacements, concatLoop, concatLoop_some, InOrder, Nat.le_refl, true_and]
  by_cases h1 : r.start > r.stop
  · have : ¬ (r.start ≤ r.stop ∧ InOrder r.stop rs) := by omega
    simp [h1, this]
  · have h1' : r.start ≤ r.stop := by omega
    simp only [h1, h1', true_and, if_false]
    by_cases h : InOrder r.stop rs <;> simp [h]

theorem InOrder.mono {l l' : Nat} {rs : List Repl} (h : InOrder l rs) (hl : l' ≤ l) : InOrder l' rs := by
  cases rs with
  | nil => trivial
  | cons r rs => exact ⟨by have := h.1; omega, h.2⟩

theorem midText_splice (text : Str) (l : Nat) (rs : List Repl) :
    midText text l rs ++ text.drop (lastStop l rs) = splice text l rs := by
  induction rs generalizing l with
  | nil => simp [midText, lastStop, splice]
  | cons r rs ih => simp [midText, lastStop, splice, ← ih, List.append_assoc]

theorem midText_append (text : Str) (l : Nat) (rs : List Repl) (qs : List Repl) :
    midText text l rs ++ splice text (lastStop l rs) qs = splice text l (rs ++ qs) := by
  induction rs generalizing l with
  | nil => simp [midText, lastStop]
  | cons r rs ih => simp [midText, lastStop, splice, ← ih, List.append_assoc]

theorem InOrder.append_iff {l : Nat} {rs qs : List Repl} :
    InOrder l (rs ++ qs) ↔ InOrder l rs ∧ InOrder (lastStop l rs) qs := by
  induction rs generalizing l with
  | nil => simp [InOrder, lastStop]
  | cons r rs ih => simp [InOrder, lastStop, ih, and_assoc]

theorem InOrder.le_lastStop {l : Nat} {rs : List Repl} (h : InOrder l rs) : l ≤ lastStop l rs := by
  induction rs generalizing l with
  | nil => exact Nat.le_refl _
  | cons r rs ih =>
    obtain ⟨h1, h2, h3⟩ := h
    have := ih h3
    simp only [lastStop]; omega

theorem InOrder.bounds {l : Nat} {rs : List Repl} (h : InOrder l rs) :
    ∀ e ∈ rs, l ≤ e.start ∧ e.start ≤ e.stop ∧ e.stop ≤ lastStop l rs := by
  induction rs generalizing l with
  | nil => simp
  | cons r rs ih =>
    obtain ⟨h1, h2, h3⟩ := h
    intro e he
    rcases List.mem_cons.1 he with rfl | he
    · exact ⟨h1, h2, h3.le_lastStop⟩
    · have := ih h3 e he
      exact ⟨by omega, this.2.1, this.2.2⟩

theorem InOrder.pairwise {l : Nat} {rs : List Repl} (h : InOrder l rs) :
    rs.Pairwise (fun a b => a.stop ≤ b.start) := by
  induction rs generalizing l with
  | nil => exact .nil
  | cons r rs ih =>
    obtain ⟨h1, h2, h3⟩ := h
    exact List.pairwise_cons.2 ⟨fun b hb => (h3.bounds b hb).1, ih h3⟩

theorem InOrder.of_pairwise {l : Nat} {rs : List Repl} (hl : ∀ e ∈ rs, l ≤ e.start)
    (hw : ∀ e ∈ rs, e.start ≤ e.stop) (h : rs.Pairwise (fun a b => a.stop ≤ b.start)) : InOrder l rs := by
  induction rs generalizing l with
  | nil => trivial
  | cons r rs ih =>
    obtain ⟨h1, h2⟩ := List.pairwise_cons.1 h
    exact ⟨hl r (by simp), hw r (by simp), ih h1 (fun e he => hw e (by simp [he])) h2⟩

/-- The replacements of one substitution, sorted. -/
def sortedEdits (s : Substitution) : List Repl := rewriteToReplacements s.matchedSpans s.replacements

theorem sortedEdits_perm (s : Substitution) : (sortedEdits s).Perm (editsOf s) := by
  unfold sortedEdits rewriteToReplacements editsOf
  cases s.replacements with
  | none => exact .refl _
  | some r =>
    have := (stableSort_perm (fun a b : Label × Span => spanLe a.2 b.2) s.matchedSpans).filterMap
      (fun p => (r.get? p.1).map fun t => ({ text := t, start := p.2.1, stop := p.2.2 } : Repl))
    refine this.trans (List.Perm.of_eq ?_)
    congr 1
    funext p
    cases r.get? p.1 <;> rfl

theorem sortedEdits_sorted (s : Substitution) :
    (sortedEdits s).Pairwise (fun a b => a.start < b.start ∨ (a.start = b.start ∧ a.stop ≤ b.stop)) := by
  unfold sortedEdits rewriteToReplacements
  cases s.replacements with
  | none => exact .nil
  | some r =>
    refine List.Pairwise.filterMap _ ?_ (stableSort_sorted (le := fun a b : Label × Span => spanLe a.2 b.2)
      (fun a b => spanLe_total _ _) (fun a b c => spanLe_trans _ _ _) s.matchedSpans)
    intro a a' h b hb b' hb'
    rw [spanLe_iff] at h
    simp only [Option.map_eq_some_iff] at hb hb'
    obtain ⟨_, _, rfl⟩ := hb
    obtain ⟨_, _, rfl⟩ := hb'
    exact h

/-- The single replacement computed for a substitution whose sorted edits are `es`. -/
def hull (text : Str) : List Repl → Repl
  | [] => ⟨[], 0, 0⟩
  | r :: rs => ⟨r.text ++ midText text r.stop rs, r.start, lastStop r.stop rs⟩

theorem hull_nil (text : Str) : hull text [] = ⟨[], 0, 0⟩ := rfl

theorem hull_cons (text : Str) (r : Repl) (rs : List Repl) :
    hull text (r :: rs) = ⟨r.text ++ midText text r.stop rs, r.start, lastStop r.stop rs⟩ := rfl

theorem concat_eq (text : Str) (rs : List Repl) :
    concatenateReplacements text rs = if InOrder 0 rs then .ok (hull text rs) else .error .valueError := by
  cases rs with
  | nil => simp [concat_nil, InOrder, hull]
  | cons r rs => rw [concat_cons]; simp [InOrder, hull]

theorem subToRepl_eq (text : Str) (s : Substitution) :
    substitutionToReplacement text s =
      if InOrder 0 (sortedEdits s) then .ok (hull text (sortedEdits s)) else .error .valueError :=
  concat_eq text _

theorem allReplacements_eq (data : Str) (subs : List Substitution) :
    allReplacements data subs =
      if ∀ s ∈ subs, InOrder 0 (sortedEdits s) then .ok (subs.map fun s => hull data (sortedEdits s))
      else .error .valueError := by
  induction subs with
  | nil => simp [allReplacements]
  | cons s ss ih =>
    simp only [allReplacements, subToRepl_eq, ih, List.forall_mem_cons]
    by_cases h1 : InOrder 0 (sortedEdits s)
    · by_cases h2 : ∀ x ∈ ss, InOrder 0 (sortedEdits x)
      · rw [if_pos h1, if_pos h2, if_pos ⟨h1, h2⟩]; rfl
      · rw [if_pos h1, if_neg h2, if_neg (fun h => h2 h.2)]
    · rw [if_neg h1, if_neg (show ¬(InOrder 0 (sortedEdits s) ∧ ∀ x ∈ ss, InOrder 0 (sortedEdits x)) from
        fun h => h1 h.1)]

/-- The substitutions in the order in which `apply_substitutions` handles them. -/
def sortedSubs (data : Str) (subs : List Substitution) : List Substitution :=
  stableSort (fun a b => decide ((hull data (sortedEdits a)).start ≤ (hull data (sortedEdits b)).start)) subs

theorem sortedSubs_perm (data : Str) (subs : List Substitution) : (sortedSubs data subs).Perm subs :=
  stableSort_perm _ _

/-- Splicing the hulls is splicing all their edits. -/
theorem splice_hulls (data : Str) (pos : Nat) (ss : List Substitution)
    (hs : ∀ s ∈ ss, InOrder 0 (sortedEdits s))
    (h : InOrder pos (ss.map fun s => hull data (sortedEdits s))) :
    InOrder pos (ss.flatMap sortedEdits) ∧
    splice data pos (ss.map fun s => hull data (sortedEdits s)) = splice data pos (ss.flatMap sortedEdits) := by
  induction ss generalizing pos with
  | nil => simp [InOrder]
  | cons s ss ih =>
    have hs' := fun t ht => hs t (List.mem_cons_of_mem _ ht)
    have h0 := hs s (by simp)
    simp only [List.map_cons, InOrder] at h
    obtain ⟨h1, h2, h3⟩ := h
    simp only [List.map_cons, List.flatMap_cons, splice]
    revert h0 h1 h2 h3
    cases hse : sortedEdits s with
    | nil =>
      intro h0 h1 h2 h3
      simp only [hull_nil] at h1 h2 h3 ⊢
      obtain rfl : pos = 0 := by omega
      have := ih 0 hs' h3
      refine ⟨by simpa using this.1, ?_⟩
      simpa [slice] using this.2
    | cons r rs =>
      intro h0 h1 h2 h3
      simp only [hull_cons] at h1 h2 h3 ⊢
      have := ih _ hs' h3
      have h0' := h0
      simp only [InOrder] at h0
      refine ⟨?_, ?_⟩
      · simp only [List.cons_append, InOrder, InOrder.append_iff]
        exact ⟨h1, h0.2.1, h0.2.2, this.1⟩
      · rw [this.2]
        simp [splice, ← midText_append, List.append_assoc]

theorem splice_hull (data : Str) (rs : List Repl) (h : InOrder 0 rs) :
    data.take (hull data rs).start ++ (hull data rs).text ++ data.drop (hull data rs).stop =
      splice data 0 rs := by
  cases rs with
  | nil => simp [hull, splice]
  | cons r rs => simp [hull, splice, ← midText_splice, slice, List.append_assoc]

/-- Closed form of `apply_substitutions`. -/
theorem apply_eq (data : Str) (subs : List Substitution) :
    applySubstitutions data subs =
      if (∀ s ∈ subs, InOrder 0 (sortedEdits s)) ∧
          InOrder 0 ((sortedSubs data subs).map fun s => hull data (sortedEdits s))
      then .ok (splice data 0 ((sortedSubs data subs).flatMap sortedEdits))
      else .error .valueError := by
  unfold applySubstitutions
  rw [allReplacements_eq]
  by_cases h1 : ∀ s ∈ subs, InOrder 0 (sortedEdits s)
  · rw [if_pos h1]
    have hsort : stableSort (fun a b => decide (a.start ≤ b.start))
        (subs.map fun s => hull data (sortedEdits s)) =
        (sortedSubs data subs).map fun s => hull data (sortedEdits s) :=
      stableSort_map (fun s => hull data (sortedEdits s)) subs (fun _ _ _ _ => rfl)
    simp only [hsort, concat_eq]
    by_cases h2 : InOrder 0 ((sortedSubs data subs).map fun s => hull data (sortedEdits s))
    · rw [if_pos h2, if_pos ⟨h1, h2⟩]
      simp only [Except.ok.injEq]
      rw [splice_hull _ _ h2]
      exact (splice_hulls data 0 _ (fun s hs => h1 s ((sortedSubs_perm data subs).mem_iff.1 hs)) h2).2
    · rw [if_neg h2, if_neg (fun h => h2 h.2)]
  · rw [if_neg h1, if_neg (fun h => h1 h.1)]

theorem flatMap_sortedEdits_perm (data : Str) (subs : List Substitution) :
    ((sortedSubs data subs).flatMap sortedEdits).Perm (allEdits subs) := by
  unfold allEdits
  refine ((sortedSubs_perm data subs).flatMap_right _).trans ?_
  induction subs with
  | nil => exact .refl _
  | cons s ss ih => simpa using (sortedEdits_perm s).append ih

theorem splice_spliced (data : Str) (pos : Nat) (es : List Repl) (h : InOrder pos es)
    (hr : ∀ e ∈ es, e.stop ≤ data.length) : Spliced pos (data.drop pos) es (splice data pos es) := by
  induction es generalizing pos with
  | nil => exact .done _ _
  | cons e es ih =>
    obtain ⟨h1, h2, h3⟩ := h
    have he := hr e (by simp)
    have := ih e.stop h3 (fun x hx => hr x (by simp [hx]))
    have hd : data.drop pos = slice data pos e.start ++ (slice data e.start e.stop ++ data.drop e.stop) := by
      unfold slice
      have e1 : data.drop e.stop = (data.drop e.start).drop (e.stop - e.start) := by
        rw [List.drop_drop]; congr 1; omega
      have e2 : data.drop e.start = (data.drop pos).drop (e.start - pos) := by
        rw [List.drop_drop]; congr 1; omega
      rw [e1, List.take_append_drop, e2, List.take_append_drop]
    rw [hd]
    refine .edit pos e es _ _ _ _ ?_ ?_ this
    · simp only [slice, List.length_take, List.length_drop]; omega
    · simp only [slice, List.length_take, List.length_drop]; omega

end Refex

namespace Refex

/-- Applying a single substitution. -/
theorem apply_single (d : Str) (t : Substitution) : applySubstitutions d [t] =
    if InOrder 0 (sortedEdits t) then .ok (splice d 0 (sortedEdits t)) else .error .valueError := by
  rw [apply_eq]
  simp only [sortedSubs, stableSort, insertBy, List.map_cons, List.map_nil, List.flatMap_cons, List.flatMap_nil,
    List.append_nil, List.mem_singleton, forall_eq]
  by_cases h : InOrder 0 (sortedEdits t)
  · rw [if_pos h, if_pos]
    refine ⟨h, Nat.zero_le _, ?_, trivial⟩
    revert h
    cases sortedEdits t with
    | nil => intro _; simp [hull]
    | cons q qs =>
      intro h
      simp only [hull_cons]
      have h2 := h.2.1; have h3 : q.stop ≤ lastStop q.stop qs := h.2.2.le_lastStop
      omega
  · rw [if_neg h, if_neg (fun h' => h h'.1)]

end Refex
