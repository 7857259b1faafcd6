import Verif.Lemmas.Relative
/-
Properties C01, C02, C03, C05, C13: applying substitutions to a text.
-/
namespace Refex
set_option autoImplicit false

/-! ### Concrete data used as non-vacuity witnesses -/

/-- Two labels, both replaced, in "0123456789": "ab" for [1,3), "" for [5,6). -/
def exSub1 : Substitution :=
  { matchedSpans := [(str "x", (5, 6)), (str "r", (1, 6)), (str "y", (1, 3))], primaryLabel := str "r",
    replacements := some [(str "y", str "ab"), (str "x", str "")] }
/-- An insertion at 8. -/
def exSub2 : Substitution :=
  { matchedSpans := [(str "r", (8, 8))], primaryLabel := str "r", replacements := some [(str "r", str "++")] }
def exText : Str := str "0123456789"

/-! ### C01 -/

/-- C01. If `apply_substitutions` returns, its result is the text with exactly the requested edits spliced in:
some arrangement `es` of all the edits, in order and without overlaps, and everything else kept.
`hr`: the spans lie in the text. -/
theorem C01_apply_splices (data : Str) (subs : List Substitution) (out : Str)
    (hr : ∀ e ∈ allEdits subs, e.stop ≤ data.length)
    (h : applySubstitutions data subs = .ok out) :
    ∃ es, es.Perm (allEdits subs) ∧ Spliced 0 data es out := by
  rw [apply_eq] at h
  split at h
  · rename_i hc
    simp only [Except.ok.injEq] at h
    have hp := flatMap_sortedEdits_perm data subs
    have hio := (splice_hulls data 0 (sortedSubs data subs)
      (fun s hs => hc.1 s ((sortedSubs_perm data subs).mem_iff.1 hs)) hc.2).1
    refine ⟨_, hp, ?_⟩
    subst h
    have := splice_spliced data 0 _ hio (fun e he => hr e (hp.mem_iff.1 he))
    simpa using this
  · cases h

/-- C01, for spans that may run past the end of the text (Python slices clamp): same with the clamping
function `splice`. -/
theorem C01_apply_splices_clamped (data : Str) (subs : List Substitution) (out : Str)
    (h : applySubstitutions data subs = .ok out) :
    ∃ es, es.Perm (allEdits subs) ∧ InOrder 0 es ∧ out = splice data 0 es := by
  rw [apply_eq] at h
  split at h
  · rename_i hc
    simp only [Except.ok.injEq] at h
    exact ⟨_, flatMap_sortedEdits_perm data subs, (splice_hulls data 0 (sortedSubs data subs)
      (fun s hs => hc.1 s ((sortedSubs_perm data subs).mem_iff.1 hs)) hc.2).1, h.symm⟩
  · cases h

/-- No replacement asked for: the text is unchanged. -/
theorem C01_no_edits (data : Str) (subs : List Substitution) (h : allEdits subs = []) :
    applySubstitutions data subs = .ok data := by
  have he : ∀ s ∈ subs, sortedEdits s = [] := by
    intro s hs
    have : editsOf s = [] := by
      have := List.flatMap_eq_nil_iff.1 h s hs; exact this
    have hp := sortedEdits_perm s
    rw [this] at hp
    exact List.perm_nil.1 hp
  have he' : ∀ s ∈ sortedSubs data subs, sortedEdits s = [] := fun s hs =>
    he s ((sortedSubs_perm data subs).mem_iff.1 hs)
  have hm : (sortedSubs data subs).map (fun s => hull data (sortedEdits s)) =
      (sortedSubs data subs).map (fun _ => (⟨[], 0, 0⟩ : Repl)) :=
    List.map_congr_left (fun s hs => by rw [he' s hs]; rfl)
  have hio : ∀ ss : List Substitution, InOrder 0 (ss.map (fun _ => (⟨[], 0, 0⟩ : Repl))) := by
    intro ss; induction ss with
    | nil => trivial
    | cons _ _ ih => exact ⟨Nat.le_refl _, Nat.le_refl _, ih⟩
  have hf : (sortedSubs data subs).flatMap sortedEdits = [] := List.flatMap_eq_nil_iff.2 he'
  rw [apply_eq, if_pos ⟨fun s hs => by rw [he s hs]; trivial, by rw [hm]; exact hio _⟩, hf]
  simp [splice]

example : applySubstitutions exText [exSub2, exSub1] = .ok (str "0ab3467++89") := by decide
example : ∀ e ∈ allEdits [exSub2, exSub1], e.stop ≤ exText.length := by decide

/-! ### C02 -/

/-- C02. If some edit has `start > end`, or two edits overlap, then `apply_substitutions` raises ValueError.
(Stated by contraposition: any outcome other than that ValueError means no overlap.) -/
theorem C02_overlap_refused (data : Str) (subs : List Substitution)
    (h : applySubstitutions data subs ≠ .error .valueError) :
    (∀ e ∈ allEdits subs, e.start ≤ e.stop) ∧ (allEdits subs).Pairwise Apart := by
  rw [apply_eq] at h
  split at h
  · rename_i hc
    have hp := flatMap_sortedEdits_perm data subs
    have hio := (splice_hulls data 0 (sortedSubs data subs)
      (fun s hs => hc.1 s ((sortedSubs_perm data subs).mem_iff.1 hs)) hc.2).1
    refine ⟨fun e he => (hio.bounds e (hp.mem_iff.2 he)).2.1, ?_⟩
    have h1 : ((sortedSubs data subs).flatMap sortedEdits).Pairwise Apart :=
      hio.pairwise.imp (fun h => Or.inl h)
    exact hp.pairwise h1 (fun h => Or.symm h)
  · exact absurd rfl h

/-- The only failure of `apply_substitutions` is ValueError. -/
theorem C02_only_valueError (data : Str) (subs : List Substitution) (x : Exc)
    (h : applySubstitutions data subs = .error x) : x = .valueError := by
  rw [apply_eq] at h
  split at h
  · cases h
  · cases h; rfl

/-- `s` is edited entirely before `t`, and starts strictly before it. -/
def EditsBefore (s t : Substitution) : Prop :=
  ∀ e ∈ editsOf s, ∀ f ∈ editsOf t, e.stop ≤ f.start ∧ e.start < f.start

/-- C02, success. If the spans are well formed, the edits of each single substitution do not overlap, and of any
two substitutions one is edited entirely before the other (with a different start), and
each substitution has an edit (or no edit is at offset 0), then `apply_substitutions` succeeds. -/
theorem C02_disjoint_succeeds (data : Str) (subs : List Substitution)
    (hw : ∀ e ∈ allEdits subs, e.start ≤ e.stop)
    (hin : ∀ s ∈ subs, (editsOf s).Pairwise Apart)
    (hout : subs.Pairwise (fun s t => EditsBefore s t ∨ EditsBefore t s))
    (hne : (∀ s ∈ subs, editsOf s ≠ []) ∨ (∀ e ∈ allEdits subs, 0 < e.start)) :
    ∃ out, applySubstitutions data subs = .ok out := by
  have hw' : ∀ s ∈ subs, ∀ e ∈ sortedEdits s, e.start ≤ e.stop := fun s hs e he =>
    hw e (List.mem_flatMap.2 ⟨s, hs, (sortedEdits_perm s).mem_iff.1 he⟩)
  have h1 : ∀ s ∈ subs, InOrder 0 (sortedEdits s) := by
    intro s hs
    refine InOrder.of_pairwise (by simp) (hw' s hs) ?_
    have hp : (sortedEdits s).Pairwise Apart :=
      (sortedEdits_perm s).symm.pairwise (hin s hs) (fun h => Or.symm h)
    have hq := (sortedEdits_sorted s).and hp
    refine List.Pairwise.imp_of_mem ?_ hq
    intro a b ha hb hab
    obtain ⟨h1, h2⟩ := hab
    have := hw' s hs a ha
    have := hw' s hs b hb
    unfold Apart at h2
    omega
  have hb : ∀ s ∈ subs, sortedEdits s ≠ [] →
      ((∃ e ∈ editsOf s, e.start = (hull data (sortedEdits s)).start) ∧
       (∃ e ∈ editsOf s, e.stop = (hull data (sortedEdits s)).stop)) := by
    intro s hs hne
    have key : ∀ (l : Nat) (qs : List Repl) (r : Repl), r.stop = l →
        ∃ e ∈ r :: qs, e.stop = lastStop l qs := by
      intro l qs
      induction qs generalizing l with
      | nil => intro r hr; exact ⟨r, by simp, hr⟩
      | cons q qs ih =>
        intro r _
        obtain ⟨e, he, h⟩ := ih q.stop q rfl
        exact ⟨e, List.mem_cons_of_mem _ he, h⟩
    cases hse : sortedEdits s with
    | nil => exact absurd hse hne
    | cons r rs =>
      have hm : ∀ e, e ∈ r :: rs → e ∈ editsOf s := fun e he =>
        (sortedEdits_perm s).mem_iff.1 (by rw [hse]; exact he)
      refine ⟨⟨r, hm r (by simp), rfl⟩, ?_⟩
      obtain ⟨e, he, h⟩ := key r.stop rs r rfl
      exact ⟨e, hm e he, h⟩
  have hh : ∀ s ∈ subs, (hull data (sortedEdits s)).start ≤ (hull data (sortedEdits s)).stop := by
    intro s hs
    have := h1 s hs
    revert this
    cases sortedEdits s with
    | nil => intro _; simp [hull]
    | cons r rs =>
      intro h
      simp only [hull_cons]
      have h2 := h.2.1; have h3 : r.stop ≤ lastStop r.stop rs := h.2.2.le_lastStop
      omega
  refine ⟨_, by rw [apply_eq, if_pos ⟨h1, ?_⟩]⟩
  have hsp := sortedSubs_perm data subs
  refine InOrder.of_pairwise (by simp) ?_ ?_
  · intro e he
    obtain ⟨s, hs, rfl⟩ := List.mem_map.1 he
    exact hh s (hsp.mem_iff.1 hs)
  · rw [List.pairwise_map]
    have hsorted : (sortedSubs data subs).Pairwise (fun a b =>
        decide ((hull data (sortedEdits a)).start ≤ (hull data (sortedEdits b)).start) = true) :=
      stableSort_sorted (le := fun a b => decide ((hull data (sortedEdits a)).start ≤ (hull data (sortedEdits b)).start))
        (fun a b => by simp only [decide_eq_true_eq]; omega)
        (fun a b c => by simp only [decide_eq_true_eq]; omega) subs
    have hd : (sortedSubs data subs).Pairwise (fun s t => EditsBefore s t ∨ EditsBefore t s) :=
      hsp.symm.pairwise hout (fun h => Or.symm h)
    refine List.Pairwise.imp_of_mem ?_ (hsorted.and hd)
    intro s t hs ht hst
    have hs := hsp.mem_iff.1 hs
    have ht := hsp.mem_iff.1 ht
    obtain ⟨hle, hbf⟩ := hst
    simp only [decide_eq_true_eq] at hle
    by_cases hse : sortedEdits s = []
    · rw [hse]; simp [hull]
    · obtain ⟨⟨es, hes, hes'⟩, ⟨el, hel, hel'⟩⟩ := hb s hs hse
      by_cases hte : sortedEdits t = []
      · -- a substitution without edits sorted after one with edits
        have h0 : (hull data (sortedEdits t)).start = 0 := by rw [hte]; rfl
        rcases hne with hne | hne
        · refine absurd ?_ (hne t ht)
          have hp := sortedEdits_perm t
          rw [hte] at hp
          exact List.nil_perm.1 hp
        · have := hne es (List.mem_flatMap.2 ⟨s, hs, hes⟩)
          omega
      · obtain ⟨⟨ft, hft, hft'⟩, ⟨fl, hfl, hfl'⟩⟩ := hb t ht hte
        rcases hbf with hbf | hbf
        · have := hbf el hel ft hft
          omega
        · have := hbf ft hft es hes
          omega

/-- C02 caveat found by the proof: a search-only substitution (no replacements) counts as an edit of the empty
span at 0, so it makes an edit at the start of the text fail. -/
theorem C02_search_only_breaks_edit_at_zero :
    ∃ (data : Str) (edit look : Substitution), edit.validate = .ok () ∧ look.validate = .ok () ∧ editsOf look = [] ∧
      (∃ out, applySubstitutions data [edit] = .ok out) ∧
      disjointSubstitutions [edit, look] = [edit, look] ∧
      applySubstitutions data [edit, look] = .error .valueError :=
  ⟨str "foo baz",
   { matchedSpans := [(str "r", (0, 3))], primaryLabel := str "r", replacements := some [(str "r", str "bar")] },
   { matchedSpans := [(str "r", (4, 7))], primaryLabel := str "r" },
   by decide, by decide, by decide, ⟨str "bar baz", by decide⟩, by decide, by decide⟩

example : (∀ e ∈ allEdits [exSub2, exSub1], e.start ≤ e.stop) ∧ (∀ s ∈ [exSub2, exSub1], (editsOf s).Pairwise Apart)
    ∧ (∀ s ∈ [exSub2, exSub1], editsOf s ≠ []) := by decide
example : [exSub2, exSub1].Pairwise (fun s t => EditsBefore s t ∨ EditsBefore t s) := by
  unfold EditsBefore; decide
-- overlapping edits do occur and are refused
example : applySubstitutions exText [exSub1, { exSub2 with matchedSpans := [(str "r", (2, 8))] }] =
    .error .valueError := by decide

/-! ### C03 -/

/-- C03 is false of the code as stated: the order of the list decides whether an insertion at the start of
another edit is accepted, and in which order two insertions at one place appear. -/
theorem C03_order_independence_false :
    (∃ (data : Str) (s t : Substitution), applySubstitutions data [s, t] = .error .valueError ∧
      ∃ out, applySubstitutions data [t, s] = .ok out) ∧
    (∃ (data : Str) (s t : Substitution) (o₁ o₂ : Str), applySubstitutions data [s, t] = .ok o₁ ∧
      applySubstitutions data [t, s] = .ok o₂ ∧ o₁ ≠ o₂) := by
  refine ⟨⟨exText,
    { matchedSpans := [(str "r", (3, 5))], primaryLabel := str "r", replacements := some [(str "r", str "x")] },
    { matchedSpans := [(str "r", (3, 3))], primaryLabel := str "r", replacements := some [(str "r", str "y")] },
    by decide, str "012yx56789", by decide⟩,
   ⟨exText,
    { matchedSpans := [(str "r", (3, 3))], primaryLabel := str "r", replacements := some [(str "r", str "x")] },
    { matchedSpans := [(str "r", (3, 3))], primaryLabel := str "r", replacements := some [(str "r", str "y")] },
    str "012xy3456789", str "012yx3456789", by decide, by decide, by decide⟩⟩

/-- Where a substitution's edits start (0 if it has none, as in the code). -/
def firstEdit (s : Substitution) : Nat := (((editsOf s).map (·.start)).min?).getD 0

theorem hull_start_eq (data : Str) (s : Substitution) : (hull data (sortedEdits s)).start = firstEdit s := by
  unfold firstEdit
  have hp := (sortedEdits_perm s).map (·.start)
  have hs := sortedEdits_sorted s
  revert hp hs
  cases sortedEdits s with
  | nil =>
    intro hp _
    have := List.nil_perm.1 hp
    rw [this]; rfl
  | cons r rs =>
    intro hp hs
    have hmin : ((editsOf s).map (·.start)).min? = some r.start := by
      rw [List.min?_eq_some_iff]
      refine ⟨hp.mem_iff.1 (by simp), ?_⟩
      intro b hb
      have := hp.mem_iff.2 hb
      simp only [List.map_cons, List.mem_cons, List.mem_map] at this
      rcases this with rfl | ⟨e, he, rfl⟩
      · exact Nat.le_refl _
      · have := (List.pairwise_cons.1 hs).1 e he
        omega
    rw [hmin]; rfl

/-- C03: if the substitutions' first edits are at pairwise different offsets, every order of
the list gives the same outcome, success or failure.
Not so: substitutions whose first edits coincide (see `C03_order_independence_false`). -/
theorem C03_order_independent (data : Str) (subs subs' : List Substitution)
    (hp : subs.Perm subs') (hd : (subs.map firstEdit).Nodup) :
    applySubstitutions data subs = applySubstitutions data subs' := by
  have hle : (fun a b : Substitution => decide ((hull data (sortedEdits a)).start ≤ (hull data (sortedEdits b)).start))
      = fun a b => decide (firstEdit a ≤ firstEdit b) := by
    funext a b; rw [hull_start_eq, hull_start_eq]
  have heq : sortedSubs data subs = sortedSubs data subs' := by
    unfold sortedSubs
    rw [hle]
    have srt : ∀ l : List Substitution, (stableSort (fun a b => decide (firstEdit a ≤ firstEdit b)) l).Pairwise
        (fun a b => decide (firstEdit a ≤ firstEdit b) = true) := fun l =>
      stableSort_sorted (le := fun a b => decide (firstEdit a ≤ firstEdit b))
        (fun a b => by simp only [decide_eq_true_eq]; omega) (fun a b c => by simp only [decide_eq_true_eq]; omega) l
    refine sorted_perm_unique (le := fun a b => decide (firstEdit a ≤ firstEdit b))
      ((stableSort_perm _ _).trans (hp.trans (stableSort_perm _ _).symm)) (srt _) (srt _) ?_
    intro a ha b hb h1 h2
    simp only [decide_eq_true_eq] at h1 h2
    have ha := (stableSort_perm _ _).mem_iff.1 ha
    have hb := (stableSort_perm _ _).mem_iff.1 hb
    have hab : firstEdit a = firstEdit b := by omega
    exact nodup_map_inj hd ha hb hab
  rw [apply_eq, apply_eq, heq]
  have : (∀ s ∈ subs, InOrder 0 (sortedEdits s)) ↔ (∀ s ∈ subs', InOrder 0 (sortedEdits s)) :=
    ⟨fun h s hs => h s (hp.mem_iff.2 hs), fun h s hs => h s (hp.mem_iff.1 hs)⟩
  simp only [this]

example : ([exSub2, exSub1].map firstEdit).Nodup := by decide

/-! ### C05 -/

/-- C05, failure: `relative_to_span` is None iff some matched span does not fit. -/
theorem C05_relative_none_iff (s : Substitution) (a b : Nat) :
    s.relativeToSpan a b = none ↔ ∃ p ∈ s.matchedSpans, ¬ (a ≤ p.2.1 ∧ p.2.2 ≤ b) := by
  rw [← relSpans_none_iff]
  unfold Substitution.relativeToSpan
  cases relSpans a b s.matchedSpans <;> simp

/-- C05, one substitution: applying it to the text is applying the relative one to the slice, in place. Both fail
together. -/
theorem C05_relative_commutes (data : Str) (s r : Substitution) (a b : Nat) (hab : a ≤ b)
    (hw : SpansOk s) (hr : s.relativeToSpan a b = some r) :
    applySubstitutions data [s] =
      (applySubstitutions (slice data a b) [r]).map (fun out => data.take a ++ out ++ data.drop b) := by
  obtain ⟨h1, _, h3⟩ := sortedEdits_rel hr hw
  have one : ∀ (d : Str) (t : Substitution), applySubstitutions d [t] =
      if InOrder 0 (sortedEdits t) then .ok (splice d 0 (sortedEdits t)) else .error .valueError := by
    intro d t
    rw [apply_eq]
    simp only [sortedSubs, stableSort, insertBy, List.map_cons, List.map_nil, List.flatMap_cons, List.flatMap_nil,
      List.append_nil, List.mem_singleton, forall_eq]
    by_cases h : InOrder 0 (sortedEdits t)
    · rw [if_pos h, if_pos]
      refine ⟨h, Nat.zero_le _, ?_, trivial⟩
      revert h
      cases sortedEdits t with
      | nil => intro _; simp [hull]
      | cons q qs =>
        intro h
        simp only [hull_cons]
        have h2 := h.2.1; have h3 : q.stop ≤ lastStop q.stop qs := h.2.2.le_lastStop
        omega
    · rw [if_neg h, if_neg (fun h' => h h'.1)]
  rw [one, one, h1]
  have e1 : InOrder 0 ((sortedEdits s).map (shiftR a)) ↔ InOrder 0 (sortedEdits s) := by
    rw [InOrder_zero a (sortedEdits s) (fun e he => (h3 e he).1),
      ← InOrder_shift a a (sortedEdits s) (fun e he => ⟨(h3 e he).1, (h3 e he).2.1⟩) (Nat.le_refl _), Nat.sub_self]
  by_cases h : InOrder 0 (sortedEdits s)
  · rw [if_pos h, if_pos (e1.2 h)]
    simp only [Except.map, Except.ok.injEq]
    have ha := (InOrder_zero a (sortedEdits s) (fun e he => (h3 e he).1)).1 h
    rw [splice_zero data a _ (fun e he => (h3 e he).1) ha, ← splice_shift data a b a _ h3 ha (Nat.le_refl _) hab,
      Nat.sub_self, List.append_assoc]
  · rw [if_neg h, if_neg (fun h' => h (e1.1 h'))]; rfl

/-- C05 for a list of substitutions each of which has an edit (this is how iterated fixing uses it). -/
theorem C05_relative_commutes_list (data : Str) (subs rels : List Substitution) (a b : Nat) (hab : a ≤ b)
    (hw : ∀ s ∈ subs, SpansOk s) (hne : ∀ s ∈ subs, editsOf s ≠ [])
    (hr : subs.map (fun s => s.relativeToSpan a b) = rels.map some) :
    applySubstitutions data subs =
      (applySubstitutions (slice data a b) rels).map (fun out => data.take a ++ out ++ data.drop b) := by
  let g : Substitution → Substitution := fun s => (s.relativeToSpan a b).getD s
  have hrel : rels = subs.map g ∧ ∀ s ∈ subs, s.relativeToSpan a b = some (g s) := by
    clear hw hne
    induction subs generalizing rels with
    | nil => cases rels <;> simp_all
    | cons s ss ih =>
      cases rels with
      | nil => simp at hr
      | cons r rs =>
        simp only [List.map_cons, List.cons.injEq] at hr
        obtain ⟨h1, h2⟩ := ih rs hr.2
        have hg : g s = r := by simp [g, hr.1]
        refine ⟨by rw [h1, List.map_cons, hg], ?_⟩
        intro t ht
        rcases List.mem_cons.1 ht with rfl | ht
        · rw [hr.1, hg]
        · exact h2 t ht
  obtain ⟨rfl, hg⟩ := hrel
  have hE : ∀ s ∈ subs, sortedEdits (g s) = (sortedEdits s).map (shiftR a) :=
    fun s hs => (sortedEdits_rel (hg s hs) (hw s hs)).1
  have hB : ∀ s ∈ subs, ∀ e ∈ sortedEdits s, a ≤ e.start ∧ e.start ≤ e.stop ∧ e.stop ≤ b :=
    fun s hs => (sortedEdits_rel (hg s hs) (hw s hs)).2.2
  have hN : ∀ s ∈ subs, sortedEdits s ≠ [] := fun s hs h => by
    have := sortedEdits_perm s
    rw [h] at this
    exact hne s hs (List.nil_perm.1 this)
  have hH : ∀ s ∈ subs, hull (slice data a b) (sortedEdits (g s)) = shiftR a (hull data (sortedEdits s)) :=
    fun s hs => by rw [hE s hs, hull_shift data a b _ (hN s hs) (hB s hs)]
  have hst : ∀ s ∈ subs, a ≤ (hull data (sortedEdits s)).start := by
    intro s hs
    have hb := hB s hs
    revert hb
    have hn := hN s hs
    revert hn
    cases sortedEdits s with
    | nil => intro h; exact absurd rfl h
    | cons e es => intro _ hb; exact (hb e (by simp)).1
  have hsort : sortedSubs (slice data a b) (subs.map g) = (sortedSubs data subs).map g := by
    unfold sortedSubs
    refine stableSort_map g subs ?_
    intro s hs t ht
    rw [hH s hs, hH t ht]
    have h1 := hst s hs; have h2 := hst t ht
    exact decide_eq_decide.2 (by simp only [shiftR]; omega)
  have hsp := sortedSubs_perm data subs
  have hmem : ∀ s ∈ sortedSubs data subs, s ∈ subs := fun s hs => hsp.mem_iff.1 hs
  have e0 : ∀ es : List Repl, (∀ e ∈ es, a ≤ e.start ∧ e.start ≤ e.stop ∧ e.stop ≤ b) →
      (InOrder 0 (es.map (shiftR a)) ↔ InOrder 0 es) := by
    intro es h3
    rw [InOrder_zero a es (fun e he => (h3 e he).1),
      ← InOrder_shift a a es (fun e he => ⟨(h3 e he).1, (h3 e he).2.1⟩) (Nat.le_refl _), Nat.sub_self]
  rw [apply_eq, apply_eq, hsort]
  have c1 : (∀ s ∈ subs.map g, InOrder 0 (sortedEdits s)) ↔ (∀ s ∈ subs, InOrder 0 (sortedEdits s)) := by
    simp only [List.mem_map, forall_exists_index, and_imp, forall_apply_eq_imp_iff₂]
    constructor
    · intro h s hs; have := h s hs; rw [hE s hs, e0 _ (hB s hs)] at this; exact this
    · intro h s hs; rw [hE s hs, e0 _ (hB s hs)]; exact h s hs
  by_cases hA : ∀ s ∈ subs, InOrder 0 (sortedEdits s)
  · have hm : ((sortedSubs data subs).map g).map (fun s => hull (slice data a b) (sortedEdits s)) =
        ((sortedSubs data subs).map fun s => hull data (sortedEdits s)).map (shiftR a) := by
      rw [List.map_map, List.map_map]
      exact List.map_congr_left (fun s hs => hH s (hmem s hs))
    have hbd : ∀ e ∈ (sortedSubs data subs).map (fun s => hull data (sortedEdits s)),
        a ≤ e.start ∧ e.start ≤ e.stop ∧ e.stop ≤ b := by
      intro e he
      obtain ⟨s, hs, rfl⟩ := List.mem_map.1 he
      exact hull_bounds data a b _ (hN s (hmem s hs)) (hA s (hmem s hs)) (hB s (hmem s hs))
    rw [hm]
    simp only [e0 _ hbd, c1]
    have hfl : ((sortedSubs data subs).map g).flatMap sortedEdits =
        ((sortedSubs data subs).flatMap sortedEdits).map (shiftR a) :=
      flatMap_shift a _ g _ (fun s hs => hE s (hmem s hs))
    rw [hfl]
    by_cases hO : InOrder 0 ((sortedSubs data subs).map fun s => hull data (sortedEdits s))
    · rw [if_pos ⟨hA, hO⟩, if_pos ⟨hA, hO⟩]
      simp only [Except.map, Except.ok.injEq]
      have hio := (splice_hulls data 0 (sortedSubs data subs) (fun s hs => hA s (hmem s hs)) hO).1
      have hfb : ∀ e ∈ (sortedSubs data subs).flatMap sortedEdits, a ≤ e.start ∧ e.start ≤ e.stop ∧ e.stop ≤ b := by
        intro e he
        obtain ⟨s, hs, he⟩ := List.mem_flatMap.1 he
        exact hB s (hmem s hs) e he
      have ha := (InOrder_zero a _ (fun e he => (hfb e he).1)).1 hio
      rw [splice_zero data a _ (fun e he => (hfb e he).1) ha,
        ← splice_shift data a b a _ hfb ha (Nat.le_refl _) hab, Nat.sub_self, List.append_assoc]
    · rw [if_neg (fun h => hO h.2), if_neg (fun h => hO h.2)]; rfl
  · rw [if_neg (fun h => hA h.1), if_neg (fun h => hA (c1.1 h.1))]; rfl

example : ∃ r, exSub1.relativeToSpan 1 7 = some r ∧ SpansOk exSub1 ∧ exSub1.relativeToSpan 2 7 = none := by
  refine ⟨{ exSub1 with matchedSpans := [(str "x", (4, 5)), (str "r", (0, 5)), (str "y", (0, 2))] }, by decide, ?_, by decide⟩
  unfold SpansOk; decide

/-! ### C13 -/

/-- C13. `concatenate_replacements` succeeds iff the replacements are well formed, in order and non-overlapping;
then splicing its single result equals splicing all of them, and the result spans exactly from the first start to the
last end. Otherwise it raises ValueError. -/
theorem C13_concatenate (text : Str) (rs : List Repl) :
    (InOrder 0 rs ∧ ∃ r, concatenateReplacements text rs = .ok r ∧
        splice text 0 [r] = splice text 0 rs ∧
        r.start = (rs.head?.map (·.start)).getD 0 ∧ r.stop = (rs.getLast?.map (·.stop)).getD 0) ∨
    (¬ InOrder 0 rs ∧ concatenateReplacements text rs = .error .valueError) := by
  by_cases h : InOrder 0 rs
  · left
    refine ⟨h, hull text rs, by rw [concat_eq, if_pos h], ?_, ?_, ?_⟩
    · rw [← splice_hull text rs h]; simp [splice, slice]
    · cases rs <;> rfl
    · cases rs with
      | nil => rfl
      | cons r rs =>
        simp only [hull_cons]
        induction rs generalizing r with
        | nil => rfl
        | cons q qs ih =>
          have := ih q ⟨Nat.zero_le _, h.2.2.2⟩
          simp only [lastStop] at this ⊢
          rw [this]; simp
  · right
    exact ⟨h, by rw [concat_eq, if_neg h]⟩

example : InOrder 0 [⟨str "a", 1, 2⟩, ⟨str "bb", 2, 2⟩, ⟨str "", 4, 7⟩] := by decide

end Refex
