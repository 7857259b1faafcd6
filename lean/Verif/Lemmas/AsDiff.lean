import Verif.Lemmas.LabeledSpans
import Verif.Lemmas.Apply
/- Lemmas about `as_diff`. -/
namespace Refex
set_option autoImplicit false

theorem slice_append (s : Str) {a m b : Nat} (h1 : a ≤ m) (h2 : m ≤ b) : slice s a m ++ slice s m b = slice s a b := by
  unfold slice
  have e1 : s.drop m = (s.drop a).drop (m - a) := by rw [List.drop_drop]; congr 1; omega
  have e2 : b - a = (m - a) + (b - m) := by omega
  rw [e1, e2, List.take_add]

theorem slice_drop (s : Str) {a m : Nat} (h1 : a ≤ m) : slice s a m ++ s.drop m = s.drop a := by
  unfold slice
  have e1 : s.drop m = (s.drop a).drop (m - a) := by rw [List.drop_drop]; congr 1; omega
  rw [e1, List.take_append_drop]

theorem slice_self (s : Str) (a : Nat) : slice s a a = [] := by simp [slice]

theorem maxLabel_mem (spans : Dict Label Span) (b : Label) (ls : List Label) : maxLabel spans b ls ∈ b :: ls := by
  induction ls generalizing b with
  | nil => simp [maxLabel]
  | cons l ls ih =>
    simp only [maxLabel]
    split
    · exact List.mem_cons_of_mem _ (ih l)
    · rcases List.mem_cons.1 (ih b) with h | h
      · rw [h]; simp
      · simp [h]

theorem asDiffLoop_dropWhile (s : Substitution) (repl : Dict Label Str) (le : Nat) (lss : List LabeledSpan) :
    asDiffLoop s repl le lss = asDiffLoop s repl le (lss.dropWhile (fun l => decide (l.span.1 < le))) := by
  induction lss with
  | nil => rfl
  | cons l lss ih =>
    by_cases h : l.span.1 < le
    · rw [List.dropWhile_cons_of_pos (by simpa using h), ← ih]
      simp only [asDiffLoop, h, if_true]
    · rw [List.dropWhile_cons_of_neg (by simpa using h)]

theorem Contig.bounds {a b : Nat} {lss : List LabeledSpan} (h : Contig a b lss) :
    ∀ l ∈ lss, a ≤ l.span.1 ∧ l.span.1 ≤ l.span.2 ∧ l.span.2 ≤ b := by
  induction lss generalizing a with
  | nil => simp
  | cons x lss ih =>
    obtain ⟨h1, h2, h3⟩ := h
    have hm : x.span.2 ≤ b := h3.mono
    intro l hl
    rcases List.mem_cons.1 hl with rfl | hl
    · exact ⟨by omega, by omega, hm⟩
    · have := ih h3 l hl; exact ⟨by omega, this.2.1, this.2.2⟩

theorem contig_dropWhile {m hi E : Nat} {lss : List LabeledSpan} (h : Contig m hi lss) (h1 : m ≤ E) (h2 : E ≤ hi)
    (hb : ∀ l ∈ lss, l.span.1 < E → l.span.2 ≤ E) :
    Contig E hi (lss.dropWhile (fun l => decide (l.span.1 < E))) := by
  induction lss generalizing m with
  | nil => have h : m = hi := h; show E = hi; omega
  | cons x lss ih =>
    obtain ⟨a1, a2, a3⟩ := h
    by_cases hx : x.span.1 < E
    · rw [List.dropWhile_cons_of_pos (by simpa using hx)]
      exact ih a3 (hb x (by simp) hx) (fun l hl => hb l (by simp [hl]))
    · rw [List.dropWhile_cons_of_neg (by simpa using hx)]
      exact ⟨by omega, by omega, a3⟩

theorem splice_advance (data : Str) (r m : Nat) (es : List Repl) (h : r ≤ m)
    (he : ∀ e, es.head? = some e → m ≤ e.start) :
    splice data r es = slice data r m ++ splice data m es := by
  cases es with
  | nil => simp only [splice]; rw [slice_drop _ h]
  | cons e es =>
    have := he e rfl
    simp only [splice]
    rw [← slice_append data h this]; simp [List.append_assoc]

/-- The labelled replaced spans, sorted. -/
def sortedReplaced (s : Substitution) : List (Label × Span) :=
  (stableSort (fun a b : Label × Span => spanLe a.2 b.2) s.matchedSpans).filter
    (fun p => (s.replacements.getD []).has p.1)

def toRepl (repl : Dict Label Str) (p : Label × Span) : Repl := ⟨(repl.get? p.1).getD [], p.2.1, p.2.2⟩

theorem sortedEdits_eq (s : Substitution) :
    sortedEdits s = (sortedReplaced s).map (toRepl (s.replacements.getD [])) := by
  unfold sortedEdits rewriteToReplacements sortedReplaced
  cases hr : s.replacements with
  | none =>
    simp only [Option.getD_none]
    rw [List.filter_eq_nil_iff.2 (by simp [Dict.has, Dict.get?])]
    rfl
  | some r =>
    simp only [Option.getD_some]
    generalize stableSort (fun a b : Label × Span => spanLe a.2 b.2) s.matchedSpans = l
    induction l with
    | nil => rfl
    | cons p l ih =>
      simp only [List.filterMap_cons, List.filter_cons, Dict.has] at ih ⊢
      cases hg : r.get? p.1 with
      | none => simpa using ih
      | some t => simp [ih, toRepl, hg]

theorem asDiff_main (data : Str) (s : Substitution) (repl : Dict Label Str) (hwf : s.matchedSpans.WF)
    (hi : Nat)
    (hnt : ∀ p ∈ s.matchedSpans, repl.has p.1 = true → ∀ q ∈ s.matchedSpans, q.1 ≠ p.1 → q.2.1 ≠ p.2.2)
    (n : Nat) : ∀ (r lastEnd : Nat) (lss : List LabeledSpan) (es : List (Label × Span)),
    lss.length ≤ n → lastEnd ≤ r → Contig r hi lss →
    (∀ ls ∈ lss, ∀ i, ls.span.1 ≤ i → i < ls.span.2 →
        ∀ l, l ∈ ls.labels ↔ ∃ p ∈ s.matchedSpans, p.1 = l ∧ p.2.1 ≤ i ∧ i < p.2.2) →
    (∀ ls ∈ lss, ∀ l ∈ ls.labels, ∃ p ∈ s.matchedSpans, p.1 = l ∧ p.2.1 ≤ ls.span.1 ∧ ls.span.2 ≤ p.2.2 ∧
        (p.2.2 = ls.span.1 → ∃ q ∈ s.matchedSpans, q.2.1 = ls.span.1)) →
    lss.Pairwise (fun a b => a.span.1 < b.span.1 ∨ a.span.2 < b.span.2) →
    (∀ p ∈ es, ∃ ls ∈ lss, ls.span.1 = p.2.1 ∧ p.1 ∈ ls.labels) →
    (∀ ls ∈ lss, ∀ l ∈ ls.labels, repl.has l = true → ∃ p ∈ es, p.1 = l) →
    es.Pairwise (fun a b => a.2.2 ≤ b.2.1) →
    es.Nodup →
    (∀ p ∈ es, p ∈ s.matchedSpans ∧ repl.has p.1 = true ∧ p.2.1 ≤ p.2.2 ∧ p.2.2 ≤ hi) →
    ((asDiffLoop s repl lastEnd lss).flatMap (DiffItem.after' data)) ++ data.drop hi =
        splice data r (es.map (toRepl repl)) ∧
      (asDiffLoop s repl lastEnd lss).flatMap (DiffItem.before data) = slice data r hi := by
  have huniq : ∀ p ∈ s.matchedSpans, ∀ q ∈ s.matchedSpans, p.1 = q.1 → p = q := fun p hp q hq h =>
    nodup_map_inj (f := Prod.fst) hwf hp hq h
  induction n with
  | zero =>
    intro r lastEnd lss es hlen hle hc _ _ _ hap _ _ _ hes
    have : lss = [] := List.length_eq_zero_iff.1 (by omega)
    subst this
    have hr : r = hi := hc
    subst hr
    have : es = [] := by
      cases es with
      | nil => rfl
      | cons p es => obtain ⟨_, h, _⟩ := hap p (by simp); simp at h
    subst this
    simp [asDiffLoop, splice, slice]
  | succ n ih =>
    intro r lastEnd lss es hlen hle hc hch hcl hdi hap hi1 hpw hnd hes
    cases lss with
    | nil =>
      have hr : r = hi := hc
      subst hr
      have : es = [] := by
        cases es with
        | nil => rfl
        | cons p es => obtain ⟨_, h, _⟩ := hap p (by simp); simp at h
      subst this
      simp [asDiffLoop, splice, slice]
    | cons ls rest =>
      obtain ⟨c1, c2, c3⟩ := hc
      obtain ⟨d1, d2⟩ := List.pairwise_cons.1 hdi
      have hnskip : ¬ ls.span.1 < lastEnd := by omega
      simp only [asDiffLoop, hnskip, if_false]
      have hch' : ∀ x ∈ rest, _ := fun x hx => hch x (List.mem_cons_of_mem _ hx)
      have hcl' : ∀ x ∈ rest, _ := fun x hx => hcl x (List.mem_cons_of_mem _ hx)
      have hi1' : ∀ x ∈ rest, _ := fun x hx => hi1 x (List.mem_cons_of_mem _ hx)
      cases hfil : ls.labels.filter (fun l => repl.has l) with
      | nil =>
        have hno : ∀ l ∈ ls.labels, repl.has l = false := by
          intro l hl
          have := List.filter_eq_nil_iff.1 hfil l hl
          simpa using this
        have hap' : ∀ p ∈ es, ∃ x ∈ rest, x.span.1 = p.2.1 ∧ p.1 ∈ x.labels := by
          intro p hp
          obtain ⟨x, hx, h1, h2⟩ := hap p hp
          rcases List.mem_cons.1 hx with rfl | hx
          · exact absurd (hes p hp).2.1 (by rw [hno _ h2]; simp)
          · exact ⟨x, hx, h1, h2⟩
        obtain ⟨g1, g2⟩ := ih ls.span.2 lastEnd rest es (by simp at hlen; omega) (by omega) c3 hch' hcl' d2 hap' hi1'
          hpw hnd hes
        simp only [List.flatMap_cons, List.append_assoc, DiffItem.after', DiffItem.before, DiffItem.span]
        rw [g1, g2, c1]
        constructor
        · rw [← splice_advance data r ls.span.2 _ c2]
          intro e he
          cases es with
          | nil => simp at he
          | cons p es =>
            simp only [List.map_cons, List.head?_cons, Option.some.injEq] at he
            subst he
            obtain ⟨x, hx, h1, _⟩ := hap' p (by simp)
            have := (c3.bounds x hx).1
            simp only [toRepl]; omega
        · exact slice_append _ c2 c3.mono
      | cons l more =>
        generalize hlab : maxLabel s.matchedSpans l more = lab
        have hlm : lab ∈ ls.labels.filter (fun l => repl.has l) := by
          rw [hfil, ← hlab]; exact maxLabel_mem _ _ _
        obtain ⟨hl1, hl2⟩ := List.mem_filter.1 hlm
        obtain ⟨p, hp, hpl⟩ := hi1 ls (by simp) lab hl1 hl2
        obtain ⟨hps, hprep, hpok, hphi⟩ := hes p hp
        obtain ⟨p', hp's, hp'l, b1, b2, b3⟩ := hcl ls (by simp) lab hl1
        have : p' = p := huniq p' hp's p hps (by rw [hp'l, hpl])
        subst this
        have hge : r ≤ p'.2.1 := by
          obtain ⟨x, hx, h1, _⟩ := hap p' hp
          rcases List.mem_cons.1 hx with rfl | hx
          · omega
          · have := (c3.bounds x hx).1; omega
        have hst : p'.2.1 = r := by omega
        -- p' is the head of es
        obtain ⟨es', rfl⟩ : ∃ es', es = p' :: es' := by
          cases es with
          | nil => simp at hp
          | cons p0 es' =>
            rcases List.mem_cons.1 hp with hpe | hp
            · exact ⟨es', by rw [hpe]⟩
            · exfalso
              have h1 := (List.pairwise_cons.1 hpw).1 p' hp
              have h2 := hes p0 (by simp)
              have h3 : r ≤ p0.2.1 := by
                obtain ⟨x, hx, h1, _⟩ := hap p0 (by simp)
                rcases List.mem_cons.1 hx with rfl | hx
                · omega
                · have := (c3.bounds x hx).1; omega
              have hne : p'.1 ≠ p0.1 := by
                intro h
                have := huniq p' hps p0 h2.1 h
                rw [this] at hp
                exact (List.nodup_cons.1 hnd).1 hp
              exact hnt p0 h2.1 h2.2.1 p' hps hne (by omega)
        have hget : s.matchedSpans.get? lab = some p'.2 := by
          have key : ∀ (d : Dict Label Span), (d.map Prod.fst).Nodup → p' ∈ d → d.get? p'.1 = some p'.2 := by
            intro d
            induction d with
            | nil => simp
            | cons x d ihd =>
              intro hn hm
              obtain ⟨k, v⟩ := x
              simp only [Dict.get?]
              rcases List.mem_cons.1 hm with rfl | hm
              · simp
              · simp only [List.map_cons, List.nodup_cons] at hn
                have : k ≠ p'.1 := fun h => hn.1 (by rw [h]; exact List.mem_map_of_mem hm)
                simp [this, ihd hn.2 hm]
          rw [← hpl]; exact key _ hwf hps
        rw [← hlab] at hget
        simp only [hget, Option.getD_some]
        rw [asDiffLoop_dropWhile]
        obtain ⟨q1, q2⟩ := List.pairwise_cons.1 hpw
        have hsub : (rest.dropWhile (fun l => decide (l.span.1 < p'.2.2))).Sublist rest :=
          List.dropWhile_sublist _
        have hin : ∀ x ∈ rest, x.span.1 < p'.2.2 → x.span.2 ≤ p'.2.2 := by
          intro x hx hxE
          have hb := c3.bounds x hx
          by_cases hz : x.span.1 < x.span.2
          · have hm := (hch' x hx x.span.1 (Nat.le_refl _) hz lab).2 ⟨p', hps, hpl, by omega, hxE⟩
            obtain ⟨q, hq, hql, _, hq2, _⟩ := hcl' x hx lab hm
            have : q = p' := huniq q hq p' hps (by rw [hql, hpl])
            subst this
            exact hq2
          · omega
        have hcontig := contig_dropWhile c3 b2 hphi hin
        have hap' : ∀ q ∈ es', ∃ x ∈ rest.dropWhile (fun l => decide (l.span.1 < p'.2.2)),
            x.span.1 = q.2.1 ∧ q.1 ∈ x.labels := by
          intro q hq
          obtain ⟨x, hx, h1, h2⟩ := hap q (by simp [hq])
          have hqe := q1 q hq
          have hqs := hes q (by simp [hq])
          have hneq : q.1 ≠ p'.1 := by
            intro h
            have := huniq q hqs.1 p' hps h
            subst this
            exact (List.nodup_cons.1 hnd).1 hq
          rcases List.mem_cons.1 hx with rfl | hx
          · exact absurd (by omega) (hnt p' hps hprep q hqs.1 hneq)
          · refine ⟨x, ?_, h1, h2⟩
            have hxge : ¬ x.span.1 < p'.2.2 := by omega
            have hmem := hx
            rw [← List.takeWhile_append_dropWhile (p := fun l : LabeledSpan => decide (l.span.1 < p'.2.2)) (l := rest)]
              at hmem
            rcases List.mem_append.1 hmem with hm | hm
            · have htw := List.all_takeWhile (p := fun l : LabeledSpan => decide (l.span.1 < p'.2.2)) (l := rest)
              have := List.all_eq_true.1 htw x hm
              exact absurd (by simpa using this) hxge
            · exact hm
        have hi1'' : ∀ x ∈ rest.dropWhile (fun l => decide (l.span.1 < p'.2.2)), ∀ l ∈ x.labels, repl.has l = true →
            ∃ q ∈ es', q.1 = l := by
          intro x hx l hl hlr
          obtain ⟨q, hq, hql⟩ := hi1' x (hsub.mem hx) l hl hlr
          rcases List.mem_cons.1 hq with rfl | hq
          · exfalso
            obtain ⟨q', hq', hql', f1, f2, f3⟩ := hcl' x (hsub.mem hx) l hl
            have : q' = q := huniq q' hq' q hps (by rw [hql', hql])
            subst this
            have hb := hcontig.bounds x hx
            obtain ⟨w, hw, hws⟩ := f3 (by omega)
            by_cases hwp : w.1 = q'.1
            · have : w = q' := huniq w hw q' hps hwp
              subst this
              have hd := d1 x (hsub.mem hx)
              omega
            · exact hnt q' hps hprep w hw hwp (by omega)
          · exact ⟨q, hq, hql⟩
        obtain ⟨g1, g2⟩ := ih p'.2.2 p'.2.2 (rest.dropWhile (fun l => decide (l.span.1 < p'.2.2))) es'
          (by have := hsub.length_le; simp at hlen; omega) (Nat.le_refl _) hcontig
          (fun x hx => hch' x (hsub.mem hx)) (fun x hx => hcl' x (hsub.mem hx)) (d2.sublist hsub) hap' hi1''
          q2 (List.nodup_cons.1 hnd).2 (fun q hq => hes q (by simp [hq]))
        simp only [List.flatMap_cons, List.append_assoc, DiffItem.after', DiffItem.before, DiffItem.span]
        rw [g1, g2]
        constructor
        · simp only [List.map_cons, splice, toRepl, hst, slice_self, List.nil_append, hpl, hlab]
        · rw [hst]; exact slice_append _ (by omega) hphi

end Refex
