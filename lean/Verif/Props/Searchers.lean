import Verif.Model.Regex
import Verif.Props.Substitution
/-
Properties C27 (combined searchers) and C28 (pre-filtering).
-/
namespace Refex
set_option autoImplicit false

theorem combinedFindAll_ok (p : ParsedFile) (ss : List Searcher) (subs : List Substitution)
    (h : combinedFindAll p ss = .ok subs) :
    ∃ per : List (List Substitution), per.length = ss.length ∧ subs = per.flatten ∧
      ∀ sr ∈ ss.zip per, sr.1.find p = .ok sr.2 := by
  induction ss generalizing subs with
  | nil => cases h; exact ⟨[], rfl, rfl, by simp⟩
  | cons s ss ih =>
    simp only [combinedFindAll] at h
    split at h
    · cases h
    · rename_i a ha
      split at h
      · cases h
      · rename_i b hb
        cases h
        obtain ⟨per, h1, h2, h3⟩ := ih b hb
        refine ⟨a :: per, by simp [h1], by simp [h2], ?_⟩
        intro sr hsr
        rcases List.mem_cons.1 hsr with rfl | hsr
        · exact ha
        · exact h3 sr hsr

/-- C27, results: everything a combined searcher yields is yielded by a member, in order of position and without overlap
of primary spans; if a member yields something, so does the combination. -/
theorem C27_find (ss : List Searcher) (p : ParsedFile) (out : List Substitution) (h : combinedFind ss p = .ok out) :
    ∃ per : List (List Substitution), per.length = ss.length ∧ (∀ sr ∈ ss.zip per, sr.1.find p = .ok sr.2) ∧
      (∃ sorted, sorted.Perm per.flatten ∧ out.Sublist sorted) ∧
      out.Pairwise (fun a b => a.primarySpan.2 ≤ b.primarySpan.1) ∧
      ((∃ l ∈ per, l ≠ []) → out ≠ []) := by
  unfold combinedFind at h
  split at h
  · cases h
  · rename_i subs hs
    cases h
    obtain ⟨per, h1, rfl, h3⟩ := combinedFindAll_ok p ss subs hs
    obtain ⟨⟨sorted, g1, _, g2⟩, g3, g4⟩ := C10_disjoint_sound per.flatten
    refine ⟨per, h1, h3, ⟨sorted, g1, g2⟩, g3, ?_⟩
    rintro ⟨l, hl, hne⟩
    apply g4
    intro h0
    obtain ⟨x, xs, rfl⟩ := List.exists_cons_of_ne_nil hne
    have : x ∈ per.flatten := List.mem_flatten.2 ⟨_, hl, by simp⟩
    rw [h0] at this; cases this

/-- C27, inclusion: a path is included iff all members include it. -/
theorem C27_included (ss : List Searcher) (path : Str) :
    combinedIncluded ss path = .ok () ↔ ∀ s ∈ ss, s.included path = .ok () := by
  induction ss with
  | nil => simp [combinedIncluded]
  | cons s ss ih =>
    simp only [combinedIncluded, List.mem_cons, forall_eq_or_imp]
    cases h : s.included path with
    | error e => simp
    | ok u => simp [ih]

/-- C27, an error of inclusion is the error of a member. -/
theorem C27_included_error (ss : List Searcher) (path : Str) (e : Exc) (h : combinedIncluded ss path = .error e) :
    ∃ s ∈ ss, s.included path = .error e := by
  induction ss with
  | nil => cases h
  | cons s ss ih =>
    simp only [combinedIncluded] at h
    split at h
    · rename_i e' he; cases h; exact ⟨s, by simp, he⟩
    · obtain ⟨s', hs, he⟩ := ih h; exact ⟨s', by simp [hs], he⟩

/-- C27, parsing: the parsed file returned is one of the members' and its class is a subclass of the class of every
member's, so every member can use it. -/
theorem C27_parse_most_specific {T V : Type} [DecidableEq T] [DecidableEq V] (sub : T → T → Bool)
    (hrefl : ∀ a, sub a a = true) (htrans : ∀ a b c, sub a b = true → sub b c = true → sub a c = true)
    (ps : List (T × V)) (r : Option (T × V)) (h : combineParsed sub none ps = .ok r) :
    (ps = [] → r = none) ∧ (ps ≠ [] → ∃ x, r = some x ∧ x ∈ ps ∧ ∀ y ∈ ps, sub x.1 y.1 = true) := by
  have key : ∀ (l : List (T × V)) (acc : T × V) (r : Option (T × V)), combineParsed sub (some acc) l = .ok r →
      ∃ x, r = some x ∧ x ∈ acc :: l ∧ ∀ y ∈ acc :: l, sub x.1 y.1 = true := by
    intro l
    induction l with
    | nil => intro acc r h; cases h; exact ⟨acc, rfl, by simp, by simp [hrefl]⟩
    | cons new rest ih =>
      intro acc r h
      simp only [combineParsed, Option.getD_some] at h
      split at h
      · split at h
        · rename_i _ heq
          obtain ⟨x, hx, hm, hs⟩ := ih _ _ h
          refine ⟨x, hx, ?_, ?_⟩
          · rcases List.mem_cons.1 hm with hm | hm <;> simp [hm]
          · intro y hy
            simp only [List.mem_cons] at hy
            rcases hy with rfl | rfl | hy
            · exact hs _ (by simp)
            · exact hs _ (by simp [heq])
            · exact hs _ (by simp [hy])
        · cases h
      · split at h
        · rename_i hsub
          obtain ⟨x, hx, hm, hs⟩ := ih _ _ h
          refine ⟨x, hx, ?_, ?_⟩
          · rcases List.mem_cons.1 hm with hm | hm <;> simp [hm]
          · intro y hy
            simp only [List.mem_cons] at hy
            rcases hy with rfl | rfl | hy
            · exact htrans _ _ _ (hs new (by simp)) hsub
            · exact hs _ (by simp)
            · exact hs _ (by simp [hy])
        · split at h
          · rename_i hsub
            obtain ⟨x, hx, hm, hs⟩ := ih _ _ h
            refine ⟨x, hx, ?_, ?_⟩
            · rcases List.mem_cons.1 hm with hm | hm <;> simp [hm]
            · intro y hy
              simp only [List.mem_cons] at hy
              rcases hy with rfl | rfl | hy
              · exact hs _ (by simp)
              · exact htrans _ _ _ (hs acc (by simp)) hsub
              · exact hs _ (by simp [hy])
          · cases h
  cases ps with
  | nil => cases h; simp
  | cons p ps =>
    refine ⟨by simp, fun _ => ?_⟩
    simp only [combineParsed, Option.getD_none, if_true] at h
    obtain ⟨x, hx, hm, hs⟩ := key ps p r h
    exact ⟨x, hx, hm, hs⟩

/-- C27, parsing succeeds in every order if the classes are pairwise comparable and equal classes give equal values. -/
theorem C27_parse_comparable {T V : Type} [DecidableEq T] [DecidableEq V] (sub : T → T → Bool) (ps : List (T × V))
    (hcmp : ∀ x ∈ ps, ∀ y ∈ ps, sub x.1 y.1 = true ∨ sub y.1 x.1 = true)
    (heq : ∀ x ∈ ps, ∀ y ∈ ps, x.1 = y.1 → x = y) : ∃ r, combineParsed sub none ps = .ok r := by
  have key : ∀ (l : List (T × V)) (acc : Option (T × V)), (∀ x ∈ l, x ∈ ps) → (∀ a, acc = some a → a ∈ ps) →
      ∃ r, combineParsed sub acc l = .ok r := by
    intro l
    induction l with
    | nil => intro acc _ _; exact ⟨acc, rfl⟩
    | cons new rest ih =>
      intro acc hl hacc
      have hnew := hl new (by simp)
      have hrest : ∀ x ∈ rest, x ∈ ps := fun x hx => hl x (by simp [hx])
      have hcur : acc.getD new ∈ ps := by
        cases acc with
        | none => exact hnew
        | some a => exact hacc a rfl
      simp only [combineParsed]
      split
      · rename_i h1
        rw [if_pos (heq _ hcur _ hnew h1)]
        exact ih _ hrest (by rintro a ha; cases ha; exact hcur)
      · split
        · exact ih _ hrest (by rintro a ha; cases ha; exact hnew)
        · rename_i h2
          rw [if_pos ((hcmp _ hcur _ hnew).resolve_right h2)]
          exact ih _ hrest (by rintro a ha; cases ha; exact hcur)
  exact key ps none (fun _ h => h) (by simp)

/-- The class lattice of refex: PythonParsedFile below ParsedFile. -/
example : combineParsed (fun a b : Bool => a || !b) none [(false, 1), (true, 2), (false, 1)] = .ok (some (true, 2)) := by decide

/-! ### C28 -/

/-- C28, a searcher with additional regexes finds exactly what the wrapped one finds in files that satisfy them, and skips
the others. -/
theorem C28_also (s : Searcher) (also alsoNot : List (Str → Bool)) (data path : Str) :
    ((∀ r ∈ also, r data = true) ∧ (∀ r ∈ alsoNot, r data = false) →
      (alsoRegexp s also alsoNot).parse data path = s.parse data path) ∧
    (¬ ((∀ r ∈ also, r data = true) ∧ (∀ r ∈ alsoNot, r data = false)) →
      (alsoRegexp s also alsoNot).parse data path = .error .skipNoResults) ∧
    (alsoRegexp s also alsoNot).find = s.find ∧ (alsoRegexp s also alsoNot).included = s.included := by
  have hiff : (!also.all (fun r => r data) || alsoNot.any (fun r => r data)) = false ↔
      ((∀ r ∈ also, r data = true) ∧ (∀ r ∈ alsoNot, r data = false)) := by
    simp
  refine ⟨fun h => ?_, fun h => ?_, rfl, rfl⟩
  · simp only [alsoRegexp]
    rw [hiff.2 h]; rfl
  · simp only [alsoRegexp]
    rw [← hiff, Bool.not_eq_false] at h
    rw [h]; rfl

end Refex
