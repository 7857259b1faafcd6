import Verif.Model.Search
/- Lemmas about dictionaries. -/
namespace Refex
set_option autoImplicit false
namespace Dict
variable {κ α β : Type} [DecidableEq κ]

theorem get?_set (d : Dict κ α) (k k' : κ) (v : α) :
    (d.set k v).get? k' = if k' = k then some v else d.get? k' := by
  induction d with
  | nil =>
    simp only [set, get?]
    by_cases h : k' = k
    · simp [h]
    · simp [h, Ne.symm h]
  | cons e d ih =>
    obtain ⟨a, b⟩ := e
    simp only [set]
    by_cases h : a = k
    · simp only [h, if_true, get?]
      by_cases h' : k' = k
      · simp [h']
      · simp [h', Ne.symm h']
    · simp only [h, if_false, get?]
      by_cases h2 : a = k'
      · have : k' ≠ k := fun h3 => h (h2.trans h3)
        simp [h2, this]
      · simp only [h2, if_false, ih]

theorem get?_some_mem {d : Dict κ α} {k : κ} {v : α} (h : d.get? k = some v) : (k, v) ∈ d := by
  induction d with
  | nil => simp [get?] at h
  | cons e d ih =>
    obtain ⟨a, b⟩ := e
    simp only [get?] at h
    split at h
    · rename_i h'; cases h; simp [h']
    · simp [ih h]

theorem get?_none_iff {d : Dict κ α} {k : κ} : d.get? k = none ↔ ∀ v, (k, v) ∉ d := by
  induction d with
  | nil => simp [get?]
  | cons e d ih =>
    obtain ⟨a, b⟩ := e
    simp only [get?]
    by_cases h : a = k
    · simp only [h, if_true, reduceCtorEq, false_iff]
      intro h'; exact h' b (by simp)
    · simp only [h, if_false, ih, List.mem_cons, Prod.mk.injEq, not_or]
      exact ⟨fun h' v => ⟨fun h2 => h h2.1.symm, h' v⟩, fun h' v => (h' v).2⟩

theorem get?_of_mem {d : Dict κ α} {k : κ} {v : α} (hwf : d.WF) (h : (k, v) ∈ d) : d.get? k = some v := by
  induction d with
  | nil => simp at h
  | cons e d ih =>
    obtain ⟨a, b⟩ := e
    simp only [WF, keys, List.map_cons, List.nodup_cons] at hwf
    simp only [get?]
    rcases List.mem_cons.1 h with h | h
    · cases h; simp
    · have : a ≠ k := fun h' => hwf.1 (h' ▸ List.mem_map.2 ⟨_, h, rfl⟩)
      simp only [this, if_false]
      exact ih hwf.2 h

theorem get?_map_val (d : Dict κ α) (f : κ → α → β) (k : κ) :
    get? (d.map fun e => (e.1, f e.1 e.2)) k = (d.get? k).map (f k) := by
  induction d with
  | nil => rfl
  | cons e d ih =>
    obtain ⟨a, b⟩ := e
    simp only [List.map_cons, get?, ih]
    by_cases h : a = k
    · simp [h]
    · simp [h]

theorem mem_keys_iff {d : Dict κ α} {k : κ} : k ∈ d.keys ↔ ∃ v, d.get? k = some v := by
  induction d with
  | nil => simp [keys, get?]
  | cons e d ih =>
    obtain ⟨a, b⟩ := e
    simp only [keys, List.map_cons, List.mem_cons, get?] at ih ⊢
    by_cases h : a = k
    · simp [h]
    · simp only [h, if_false, ← ih]
      exact ⟨fun h' => h'.resolve_left (fun h2 => h h2.symm), Or.inr⟩

theorem has_iff {d : Dict κ α} {k : κ} : d.has k = true ↔ ∃ v, d.get? k = some v := by
  unfold has; rw [Option.isSome_iff_exists]

theorem keys_set (d : Dict κ α) (k : κ) (v : α) :
    (d.set k v).keys = if k ∈ d.keys then d.keys else d.keys ++ [k] := by
  induction d with
  | nil => simp [set, keys]
  | cons e d ih =>
    obtain ⟨a, b⟩ := e
    simp only [set]
    by_cases h : a = k
    · simp [h, keys]
    · simp only [h, if_false]
      simp only [keys, List.map_cons, List.mem_cons] at ih ⊢
      rw [ih]
      by_cases h2 : k ∈ List.map Prod.fst d
      · simp [h2]
      · simp [h2, Ne.symm h]

theorem WF_set {d : Dict κ α} (h : d.WF) (k : κ) (v : α) : (d.set k v).WF := by
  unfold WF at *
  rw [keys_set]
  split
  · exact h
  · rename_i hk
    rw [List.nodup_append]
    refine ⟨h, by simp, ?_⟩
    intro a ha b hb
    rw [List.mem_singleton.1 hb]
    exact fun h' => hk (h' ▸ ha)

theorem get?_erase (d : Dict κ α) (k k' : κ) : (d.erase k).get? k' = if k' = k then none else d.get? k' := by
  induction d with
  | nil => simp [erase, get?]
  | cons e d ih =>
    obtain ⟨a, b⟩ := e
    simp only [erase] at ih ⊢
    by_cases h : a = k
    · simp only [List.filter_cons, h, ne_eq, not_true_eq_false, decide_false, Bool.false_eq_true, if_false, get?]
      rw [ih]
      by_cases h2 : k' = k
      · simp [h2]
      · simp [h2, Ne.symm h2]
    · simp only [List.filter_cons, ne_eq, h, not_false_eq_true, decide_true, if_true, get?, ih]
      by_cases h2 : a = k'
      · have : k' ≠ k := fun h3 => h (h2.trans h3)
        simp [h2, this]
      · simp [h2]

theorem WF_erase {d : Dict κ α} (h : d.WF) (k : κ) : (d.erase k).WF := by
  unfold WF keys erase at *
  exact h.sublist (List.Sublist.map _ List.filter_sublist)

theorem get?_congr_ext {d d' : Dict κ α} (h : ∀ k, d.get? k = d'.get? k) (k : κ) : d.has k = d'.has k := by
  unfold has; rw [h]

end Dict

theorem get?_pushTo {κ α : Type} [DecidableEq κ] (d : Dict κ (List α)) (k k' : κ) (v : α) :
    (pushTo d k v).get? k' = if k' = k then some ((d.get? k).getD [] ++ [v]) else d.get? k' := by
  unfold pushTo
  split
  · rename_i h; rw [Dict.get?_set, h]; rfl
  · rename_i l h; rw [Dict.get?_set, h]; rfl

end Refex
