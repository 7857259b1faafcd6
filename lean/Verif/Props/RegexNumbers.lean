import Verif.Props.ApproxRegex
/- C28: the numbers of the groups of a regex. -/
namespace Refex
set_option autoImplicit false

/-- What compiling a part of a regex adds: the names of the groups, with numbers in the order of the opening parentheses. -/
theorem check_numbers {r : Re} {k : Nat} {opened : List Nat} {ns ns' : Dict Str Nat} (h : r.check k opened ns = some ns') (x : Str) (n : Nat) :
    (x, n) ∈ ns' ↔ (x, n) ∈ ns ∨ ∃ i : Nat, r.opens[i]? = some (some x) ∧ n = k + i := by
  induction r generalizing k opened ns ns' with
  | seq a b iha ihb | alt a b iha ihb =>
    unfold Re.check at h
    split at h
    · cases h
    · rename_i n1 h1
      rw [ihb h, iha h1, groups_opens, or_assoc]
      refine or_congr_right ⟨?_, ?_⟩
      · rintro (⟨i, h1, h2⟩ | ⟨i, h1, h2⟩)
        · refine ⟨i, ?_, h2⟩
          rw [Re.opens, List.getElem?_append_left (List.getElem?_eq_some_iff.1 h1).1]; exact h1
        · refine ⟨a.opens.length + i, ?_, by omega⟩
          rw [Re.opens, List.getElem?_append_right (by omega), Nat.add_sub_cancel_left]; exact h1
      · rintro ⟨i, h1, h2⟩
        rw [Re.opens] at h1
        by_cases hi : i < a.opens.length
        · rw [List.getElem?_append_left hi] at h1
          exact .inl ⟨i, h1, h2⟩
        · rw [List.getElem?_append_right (by omega)] at h1
          exact .inr ⟨_, h1, by omega⟩
  | rep _ _ _ a ih | look _ a ih | behind _ _ a ih =>
    unfold Re.check at h
    exact ih h
  | grp y a ih =>
    have key : ∀ (P : Prop), (P ∨ ∃ i : Nat, (Re.grp y a).opens[i]? = some (some x) ∧ n = k + i) ↔
        ((P ∨ (y = some x ∧ n = k)) ∨ ∃ i : Nat, a.opens[i]? = some (some x) ∧ n = k + 1 + i) := by
      intro P
      rw [or_assoc]
      refine or_congr_right ⟨?_, ?_⟩
      · rintro ⟨i, h1, h2⟩
        cases i with
        | zero => exact .inl ⟨by simpa [Re.opens] using h1, h2⟩
        | succ i => exact .inr ⟨i, by simpa [Re.opens] using h1, by omega⟩
      · rintro (⟨h1, h2⟩ | ⟨i, h1, h2⟩)
        · exact ⟨0, by simp [Re.opens, h1], h2⟩
        · exact ⟨i + 1, by simpa [Re.opens] using h1, by omega⟩
    rw [key]
    cases y with
    | none =>
      unfold Re.check at h
      rw [ih h]; simp
    | some y =>
      unfold Re.check at h
      split at h
      · cases h
      · rw [ih h, List.mem_append, List.mem_singleton, Prod.mk.injEq, Option.some.injEq, eq_comm (a := x)]
  | backref m =>
    unfold Re.check at h
    split at h
    · cases h; simp [Re.opens]
    · cases h
  | named y =>
    unfold Re.check at h
    split at h
    · cases h
    · split at h
      · cases h
      · cases h; simp [Re.opens]
  | _ =>
    simp only [Re.check, Option.some.injEq] at h
    subst h; simp [Re.opens]

/-- **C28**: the groups of a regex are numbered from 1 in the order of their opening parentheses, wherever they are (in alternatives, repetitions, lookaheads and
lookbehinds, and in other groups), whether or not they have a name, and `groupindex` says so of those that have one. -/
theorem C28_numbers {r : Re} {names : Dict Str Nat} (h : r.compiled = some names) (x : Str) (n : Nat) :
    (x, n) ∈ names ↔ 0 < n ∧ r.opens[n - 1]? = some (some x) := by
  rw [check_numbers h]
  constructor
  · rintro (h | ⟨i, h1, rfl⟩)
    · cases h
    · exact ⟨by omega, by rwa [Nat.add_sub_cancel_left]⟩
  · rintro ⟨h1, h2⟩
    exact .inr ⟨n - 1, h2, by omega⟩

/-- In `(?<=(a))(?P<x>b)` the group `x` has number 2. -/
example : ∃ names, (Re.seq (.behind false 1 (.grp none (reChar 'a'))) (.grp (some (str "x")) (reChar 'b'))).compiled = some names ∧
    (str "x", 2) ∈ names ∧ (str "x", 1) ∉ names := ⟨_, rfl, by decide, by decide⟩

theorem joinAlt_opens (rs : List Re) : (joinAlt rs).opens = rs.flatMap Re.opens := by
  induction rs with
  | nil => rfl
  | cons r rs ih =>
    cases rs with
    | nil => simp [joinAlt]
    | cons q rs => rw [joinAlt, Re.opens, ih, List.flatMap_cons (x := r)]; exact List.cons_ne_nil _ _

/-- **C28**: in the combined regex, the group of a name is still the one that has this name in its member: its number is that in the member, plus the number of
groups of the members before. -/
theorem C28_combined_numbers {pre post : List (Option Re)} {r re : Re} {names all : Dict Str Nat} (hre : combinedApprox (pre ++ some r :: post) = some re)
    (hall : re.compiled = some all) (hr : r.compiled = some names) {x : Str} {n : Nat} (h : (x, n) ∈ names) :
    (x, ((pre.filterMap id).flatMap Re.opens).length + n) ∈ all := by
  unfold combinedApprox at hre
  split at hre
  · cases hre
  · cases hre
    obtain ⟨h0, h1⟩ := (C28_numbers hr x n).1 h
    refine (C28_numbers hall x _).2 ⟨by omega, ?_⟩
    rw [joinAlt_opens, List.filterMap_append, List.flatMap_append, List.getElem?_append_right (by omega),
      show ((pre.filterMap id).flatMap Re.opens).length + n - 1 - ((pre.filterMap id).flatMap Re.opens).length = n - 1 by omega,
      List.filterMap_cons_some (by rfl), List.flatMap_cons, List.getElem?_append_left (List.getElem?_eq_some_iff.1 h1).1]
    exact h1

/-- `(x)` and then `(?P<q>a|b)(?P=q)`: in the combined regex, the group `q` has number 2. -/
example : ∃ re all, combinedApprox [some exRe1, some exRe3] = some re ∧ re.compiled = some all ∧ (str "q", 2) ∈ all :=
  ⟨_, _, rfl, rfl, by decide⟩

end Refex
