import Verif.Model.Evaluate
import Verif.Lemmas.Dict
/- C60: which classes `add_module` makes available. -/
namespace Refex
set_option autoImplicit false

/-- The name under which a class of a module is also available. -/
def qualified (mdl name : Str) : Str := mdl ++ str "." ++ name

theorem get?_addName (o : Bool) (v : Nat) (st : Dict Str Nat × Bool) (name x : Str) :
    (addName o v st name).1.get? x = (if x = name ∧ (o = true ∨ st.1.get? name = none) then some v else st.1.get? x) ∧
    (addName o v st name).2 = (st.2 || o || (st.1.get? name).isNone) := by
  unfold addName Dict.has
  cases o <;> cases hg : st.1.get? name <;> simp [Dict.get?_set]

/-- What registering one class does. -/
theorem get?_addBoth (o : Bool) (v : Nat) (reg : Dict Str Nat) (a b x : Str) (hab : a ≠ b) :
    ([a, b].foldl (addName o v) (reg, false)).1.get? x =
      (if (x = a ∨ x = b) ∧ (o = true ∨ reg.get? x = none) then some v else reg.get? x) ∧
    (([a, b].foldl (addName o v) (reg, false)).2 = true ↔ o = true ∨ reg.get? a = none ∨ reg.get? b = none) := by
  simp only [List.foldl_cons, List.foldl_nil]
  obtain ⟨h1, h2⟩ := get?_addName o v (addName o v (reg, false) a) b x
  have h3 := fun y => (get?_addName o v (reg, false) a y).1
  have h4 := (get?_addName o v (reg, false) a a).2
  rw [h1, h2, h3, h3, h4]
  constructor
  · by_cases ha : x = a
    · subst ha
      have hb : ¬ b = x := fun e => hab e.symm
      simp [hb, hab]
    · by_cases hb : x = b
      · subst hb; simp [ha]
      · simp [ha, hb]
  · have hb : ¬ b = a := fun e => hab e.symm
    cases o <;> cases reg.get? a <;> cases reg.get? b <;> simp [hb]

/-- The registry after one class has been registered. -/
def afterClass (o : Bool) (mdl : Str) (reg : Dict Str Nat) (m : Member) : Dict Str Nat :=
  ([m.name, mdl ++ str "." ++ m.name].foldl (addName o m.value) (reg, false)).1

theorem name_ne_qualified (mdl n : Str) : n ≠ qualified mdl n := by
  intro h
  have := congrArg List.length h
  simp [qualified, str] at this
  omega

theorem addMembers_step (o : Bool) (mdl : Str) (reg : Dict Str Nat) (m : Member) (ms : List Member) :
    ((m.isClass = false ∨ m.safe = false) → addMembers o mdl reg (m :: ms) = addMembers o mdl reg ms) ∧
    (m.isClass = true → m.safe = true →
      (∀ x, (afterClass o mdl reg m).get? x =
        (if (x = m.name ∨ x = qualified mdl m.name) ∧ (o = true ∨ reg.get? x = none) then some m.value else reg.get? x)) ∧
      ((o = true ∨ reg.get? m.name = none ∨ reg.get? (qualified mdl m.name) = none) →
        addMembers o mdl reg (m :: ms) = addMembers o mdl (afterClass o mdl reg m) ms) ∧
      ((¬ (o = true ∨ reg.get? m.name = none ∨ reg.get? (qualified mdl m.name) = none)) →
        addMembers o mdl reg (m :: ms) = (afterClass o mdl reg m, false))) := by
  constructor
  · intro h
    rw [addMembers, if_pos (by simpa using h)]
  · intro hc hs
    have key := fun x => get?_addBoth o m.value reg m.name (qualified mdl m.name) x (name_ne_qualified _ _)
    refine ⟨fun x => (key x).1, fun h => ?_, fun h => ?_⟩
    · rw [addMembers, if_neg (by simp [hc, hs])]
      simp only
      exact if_pos ((key []).2.2 h)
    · rw [addMembers, if_neg (by simp [hc, hs])]
      simp only
      exact if_neg (fun e => h ((key []).2.1 e))

/-- **C60**: whatever was in the registry or is there afterwards: everything new is a safe class of the module, under its own or
its qualified name. -/
theorem C60_only_safe (o : Bool) (mdl : Str) (ms : List Member) : ∀ (reg : Dict Str Nat) (x : Str) (v : Nat),
    (addMembers o mdl reg ms).1.get? x = some v → reg.get? x = some v ∨
      ∃ m ∈ ms, m.isClass = true ∧ m.safe = true ∧ m.value = v ∧ (x = m.name ∨ x = qualified mdl m.name) := by
  induction ms with
  | nil => intro reg x v h; exact Or.inl h
  | cons m ms ih =>
    intro reg x v h
    obtain ⟨s1, s2⟩ := addMembers_step o mdl reg m ms
    by_cases hu : m.isClass = false ∨ m.safe = false
    · rw [s1 hu] at h
      rcases ih reg x v h with h | ⟨m', h1, h2⟩
      · exact Or.inl h
      · exact Or.inr ⟨m', by simp [h1], h2⟩
    · have hc : m.isClass = true := by cases hh : m.isClass <;> simp_all
      have hs : m.safe = true := by cases hh : m.safe <;> simp_all
      obtain ⟨g, s3, s4⟩ := s2 hc hs
      have fin : (afterClass o mdl reg m).get? x = some v → reg.get? x = some v ∨
          ∃ m' ∈ m :: ms, m'.isClass = true ∧ m'.safe = true ∧ m'.value = v ∧ (x = m'.name ∨ x = qualified mdl m'.name) := by
        intro h
        rw [g x] at h
        split at h
        · rename_i hx
          exact Or.inr ⟨m, by simp, hc, hs, by simpa using h, hx.1⟩
        · exact Or.inl h
      by_cases hf : o = true ∨ reg.get? m.name = none ∨ reg.get? (qualified mdl m.name) = none
      · rw [s3 hf] at h
        rcases ih _ x v h with h | ⟨m', h1, h2⟩
        · exact fin h
        · exact Or.inr ⟨m', by simp [h1], h2⟩
      · rw [s4 hf] at h
        exact fin h

/-- **C60**: without `overwrite`, nothing registered before changes. -/
theorem C60_existing_kept (mdl : Str) (ms : List Member) : ∀ (reg : Dict Str Nat) (x : Str) (v : Nat),
    reg.get? x = some v → (addMembers false mdl reg ms).1.get? x = some v := by
  induction ms with
  | nil => intro reg x v h; exact h
  | cons m ms ih =>
    intro reg x v h
    obtain ⟨s1, s2⟩ := addMembers_step false mdl reg m ms
    by_cases hu : m.isClass = false ∨ m.safe = false
    · rw [s1 hu]; exact ih reg x v h
    · have hc : m.isClass = true := by cases hh : m.isClass <;> simp_all
      have hs : m.safe = true := by cases hh : m.safe <;> simp_all
      obtain ⟨g, s3, s4⟩ := s2 hc hs
      have hx : (afterClass false mdl reg m).get? x = some v := by
        rw [g x, if_neg (by simp [h])]; exact h
      by_cases hf : false = true ∨ reg.get? m.name = none ∨ reg.get? (qualified mdl m.name) = none
      · rw [s3 hf]; exact ih _ x v hx
      · rw [s4 hf]; exact hx

theorem addMembers_grows (o : Bool) (mdl : Str) (ms : List Member) : ∀ (reg : Dict Str Nat) (x : Str),
    reg.get? x ≠ none → (addMembers o mdl reg ms).1.get? x ≠ none := by
  induction ms with
  | nil => intro reg x h; exact h
  | cons m ms ih =>
    intro reg x h
    obtain ⟨s1, s2⟩ := addMembers_step o mdl reg m ms
    by_cases hu : m.isClass = false ∨ m.safe = false
    · rw [s1 hu]; exact ih reg x h
    · have hc : m.isClass = true := by cases hh : m.isClass <;> simp_all
      have hs : m.safe = true := by cases hh : m.safe <;> simp_all
      obtain ⟨g, s3, s4⟩ := s2 hc hs
      have hx : (afterClass o mdl reg m).get? x ≠ none := by
        rw [g x]; split
        · simp
        · exact h
      by_cases hf : o = true ∨ reg.get? m.name = none ∨ reg.get? (qualified mdl m.name) = none
      · rw [s3 hf]; exact ih _ x hx
      · rw [s4 hf]; exact hx

/-- **C60**: when `add_module` returns, every safe class of the module is available under both names or the name was taken
before. -/
theorem C60_available (o : Bool) (mdl : Str) (ms : List Member) : ∀ (reg : Dict Str Nat), (addMembers o mdl reg ms).2 = true →
    ∀ m ∈ ms, m.isClass = true → m.safe = true →
      (addMembers o mdl reg ms).1.get? m.name ≠ none ∧ (addMembers o mdl reg ms).1.get? (qualified mdl m.name) ≠ none := by
  induction ms with
  | nil => intro reg _ m hm; cases hm
  | cons m ms ih =>
    intro reg h m' hm' hc' hs'
    obtain ⟨s1, s2⟩ := addMembers_step o mdl reg m ms
    by_cases hu : m.isClass = false ∨ m.safe = false
    · rw [s1 hu] at h ⊢
      rcases List.mem_cons.1 hm' with e | hm'
      · subst e; rcases hu with hu | hu <;> simp_all
      · exact ih reg h m' hm' hc' hs'
    · have hc : m.isClass = true := by cases hh : m.isClass <;> simp_all
      have hs : m.safe = true := by cases hh : m.safe <;> simp_all
      obtain ⟨g, s3, s4⟩ := s2 hc hs
      by_cases hf : o = true ∨ reg.get? m.name = none ∨ reg.get? (qualified mdl m.name) = none
      · rw [s3 hf] at h ⊢
        rcases List.mem_cons.1 hm' with e | hm'
        · subst e
          constructor <;> refine addMembers_grows _ _ _ _ _ ?_ <;> rw [g] <;> split
          · simp
          · rename_i hn
            intro hg; exact hn ⟨Or.inl rfl, Or.inr hg⟩
          · simp
          · rename_i hn
            intro hg; exact hn ⟨Or.inr rfl, Or.inr hg⟩
        · exact ih _ h m' hm' hc' hs'
      · rw [s4 hf] at h; cases h

/-- The value is that of the last class with this name. -/
theorem get?_overwritten (mdl : Str) (x : Str) (v : Nat) (ms : List Member) : ∀ (reg : Dict Str Nat), reg.get? x = some v →
    (∀ m ∈ ms, m.isClass = true → m.safe = true → m.name ≠ x ∧ qualified mdl m.name ≠ x) →
    (addMembers true mdl reg ms).1.get? x = some v := by
  induction ms with
  | nil => intro reg h _; exact h
  | cons m ms ih =>
    intro reg h hn
    obtain ⟨s1, s2⟩ := addMembers_step true mdl reg m ms
    by_cases hu : m.isClass = false ∨ m.safe = false
    · rw [s1 hu]; exact ih reg h (fun m' hm' => hn m' (by simp [hm']))
    · have hc : m.isClass = true := by cases hh : m.isClass <;> simp_all
      have hs : m.safe = true := by cases hh : m.safe <;> simp_all
      obtain ⟨g, s3, s4⟩ := s2 hc hs
      rw [s3 (Or.inl rfl)]
      refine ih _ ?_ (fun m' hm' => hn m' (by simp [hm']))
      obtain ⟨n1, n2⟩ := hn m (by simp) hc hs
      rw [g x, if_neg (fun hx => hx.1.elim (fun e => n1 e.symm) (fun e => n2 e.symm))]
      exact h

/-- **C60**: with `overwrite`, `add_module` never refuses, and a class of a module with distinct names (identifiers: without
dots) is what both of its names stand for afterwards. -/
theorem C60_overwrite (mdl : Str) (ms : List Member) (hd : (ms.map Member.name).Nodup) (hi : ∀ m ∈ ms, '.' ∉ m.name) :
    ∀ (reg : Dict Str Nat), (addMembers true mdl reg ms).2 = true ∧
    ∀ m ∈ ms, m.isClass = true → m.safe = true →
      (addMembers true mdl reg ms).1.get? m.name = some m.value ∧
      (addMembers true mdl reg ms).1.get? (qualified mdl m.name) = some m.value := by
  induction ms with
  | nil => intro reg; exact ⟨rfl, by simp⟩
  | cons m ms ih =>
    intro reg
    simp only [List.map_cons, List.nodup_cons, List.mem_map, not_exists, not_and] at hd
    obtain ⟨hd1, hd2⟩ := hd
    have hi' : ∀ m ∈ ms, '.' ∉ m.name := fun m' hm' => hi m' (by simp [hm'])
    obtain ⟨s1, s2⟩ := addMembers_step true mdl reg m ms
    by_cases hu : m.isClass = false ∨ m.safe = false
    · rw [s1 hu]
      obtain ⟨i1, i2⟩ := ih hd2 hi' reg
      refine ⟨i1, fun m' hm' hc' hs' => ?_⟩
      rcases List.mem_cons.1 hm' with e | hm'
      · subst e; rcases hu with hu | hu <;> simp_all
      · exact i2 m' hm' hc' hs'
    · have hc : m.isClass = true := by cases hh : m.isClass <;> simp_all
      have hs : m.safe = true := by cases hh : m.safe <;> simp_all
      obtain ⟨g, s3, s4⟩ := s2 hc hs
      rw [s3 (Or.inl rfl)]
      obtain ⟨i1, i2⟩ := ih hd2 hi' (afterClass true mdl reg m)
      have dot : ∀ n, '.' ∈ qualified mdl n := by intro n; simp [qualified, str]
      refine ⟨i1, fun m' hm' hc' hs' => ?_⟩
      rcases List.mem_cons.1 hm' with e | hm'
      · subst e
        constructor
        · refine get?_overwritten mdl _ _ ms _ (by rw [g, if_pos ⟨Or.inl rfl, Or.inl rfl⟩]) (fun k hk _ _ => ⟨hd1 k hk, ?_⟩)
          intro e
          exact hi m' (by simp) (e ▸ dot _)
        · refine get?_overwritten mdl _ _ ms _ (by rw [g, if_pos ⟨Or.inr rfl, Or.inl rfl⟩]) (fun k hk _ _ => ⟨?_, ?_⟩)
          · intro e
            exact hi' k hk (e ▸ dot _)
          · intro e
            exact hd1 k hk (by simpa [qualified] using e)
      · exact i2 m' hm' hc' hs'

/-- **C60**: `add_module` refuses (ValueError) only without `overwrite` and for a safe class both of whose names were taken, by the
registry or by this module. -/
theorem C60_refusal (o : Bool) (mdl : Str) (ms : List Member) : ∀ (reg : Dict Str Nat), (addMembers o mdl reg ms).2 = false →
    o = false ∧ ∃ m ∈ ms, m.isClass = true ∧ m.safe = true ∧
      (addMembers o mdl reg ms).1.get? m.name ≠ none ∧ (addMembers o mdl reg ms).1.get? (qualified mdl m.name) ≠ none := by
  induction ms with
  | nil => intro reg h; cases h
  | cons m ms ih =>
    intro reg h
    obtain ⟨s1, s2⟩ := addMembers_step o mdl reg m ms
    by_cases hu : m.isClass = false ∨ m.safe = false
    · rw [s1 hu] at h ⊢
      obtain ⟨h1, m', h2, h3⟩ := ih reg h
      exact ⟨h1, m', by simp [h2], h3⟩
    · have hc : m.isClass = true := by cases hh : m.isClass <;> simp_all
      have hs : m.safe = true := by cases hh : m.safe <;> simp_all
      obtain ⟨g, s3, s4⟩ := s2 hc hs
      by_cases hf : o = true ∨ reg.get? m.name = none ∨ reg.get? (qualified mdl m.name) = none
      · rw [s3 hf] at h ⊢
        obtain ⟨h1, m', h2, h3⟩ := ih _ h
        exact ⟨h1, m', by simp [h2], h3⟩
      · rw [s4 hf]
        refine ⟨by cases o <;> simp_all, m, by simp, hc, hs, ?_, ?_⟩
        · intro hg
          rw [g] at hg
          split at hg
          · cases hg
          · exact hf (Or.inr (Or.inl hg))
        · intro hg
          rw [g] at hg
          split at hg
          · cases hg
          · exact hf (Or.inr (Or.inr hg))

/-- Two modules with a class `A`, the second also with an unsafe class and a function. -/
example : addMembers false (str "m") [(str "A", 1), (str "base.A", 1)]
    [⟨str "A", true, true, 2⟩, ⟨str "U", true, false, 3⟩, ⟨str "f", false, false, 4⟩, ⟨str "B", true, true, 5⟩] =
    ([(str "A", 1), (str "base.A", 1), (str "m.A", 2), (str "B", 5), (str "m.B", 5)], true) := by decide
/-- A refusal leaves what was added before. -/
example : addMembers false (str "m") [(str "B", 1), (str "m.B", 1)] [⟨str "A", true, true, 2⟩, ⟨str "B", true, true, 5⟩] =
    ([(str "B", 1), (str "m.B", 1), (str "A", 2), (str "m.A", 2)], false) := by decide

end Refex
