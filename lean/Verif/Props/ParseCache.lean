import Verif.Model.ParseCache
import Verif.Lemmas.Dict
/- C51: the parse cache. -/
namespace Refex
set_option autoImplicit false

variable {T : Type}

/-- What is true of every state. -/
structure CacheInv (parse : Str → Str → Option T) (h : Heap T) : Prop where
  keys : ∀ k p, h.cache.get? k = some p → ∃ t, h.strings.get? k.1 = some t ∧
    ∀ f, h.files.get? p = some f → f.text = t ∧ f.path = k.2 ∧ parse t k.2 = some f.tree
  sources : ∀ p f, h.files.get? p = some f → h.strings.get? f.source = some f.text
  fresh : ∀ p, (∃ f, h.files.get? p = some f) ∨ (∃ k, h.cache.get? k = some p) → p < h.serial
  heldLive : ∀ i ∈ h.held, ∃ t, h.strings.get? i = some t

theorem get?_erase {κ α : Type} [DecidableEq κ] (d : Dict κ α) (k k' : κ) :
    (d.erase k).get? k' = if k' = k then none else d.get? k' := by
  induction d with
  | nil => simp [Dict.erase, Dict.get?]
  | cons e d ih =>
    obtain ⟨a, b⟩ := e
    unfold Dict.erase at ih ⊢
    rw [List.filter_cons]
    by_cases ha : a = k
    · subst ha
      simp only [ne_eq, not_true_eq_false, decide_false, Bool.false_eq_true, if_false]
      rw [ih, Dict.get?]
      by_cases hk : k' = a
      · simp [hk]
      · rw [if_neg hk, if_neg hk, if_neg (fun e => hk e.symm)]
    · simp only [ne_eq, ha, not_false_eq_true, decide_true, if_true]
      rw [Dict.get?, Dict.get?, ih]
      by_cases hk : a = k'
      · subst hk; simp [ha]
      · simp [hk]

theorem cacheInv_parseAst {parse : Str → Str → Option T} {h : Heap T} (hi : CacheInv parse h) {i : Nat} {t : Str}
    (hs : h.strings.get? i = some t) (fn : Str) : CacheInv parse (h.parseAst parse i t fn).1 ∧
      ∀ p, (h.parseAst parse i t fn).2 = .file p →
        ∃ f, (h.parseAst parse i t fn).1.files.get? p = some f ∧ f.text = t ∧ f.path = fn ∧ parse t fn = some f.tree := by
  unfold Heap.parseAst
  by_cases hc : h.cached (i, fn) = true
  · rw [if_pos hc]
    unfold Heap.cached at hc
    unfold Heap.fetch
    cases hg : h.cache.get? (i, fn) with
    | none => rw [hg] at hc; cases hc
    | some p =>
      rw [hg] at hc
      simp only at hc
      simp only [hc, if_true]
      refine ⟨⟨hi.keys, hi.sources, hi.fresh, hi.heldLive⟩, fun q hq => ?_⟩
      cases hq
      unfold Dict.has at hc
      cases hf : h.files.get? p with
      | none => rw [hf] at hc; cases hc
      | some f =>
        obtain ⟨t', h1, h2⟩ := hi.keys _ _ hg
        simp only at h1
        rw [hs] at h1; cases h1
        exact ⟨f, rfl, h2 f hf⟩
  · rw [if_neg hc]
    unfold Heap.parseNew
    cases hp : parse t fn with
    | none => exact ⟨hi, fun p hp => by cases hp⟩
    | some tr =>
      simp only
      refine ⟨⟨?_, ?_, ?_, hi.heldLive⟩, ?_⟩
      · intro k p hk
        simp only at hk ⊢
        rw [Dict.get?_set] at hk
        by_cases e : k = (i, fn)
        · subst e
          rw [if_pos rfl] at hk; cases hk
          refine ⟨t, hs, fun f hf => ?_⟩
          rw [Dict.get?_set, if_pos rfl] at hf; cases hf
          exact ⟨rfl, rfl, hp⟩
        · rw [if_neg e] at hk
          obtain ⟨t', h1, h2⟩ := hi.keys k p hk
          have hlt := hi.fresh p (Or.inr ⟨k, hk⟩)
          refine ⟨t', h1, fun f hf => h2 f ?_⟩
          rw [Dict.get?_set, if_neg (by omega)] at hf; exact hf
      · intro p f hf
        simp only at hf ⊢
        rw [Dict.get?_set] at hf
        split at hf
        · cases hf; exact hs
        · exact hi.sources p f hf
      · intro p hp'
        simp only at hp' ⊢
        rcases hp' with ⟨f, hf⟩ | ⟨k, hk⟩
        · rw [Dict.get?_set] at hf
          split at hf
          · omega
          · have := hi.fresh p (Or.inl ⟨f, hf⟩); omega
        · rw [Dict.get?_set] at hk
          split at hk
          · cases hk; omega
          · have := hi.fresh p (Or.inr ⟨k, hk⟩); omega
      · intro p hp'
        cases hp'
        exact ⟨_, by rw [Dict.get?_set, if_pos rfl], rfl, rfl, by first | rfl | exact hp⟩

theorem any_key {κ α : Type} [DecidableEq κ] {d : Dict κ α} {k : κ} {a : α} (h : d.get? k = some a) : (k, a) ∈ d := by
  induction d with
  | nil => simp [Dict.get?] at h
  | cons e d ih =>
    obtain ⟨x, y⟩ := e
    rw [Dict.get?] at h
    split at h
    · rename_i hx; cases h; subst hx; simp
    · simp [ih h]

theorem cacheInv_step {parse : Str → Str → Option T} {h h' : Heap T} (hi : CacheInv parse h) {e : HeapEvent} (hs : h.step parse e = some h') :
    CacheInv parse h' := by
  cases e with
  | newString i t =>
    simp only [Heap.step] at hs
    split at hs
    · cases hs
    · rename_i hn
      cases hs
      have hnone : h.strings.get? i = none := by
        simp only [Dict.has] at hn; cases hg : h.strings.get? i <;> simp_all
      have keep : ∀ j t', h.strings.get? j = some t' → (h.strings.set i t).get? j = some t' := by
        intro j t' hj
        rw [Dict.get?_set, if_neg]
        · exact hj
        · rintro rfl; rw [hnone] at hj; cases hj
      refine ⟨?_, ?_, hi.fresh, ?_⟩
      · intro k p hk
        obtain ⟨t', h1, h2⟩ := hi.keys k p hk
        exact ⟨t', keep _ _ h1, h2⟩
      · intro p f hf
        exact keep _ _ (hi.sources p f hf)
      · intro j hj
        rcases List.mem_cons.1 hj with rfl | hj
        · exact ⟨t, by simp only; rw [Dict.get?_set, if_pos rfl]⟩
        · obtain ⟨t', ht'⟩ := hi.heldLive j hj
          exact ⟨t', keep _ _ ht'⟩
  | parse i fn =>
    simp only [Heap.step] at hs
    cases hg : h.strings.get? i with
    | none => rw [hg] at hs; cases hs
    | some t =>
      rw [hg] at hs
      simp only at hs
      split at hs
      · cases hs; exact (cacheInv_parseAst hi hg fn).1
      · cases hs
  | dropString i =>
    cases hs
    exact ⟨hi.keys, hi.sources, hi.fresh, fun j hj => hi.heldLive j (List.mem_of_mem_erase hj)⟩
  | dropFile p =>
    cases hs
    exact ⟨hi.keys, hi.sources, hi.fresh, hi.heldLive⟩
  | freeString i =>
    simp only [Heap.step] at hs
    split at hs
    · cases hs
    · rename_i hn
      cases hs
      simp only [not_or, List.any_eq_true, decide_eq_true_eq, not_exists, not_and] at hn
      obtain ⟨n1, n2, n3⟩ := hn
      refine ⟨?_, ?_, hi.fresh, ?_⟩
      · intro k p hk
        obtain ⟨t', h1, h2⟩ := hi.keys k p hk
        refine ⟨t', ?_, h2⟩
        simp only
        rw [get?_erase, if_neg (n2 _ (any_key hk))]; exact h1
      · intro p f hf
        simp only
        rw [get?_erase, if_neg (n3 _ (any_key hf))]; exact hi.sources p f hf
      · intro j hj
        obtain ⟨t', ht'⟩ := hi.heldLive j hj
        refine ⟨t', ?_⟩
        simp only
        rw [get?_erase, if_neg (by intro e; subst e; exact n1 hj)]; exact ht'
  | freeFile p =>
    simp only [Heap.step] at hs
    split at hs
    · cases hs
    · cases hs
      refine ⟨?_, ?_, ?_, hi.heldLive⟩
      · intro k q hk
        obtain ⟨t', h1, h2⟩ := hi.keys k q hk
        refine ⟨t', h1, fun f hf => h2 f ?_⟩
        simp only at hf
        rw [get?_erase] at hf
        split at hf
        · cases hf
        · exact hf
      · intro q f hf
        simp only at hf
        rw [get?_erase] at hf
        split at hf
        · cases hf
        · exact hi.sources q f hf
      · intro q hq
        refine hi.fresh q ?_
        rcases hq with ⟨f, hf⟩ | hq
        · simp only at hf
          rw [get?_erase] at hf
          split at hf
          · cases hf
          · exact Or.inl ⟨f, hf⟩
        · exact Or.inr hq
  | purge k =>
    simp only [Heap.step] at hs
    cases hg : h.cache.get? k with
    | none => rw [hg] at hs; cases hs
    | some p =>
      rw [hg] at hs
      simp only at hs
      split at hs
      · cases hs
      · cases hs
        have sub : ∀ k' q, (h.cache.erase k).get? k' = some q → h.cache.get? k' = some q := by
          intro k' q hq
          rw [get?_erase] at hq
          split at hq
          · cases hq
          · exact hq
        exact ⟨fun k' q hq => hi.keys k' q (sub _ _ hq), hi.sources,
          fun q hq => hi.fresh q (hq.imp id (fun ⟨k', h⟩ => ⟨k', sub _ _ h⟩)), hi.heldLive⟩

theorem cacheInv_steps {parse : Str → Str → Option T} : ∀ (es : List HeapEvent) (h h' : Heap T), CacheInv parse h →
    h.steps parse es = some h' → CacheInv parse h' := by
  intro es
  induction es with
  | nil => intro h h' hi hs; cases hs; exact hi
  | cons e es ih =>
    intro h h' hi hs
    simp only [Heap.steps] at hs
    cases he : h.step parse e with
    | none => rw [he] at hs; cases hs
    | some h1 => rw [he] at hs; exact ih h1 h' (cacheInv_step hi he) hs

theorem cacheInv_empty (parse : Str → Str → Option T) : CacheInv parse ({} : Heap T) where
  keys := by intro k p h; simp [Dict.get?] at h
  sources := by intro p f h; simp [Dict.get?] at h
  fresh := by
    rintro p (⟨f, h⟩ | ⟨k, h⟩) <;> simp [Dict.get?] at h
  heldLive := by simp

/-- **C51**: after any history of allocations, parses and collections (with `id()`s used again), what `parse_ast` returns for a
string object is a parse of this object's text under this file name. -/
theorem C51_own_tree (parse : Str → Str → Option T) (es : List HeapEvent) (h : Heap T) (hs : ({} : Heap T).steps parse es = some h)
    (i : Nat) (t fn : Str) (hi : h.strings.get? i = some t) (p : Nat) (hp : (h.parseAst parse i t fn).2 = .file p) :
    ∃ f, (h.parseAst parse i t fn).1.files.get? p = some f ∧ f.text = t ∧ f.path = fn ∧ parse t fn = some f.tree :=
  (cacheInv_parseAst (cacheInv_steps es _ _ (cacheInv_empty parse) hs) hi fn).2 p hp

/-- **C51**: it fails (ParseError) exactly if the text does not parse, and never for the state of the cache. -/
theorem C51_fails_iff (parse : Str → Str → Option T) (es : List HeapEvent) (h : Heap T) (hs : ({} : Heap T).steps parse es = some h)
    (i : Nat) (t fn : Str) (hi : h.strings.get? i = some t) :
    ((h.parseAst parse i t fn).2 = .parseError ↔ parse t fn = none) ∧ (h.parseAst parse i t fn).2 ≠ .keyError := by
  have inv := cacheInv_steps es _ _ (cacheInv_empty parse) hs
  have out := (cacheInv_parseAst inv hi fn).2
  have hk : (h.parseAst parse i t fn).2 ≠ .keyError := by
    unfold Heap.parseAst
    split
    · rename_i hc
      unfold Heap.cached at hc
      unfold Heap.fetch
      cases hg : h.cache.get? (i, fn) with
      | none => rw [hg] at hc; cases hc
      | some p => rw [hg] at hc; simp only at hc; simp [hc]
    · unfold Heap.parseNew
      cases parse t fn <;> simp
  refine ⟨⟨fun he => ?_, fun hn => ?_⟩, hk⟩
  · unfold Heap.parseAst at he
    split at he
    · unfold Heap.fetch at he
      split at he
      · split at he <;> cases he
      · cases he
    · unfold Heap.parseNew at he
      cases hp : parse t fn with
      | none => rfl
      | some tr => rw [hp] at he; cases he
  · cases hr : (h.parseAst parse i t fn).2 with
    | parseError => rfl
    | keyError => exact absurd hr hk
    | file p =>
      obtain ⟨f, _, _, _, h4⟩ := out p hr
      rw [hn] at h4; cases h4

theorem entry_kept {parse : Str → Str → Option T} {h h' : Heap T} {e : HeapEvent} (hs : h.step parse e = some h') {k : Nat × Str} {p : Nat}
    (hc : h.cache.get? k = some p) (hf : h.files.has p = true) (hfresh : p < h.serial) (hne : e ≠ .freeFile p) :
    h'.cache.get? k = some p ∧ h'.files.has p = true ∧ p < h'.serial := by
  cases e with
  | newString i t =>
    simp only [Heap.step] at hs
    split at hs
    · cases hs
    · cases hs; exact ⟨hc, hf, hfresh⟩
  | parse i fn =>
    simp only [Heap.step] at hs
    cases hg : h.strings.get? i with
    | none => rw [hg] at hs; cases hs
    | some t =>
      rw [hg] at hs
      simp only at hs
      split at hs
      · cases hs
        unfold Heap.parseAst
        split
        · unfold Heap.fetch
          split
          · split
            · exact ⟨hc, hf, hfresh⟩
            · exact ⟨hc, hf, hfresh⟩
          · exact ⟨hc, hf, hfresh⟩
        · rename_i hcached
          unfold Heap.parseNew
          cases parse t fn with
          | none => exact ⟨hc, hf, hfresh⟩
          | some tr =>
            simp only
            have hk : k ≠ (i, fn) := by
              rintro rfl
              apply hcached
              unfold Heap.cached; rw [hc]; exact hf
            refine ⟨by rw [Dict.get?_set, if_neg hk]; exact hc, ?_, by omega⟩
            unfold Dict.has at hf ⊢
            rw [Dict.get?_set, if_neg (by omega)]; exact hf
      · cases hs
  | dropString i => cases hs; exact ⟨hc, hf, hfresh⟩
  | dropFile q => cases hs; exact ⟨hc, hf, hfresh⟩
  | freeString i =>
    simp only [Heap.step] at hs
    split at hs
    · cases hs
    · cases hs; exact ⟨hc, hf, hfresh⟩
  | freeFile q =>
    simp only [Heap.step] at hs
    split at hs
    · cases hs
    · cases hs
      refine ⟨hc, ?_, hfresh⟩
      unfold Dict.has at hf ⊢
      simp only
      rw [get?_erase, if_neg (by intro e; subst e; exact hne rfl)]; exact hf
  | purge k' =>
    simp only [Heap.step] at hs
    cases hg : h.cache.get? k' with
    | none => rw [hg] at hs; cases hs
    | some q =>
      rw [hg] at hs
      simp only at hs
      split at hs
      · cases hs
      · rename_i hdead
        cases hs
        refine ⟨?_, hf, hfresh⟩
        simp only
        rw [get?_erase, if_neg]
        · exact hc
        · rintro rfl; rw [hc] at hg; cases hg; exact hdead hf

theorem entry_kept_steps {parse : Str → Str → Option T} {k : Nat × Str} {p : Nat} : ∀ (es : List HeapEvent) (h h' : Heap T),
    h.steps parse es = some h' → h.cache.get? k = some p → h.files.has p = true → p < h.serial → (∀ e ∈ es, e ≠ .freeFile p) →
    h'.cache.get? k = some p ∧ h'.files.has p = true := by
  intro es
  induction es with
  | nil => intro h h' hs hc hf _ _; cases hs; exact ⟨hc, hf⟩
  | cons e es ih =>
    intro h h' hs hc hf hfresh hne
    simp only [Heap.steps] at hs
    cases he : h.step parse e with
    | none => rw [he] at hs; cases hs
    | some h1 =>
      rw [he] at hs
      obtain ⟨g1, g2, g3⟩ := entry_kept he hc hf hfresh (hne e (by simp))
      exact ih h1 h' hs g1 g2 g3 (fun e he => hne e (by simp [he]))

/-- **C51**: as long as a parsed file has not been freed, parsing the same string object under the same name gives that very
file, whatever else happens (the identity of parsed files is relied on when searchers are combined). -/
theorem C51_same_object (parse : Str → Str → Option T) (es : List HeapEvent) (h : Heap T) (hs : ({} : Heap T).steps parse es = some h)
    (i : Nat) (t fn : Str) (hi : h.strings.get? i = some t) (p : Nat) (hp : (h.parseAst parse i t fn).2 = .file p)
    (es' : List HeapEvent) (h' : Heap T) (hs' : (h.parseAst parse i t fn).1.steps parse es' = some h') (hne : ∀ e ∈ es', e ≠ .freeFile p) :
    (h'.parseAst parse i t fn).2 = .file p := by
  have inv := cacheInv_steps es _ _ (cacheInv_empty parse) hs
  obtain ⟨inv', out⟩ := cacheInv_parseAst inv hi fn
  obtain ⟨f, hf, _⟩ := out p hp
  have hc : (h.parseAst parse i t fn).1.cache.get? (i, fn) = some p := by
    unfold Heap.parseAst at hp ⊢
    split
    · rename_i hcd
      rw [if_pos hcd] at hp
      unfold Heap.fetch at hp ⊢
      cases hg : h.cache.get? (i, fn) with
      | none => rw [hg] at hp; cases hp
      | some q =>
        rw [hg] at hp
        simp only at hp ⊢
        split at hp
        · rename_i hq; rw [if_pos hq]; cases hp; exact hg
        · cases hp
    · rename_i hcd
      rw [if_neg hcd] at hp
      unfold Heap.parseNew at hp ⊢
      cases hpp : parse t fn with
      | none => rw [hpp] at hp; cases hp
      | some tr =>
        rw [hpp] at hp
        cases hp
        simp only
        rw [Dict.get?_set, if_pos rfl]
  obtain ⟨g1, g2⟩ := entry_kept_steps es' _ h' hs' hc (by simp [Dict.has, hf]) (inv'.fresh p (Or.inl ⟨f, hf⟩)) hne
  unfold Heap.parseAst Heap.cached Heap.fetch
  rw [g1]
  simp only [g2, if_true]

theorem held_step {parse : Str → Str → Option T} {p : Nat} {h h' : Heap T} {e : HeapEvent} (hs : h.step parse e = some h')
    (hh : p ∈ h.heldFiles) (hne : e ≠ .dropFile p) : e ≠ .freeFile p ∧ p ∈ h'.heldFiles := by
  cases e with
  | newString i t =>
    simp only [Heap.step] at hs
    split at hs
    · cases hs
    · cases hs; exact ⟨by simp, hh⟩
  | parse i fn =>
    refine ⟨by simp, ?_⟩
    simp only [Heap.step] at hs
    split at hs
    · split at hs
      · cases hs
        unfold Heap.parseAst Heap.fetch Heap.parseNew
        split
        · split
          · split
            · exact List.mem_cons_of_mem _ hh
            · exact hh
          · exact hh
        · split
          · exact hh
          · exact List.mem_cons_of_mem _ hh
      · cases hs
    · cases hs
  | dropString i => cases hs; exact ⟨by simp, hh⟩
  | dropFile q =>
    cases hs
    refine ⟨by simp, (List.mem_erase_of_ne (fun e => hne (by rw [e]))).2 hh⟩
  | freeString i =>
    simp only [Heap.step] at hs
    split at hs
    · cases hs
    · cases hs; exact ⟨by simp, hh⟩
  | freeFile q =>
    simp only [Heap.step] at hs
    split at hs
    · cases hs
    · rename_i hq
      cases hs
      exact ⟨fun e => by cases e; exact hq hh, hh⟩
  | purge k =>
    simp only [Heap.step] at hs
    split at hs
    · split at hs
      · cases hs
      · cases hs; exact ⟨by simp, hh⟩
    · cases hs

/-- **C51**: whoever has been given a parsed file keeps it: until they let go of it, it is not freed, and parsing the same string object
under the same name gives it again, with the same content. -/
theorem C51_held (parse : Str → Str → Option T) (es : List HeapEvent) (h : Heap T) (hs : ({} : Heap T).steps parse es = some h)
    (i : Nat) (t fn : Str) (hi : h.strings.get? i = some t) (p : Nat) (hp : (h.parseAst parse i t fn).2 = .file p)
    (es' : List HeapEvent) (h' : Heap T) (hs' : (h.parseAst parse i t fn).1.steps parse es' = some h') (hne : ∀ e ∈ es', e ≠ .dropFile p) :
    (∀ e ∈ es', e ≠ .freeFile p) ∧ (h'.parseAst parse i t fn).2 = .file p := by
  have hheld : p ∈ (h.parseAst parse i t fn).1.heldFiles := by
    unfold Heap.parseAst at hp ⊢
    split
    · rename_i hcd
      rw [if_pos hcd] at hp
      unfold Heap.fetch at hp ⊢
      split at hp
      · split at hp
        · rename_i hq; rw [if_pos hq]; cases hp; simp
        · cases hp
      · cases hp
    · rename_i hcd
      rw [if_neg hcd] at hp
      unfold Heap.parseNew at hp ⊢
      split at hp
      · cases hp
      · cases hp; simp
  have H : ∀ (es : List HeapEvent) (h h' : Heap T), h.steps parse es = some h' → p ∈ h.heldFiles → (∀ e ∈ es, e ≠ .dropFile p) →
      ∀ e ∈ es, e ≠ .freeFile p := by
    intro es
    induction es with
    | nil => intro h h' _ _ _ e he; cases he
    | cons a es ih =>
      intro h h' hs hh hne e he
      simp only [Heap.steps] at hs
      cases ha : h.step parse a with
      | none => rw [ha] at hs; cases hs
      | some h1 =>
        rw [ha] at hs
        obtain ⟨g1, g2⟩ := held_step ha hh (hne a (by simp))
        rcases List.mem_cons.1 he with rfl | he
        · exact g1
        · exact ih h1 h' hs g2 (fun e he => hne e (by simp [he])) e he
  have hfree := H es' _ h' hs' hheld hne
  exact ⟨hfree, C51_same_object parse es h hs i t fn hi p hp es' h' hs' hfree⟩

/-- A history in which the `id()` of a string is used again after the parsed file and its cache entry have gone: the second
parse is of the second text. -/
example : ((({} : Heap Nat).steps (fun t _ => some t.length)
      [.newString 7 (str "ab"), .parse 7 (str "f"), .dropString 7, .dropFile 0, .freeFile 0, .purge (7, str "f"), .freeString 7,
       .newString 7 (str "abc"), .parse 7 (str "f")]).map fun h => (h.cache, h.files.map fun e => e.2.tree)) =
    some ([((7, str "f"), 1)], [3]) := by decide
/-- As long as the entry is there, the string cannot be freed. -/
example : (({} : Heap Nat).steps (fun t _ => some t.length)
      [.newString 7 (str "ab"), .parse 7 (str "f"), .dropString 7, .dropFile 0, .freeFile 0, .freeString 7]).isNone = true := by decide

/-- The limit of the claim: the check and the lookup are two steps. If the parsed file is freed between them (by another
thread, or a collection of cycles), the lookup raises KeyError. -/
theorem C51_collected_between_false : ∃ (es : List HeapEvent) (h h' : Heap Nat), ({} : Heap Nat).steps (fun t _ => some t.length) es = some h ∧
    h.cached (7, str "f") = true ∧ h.step (fun t _ => some t.length) (.freeFile 0) = some h' ∧ (h'.fetch (7, str "f")).2 = .keyError :=
  ⟨[.newString 7 (str "ab"), .parse 7 (str "f"), .dropFile 0], _, _, rfl, by decide, rfl, by decide⟩

end Refex
