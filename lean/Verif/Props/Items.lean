import Verif.Props.TypeFilters
/- C43: `ItemsAre`. -/
namespace Refex
set_option autoImplicit false

/-- `HasItem` with the item there. -/
theorem hasItem_hits {c : Ctx} {n : Nat} {env : Env} {i : Nat} {m : Matcher} {v w : Val} (hw : getItem v i = some w)
    (ks ks' : List Key) (mi : MatchInfo) :
    Hits (run c (n + 1) env (.hasItem i m) v) ks mi ks' ↔
      ∃ mi0, Hits (run c n env m w) ks mi0 ks' ∧ mi = ⟨createMatch c v, mi0.bindings, []⟩ := by
  unfold Hits
  simp only [run, hw]
  cases run c n env m w ks with
  | error e => simp [rewrap]
  | ok r =>
    obtain ⟨r, k⟩ := r
    cases r with
    | none => simp [rewrap]
    | some mi0 =>
      simp only [rewrap, found, Except.ok.injEq, Prod.mk.injEq, Option.some.injEq]
      constructor
      · rintro ⟨rfl, rfl⟩; exact ⟨mi0, ⟨rfl, rfl⟩, rfl⟩
      · rintro ⟨mi1, ⟨rfl, rfl⟩, rfl⟩; exact ⟨rfl, rfl⟩

theorem getItem_nat {v : Val} {vs : List Val} (h : seqItems v = some vs) (i : Nat) : getItem v i = vs[i]? := by
  simp [getItem, h]

theorem getItem_none {v : Val} (h : seqItems v = none) (i : Int) : getItem v i = none := by
  simp [getItem, h]

theorem allHit_items {c : Ctx} {n : Nat} {env : Env} {v : Val} {vs : List Val} (hv : seqItems v = some vs)
    (ms : List Matcher) (i : Nat) (hi : vs.length = i + ms.length) (ks ks' : List Key) (mis : List MatchInfo) :
    AllHit ((enumFrom i ms).map fun p => run c (n + 1) env (.hasItem p.1 p.2) v) ks mis ks' ↔
      ∃ mis0, AllHit (List.zipWith (fun m w => run c n env m w) ms (vs.drop i)) ks mis0 ks' ∧
        mis = mis0.map (fun mi => ⟨createMatch c v, mi.bindings, []⟩) := by
  induction ms generalizing i ks mis with
  | nil =>
    simp only [enumFrom, List.map_nil, List.zipWith_nil_left]
    constructor
    · intro h; cases h; exact ⟨[], .nil, rfl⟩
    · rintro ⟨mis0, h, rfl⟩; cases h; exact .nil
  | cons m ms ih =>
    have hlt : i < vs.length := by simp only [List.length_cons] at hi; omega
    rw [List.drop_eq_getElem_cons hlt]
    simp only [enumFrom, List.map_cons, List.zipWith_cons_cons]
    have hg : getItem v i = some vs[i] := by rw [getItem_nat hv]; exact List.getElem?_eq_getElem hlt
    have ih := fun ks mis => ih (i + 1) (by simp only [List.length_cons] at hi; omega) ks mis
    constructor
    · intro h
      cases h with
      | cons h1 h2 =>
        obtain ⟨mi0, h3, rfl⟩ := (hasItem_hits hg _ _ _).1 h1
        obtain ⟨mis0, h4, rfl⟩ := (ih _ _).1 h2
        exact ⟨mi0 :: mis0, .cons h3 h4, rfl⟩
    · rintro ⟨mis0, h, rfl⟩
      cases h with
      | cons h1 h2 =>
        exact .cons ((hasItem_hits hg _ _ _).2 ⟨_, h1, rfl⟩) ((ih _ _).2 ⟨_, h2, rfl⟩)

/-- The first step of `ItemsAre`: there is no item beyond the last matcher. -/
theorem noItem_step (c : Ctx) (n : Nat) (env : Env) (v : Val) (k : Nat) (ks : List Key) :
    run c (n + 3) env (.unlessM (.hasItem k .anything)) v ks =
      match getItem v k with
      | none => .ok (some ⟨createMatch c v, [], []⟩, ks)
      | some _ => .ok (none, ks) := by
  simp only [run]
  cases getItem v k <;> simp [rewrap, found]

theorem accumLoop_nil_first {c : Ctx} {v : Val} {f : List Key → MOut} {fs : List (List Key → MOut)} {ks : List Key} {o : MObj}
    (h : f ks = .ok (some ⟨o, [], []⟩, ks)) : accumulate c v (f :: fs) ks = accumulate c v fs ks := by
  unfold accumulate
  rw [accumLoop, h]
  rfl

/-- **C43**: on a sequence, `ItemsAre(ms)` matches iff it has as many items as there are matchers and every matcher
matches its item, with bindings that merge; the result is the candidate itself, with the merged bindings.
Not so: an empty `ItemsAre` also matches things that are not sequences
(`C43_not_a_sequence_false`). -/
theorem C43_items_are (c : Ctx) (n : Nat) (env : Env) (ms : List Matcher) (v : Val) (ks ks' : List Key) (mi : MatchInfo)
    (hne : ms ≠ [] ∨ seqItems v ≠ none) :
    Hits (run c (n + 4) env (.itemsAre ms) v) ks mi ks' ↔
      ∃ vs, seqItems v = some vs ∧ vs.length = ms.length ∧
        ∃ mis, AllHit (List.zipWith (fun m w => run c (n + 2) env m w) ms vs) ks mis ks' ∧
          mi.obj = createMatch c v ∧ MergeAll [] (mis.map (·.bindings)) mi.bindings ∧ mi.replacements = [] := by
  unfold Hits
  have hrun : run c (n + 4) env (.itemsAre ms) v ks = accumulate c v
      (run c (n + 3) env (.unlessM (.hasItem ms.length .anything)) v ::
        (enumFrom 0 ms).map fun p => run c (n + 3) env (.hasItem p.1 p.2) v) ks := by
    rw [run]
  rw [hrun]
  cases hv : seqItems v with
  | none =>
    rw [accumLoop_nil_first (o := createMatch c v) (by rw [noItem_step, getItem_none hv])]
    have hms : ms ≠ [] := by rcases hne with h | h; exact h; exact absurd hv h
    obtain ⟨m, ms, rfl⟩ := List.exists_cons_of_ne_nil hms
    simp only [enumFrom, List.map_cons, accumulate, accumLoop]
    have : run c (n + 3) env (.hasItem ((0 : Nat) : Int) m) v ks = .ok (none, ks) := by
      simp only [run, getItem_none hv]
    rw [this]
    simp
  | some vs =>
    have hlen : (∃ mi k, accumulate c v (run c (n + 3) env (.unlessM (.hasItem ms.length .anything)) v ::
        (enumFrom 0 ms).map fun p => run c (n + 3) env (.hasItem p.1 p.2) v) ks = .ok (some mi, k)) → vs.length = ms.length := by
      rintro ⟨mi, k, h⟩
      have hle : vs.length ≤ ms.length := by
        apply Nat.le_of_not_lt
        intro hlt
        unfold accumulate at h
        rw [accumLoop, noItem_step, getItem_nat hv, List.getElem?_eq_getElem hlt] at h
        cases h
      apply Nat.le_antisymm hle
      apply Nat.le_of_not_lt
      intro hlt
      rw [accumLoop_nil_first (o := createMatch c v) (by rw [noItem_step, getItem_nat hv, List.getElem?_eq_none hle])] at h
      obtain ⟨mis, hall, _⟩ := (accumLoop_iff _ _ _ _ _ _ _ _).1 h
      have hmem : (vs.length, ms[vs.length]) ∈ enumFrom 0 ms := by
        have : ∀ (i k : Nat) (l : List Matcher) (h : k < l.length), (i + k, l[k]) ∈ enumFrom i l := by
          intro i k l
          induction l generalizing i k with
          | nil => intro h; simp at h
          | cons x xs ih =>
            intro h
            cases k with
            | zero => simp [enumFrom]
            | succ k =>
              have := ih (i + 1) k (by simpa using h)
              rw [show i + 1 + k = i + (k + 1) by omega] at this
              simp [enumFrom, this]
        have := this 0 vs.length ms hlt
        simpa using this
      obtain ⟨k1, mi1, k2, hh⟩ := hall.mem _ (List.mem_map.2 ⟨_, hmem, rfl⟩)
      unfold Hits at hh
      simp only [run, getItem_nat hv, List.getElem?_eq_none (Nat.le_refl _)] at hh
      cases hh
    constructor
    · intro h
      have hl := hlen ⟨_, _, h⟩
      rw [accumLoop_nil_first (o := createMatch c v) (by rw [noItem_step, getItem_nat hv, List.getElem?_eq_none (by omega)])] at h
      obtain ⟨mis, hall, ho, hb, hr⟩ := (accumLoop_iff _ _ _ _ _ _ _ _).1 h
      obtain ⟨mis0, h0, rfl⟩ := (allHit_items hv ms 0 (by omega) _ _ _).1 hall
      refine ⟨vs, rfl, hl, mis0, by simpa using h0, ho, by simpa [List.map_map, Function.comp_def] using hb, ?_⟩
      have : ∀ (l : List MatchInfo) (r : Replacements), MergeAllRepl [] (l.map fun _ => []) r → r = [] := by
        intro l r
        induction l with
        | nil => intro h; cases h; rfl
        | cons x xs ih =>
          intro h
          cases h with
          | cons h1 h2 => cases h1; exact ih h2
      exact this mis0 _ (by simpa [List.map_map, Function.comp_def] using hr)
    · rintro ⟨vs', e, hl, mis0, h0, ho, hb, hr⟩
      cases e
      rw [accumLoop_nil_first (o := createMatch c v) (by rw [noItem_step, getItem_nat hv, List.getElem?_eq_none (by omega)])]
      refine (accumLoop_iff _ _ _ _ _ _ _ _).2 ⟨mis0.map (fun mi => ⟨createMatch c v, mi.bindings, []⟩),
        (allHit_items hv ms 0 (by omega) _ _ _).2 ⟨mis0, by simpa using h0, rfl⟩, ho, by simpa [List.map_map, Function.comp_def] using hb, ?_⟩
      rw [hr]
      have : ∀ (l : List MatchInfo), MergeAllRepl [] (l.map fun _ => []) [] := by
        intro l
        induction l with
        | nil => exact .nil
        | cons x xs ih => exact .cons rfl ih
      have := this mis0
      simpa [List.map_map, Function.comp_def] using this

/-- **C43**, refutation of the full claim: `ItemsAre([])` matches a number. -/
theorem C43_not_a_sequence_false :
    ∃ mi, run exCtx 4 [] (.itemsAre []) (.const 3 (.int 5)) [] = .ok (some mi, []) ∧ seqItems (.const 3 (.int 5)) = none :=
  ⟨_, rfl, rfl⟩

/-- Non-vacuity of C43: two items, two matchers; and one item too many. -/
example : (∃ mi, run exCtx 6 [] (.itemsAre [.bind (str "a") .anything none none, .typeIs (str "str")]) (.list 9 [exStr, exStr]) [] =
      .ok (some mi, []) ∧ mi.bindings.keys = [str "a"]) ∧
    run exCtx 6 [] (.itemsAre [.anything, .anything]) (.list 9 [exStr, exStr, exStr]) [] = .ok (none, []) :=
  ⟨⟨_, rfl, by decide⟩, rfl⟩

end Refex
