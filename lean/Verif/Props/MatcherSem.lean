import Verif.Spec.MatcherSem
import Verif.Lemmas.Dict
/-
Property C74: the elementary matchers, one by one. `n` is the recursion depth left (C62: more depth changes nothing).
-/
namespace Refex
set_option autoImplicit false

/-! ### Locating -/

theorem createMatch_located (c : Ctx) (v : Val) : Located c v (createMatch c v) := by
  cases v with
  | const i k =>
    cases k with
    | str s => exact .string i s
    | none => exact .constant i _ (by intro s h; cases h)
    | bool b => exact .constant i _ (by intro s h; cases h)
    | int b => exact .constant i _ (by intro s h; cases h)
    | ellipsis => exact .constant i _ (by intro s h; cases h)
    | other a b => exact .constant i _ (by intro s h; cases h)
  | list i vs => exact .list i vs
  | node i ty ns vs =>
    unfold createMatch
    cases h : c.tok i with
    | none => simp only [h]; exact .untokenized h
    | some sp =>
      simp only [h]
      by_cases h1 : ty = str "arguments"
      · subst h1
        rw [if_pos rfl]
        split
        · rename_i j a as e
          exact .parameters h e
        · rename_i hn
          exact .noParameters fun j a as e => hn j a as e
      · rw [if_neg h1]
        by_cases h2 : ty = str "alias"
        · subst h2
          rw [if_pos rfl]
          exact .alias i ns vs
        · rw [if_neg h2]
          exact .node h h2 h1

theorem located_unique {c : Ctx} {v : Val} {a b : MObj} (h1 : Located c v a) (h2 : Located c v b) : a = b := by
  cases h1 with
  | string i s =>
    cases h2 with
    | string => rfl
    | constant _ _ h => exact absurd rfl (h s)
  | constant i k h =>
    cases h2 with
    | string _ s => exact absurd rfl (h s)
    | constant => rfl
  | list => cases h2; rfl
  | node h a b =>
    cases h2 with
    | node h' => rw [h] at h'; cases h'; rfl
    | parameters => exact absurd rfl b
    | noParameters => exact absurd rfl b
    | alias => exact absurd rfl a
    | untokenized h' => rw [h] at h'; cases h'
  | parameters h e =>
    cases h2 with
    | node _ _ b => exact absurd rfl b
    | parameters h' => rw [h] at h'; cases h'; rfl
    | noParameters hn => exact absurd e (hn _ _ _)
    | untokenized h' => rw [h] at h'; cases h'
  | noParameters hn =>
    cases h2 with
    | node _ _ b => exact absurd rfl b
    | parameters h e => exact absurd e (hn _ _ _)
    | noParameters => rfl
    | untokenized => rfl
  | alias =>
    cases h2 with
    | node _ a _ => exact absurd rfl a
    | alias => rfl
    | untokenized => rfl
  | untokenized h =>
    cases h2 with
    | node h' => rw [h] at h'; cases h'
    | parameters h' => rw [h] at h'; cases h'
    | noParameters => rfl
    | alias => rfl
    | untokenized => rfl

/-- **C74**: where a matched object is in the file. -/
theorem C74_located (c : Ctx) (v : Val) (o : MObj) : createMatch c v = o ↔ Located c v o :=
  ⟨fun h => h ▸ createMatch_located c v, fun h => located_unique (createMatch_located c v) h⟩

theorem accepts_iff (c : Ctx) (v : Val) (mi : MatchInfo) : mi = ⟨createMatch c v, [], []⟩ ↔ Accepts c v mi := by
  constructor
  · rintro rfl; exact ⟨createMatch_located c v, rfl, rfl⟩
  · rintro ⟨h1, h2, h3⟩
    cases mi
    simp only at h1 h2 h3
    rw [(C74_located c v _).2 h1, h2, h3]

/-! ### Equality -/

theorem pyEqual_list {i j : Nat} {vs ws : List Val} : PyEqual (.list i vs) (.list j ws) ↔
    (vs = [] ∧ ws = []) ∨ ∃ v vs' w ws', vs = v :: vs' ∧ ws = w :: ws' ∧ PyEqual v w ∧ PyEqual (.list i vs') (.list j ws') := by
  constructor
  · intro h
    cases h with
    | nil => exact .inl ⟨rfl, rfl⟩
    | cons h1 h2 => exact .inr ⟨_, _, _, _, rfl, rfl, h1, h2⟩
  · rintro (⟨rfl, rfl⟩ | ⟨_, _, _, _, rfl, rfl, h1, h2⟩)
    · exact .nil _ _
    · exact .cons h1 h2

theorem whole_iff (c : Const) (n : Int) : c.whole? = some n ↔ IsWhole c n := by
  constructor
  · intro h
    cases c with
    | bool b => cases b <;> cases h <;> constructor
    | int i => cases h; constructor
    | other t r m =>
      unfold Const.whole? at h
      simp only at h
      split at h
      · rename_i ht
        cases h
        rcases ht with rfl | rfl
        · exact .float ..
        · exact .complex ..
      · cases h
    | _ => cases h
  · intro h
    cases h with
    | float => unfold Const.whole?; simp
    | complex => unfold Const.whole?; simp
    | _ => rfl

theorem constPyEq_iff (a b : Const) (i j : Nat) : a.pyEq b = true ↔ PyEqual (.const i a) (.const j b) := by
  unfold Const.pyEq
  constructor
  · intro h
    split at h
    · rename_i m n hm hn
      have h := of_decide_eq_true h
      subst h
      exact .whole i j ((whole_iff ..).1 hm) ((whole_iff ..).1 hn)
    · have h := of_decide_eq_true h
      subst h; exact .same i j a
  · intro h
    cases h with
    | same => split <;> simp_all
    | whole _ _ h1 h2 =>
      rw [(whole_iff ..).2 h1, (whole_iff ..).2 h2]
      simp

mutual
theorem pyEq_iff : ∀ (v w : Val), v.pyEq w = true ↔ PyEqual v w
  | .const i a, .const j b => by simp only [Val.pyEq]; exact constPyEq_iff a b i j
  | .list i vs, .list j ws => by simp only [Val.pyEq]; exact pyEqs_iff vs ws i j
  | .node i t ns vs, .node j t' ns' vs' => by
    simp only [Val.pyEq, decide_eq_true_eq]
    constructor
    · rintro rfl; exact .node i _ _ _ _ _ _
    · intro h; cases h; rfl
  | .const .., .list .. => by simp only [Val.pyEq]; constructor <;> intro h <;> cases h
  | .const .., .node .. => by simp only [Val.pyEq]; constructor <;> intro h <;> cases h
  | .list .., .const .. => by simp only [Val.pyEq]; constructor <;> intro h <;> cases h
  | .list .., .node .. => by simp only [Val.pyEq]; constructor <;> intro h <;> cases h
  | .node .., .const .. => by simp only [Val.pyEq]; constructor <;> intro h <;> cases h
  | .node .., .list .. => by simp only [Val.pyEq]; constructor <;> intro h <;> cases h
theorem pyEqs_iff : ∀ (vs ws : List Val) (i j : Nat), Val.pyEqs vs ws = true ↔ PyEqual (.list i vs) (.list j ws)
  | [], [], i, j => by simp only [Val.pyEqs, true_iff]; exact .nil i j
  | [], w :: ws, i, j => by simp only [Val.pyEqs]; constructor <;> intro h <;> cases h
  | v :: vs, [], i, j => by simp only [Val.pyEqs]; constructor <;> intro h <;> cases h
  | v :: vs, w :: ws, i, j => by
    simp only [Val.pyEqs, Bool.and_eq_true, pyEq_iff v w, pyEqs_iff vs ws i j]
    constructor
    · rintro ⟨h1, h2⟩; exact .cons h1 h2
    · intro h; cases h with | cons h1 h2 => exact ⟨h1, h2⟩
end

/-! ### Matchers without submatchers -/

/-- **C74**: `Anything()` accepts every candidate. -/
theorem C74_anything (c : Ctx) (n : Nat) (env : Env) (v : Val) (ks : List Key) :
    ∃ mi, Hits (run c (n + 1) env .anything v) ks mi ks ∧ Accepts c v mi :=
  ⟨_, rfl, (accepts_iff c v _).1 rfl⟩

/-- **C74**: `Equals(w)` accepts exactly what equals `w`. -/
theorem C74_equals (c : Ctx) (n : Nat) (env : Env) (w v : Val) : IsTest c (run c (n + 1) env (.equals w) v) v (PyEqual v w) := by
  constructor
  · intro ks h
    refine ⟨⟨createMatch c v, [], []⟩, ?_, (accepts_iff c v _).1 rfl⟩
    unfold Hits
    simp only [run, if_pos ((pyEq_iff v w).2 h), found]
  · intro ks h
    unfold Misses
    simp only [run, if_neg (fun h' => h ((pyEq_iff v w).1 h'))]

/-- **C74**: `TypeIs(t)` accepts exactly the objects of that very type. -/
theorem C74_type_is (c : Ctx) (n : Nat) (env : Env) (ty : Str) (v : Val) : IsTest c (run c (n + 1) env (.typeIs ty) v) v (v.ty = ty) := by
  constructor
  · intro ks h
    refine ⟨⟨createMatch c v, [], []⟩, ?_, (accepts_iff c v _).1 rfl⟩
    unfold Hits
    simp only [run, if_pos h, found]
  · intro ks h
    unfold Misses
    simp only [run, if_neg h]

/-- **C74**: `InLines(lines)` accepts exactly the nodes that begin on one of the lines. -/
theorem C74_in_lines (c : Ctx) (n : Nat) (env : Env) (lines : List Nat) (v : Val) :
    IsTest c (run c (n + 1) env (.inLines lines) v) v
      (∃ i ty ns vs l, v = .node i ty ns vs ∧ c.lineno i = some l ∧ l ∈ lines) := by
  constructor
  · rintro ks ⟨i, ty, ns, vs, l, rfl, h1, h2⟩
    refine ⟨⟨createMatch c (.node i ty ns vs), [], []⟩, ?_, (accepts_iff c _ _).1 rfl⟩
    unfold Hits
    simp only [run, h1, if_pos h2, found]
  · intro ks h
    unfold Misses
    cases v with
    | const i k => simp only [run]
    | list i vs => simp only [run]
    | node i ty ns vs =>
      simp only [run]
      cases h1 : c.lineno i with
      | none => rfl
      | some l =>
        have : l ∉ lines := fun hl => h ⟨i, ty, ns, vs, l, rfl, h1, hl⟩
        simp only [if_neg this]

/-! ### Regular expressions -/

theorem regexBindings_bound (c : Ctx) (rx : Str) (g : Label → Option Span) : GroupsBound c rx g (regexBindings c rx g) := by
  have hget : ∀ l, l ∈ c.rxGroups rx → (regexBindings c rx g).get? l = some ⟨.span (match g l with
      | some (a, b) => slice c.text a b
      | none => []) (g l), .merge, .keepLast⟩ := by
    unfold regexBindings
    induction c.rxGroups rx with
    | nil => intro l h; cases h
    | cons x xs ih =>
      intro l hl
      by_cases e : x = l
      · subst e
        simp only [List.map_cons, Dict.get?, if_true]
        cases g x <;> rfl
      · have := ih l (by rcases List.mem_cons.1 hl with h | h; exact absurd h.symm e; exact h)
        simp only [List.map_cons, Dict.get?, if_neg e] at this ⊢
        exact this
  refine ⟨?_, ?_, ?_⟩
  · simp [regexBindings, Dict.keys, List.map_map, Function.comp_def]
  · intro l a e hl hg
    rw [hget l hl, hg]
    rfl
  · intro l hl hg
    rw [hget l hl, hg]

theorem groupsBound_unique {c : Ctx} {rx : Str} {g : Label → Option Span} {b : Bindings} (hn : (c.rxGroups rx).Nodup)
    (h : GroupsBound c rx g b) : b = regexBindings c rx g := by
  have h' := regexBindings_bound c rx g
  have key : ∀ (b b' : Bindings), b.keys = b'.keys → b.keys.Nodup → (∀ l ∈ b.keys, b.get? l = b'.get? l) → b = b' := by
    intro b
    induction b with
    | nil => intro b' h _ _; cases b' with
      | nil => rfl
      | cons _ _ => simp [Dict.keys] at h
    | cons e b ih =>
      intro b' hk hnd hg
      cases b' with
      | nil => simp [Dict.keys] at hk
      | cons e' b' =>
        obtain ⟨k, x⟩ := e
        obtain ⟨k', x'⟩ := e'
        simp only [Dict.keys, List.map_cons, List.cons.injEq] at hk
        obtain ⟨rfl, hk⟩ := hk
        simp only [Dict.keys, List.map_cons, List.nodup_cons] at hnd
        have e1 := hg k (by simp [Dict.keys])
        simp only [Dict.get?, if_true, Option.some.injEq] at e1
        subst e1
        have : b = b' := by
          refine ih b' hk hnd.2 fun l hl => ?_
          have hne : k ≠ l := by rintro rfl; exact hnd.1 hl
          have := hg l (by simp only [Dict.keys, List.map_cons, List.mem_cons]; exact .inr hl)
          simpa only [Dict.get?, if_neg hne] using this
        rw [this]
  refine key _ _ (h.labels.trans h'.labels.symm) (h.labels ▸ hn) fun l hl => ?_
  rw [h.labels] at hl
  cases hg : g l with
  | none => rw [h.absent l hl hg, h'.absent l hl hg]
  | some sp => rw [h.text l sp.1 sp.2 hl hg, h'.text l sp.1 sp.2 hl hg]

theorem span?_iff (m : MObj) (sp : Span) : m.span? = some sp ↔ PlacedAt m sp := by
  constructor
  · intro h
    cases m <;> simp only [MObj.span?] at h
    · cases h; exact .lexical _ _
    · cases h
    · cases h
    · subst h; exact .text _ _
    · cases h
  · intro h; cases h <;> rfl

/-- **C74**: `MatchesRegex(rx, m)` accepts exactly what `m` accepts at a place in the file that the regular expression
matches as a whole, if the text of the named groups can be bound beside what `m` binds. -/
theorem C74_matches_regex (c : Ctx) (n : Nat) (env : Env) (rx : Str) (m : Matcher) (v : Val) (ks ks' : List Key) (mi : MatchInfo)
    (hn : (c.rxGroups rx).Nodup) :
    Hits (run c (n + 1) env (.matchesRegex rx m) v) ks mi ks' ↔
      ∃ mi' a e g b, Hits (run c n env m v) ks mi' ks' ∧ PlacedAt mi'.obj (a, e) ∧ c.rxMatch rx a e = some g ∧
        GroupsBound c rx g b ∧ mergeBindings b mi'.bindings = .ok (some mi.bindings) ∧
        mi.obj = mi'.obj ∧ mi.replacements = mi'.replacements := by
  unfold Hits
  simp only [run]
  constructor
  · intro h
    split at h
    · cases h
    · cases h
    · rename_i mi' ks1 e1
      split at h
      · cases h
      · rename_i a e e2
        split at h
        · cases h
        · rename_i g e3
          split at h
          · cases h
          · cases h
          · rename_i bs e4
            cases h
            exact ⟨mi', a, e, g, _, e1, (span?_iff _ _).1 e2, e3, regexBindings_bound c rx g, e4, rfl, rfl⟩
  · rintro ⟨mi', a, e, g, b, h1, h2, h3, h4, h5, h6, h7⟩
    rw [groupsBound_unique hn h4] at h5
    have h2 := (span?_iff _ _).2 h2
    simp only [h1, h2, h3, h5]
    cases mi
    cases mi'
    simp only at h6 h7
    subst h6 h7
    rfl

/-- **C74**: `FileMatchesRegex(rx)` accepts everything if the regular expression matches somewhere in the file, and nothing
otherwise; it binds the text of the named groups. -/
theorem C74_file_matches_regex (c : Ctx) (n : Nat) (env : Env) (rx : Str) (v : Val) (ks : List Key) :
    (c.rxSearch rx = none → Misses (run c (n + 1) env (.fileMatchesRegex rx) v) ks ks) ∧
    (∀ g, c.rxSearch rx = some g → ∃ mi, Hits (run c (n + 1) env (.fileMatchesRegex rx) v) ks mi ks ∧
      mi.obj = .bare ∧ GroupsBound c rx g mi.bindings ∧ mi.replacements = []) := by
  unfold Misses Hits
  constructor
  · intro h; simp only [run, h]
  · intro g h
    refine ⟨⟨.bare, regexBindings c rx g, []⟩, ?_, rfl, regexBindings_bound c rx g, rfl⟩
    simp only [run, h]

/-! ### Sequences -/

theorem seqItems_iff (v : Val) (xs : List Val) : seqItems v = some xs ↔ IsSeq v xs := by
  constructor
  · intro h
    unfold seqItems at h
    split at h
    · cases h; exact .list _ _
    · cases h; exact .string _ _
    · cases h
  · intro h; cases h <;> rfl

theorem getItem_iff (v : Val) (i : Int) (w : Val) : getItem v i = some w ↔ ItemAt v i w := by
  unfold getItem
  constructor
  · intro h
    split at h
    · cases h
    · rename_i xs e
      have hs := (seqItems_iff v xs).1 e
      split at h
      · rename_i h0
        have : i = (i.toNat : Int) := by omega
        rw [this]
        exact .front hs h
      · rename_i h0
        split at h
        · rename_i h1
          obtain ⟨k, hk⟩ : ∃ k : Nat, i = -1 - (k : Int) := ⟨(-1 - i).toNat, by omega⟩
          subst hk
          refine .back hs ?_
          have hk : k < xs.length := by omega
          rw [List.getElem?_reverse hk]
          have : (xs.length + (-1 - (k : Int))).toNat = xs.length - 1 - k := by omega
          rw [this] at h
          exact h
        · cases h
  · intro h
    cases h with
    | @front xs k _ hs hk =>
      rw [(seqItems_iff v xs).2 hs]
      simp only [Int.natCast_nonneg, if_true, Int.toNat_natCast]
      exact hk
    | @back xs k _ hs hk =>
      rw [(seqItems_iff v xs).2 hs]
      have hl : k < xs.length := by
        rcases Nat.lt_or_ge k xs.length with h | h
        · exact h
        · rw [List.getElem?_eq_none (by simpa using h)] at hk; cases hk
      rw [List.getElem?_reverse hl] at hk
      have h1 : ¬ (0 ≤ -1 - (k : Int)) := by omega
      have h2 : 0 ≤ (xs.length : Int) + (-1 - (k : Int)) := by omega
      have h3 : ((xs.length : Int) + (-1 - (k : Int))).toNat = xs.length - 1 - k := by omega
      simp only [if_neg h1, if_pos h2, h3]
      exact hk

theorem rewrap_hits (c : Ctx) (v : Val) (r : MOut) (mi : MatchInfo) (ks' : List Key) :
    rewrap c v r = .ok (some mi, ks') ↔ ∃ mi', r = .ok (some mi', ks') ∧ Located c v mi.obj ∧ mi.bindings = mi'.bindings ∧ mi.replacements = [] := by
  unfold rewrap
  constructor
  · intro h
    split at h
    · cases h
    · cases h
    · rename_i mi' ks1
      cases h
      exact ⟨mi', rfl, createMatch_located c v, rfl, rfl⟩
  · rintro ⟨mi', rfl, h1, h2, h3⟩
    simp only [found, (C74_located c v _).2 h1, ← h2, ← h3]

theorem rewrap_misses (c : Ctx) (v : Val) (r : MOut) (ks' : List Key) : rewrap c v r = .ok (none, ks') ↔ r = .ok (none, ks') := by
  unfold rewrap
  constructor
  · intro h
    split at h
    · cases h
    · exact h
    · cases h
  · rintro rfl; rfl

/-- **C74**: `HasItem(i, m)` accepts exactly the sequences whose item `i` (from the back if negative) is accepted by `m`; it
reports the sequence, with the bindings of `m`. A sequence without such an item, or no sequence, is not accepted. -/
theorem C74_has_item (c : Ctx) (n : Nat) (env : Env) (i : Int) (m : Matcher) (v : Val) (ks ks' : List Key) :
    (∀ mi, Hits (run c (n + 1) env (.hasItem i m) v) ks mi ks' ↔
      ∃ w mi', ItemAt v i w ∧ Hits (run c n env m w) ks mi' ks' ∧ Located c v mi.obj ∧ mi.bindings = mi'.bindings ∧ mi.replacements = []) ∧
    (Misses (run c (n + 1) env (.hasItem i m) v) ks ks' ↔
      ((¬ ∃ w, ItemAt v i w) ∧ ks' = ks) ∨ ∃ w, ItemAt v i w ∧ Misses (run c n env m w) ks ks') := by
  unfold Hits Misses
  simp only [run]
  cases h : getItem v i with
  | none =>
    have hno : ∀ w, ¬ ItemAt v i w := fun w hw => by rw [(getItem_iff v i w).2 hw] at h; cases h
    constructor
    · intro mi
      constructor
      · intro h'; cases h'
      · rintro ⟨w, _, hw, _⟩; exact absurd hw (hno w)
    · constructor
      · intro h'; cases h'; exact .inl ⟨fun ⟨w, hw⟩ => hno w hw, rfl⟩
      · rintro (⟨_, rfl⟩ | ⟨w, hw, _⟩)
        · rfl
        · exact absurd hw (hno w)
  | some w =>
    have hw := (getItem_iff v i w).1 h
    have huniq : ∀ w', ItemAt v i w' → w' = w := fun w' hw' => by
      rw [(getItem_iff v i w').2 hw'] at h; cases h; rfl
    simp only [rewrap_hits, rewrap_misses]
    constructor
    · intro mi
      constructor
      · rintro ⟨mi', h1, h2⟩; exact ⟨w, mi', hw, h1, h2⟩
      · rintro ⟨w', mi', hw', h1, h2⟩; rw [huniq w' hw'] at h1; exact ⟨mi', h1, h2⟩
    · constructor
      · intro h'; exact .inr ⟨w, hw, h'⟩
      · rintro (⟨hno, _⟩ | ⟨w', hw', h'⟩)
        · exact absurd ⟨w, hw⟩ hno
        · rw [huniq w' hw'] at h'; exact h'

theorem firstMatch_hits (fs : List (List Key → MOut)) (ks ks' : List Key) (mi : MatchInfo) :
    firstMatch fs ks = .ok (some mi, ks') ↔ ∃ pre f post ks1, fs = pre ++ f :: post ∧ TriedAll pre ks ks1 ∧ Hits f ks1 mi ks' := by
  induction fs generalizing ks with
  | nil =>
    simp only [firstMatch]
    constructor
    · intro h; cases h
    · rintro ⟨pre, f, post, ks1, h, _⟩; simp at h
  | cons f fs ih =>
    simp only [firstMatch]
    constructor
    · intro h
      split at h
      · cases h
      · rename_i ks1 e
        obtain ⟨pre, f', post, ks2, h1, h2, h3⟩ := (ih ks1).1 h
        exact ⟨f :: pre, f', post, ks2, by rw [h1]; rfl, .cons e h2, h3⟩
      · rename_i mi1 ks1 e
        cases h
        exact ⟨[], f, fs, ks, rfl, .nil, e⟩
    · rintro ⟨pre, f', post, ks2, h1, h2, h3⟩
      cases pre with
      | nil =>
        simp only [List.nil_append, List.cons.injEq] at h1
        obtain ⟨rfl, rfl⟩ := h1
        cases h2
        unfold Hits at h3
        rw [h3]
      | cons g pre =>
        simp only [List.cons_append, List.cons.injEq] at h1
        obtain ⟨rfl, h1⟩ := h1
        cases h2 with
        | cons hm ht =>
          unfold Misses at hm
          rw [hm]
          exact (ih _).2 ⟨pre, f', post, ks2, h1, ht, h3⟩

theorem firstMatch_misses (fs : List (List Key → MOut)) (ks ks' : List Key) : firstMatch fs ks = .ok (none, ks') ↔ TriedAll fs ks ks' := by
  induction fs generalizing ks with
  | nil =>
    simp only [firstMatch]
    constructor
    · intro h; cases h; exact .nil
    · intro h; cases h; rfl
  | cons f fs ih =>
    simp only [firstMatch]
    constructor
    · intro h
      split at h
      · cases h
      · rename_i ks1 e
        exact .cons e ((ih ks1).1 h)
      · cases h
    · intro h
      cases h with
      | cons hm ht =>
        unfold Misses at hm
        rw [hm]
        exact (ih _).2 ht

/-- **C74**: `Contains(m)` accepts exactly the sequences some item of which is accepted by `m`: it reports the sequence, with
the bindings of the first such item. -/
theorem C74_contains (c : Ctx) (n : Nat) (env : Env) (m : Matcher) (v : Val) (ks ks' : List Key) :
    (∀ mi, Hits (run c (n + 1) env (.contains m) v) ks mi ks' ↔
      ∃ xs pre w post ks1 mi', IsSeq v xs ∧ xs = pre ++ w :: post ∧ TriedAll (pre.map (run c n env m)) ks ks1 ∧
        Hits (run c n env m w) ks1 mi' ks' ∧ Located c v mi.obj ∧ mi.bindings = mi'.bindings ∧ mi.replacements = []) ∧
    (Misses (run c (n + 1) env (.contains m) v) ks ks' ↔
      ((¬ ∃ xs, IsSeq v xs) ∧ ks' = ks) ∨ ∃ xs, IsSeq v xs ∧ TriedAll (xs.map (run c n env m)) ks ks') := by
  unfold Hits Misses
  simp only [run]
  cases h : seqItems v with
  | none =>
    have hno : ∀ xs, ¬ IsSeq v xs := fun xs hx => by rw [(seqItems_iff v xs).2 hx] at h; cases h
    constructor
    · intro mi
      constructor
      · intro h'; cases h'
      · rintro ⟨xs, _, _, _, _, _, hx, _⟩; exact absurd hx (hno xs)
    · constructor
      · intro h'; cases h'; exact .inl ⟨fun ⟨w, hw⟩ => hno w hw, rfl⟩
      · rintro (⟨_, rfl⟩ | ⟨w, hw, _⟩)
        · rfl
        · exact absurd hw (hno w)
  | some xs =>
    have hx := (seqItems_iff v xs).1 h
    have huniq : ∀ xs', IsSeq v xs' → xs' = xs := fun w' hw' => by
      rw [(seqItems_iff v w').2 hw'] at h; cases h; rfl
    simp only [rewrap_hits, rewrap_misses, firstMatch_hits, firstMatch_misses]
    constructor
    · intro mi
      constructor
      · rintro ⟨mi', ⟨pre, f, post, ks1, h1, h2, h3⟩, h4⟩
        obtain ⟨pre', rest, rfl, rfl, h5⟩ := List.map_eq_append_iff.1 h1
        obtain ⟨w, post', rfl, rfl, rfl⟩ := List.map_eq_cons_iff.1 h5
        exact ⟨_, pre', w, post', ks1, mi', hx, rfl, h2, h3, h4⟩
      · rintro ⟨xs', pre, w, post, ks1, mi', hx', h1, h2, h3, h4⟩
        rw [huniq xs' hx'] at h1
        subst h1
        exact ⟨mi', ⟨_, _, post.map (run c n env m), ks1, by simp, h2, h3⟩, h4⟩
    · constructor
      · intro h'; exact .inr ⟨xs, hx, h'⟩
      · rintro (⟨hno, _⟩ | ⟨w', hw', h'⟩)
        · exact absurd ⟨xs, hx⟩ hno
        · rw [huniq w' hw'] at h'; exact h'

/-! ### Nodes -/

theorem accumLoop_hits (c : Ctx) (v : Val) (fs : List (List Key → MOut)) (b : Bindings) (r : Replacements) (ks ks' : List Key) (mi : MatchInfo) :
    accumLoop c v fs b r ks = .ok (some mi, ks') ↔ ∃ mis, AllHit fs ks mis ks' ∧ Located c v mi.obj ∧
      MergeAll b (mis.map (·.bindings)) mi.bindings ∧ MergeAllRepl r (mis.map (·.replacements)) mi.replacements := by
  induction fs generalizing b r ks with
  | nil =>
    simp only [accumLoop]
    constructor
    · intro h; cases h; exact ⟨[], .nil, createMatch_located c v, .nil, .nil⟩
    · rintro ⟨mis, h1, h2, h3, h4⟩
      cases h1
      cases mi
      simp only [List.map_nil] at h2 h3 h4
      cases h3
      cases h4
      rw [(C74_located c v _).2 h2]
  | cons f fs ih =>
    simp only [accumLoop]
    constructor
    · intro h
      split at h
      · cases h
      · cases h
      · rename_i mi1 ks1 e1
        split at h
        · cases h
        · cases h
        · rename_i b1 e2
          split at h
          · cases h
          · rename_i r1 e3
            obtain ⟨mis, h1, h2, h3, h4⟩ := (ih b1 r1 ks1).1 h
            exact ⟨mi1 :: mis, .cons e1 h1, h2, .cons e2 h3, .cons e3 h4⟩
    · rintro ⟨mis, h1, h2, h3, h4⟩
      cases h1 with
      | cons hf hs =>
        simp only [List.map_cons] at h3 h4
        cases h3 with
        | cons e2 h3 =>
          cases h4 with
          | cons e3 h4 =>
            unfold Hits at hf
            simp only [hf, e2, e3]
            exact (ih _ _ _).2 ⟨_, hs, h2, h3, h4⟩

/-- **C74**: the matcher of a node type accepts exactly the nodes of that very type whose fields are accepted by the matchers
given for them, one after the other, with bindings (and templates) that can be merged; it reports the node. -/
theorem C74_node (c : Ctx) (n : Nat) (env : Env) (ty : Str) (names : List Str) (ms : List Matcher) (v : Val) (ks ks' : List Key) (mi : MatchInfo) :
    Hits (run c (n + 1) env (.node ty names ms) v) ks mi ks' ↔
      v.ty = ty ∧ ∃ mis, AllHit ((names.zip ms).map fun p => run c n env p.2 (v.getattr p.1)) ks mis ks' ∧ Located c v mi.obj ∧
        MergeAll [] (mis.map (·.bindings)) mi.bindings ∧ MergeAllRepl [] (mis.map (·.replacements)) mi.replacements := by
  unfold Hits
  simp only [run]
  by_cases h : v.ty = ty
  · simp only [ne_eq, h, not_true_eq_false, if_false, true_and, accumulate]
    exact accumLoop_hits c v _ _ _ _ _ _
  · simp [h]

/-- **C74**: `Num`, `Str` and the like accept exactly the constants whose value is of one of the given types (and no
subclass) and accepted by the matcher; what is reported is the constant. -/
theorem C74_constant (c : Ctx) (n : Nat) (env : Env) (tys : List Str) (m : Matcher) (v : Val) (ks ks' : List Key) (mi : MatchInfo) :
    Hits (run c (n + 1) env (.constant tys m) v) ks mi ks' ↔
      v.ty = str "Constant" ∧ (v.getattr (str "value")).ty ∈ tys ∧ ∃ mi', Hits (run c n env m (v.getattr (str "value"))) ks mi' ks' ∧
        Located c v mi.obj ∧ mi.bindings = mi'.bindings ∧ mi.replacements = [] := by
  unfold Hits
  simp only [run]
  by_cases h : v.ty = str "Constant"
  · by_cases h2 : (v.getattr (str "value")).ty ∈ tys
    · simp only [ne_eq, h, not_true_eq_false, if_false, true_and, h2, rewrap_hits]
    · simp [h2]
  · simp [h]

/-! ### Binding and templates -/

/-- **C74**: `Bind(name, m)` accepts exactly what `m` accepts, if its match can be bound to the name beside the bindings of
`m`; it reports the same match. -/
theorem C74_bind (c : Ctx) (n : Nat) (env : Env) (name : Label) (m : Matcher) (oc : Option BindConflict) (om : Option BindMerge) (v : Val)
    (ks ks' : List Key) (mi : MatchInfo) :
    Hits (run c (n + 1) env (.bind name m oc om) v) ks mi ks' ↔
      ∃ mi', Hits (run c n env m v) ks mi' ks' ∧ mi.obj = mi'.obj ∧ mi.replacements = mi'.replacements ∧
        mergeBindings mi'.bindings [(name, ⟨mi'.obj, oc.getD .merge, om.getD .keepLast⟩)] = .ok (some mi.bindings) := by
  unfold Hits
  simp only [run]
  constructor
  · intro h
    split at h
    · cases h
    · cases h
    · rename_i mi1 ks1 e1
      split at h
      · cases h
      · cases h
      · rename_i b e2
        cases h
        exact ⟨mi1, e1, rfl, rfl, e2⟩
  · rintro ⟨mi', h1, h2, h3, h4⟩
    simp only [h1, h4]
    rw [← h2, ← h3]

/-- **C74**: `Rebind(m)` accepts exactly what `m` accepts, with the same values bound, under the given policies where given. -/
theorem C74_rebind (c : Ctx) (n : Nat) (env : Env) (m : Matcher) (oc : Option BindConflict) (om : Option BindMerge) (v : Val)
    (ks ks' : List Key) (mi : MatchInfo) :
    Hits (run c (n + 1) env (.rebind m oc om) v) ks mi ks' ↔
      ∃ mi', Hits (run c n env m v) ks mi' ks' ∧ mi.obj = mi'.obj ∧ mi.replacements = mi'.replacements ∧
        mi.bindings = mi'.bindings.map fun e => (e.1, ⟨e.2.value, oc.getD e.2.onConflict, om.getD e.2.onMerge⟩) := by
  unfold Hits
  simp only [run]
  constructor
  · intro h
    split at h
    · cases h
    · cases h
    · rename_i mi1 ks1 e1
      cases h
      exact ⟨mi1, e1, rfl, rfl, rfl⟩
  · rintro ⟨mi', h1, h2, h3, h4⟩
    cases mi
    simp only at h2 h3 h4
    subst h2 h3 h4
    simp only [h1]
    rfl

/-- **C74**: `WithReplacements(m, ts)` accepts exactly what `m` accepts, with the templates added to those below, if no label
has a template in both; otherwise it raises a `ValueError`-like error (C37). -/
theorem C74_with_replacements (c : Ctx) (n : Nat) (env : Env) (m : Matcher) (ts : Replacements) (v : Val) (ks ks' : List Key) (mi : MatchInfo) :
    Hits (run c (n + 1) env (.withReplacements m ts) v) ks mi ks' ↔
      ∃ mi', Hits (run c n env m v) ks mi' ks' ∧ mi.obj = mi'.obj ∧ mi.bindings = mi'.bindings ∧
        mergeReplacements mi'.replacements ts = .ok mi.replacements := by
  unfold Hits
  simp only [run]
  constructor
  · intro h
    split at h
    · cases h
    · cases h
    · rename_i mi1 ks1 e1
      split at h
      · cases h
      · rename_i r e2
        cases h
        exact ⟨mi1, e1, rfl, rfl, e2⟩
  · rintro ⟨mi', h1, h2, h3, h4⟩
    simp only [h1, h4, ← h2, ← h3]

/-- **C74**: `HasComments(m)` and `NoComments(m)` accept exactly what `m` accepts with a place in the file where there is, or
is not, a comment. -/
theorem C74_comments (c : Ctx) (n : Nat) (env : Env) (want : Bool) (m : Matcher) (v : Val) (ks ks' : List Key) (mi : MatchInfo) :
    Hits (run c (n + 1) env (.comments want m) v) ks mi ks' ↔
      Hits (run c n env m v) ks mi ks' ∧ ∃ w sp, mi.obj = .lexical w sp ∧ c.comment w.ident = want := by
  unfold Hits
  simp only [run]
  constructor
  · intro h
    split at h
    · cases h
    · cases h
    · rename_i mi1 ks1 e1
      split at h
      · rename_i w sp e2
        split at h
        · rename_i e3
          cases h
          exact ⟨e1, w, sp, e2, e3⟩
        · cases h
      · cases h
  · rintro ⟨h1, w, sp, h2, h3⟩
    simp only [h1, h2, if_pos h3]

/-- **C74**: they raise a `TypeError` where `m` accepts something without a place in the file. -/
theorem C74_comments_error (c : Ctx) (n : Nat) (env : Env) (want : Bool) (m : Matcher) (v : Val) (ks ks' : List Key) (mi : MatchInfo)
    (h : Hits (run c n env m v) ks mi ks') (ho : ∀ w sp, mi.obj ≠ .lexical w sp) :
    run c (n + 1) env (.comments want m) v ks = .error .typeError := by
  unfold Hits at h
  simp only [run, h]

end Refex
