import Verif.Props.RuleMatch
import Verif.Props.TypeFilters
import Verif.Props.Glob
import Verif.Props.Imports
import Verif.Props.Once
/- What the restrictions and guards of the built-in rules accept. -/
namespace Refex
set_option autoImplicit false

section
variable {c : Ctx} {env : Env} {n : Nat}

theorem restricts_constant (tys : List Str) (n : Nat) : Restricts c (n + 2) env (.constant tys .anything) (LiteralOf tys) := by
  intro v ks
  unfold LiteralOf
  simp only [run]
  by_cases h1 : v.ty = str "Constant"
  · by_cases h2 : (v.getattr (str "value")).ty ∈ tys
    · left; simp [h1, h2, rewrap, found]
    · right; simp [h1, h2]
  · right; simp [h1]

theorem restricts_quiet {m : Matcher} {A : Val → Prop} (h : Restricts c n env m A) (v : Val) : Quiet (run c n env m v) := fun ks => by
  rcases h v ks with ⟨_, h⟩ | ⟨_, h⟩ <;> exact ⟨_, h⟩

theorem restricts_anyOf {a b : Matcher} {A B : Val → Prop} (ha : Restricts c n env a A) (hb : Restricts c n env b B)
    (hf : ∃ fs, [a, b].mapM (typeFilter n env) = .ok fs) : Restricts c (n + 1) env (.anyOf [a, b]) (fun v => A v ∨ B v) := by
  intro v ks
  obtain ⟨h1, h2⟩ := C40_anyOf_iff c n env [a, b] v ks hf (fun m hm => by
    simp only [List.mem_cons, List.not_mem_nil, or_false] at hm
    rcases hm with rfl | rfl
    · exact restricts_quiet ha v
    · exact restricts_quiet hb v)
  rcases ha v ks with ⟨h3, h4⟩ | ⟨h3, h4⟩
  · exact .inl ⟨.inl h3, (h1 _).2 ⟨[], a, [b], rfl, fun p hp => (by cases hp), h4⟩⟩
  · rcases hb v ks with ⟨h5, h6⟩ | ⟨h5, h6⟩
    · refine .inl ⟨.inr h5, (h1 _).2 ⟨[a], b, [], rfl, fun p hp => ?_, h6⟩⟩
      rw [List.mem_singleton.1 hp]; exact h4
    · refine .inr ⟨fun h => h.elim h3 h5, h2.2 fun m hm => ?_⟩
      simp only [List.mem_cons, List.not_mem_nil, or_false] at hm
      rcases hm with rfl | rfl
      · exact h4
      · exact h6

theorem restricts_allOf {a : Matcher} {A : Val → Prop} (ha : Restricts c n env a A) : Restricts c (n + 1) env (.allOf [a]) A := by
  intro v ks
  have hr : run c (n + 1) env (.allOf [a]) v ks = accumulate c v [run c n env a v] ks := by simp only [run, List.map_cons, List.map_nil]
  rcases ha v ks with ⟨h1, h2⟩ | ⟨h1, h2⟩
  · refine .inl ⟨h1, ?_⟩
    rw [hr]; unfold accumulate; simp only [accumLoop, h2]; rfl
  · refine .inr ⟨h1, ?_⟩
    rw [hr]; unfold accumulate; simp only [accumLoop, h2]

theorem run_anything (n : Nat) (v : Val) (ks : List Key) : run c (n + 1) env .anything v ks = .ok (some ⟨createMatch c v, [], []⟩, ks) := by
  simp only [run]; rfl

theorem restricts_anyNode (ty : String) (fields : List String) (n : Nat) : Restricts c (n + 2) env (anyNode ty fields) (fun v => v.ty = str ty) := by
  intro v ks
  by_cases h : v.ty = str ty
  · refine .inl ⟨h, ?_⟩
    have hr : run c (n + 2) env (anyNode ty fields) v ks =
        accumulate c v ((((fields.map str).zip (fields.map fun _ => Matcher.anything)).map fun p => (run c (n + 1) env p.2 (v.getattr p.1), true)).map Prod.fst) ks := by
      unfold anyNode
      rw [run, if_neg (fun e => e h), List.map_map]
      rfl
    rw [hr, accumulate_plain]
    · rw [if_pos]
      rw [List.all_eq_true]
      intro p hp
      obtain ⟨q, _, rfl⟩ := List.mem_map.1 hp
      rfl
    · intro p hp
      obtain ⟨q, hq, rfl⟩ := List.mem_map.1 hp
      have hq2 : q.2 = .anything := by
        obtain ⟨_, _, e⟩ := List.mem_map.1 (List.of_mem_zip hq).2
        exact e.symm
      intro ks'
      simp only [if_true, hq2, run_anything]
      exact ⟨_, rfl⟩
  · refine .inr ⟨h, ?_⟩
    unfold anyNode
    rw [run, if_pos h]

theorem restricts_regex {rx : Str} {P : Str → Prop} (hg : c.rxGroups rx = []) (hm : ∀ a b, (c.rxMatch rx a b).isSome = true ↔ P (slice c.text a b)) (n : Nat) :
    Restricts c (n + 2) env (.matchesRegex rx .anything) (fun v => ∃ s, CodeText c v s ∧ P s) := by
  intro v ks
  have hr : run c (n + 2) env (.matchesRegex rx .anything) v ks = match (createMatch c v).span? with
      | none => .ok (none, ks)
      | some (a, b) =>
        match c.rxMatch rx a b with
        | none => .ok (none, ks)
        | some _ => .ok (some ⟨createMatch c v, [], []⟩, ks) := by
    rw [run, run_anything]
    simp only []
    cases (createMatch c v).span? with
    | none => rfl
    | some p =>
      obtain ⟨a, b⟩ := p
      simp only []
      cases c.rxMatch rx a b with
      | none => rfl
      | some gr =>
        simp only [regexBindings, hg, List.map_nil]
        rfl
  rw [hr]
  unfold CodeText
  cases hs : (createMatch c v).span? with
  | none => exact .inr ⟨fun ⟨s, ⟨a, b, h, _⟩, _⟩ => (by rw [hs] at h; cases h), rfl⟩
  | some p =>
    obtain ⟨a, b⟩ := p
    simp only []
    cases hx : c.rxMatch rx a b with
    | none =>
      refine .inr ⟨fun ⟨s, ⟨a', b', h, e⟩, hp⟩ => ?_, rfl⟩
      rw [hs] at h
      cases h
      rw [e, ← hm, hx] at hp
      cases hp
    | some gr => exact .inl ⟨⟨_, ⟨a, b, hs, rfl⟩, (hm a b).1 (by rw [hx]; rfl)⟩, rfl⟩

theorem restricts_congr {m : Matcher} {A B : Val → Prop} (h : Restricts c n env m A) (hAB : ∀ v, A v ↔ B v) : Restricts c n env m B := by
  intro v ks
  rcases h v ks with ⟨h1, h2⟩ | ⟨h1, h2⟩
  · exact .inl ⟨(hAB v).1 h1, h2⟩
  · exact .inr ⟨fun h => h1 ((hAB v).2 h), h2⟩

/-- The restrictions accept what they should. -/
theorem restriction_allows {digit : Char → Prop} (hx : RegexFits digit c) (k : Restriction) {n : Nat} (hn : 4 ≤ n) :
    Restricts c n env k.matcher (k.Allows digit c) := by
  obtain ⟨n, rfl⟩ : ∃ m, n = m + 4 := ⟨n - 4, by omega⟩
  cases k with
  | literal =>
    refine restricts_congr (restricts_anyOf (restricts_constant _ (n + 1)) (restricts_anyOf (restricts_constant _ n) (restricts_constant _ n) ⟨_, rfl⟩) ⟨_, rfl⟩) fun v => ?_
    simp only [Restriction.Allows, LiteralOf, List.mem_cons, List.not_mem_nil, or_false]
    constructor
    · rintro (⟨h, h1⟩ | ⟨h, h1⟩ | ⟨h, h1⟩)
      · exact ⟨h, by rcases h1 with h1 | h1 | h1 <;> simp [h1]⟩
      · exact ⟨h, by simp [h1]⟩
      · exact ⟨h, by simp [h1]⟩
    · rintro ⟨h, h1 | h1 | h1 | h1 | h1⟩
      · exact .inl ⟨h, .inl h1⟩
      · exact .inl ⟨h, .inr (.inl h1)⟩
      · exact .inl ⟨h, .inr (.inr h1)⟩
      · exact .inr (.inl ⟨h, h1⟩)
      · exact .inr (.inr ⟨h, h1⟩)
  | stringLiteral =>
    refine restricts_congr (restricts_anyOf (restricts_constant _ (n + 1)) (restricts_constant _ (n + 1)) ⟨_, rfl⟩) fun v => ?_
    simp only [Restriction.Allows, LiteralOf, List.mem_cons, List.not_mem_nil, or_false]
    constructor
    · rintro (⟨h, h1⟩ | ⟨h, h1⟩)
      · exact ⟨h, .inl h1⟩
      · exact ⟨h, .inr h1⟩
    · rintro ⟨h, h1 | h1⟩
      · exact .inl ⟨h, h1⟩
      · exact .inr ⟨h, h1⟩
  | nameOrAttribute => exact restricts_allOf (restricts_anyOf (restricts_anyNode _ _ n) (restricts_anyNode _ _ n) ⟨_, rfl⟩)
  | constantCase => exact restricts_regex hx.groups.1 hx.constant (n + 2)
  | set => exact restricts_anyNode _ _ (n + 2)
  | setComp => exact restricts_anyNode _ _ (n + 2)

theorem get?_map_value {κ α β : Type} [DecidableEq κ] (d : List (κ × α)) (f : α → β) (x : κ) :
    Dict.get? (d.map fun e => (e.1, f e.2)) x = (Dict.get? d x).map f := by
  induction d with
  | nil => rfl
  | cons e d ih =>
    rw [List.map_cons]
    unfold Dict.get?
    split
    · rfl
    · exact ih

theorem rule_restrictions {digit : Char → Prop} (hx : RegexFits digit c) (r : Rule) :
    RestrictionsAllow c env 4 (r.restrictions.map fun e => (e.1, e.2.matcher)) (r.Allowed digit c) := by
  refine ⟨fun x m h n hn => ?_, by decide, fun x h v k hk => ?_⟩
  · rw [get?_map_value] at h
    cases hk : Dict.get? r.restrictions x with
    | none => rw [hk] at h; cases h
    | some k =>
      rw [hk] at h
      cases h
      refine restricts_congr (restriction_allows hx k hn) fun v => ?_
      exact ⟨fun h k' e => by rw [hk] at e; cases e; exact h, fun h => h k hk⟩
  · rw [get?_map_value, hk] at h
    cases h

theorem mergeBindings_nil_right (b : Bindings) : ∃ b', mergeBindings b [] = .ok (some b') ∧ ∀ k, b'.get? k = b.get? k := by
  have hs : b.keys.filter (fun k => Dict.has ([] : Bindings) k) = [] := by
    rw [List.filter_eq_nil_iff]; intro k _; simp [Dict.has, Dict.get?]
  have hl : b.keys.filter (fun k => !Dict.has ([] : Bindings) k) = b.keys := by
    rw [List.filter_eq_self]; intro k _; simp [Dict.has, Dict.get?]
  unfold mergeBindings mergeBindingsIn
  rw [hs, hl]
  refine ⟨_, rfl, fun k => ?_⟩
  rw [get?_updateFrom, get?_updateFrom]
  cases h : Dict.get? b k with
  | none => simp [Dict.get?]
  | some v =>
    have : k ∈ b.keys := Dict.mem_keys_iff.2 ⟨v, h⟩
    simp [this, Dict.get?]

/-- The recursion depth that a guard leaves. -/
def Guard.inner : Guard → Nat → Nat
  | .none, n => n
  | _, n => n - 1

/-- A guard passes on the matches of what it guards, where it holds. -/
theorem guard_outcome {digit : Char → Prop} (hx : RegexFits digit c) {ss : List TopStmt} (hss : FileTree c.tree ss) {gd : Guard} (hgd : ∀ rx, gd = .regex rx → rx = parensRegex)
    {m : Matcher} {v : Val} {n : Nat} (hn : 3 ≤ n) {ks : List Key} :
    (∀ mi, gd.Holds c ss v → run c (gd.inner n) env m v ks = .ok (some mi, ks) → mi.obj = createMatch c v →
      ∃ mi', run c n env (gd.matcher m) v ks = .ok (some mi', ks) ∧ mi'.obj = createMatch c v ∧ ∀ x, mi'.bindings.get? x = mi.bindings.get? x) ∧
    (run c (gd.inner n) env m v ks = .ok (none, ks) → run c n env (gd.matcher m) v ks = .ok (none, ks)) ∧
    (¬ gd.Holds c ss v → (∃ r, run c (gd.inner n) env m v ks = .ok (r, ks)) → run c n env (gd.matcher m) v ks = .ok (none, ks)) := by
  obtain ⟨n, rfl⟩ : ∃ k, n = k + 3 := ⟨n - 3, by omega⟩
  cases gd with
  | none =>
    exact ⟨fun mi _ h ho => ⟨mi, h, ho, fun _ => rfl⟩, fun h => h, fun h => absurd trivial h⟩
  | imported module =>
    simp only [Guard.matcher, C56_last_import hss, Guard.inner, show n + 3 - 1 = n + 2 from rfl]
    refine ⟨fun mi h h1 ho => ⟨mi, ?_, ho, fun _ => rfl⟩, fun h => ?_, fun h _ => ?_⟩
    · have h : (List.filter (fun p => decide (p.fst = module)) (importsOf ss)).getLast? = some (module, module) := h
      rw [if_pos h]; exact h1
    · rw [h]; split <;> rfl
    · have h : ¬ (List.filter (fun p => decide (p.fst = module)) (importsOf ss)).getLast? = some (module, module) := h
      rw [if_neg h]
  | regex rx =>
    obtain rfl := hgd rx rfl
    have hr := restricts_regex (rx := parensRegex) (env := env) hx.groups.2 hx.parens n v
    have hrun : run c (n + 3) env (Guard.matcher (.regex parensRegex) m) v ks =
        accumulate c v [run c (n + 2) env m v, run c (n + 2) env (.matchesRegex parensRegex .anything) v] ks := by
      simp only [Guard.matcher, run, List.map_cons, List.map_nil]
    rw [hrun]
    unfold accumulate
    simp only [Guard.inner, show n + 3 - 1 = n + 2 from rfl]
    refine ⟨fun mi h h1 ho => ?_, fun h => ?_, fun h h1 => ?_⟩
    · obtain ⟨b1, e1, f1⟩ := mergeBindings_nil mi.bindings
      obtain ⟨b2, e2, f2⟩ := mergeBindings_nil_right b1
      obtain ⟨r1, g1⟩ := mergeReplacements_nil mi.replacements
      rcases hr ks with ⟨_, h3⟩ | ⟨h3, _⟩
      · refine ⟨⟨createMatch c v, b2, r1⟩, ?_, rfl, fun x => by rw [f2, f1]⟩
        simp only [accumLoop, h1, e1, g1, h3, e2]
        have : mergeReplacements r1 [] = .ok r1 := by
          unfold mergeReplacements
          rw [if_neg (by simp [Dict.has, Dict.get?])]; rfl
        rw [this]
      · exact absurd h h3
    · simp only [accumLoop, h]
    · obtain ⟨r, h1⟩ := h1
      cases r with
      | none => simp only [accumLoop, h1]
      | some mi =>
        obtain ⟨b1, e1, f1⟩ := mergeBindings_nil mi.bindings
        obtain ⟨r1, g1⟩ := mergeReplacements_nil mi.replacements
        rcases hr ks with ⟨h3, _⟩ | ⟨_, h3⟩
        · exact absurd h3 h
        · simp only [accumLoop, h1, e1, g1, h3]

end

end Refex
