import Verif.Spec.Surroundings
import Verif.Props.PyTemplate
import Verif.Props.MatcherSem
import Verif.Props.Nav
import Verif.Props.FirstAncestor
/- C80: where a replacement is checked. -/
namespace Refex
set_option autoImplicit false

theorem hasBody_iff (env : PyEnv) (v : Val) : (env.isStmt v && hasBody v) = true ↔ CompoundStmt env v := by
  unfold CompoundStmt
  cases v with
  | node i t ns vs =>
    simp only [hasBody, Bool.and_eq_true, decide_eq_true_eq]
    constructor
    · rintro ⟨h1, h2⟩; exact ⟨h1, _, _, _, _, rfl, h2⟩
    · rintro ⟨h1, _, _, _, _, h, h2⟩; cases h; exact ⟨h1, h2⟩
  | list i vs => simp [hasBody]
  | const i a => simp [hasBody]

theorem ownSpan_iff (env : PyEnv) (c : Ctx) (v : Val) (sp : Span) : ownSpan env c v = some sp ↔ OnItsOwn env c v sp := by
  unfold ownSpan OnItsOwn
  constructor
  · intro h
    split at h
    · rename_i hh
      exact ⟨by simpa using hh, _, (C74_located c v _).1 rfl, (span?_iff _ _).1 h⟩
    · cases h
  · rintro ⟨h1, o, h2, h3⟩
    rw [if_pos (by simpa using h1), (C74_located c v o).2 h2]
    exact (span?_iff _ _).2 h3

theorem ownSpan_none (env : PyEnv) (c : Ctx) (v : Val) : ownSpan env c v = none ↔ ∀ sp, ¬ OnItsOwn env c v sp := by
  cases h : ownSpan env c v with
  | none => simp only [true_iff]; intro sp hsp; rw [(ownSpan_iff ..).2 hsp] at h; cases h
  | some sp => simp only [reduceCtorEq, false_iff]; intro hh; exact hh sp ((ownSpan_iff ..).1 h)

section
variable {env : PyEnv} {c : Ctx} {p : Path} {w : Val}

theorem at?_take (h : c.tree.at? p = some w) (j : Nat) : ∃ v, c.tree.at? (p.take j) = some v := by
  have h := h
  rw [← List.take_append_drop j p, at?_append] at h
  cases hq : c.tree.at? (p.take j) with
  | none => rw [hq] at h; cases h
  | some v => exact ⟨v, rfl⟩

theorem at?_take_succ (h : c.tree.at? p = some w) {j : Nat} (hj : j < p.length) {v : Val} (hv : c.tree.at? (p.take (j + 1)) = some v) :
    ∃ i, c.tree.at? (p.take j ++ [i]) = some v :=
  ⟨p[j], by rw [← List.take_succ_eq_append_getElem hj]; exact hv⟩

theorem inner_around (h : c.tree.at? p = some w) (hw : w.isInner) (j : Nat) {v : Val} (hv : c.tree.at? (p.take j) = some v) : v.isInner := by
  by_cases hj : j < p.length
  · obtain ⟨u, hu⟩ := at?_take h (j + 1)
    obtain ⟨i, hi⟩ := at?_take_succ h hj hu
    rw [at?_append, hv] at hi
    intro a b hab
    subst hab
    simp [at?_cons, Val.children] at hi
  · rw [List.take_of_length_le (by omega), h] at hv
    cases hv; exact hw

theorem parent_around (hu : Unshared c.tree) (h : c.tree.at? p = some w) (hw : w.isInner) {j : Nat} (hj : j < p.length) {v : Val}
    (hv : c.tree.at? (p.take (j + 1)) = some v) : getParent c.tree v = c.tree.at? (p.take j) := by
  obtain ⟨i, hi⟩ := at?_take_succ h hj hv
  exact C50_parent_exact hu hi (inner_around h hw _ hv)

/-- The climb, from depth `j`. -/
theorem climb_fits (hu : Unshared c.tree) (h : c.tree.at? p = some w) (hw : w.isInner) {k : Nat} {parent : Val} {sp : Span}
    (hk : c.tree.at? (p.take k) = some parent) (ho : OnItsOwn env c parent sp) (hc : ¬ CompoundStmt env parent) (hn : NothingBetween env c p k) :
    ∀ (d : Nat) (v : Val) (fuel : Nat), k + d < p.length → c.tree.at? (p.take (k + d)) = some v → k + d < fuel →
      reparseParent env c fuel v = .ok (some (parent, sp))
  | 0, v, fuel + 1, _, hv, _ => by
    rw [Nat.add_zero, hk] at hv
    cases hv
    rw [reparseParent, (ownSpan_iff ..).2 ho]
  | d + 1, v, fuel + 1, hd, hv, hf => by
    rw [reparseParent, (ownSpan_none ..).2 (hn (k + (d + 1)) (by omega) hd v hv).1]
    have hp := parent_around hu h hw (j := k + d) (by omega) hv
    obtain ⟨u, hu'⟩ := at?_take h (k + d)
    rw [hp, hu']
    have hb : ¬ CompoundStmt env u := by
      cases d with
      | zero => rw [Nat.add_zero, hk] at hu'; cases hu'; exact hc
      | succ d => exact (hn (k + (d + 1)) (by omega) (by omega) u hu').2
    simp only
    rw [if_neg (fun hh => hb ((hasBody_iff ..).1 hh))]
    exact climb_fits hu h hw hk ho hc hn d u fuel (by omega) hu' (by omega)

theorem climb_compound (hu : Unshared c.tree) (h : c.tree.at? p = some w) (hw : w.isInner) {k : Nat} {s : Val}
    (hk : c.tree.at? (p.take k) = some s) (hc : CompoundStmt env s) (hn : NothingBetween env c p k) :
    ∀ (d : Nat) (v : Val) (fuel : Nat), k + (d + 1) < p.length → c.tree.at? (p.take (k + (d + 1))) = some v → k + d + 1 < fuel →
      reparseParent env c fuel v = .ok none
  | 0, v, fuel + 1, hd, hv, _ => by
    rw [reparseParent, (ownSpan_none ..).2 (hn (k + 1) (by omega) hd v hv).1]
    rw [parent_around hu h hw (j := k) (by omega) hv, hk]
    simp only
    rw [if_pos ((hasBody_iff ..).2 hc)]
  | d + 1, v, fuel + 1, hd, hv, hf => by
    rw [reparseParent, (ownSpan_none ..).2 (hn (k + (d + 1 + 1)) (by omega) hd v hv).1]
    obtain ⟨u, hu'⟩ := at?_take h (k + (d + 1))
    rw [parent_around hu h hw (j := k + (d + 1)) (by omega) hv, hu']
    have hb := (hn (k + (d + 1)) (by omega) (by omega) u hu').2
    simp only
    rw [if_neg (fun hh => hb ((hasBody_iff ..).1 hh))]
    exact climb_compound hu h hw hk hc hn d u fuel (by omega) hu' (by omega)

theorem climb_nowhere (hu : Unshared c.tree) (h : c.tree.at? p = some w) (hw : w.isInner)
    (hn : ∀ j, j < p.length → ∀ v, c.tree.at? (p.take j) = some v → (∀ sp, ¬ OnItsOwn env c v sp) ∧ ¬ CompoundStmt env v) :
    ∀ (d : Nat) (v : Val) (fuel : Nat), d < p.length → c.tree.at? (p.take d) = some v → 
      reparseParent env c fuel v = .error (.matcher .recursionError)
  | _, _, 0, _, _ => rfl
  | 0, v, fuel + 1, hd, hv => by
    have hin := inner_around h hw 0 hv
    have hvt : v = c.tree := by simpa [Val.at?] using hv.symm
    subst hvt
    rw [reparseParent, (ownSpan_none ..).2 (hn 0 hd _ hv).1, C50_root hu hin]
  | d + 1, v, fuel + 1, hd, hv => by
    rw [reparseParent, (ownSpan_none ..).2 (hn (d + 1) hd v hv).1]
    obtain ⟨u, hu'⟩ := at?_take h d
    rw [parent_around hu h hw (j := d) (by omega) hv, hu']
    have hb := (hn d (by omega) u hu').2
    simp only
    rw [if_neg (fun hh => hb ((hasBody_iff ..).1 hh))]
    exact climb_nowhere hu h hw hn d u fuel (by omega) hu'

/-- One of three: there is an object around to fit into, a statement with a body comes first, or neither is around. -/
theorem around_cases (env : PyEnv) (h : c.tree.at? p = some w) :
    (∃ parent sp, FitsInto env c p parent sp) ∨ OnlyCompoundAround env c p ∨
    ∀ j, j < p.length → ∀ v, c.tree.at? (p.take j) = some v → (∀ sp, ¬ OnItsOwn env c v sp) ∧ ¬ CompoundStmt env v := by
  suffices H : ∀ k, k ≤ p.length → (∃ parent sp, FitsInto env c p parent sp) ∨ OnlyCompoundAround env c p ∨
      ∀ j, k ≤ j → j < p.length → ∀ v, c.tree.at? (p.take j) = some v → (∀ sp, ¬ OnItsOwn env c v sp) ∧ ¬ CompoundStmt env v by
    rcases H 0 (Nat.zero_le _) with h | h | h
    · exact .inl h
    · exact .inr (.inl h)
    · exact .inr (.inr fun j hj => h j (Nat.zero_le _) hj)
  intro k hk
  generalize hd : p.length - k = d
  induction d generalizing k with
  | zero => exact .inr (.inr fun j h1 h2 => by omega)
  | succ d ih =>
    rcases ih (k + 1) (by omega) (by omega) with h' | h' | h'
    · exact .inl h'
    · exact .inr (.inl h')
    · have hn : NothingBetween env c p k := fun j h1 h2 => h' j (by omega) h2
      obtain ⟨v, hv⟩ := at?_take h k
      by_cases hc : CompoundStmt env v
      · exact .inr (.inl ⟨k, v, by omega, hv, hc, hn⟩)
      · by_cases ho : ∃ sp, OnItsOwn env c v sp
        · obtain ⟨sp, ho⟩ := ho
          exact .inl ⟨v, sp, k, by omega, hv, ho, hc, hn⟩
        · refine .inr (.inr fun j h1 h2 u hu => ?_)
          rcases Nat.lt_or_eq_of_le h1 with h3 | h3
          · exact h' j h3 h2 u hu
          · subst h3; rw [hv] at hu; cases hu
            exact ⟨fun sp hsp => ho ⟨sp, hsp⟩, hc⟩

/-- What is fitted into is one object at one place. -/
theorem C80_one_place {parent parent' : Val} {sp sp' : Span} (h1 : FitsInto env c p parent sp) (h2 : FitsInto env c p parent' sp') :
    parent = parent' ∧ sp = sp' := by
  obtain ⟨k, a1, a2, a3, a4, a5⟩ := h1
  obtain ⟨k', b1, b2, b3, b4, b5⟩ := h2
  have hk : k = k' := by
    rcases Nat.lt_trichotomy k k' with h | h | h
    · exact absurd b3 ((a5 k' h b1 _ b2).1 sp')
    · exact h
    · exact absurd a3 ((b5 k h a1 _ a2).1 sp)
  subst hk
  rw [a2] at b2; cases b2
  have e1 := (ownSpan_iff ..).2 a3
  have e2 := (ownSpan_iff ..).2 b3
  rw [e1] at e2; cases e2
  exact ⟨rfl, rfl⟩

end

section
variable {n : Nat} {env : PyEnv} {t : PyTemplate} {c : Ctx} {p : Path} {w : Val} {sp : Span} {ms : Dict Label PyMatch}
variable {replacement : Str} {map : Dict Label Str}

theorem first_parent (hu : Unshared c.tree) (h : c.tree.at? p = some w) (hw : w.isInner) (hp : p ≠ []) :
    ∃ q, getParent c.tree w = some q ∧ c.tree.at? (p.take (p.length - 1)) = some q := by
  have hl : 0 < p.length := List.length_pos_iff.2 hp
  obtain ⟨q, hq⟩ := at?_take h (p.length - 1)
  refine ⟨q, ?_, hq⟩
  rw [parent_around hu h hw (j := p.length - 1) (by omega) (by rw [List.take_of_length_le (by omega)]; exact h), hq]

/-- **C80**: the replacement is put in as the template makes it, where the match is the expression of an expression
statement, or no expression and no statement around it (whose place is known) comes before a statement with a body. -/
theorem C80_verbatim (hu : Unshared c.tree) (h : c.tree.at? p = some w) (hw : w.isInner)
    (ht : t.parenthesized n env.parse (matchersFor env.isExpr ms) (stringified ms) = .ok (replacement, map))
    (hv : env.isExpr w = false ∨ WholeStatement c p ∨ OnlyCompoundAround env c p) :
    t.substituteMatch n env (some c) (.lexical w sp) ms = .ok replacement := by
  unfold PyTemplate.substituteMatch
  simp only [ht]
  split
  · rename_i hx
    have hv : WholeStatement c p ∨ OnlyCompoundAround env c p := by
      rcases hv with h | h
      · rw [h] at hx; cases hx
      · exact h
    have hp : p ≠ [] := by
      rcases hv with ⟨_, h, _⟩ | ⟨_, _, h, _⟩
      · exact h
      · rintro rfl; simp at h
    obtain ⟨q, hq, hq'⟩ := first_parent hu h hw hp
    have hd := at?_depth p _ _ h
    simp only [hq]
    split
    · rfl
    · rename_i hne
      split
      · rfl
      · rename_i hb
        have hb : ¬ CompoundStmt env q := fun hh => hb ((hasBody_iff ..).2 hh)
        rcases hv with ⟨v, _, h1, h2⟩ | ⟨k, s, h1, h2, h3, h4⟩
        · rw [List.dropLast_eq_take, hq'] at h1
          cases h1; exact absurd h2 hne
        · have hk : k ≠ p.length - 1 := by rintro rfl; rw [hq'] at h2; cases h2; exact hb h3
          obtain ⟨d, hd'⟩ : ∃ d, p.length - 1 = k + (d + 1) := ⟨p.length - 1 - k - 1, by omega⟩
          rw [climb_compound hu h hw h2 h3 h4 d q (c.tree.size + 1) (by omega) (by rw [← hd']; exact hq') (by omega)]
  · rfl

/-- **C80**: otherwise the replacement is fitted into the nearest expression or statement around the match. -/
theorem C80_checked (hu : Unshared c.tree) (h : c.tree.at? p = some w) (hw : w.isInner)
    (ht : t.parenthesized n env.parse (matchersFor env.isExpr ms) (stringified ms) = .ok (replacement, map))
    (hx : env.isExpr w = true) (hs : ¬ WholeStatement c p) {parent : Val} {parentSpan : Span} (hf : FitsInto env c p parent parentSpan) :
    t.substituteMatch n env (some c) (.lexical w sp) ms = inParent n env c parent parentSpan sp replacement := by
  obtain ⟨k, h1, h2, h3, h4, h5⟩ := hf
  have hp : p ≠ [] := by rintro rfl; simp at h1
  have hd := at?_depth p _ _ h
  obtain ⟨q, hq, hq'⟩ := first_parent hu h hw hp
  unfold PyTemplate.substituteMatch
  simp only [ht, hx, if_true, hq]
  rw [if_neg (fun hh => hs ⟨q, hp, by rw [List.dropLast_eq_take]; exact hq', hh⟩)]
  have hb : ¬ CompoundStmt env q := by
    by_cases hk : k = p.length - 1
    · subst hk; rw [hq'] at h2; cases h2; exact h4
    · exact (h5 (p.length - 1) (by omega) (by omega) q hq').2
  rw [if_neg (fun hh => hb ((hasBody_iff ..).1 hh))]
  obtain ⟨d, hd'⟩ : ∃ d, p.length - 1 = k + d := ⟨p.length - 1 - k, by omega⟩
  rw [climb_fits hu h hw h2 h3 h4 h5 d q (c.tree.size + 1) (by omega) (by rw [← hd']; exact hq') (by omega)]

/-- **C80**: what a substitution that ends well has done: the template's text as it is, or that text, as it is or in
parentheses, checked in the nearest expression or statement around: with it in the place of the match, the text of that
expression or statement parses, and the tree is the one it has as a template, with the replacement's own tree in the place
of the match. -/
theorem C80_outcome {g : Grammar} (hg : HasModules g) (henv : env.Fits g) (hu : Unshared c.tree) (h : c.tree.at? p = some w) (hw : w.isInner)
    (hx : env.isExpr w = true) {r : Str} (hr : t.substituteMatch n env (some c) (.lexical w sp) ms = .ok r) :
    ∃ replacement map, t.parenthesized n env.parse (matchersFor env.isExpr ms) (stringified ms) = .ok (replacement, map) ∧
    ((WholeStatement c p ∨ OnlyCompoundAround env c p) ∧ r = replacement ∨
     ∃ parent parentSpan pre post pseudo anonymous variables tree rc e filled text c' occ,
      FitsInto env c p parent parentSpan ∧ (r = replacement ∨ r = str "(" ++ replacement ++ str ")") ∧
      Around env c.text parent parentSpan sp pre post ∧ env.template (pre ++ str "$current_expr" ++ post) = some pseudo ∧
      TemplateOf g pseudo .module anonymous variables tree ∧ env.parse replacement = some rc ∧ OneExpr rc.tree e ∧
      pseudo.fill filled = .ok text ∧ filled.get? (str "current_expr") = some r ∧ env.parse text = some c' ∧
      Instance (holeAt (metaNames anonymous variables)) (fun _ _ => True) tree c'.tree occ ∧
      ∀ x w, (occ.of x).getLast? = some w → x = str "current_expr" ∧ SameTree e w) := by
  obtain ⟨replacement, map, ht, _⟩ := C53_substitute hr
  refine ⟨replacement, map, ht, ?_⟩
  by_cases hv : WholeStatement c p ∨ OnlyCompoundAround env c p
  · rw [C80_verbatim hu h hw ht (.inr hv)] at hr
    cases hr
    exact .inl ⟨hv, rfl⟩
  · rcases around_cases env h with ⟨parent, ps, hf⟩ | hc | hn
    · rw [C80_checked hu h hw ht hx (fun hh => hv (.inl hh)) hf] at hr
      obtain ⟨h1, pre, post, pseudo, an, va, tree, rc, e, map', s, c', occ, a1, a2, a3, a4, a5, a6, a7, a8, a9, a10⟩ := C53_in_parent hg henv hr
      exact .inr ⟨parent, ps, pre, post, pseudo, an, va, tree, rc, e, map', s, c', occ, hf, h1, a1, a2, a3, a4, a5, a7, a6, a8, a9, a10⟩
    · exact absurd (.inr hc) hv
    · exfalso
      unfold PyTemplate.substituteMatch at hr
      simp only [ht, hx, if_true] at hr
      by_cases hp : p = []
      · subst hp
        have : w = c.tree := by simpa [Val.at?] using h.symm
        subst this
        rw [C50_root hu hw] at hr
        cases hr
      · obtain ⟨q, hq, hq'⟩ := first_parent hu h hw hp
        have hl := List.length_pos_iff.2 hp
        simp only [hq] at hr
        rw [if_neg (fun hh => hv (.inl ⟨q, hp, by rw [List.dropLast_eq_take]; exact hq', hh⟩)),
          if_neg (fun hh => (hn (p.length - 1) (by omega) q hq').2 ((hasBody_iff ..).1 hh)),
          climb_nowhere hu h hw hn (p.length - 1) q _ (by omega) hq'] at hr
        cases hr

end

end Refex
