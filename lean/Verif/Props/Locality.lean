import Verif.Props.Formatting
/- C118: what is found in a part of a file does not depend on the rest. -/
namespace Refex
set_option autoImplicit false

/-- The match, seen from `r`. -/
def PatternHit.from (r : Path) (h : PatternHit) : PatternHit := { h with path := h.path.drop r.length }

theorem placesIn_from (hits : List PatternHit) (r : Path) :
    PlacesIn hits r = ((hits.filter fun h => r.isPrefixOf h.path).map (PatternHit.from r)).map PatternHit.path := by
  unfold PlacesIn
  rw [List.map_map]
  rfl

theorem from_ordered {hits : List PatternHit} (h : hits.Pairwise fun a b => before a.path b.path = true) (r : Path) :
    ((hits.filter fun h => r.isPrefixOf h.path).map (PatternHit.from r)).Pairwise fun a b => before a.path b.path = true := by
  refine List.pairwise_map.2 ((h.filter _).imp_of_mem fun {a b} ha hb hab => ?_)
  obtain ⟨x, hx⟩ := List.isPrefixOf_iff_prefix.1 (List.mem_filter.1 ha).2
  obtain ⟨y, hy⟩ := List.isPrefixOf_iff_prefix.1 (List.mem_filter.1 hb).2
  show before (a.path.drop r.length) (b.path.drop r.length) = true
  rw [← hx, ← hy] at hab ⊢
  rw [before_common] at hab
  simpa using hab

/-- **C118** (matches): in two trees with parts of the same shape, neither of which is inside of a match, a pattern in which each metavariable occurs once is
found at the same places of the parts. -/
theorem C118_hits {what : Str → Hole} {p t u a b : Val} {r s : Path} (hsyn : Syntactic p) (honce : EachOnce what p) (ha : t.at? r = some a) (hb : u.at? s = some b)
    (hs : SameShape a b) {hitsT hitsU : List PatternHit} (hT : PatternHits what p t hitsT) (hU : PatternHits what p u hitsU)
    (hr : OutsideMatches hitsT r) (hs' : OutsideMatches hitsU s) : PlacesIn hitsT r = PlacesIn hitsU s := by
  have half : ∀ {t u a b : Val} {r s : Path} {hitsT hitsU : List PatternHit}, t.at? r = some a → u.at? s = some b → SameShape a b → PatternHits what p t hitsT →
      PatternHits what p u hitsU → OutsideMatches hitsT r →
      ∀ y ∈ (hitsU.filter fun h => s.isPrefixOf h.path).map (PatternHit.from s), ∃ x ∈ (hitsT.filter fun h => r.isPrefixOf h.path).map (PatternHit.from r),
        x.path <+: y.path := by
    intro t u a b r s hitsT hitsU ha hb hs hT hU hr y hy
    obtain ⟨h, hh, rfl⟩ := List.mem_map.1 hy
    obtain ⟨hm, hp⟩ := List.mem_filter.1 hh
    obtain ⟨q, hq⟩ := List.isPrefixOf_iff_prefix.1 hp
    have hy' : (PatternHit.from s h).path = q := by
      show h.path.drop s.length = q
      rw [← hq]; simp
    rw [hy']
    obtain ⟨h1, h2, _⟩ := hU.sound h hm
    rw [← hq, at?_append, hb] at h1
    obtain ⟨z, h3, h4⟩ := shape_at q hs h1
    obtain ⟨o, h5, _⟩ := instance_moved (al' := fun _ _ => True) (fun _ _ _ _ _ => trivial) _ _ _ _ h2 (shape_same h4.symm)
    obtain ⟨o', h6, h7⟩ := C113_instance hsyn ⟨honce, fun s hs _ => hs⟩ h5
    obtain ⟨k, hk, hpre⟩ := hT.complete (r ++ q) z o' (by rw [at?_append, ha]; exact h3) h6 h7
    have hrk : r <+: k.path := by
      rcases List.prefix_or_prefix_of_prefix hpre (List.prefix_append r q) with h | h
      · rw [hr k hk h]; exact List.prefix_refl _
      · exact h
    refine ⟨_, List.mem_map.2 ⟨k, List.mem_filter.2 ⟨hk, List.isPrefixOf_iff_prefix.2 hrk⟩, rfl⟩, ?_⟩
    show k.path.drop r.length <+: q
    obtain ⟨m, hm⟩ := hrk
    rw [← hm] at hpre ⊢
    simpa using (List.prefix_append_right_inj r).1 hpre
  rw [placesIn_from, placesIn_from]
  exact same_paths (from_ordered hT.ordered r) (from_ordered hU.ordered s) (half ha hb hs hT hU hr) (half hb ha hs.symm hU hT hs')

/-- **C118** (inside of a match): in a part that is inside of a match, nothing is found. -/
theorem C118_inside {what : Str → Hole} {p t : Val} {hits : List PatternHit} (hT : PatternHits what p t hits) {r : Path} (h : ¬ OutsideMatches hits r) :
    PlacesIn hits r = [] := by
  unfold PlacesIn
  rw [List.map_eq_nil_iff, List.filter_eq_nil_iff]
  intro k hk hr
  refine h fun m hm hp => ?_
  have hr := List.isPrefixOf_iff_prefix.1 hr
  have e : m.path = k.path := ordered_outermost (xs := hits.map PatternHit.path) (List.pairwise_map.2 hT.ordered) (List.mem_map.2 ⟨m, hm, rfl⟩)
    (List.mem_map.2 ⟨k, hk, rfl⟩) (hp.trans hr)
  have h1 := hr.length_le
  rw [← e] at h1
  exact hp.eq_of_length (Nat.le_antisymm hp.length_le h1)

/-- **C118** (searches): so it is for a search of two files, of which the reports are for what is found. -/
theorem C118_search {g : Grammar} {py : Python} (hfit : PythonFits g py) {kind : PatternKind} {text : Str} {m : Matcher} {ts : Dict Str CodeTemplate}
    (h : PatternSearch py kind text m ts) :
    ∃ what p, PatternMeans py kind text what p ∧ (EachOnce what p → 2 * p.size + 7 ≤ py.depth →
      ∀ (s₁ s₂ : Str) (c₁ c₂ : Ctx) subs₁ subs₂, py.file s₁ = some c₁ → py.file s₂ = some c₂ →
        SearchGives py m ts s₁ subs₁ → SearchGives py m ts s₂ subs₂ →
          ∃ (hits₁ hits₂ : List PatternHit) (os₁ os₂ : List (Option Substitution)), subs₁ = os₁.filterMap id ∧ subs₂ = os₂.filterMap id ∧
            PatternHits what p c₁.tree hits₁ ∧ PatternHits what p c₂.tree hits₂ ∧
            Forall2 (fun (h : PatternHit) o => ReportIn py c₁ ts (h.label c₁) o) hits₁ os₁ ∧
            Forall2 (fun (h : PatternHit) o => ReportIn py c₂ ts (h.label c₂) o) hits₂ os₂ ∧
            ∀ r₁ r₂ a b, c₁.tree.at? r₁ = some a → c₂.tree.at? r₂ = some b → SameShape a b → OutsideMatches hits₁ r₁ → OutsideMatches hits₂ r₂ →
              PlacesIn hits₁ r₁ = PlacesIn hits₂ r₂) := by
  obtain ⟨what, p, hp, hr⟩ := search_means hfit h
  refine ⟨what, p, hp, fun honce hd s₁ s₂ c₁ c₂ subs₁ subs₂ h₁ h₂ hf₁ hf₂ => ?_⟩
  obtain ⟨c, hits₁, os₁, hc, a1, a2, a3⟩ := hr hd _ _ hf₁
  rw [h₁] at hc; cases hc
  obtain ⟨c, hits₂, os₂, hc, b1, b2, b3⟩ := hr hd _ _ hf₂
  rw [h₂] at hc; cases hc
  exact ⟨hits₁, hits₂, os₁, os₂, a2, b2, a1, b1, a3, b3, fun r₁ r₂ a b ha hb hs o₁ o₂ =>
    C118_hits (patternMeans_syntactic hfit hp) honce ha hb hs a1 b1 o₁ o₂⟩

/-- The match of C112, seen from the statement it is in. -/
example : PlacesIn [keHit] [0, 0] = [[0]] ∧ OutsideMatches [keHit] [0, 0] := by
  refine ⟨by decide, fun h hh hp => ?_⟩
  rw [List.mem_singleton.1 hh] at hp
  exact absurd hp (by decide)

/-- The pattern `$x` is found where everything is. -/
theorem any_hits (t : Val) : PatternHits keWhat (exNameAt 20 (str "gensym_x")) t [⟨[], t, [(str "x", t)]⟩] where
  ordered := by simp
  sound := by
    intro h hh
    rw [List.mem_singleton.1 hh]
    refine ⟨rfl, .named (by decide) trivial, fun x i a _ hi => ?_⟩
    have : (Occs.of [(str "x", t)] x).length ≤ 1 := by
      unfold Occs.of
      rw [List.length_map]
      exact List.length_filter_le _ _
    show ∃ j b, _
    have hi : i + 1 < (Occs.of [(str "x", t)] x).length := hi
    omega
  complete := fun q v occ _ _ _ => ⟨_, List.mem_singleton.2 rfl, List.nil_prefix⟩

/-- The hypotheses of C118 are met (with the whole tree for the part), and ... -/
example : EachOnce keWhat (exNameAt 20 (str "gensym_x")) ∧ OutsideMatches [⟨[], exNameAt 30 (str "a"), [(str "x", exNameAt 30 (str "a"))]⟩] [] :=
  ⟨⟨_, .named (x := str "x") (by decide) trivial, by decide⟩, fun h hh _ => by rw [List.mem_singleton.1 hh]⟩

/-- ... that the part is not inside of a match cannot be left out: `$x` is not found again inside of what it is found for. -/
theorem C118_inside_false : ¬ ∀ (what : Str → Hole) (p t u a b : Val) (r s : Path), Syntactic p → EachOnce what p → t.at? r = some a → u.at? s = some b →
    SameShape a b → ∀ hitsT hitsU, PatternHits what p t hitsT → PatternHits what p u hitsU → OutsideMatches hitsU s → PlacesIn hitsT r = PlacesIn hitsU s := by
  intro h
  have := h keWhat (exNameAt 20 (str "gensym_x")) (exNameAt 30 (str "a")) (.const 31 (.str (str "a"))) (.const 31 (.str (str "a"))) (.const 31 (.str (str "a")))
    [0] [] (mdName_syntactic ..) ⟨_, .named (x := str "x") (by decide) trivial, by decide⟩ rfl rfl rfl _ _ (any_hits _) (any_hits _)
    (fun h hh _ => by rw [List.mem_singleton.1 hh])
  exact absurd this (by decide)

end Refex
