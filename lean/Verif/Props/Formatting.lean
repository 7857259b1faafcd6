import Verif.Spec.Formatting
import Verif.Props.MoreSpecificExamples
import Verif.Props.ParseFile
/- C115: how a file is written does not matter to a search. -/
namespace Refex
set_option autoImplicit false

/-- A tree with the same shape is the same tree. -/
theorem shape_same : ∀ {v w : Val}, SameShape v w → SameTree v w := by
  suffices H : ∀ n (v w : Val), v.size ≤ n → SameShape v w → SameTree v w from fun {v w} h => H _ v w (Nat.le_refl _) h
  intro n
  induction n with
  | zero => intro v w hv; have := v.size_pos; omega
  | succ n ih =>
    intro v w hv h
    have hall : ∀ {vs ws : List Val}, Val.forgetAll vs = Val.forgetAll ws → (∀ t ∈ vs, t.size ≤ n) → ∀ (k : Nat) t u, vs[k]? = some t → ws[k]? = some u → SameTree t u := by
      intro vs ws hf hs k t u ht hu
      obtain ⟨t', ht', hsh⟩ := forgetAll_get hf hu
      rw [ht] at ht'; cases ht'
      exact ih _ _ (hs t (List.mem_of_getElem? ht)) hsh
    cases v with
    | const i c =>
      cases w with
      | const j d => simp only [SameShape, Val.forget, Val.const.injEq, true_and] at h; subst h; exact .const (Const.pyEq_refl _)
      | list j ws => simp [SameShape, Val.forget] at h
      | node j ty ns ws => simp [SameShape, Val.forget] at h
    | list i vs =>
      cases w with
      | const j d => simp [SameShape, Val.forget] at h
      | list j ws =>
        simp only [SameShape, Val.forget, Val.list.injEq, true_and] at h
        exact .list (forgetAll_length _ _ h) (hall h fun t ht => by have := size_mem ht; simp only [Val.size] at hv; omega)
      | node j ty ns ws => simp [SameShape, Val.forget] at h
    | node i ty ns vs =>
      cases w with
      | const j d => simp [SameShape, Val.forget] at h
      | list j ws => simp [SameShape, Val.forget] at h
      | node j ty' ns' ws =>
        simp only [SameShape, Val.forget, Val.node.injEq, true_and] at h
        obtain ⟨rfl, rfl, h⟩ := h
        exact .node (forgetAll_length _ _ h) fun k n t u _ ht hu _ =>
          hall h (fun t ht => by have := size_mem ht; simp only [Val.size] at hv; omega) k t u ht hu

/-- **C115** (matches): in two trees with the same shape, a pattern in which each metavariable occurs once is found at the same places. -/
theorem C115_hits {what : Str → Hole} {p t u : Val} (hsyn : Syntactic p) (honce : EachOnce what p) (hs : SameShape t u) {hitsT hitsU : List PatternHit}
    (hT : PatternHits what p t hitsT) (hU : PatternHits what p u hitsU) :
    Forall2 (fun a b : PatternHit => a.path = b.path ∧ SameShape a.node b.node) hitsT hitsU := by
  have half : ∀ {t u : Val} {hitsT hitsU : List PatternHit}, SameShape t u → PatternHits what p t hitsT → PatternHits what p u hitsU →
      ∀ b ∈ hitsU, ∃ a ∈ hitsT, a.path <+: b.path := by
    intro t u hitsT hitsU hs hT hU b hb
    obtain ⟨h1, h2, _⟩ := hU.sound b hb
    obtain ⟨y, h3, h4⟩ := shape_at _ hs h1
    obtain ⟨o, h5, _⟩ := instance_moved (al' := fun _ _ => True) (fun _ _ _ _ _ => trivial) _ _ _ _ h2 (shape_same h4.symm)
    obtain ⟨o', h6, h7⟩ := C113_instance hsyn ⟨honce, fun s hs _ => hs⟩ h5
    exact hT.complete _ _ _ h3 h6 h7
  have hp := same_paths hT.ordered hU.ordered (half hs hT hU) (half hs.symm hU hT)
  have hsT := fun a ha => (hT.sound a ha).1
  have hsU := fun b hb => (hU.sound b hb).1
  clear half hT hU
  induction hitsT generalizing hitsU with
  | nil =>
    cases hitsU with
    | nil => exact .nil
    | cons b bs => cases hp
  | cons a as ih =>
    cases hitsU with
    | nil => cases hp
    | cons b bs =>
      simp only [List.map_cons, List.cons.injEq] at hp
      refine .cons ⟨hp.1, ?_⟩ (ih hp.2 (fun a ha => hsT a (List.mem_cons_of_mem _ ha)) (fun b hb => hsU b (List.mem_cons_of_mem _ hb)))
      obtain ⟨y, h1, h2⟩ := shape_at _ hs (hsU b (List.mem_cons_self ..))
      rw [← hp.1, hsT a (List.mem_cons_self ..)] at h1
      cases h1
      exact h2

/-- **C115** (searches): so it is for a search of two files that Python reads as the same tree. -/
theorem C115_search {g : Grammar} {py : Python} (hfit : PythonFits g py) {kind : PatternKind} {text : Str} {m : Matcher} {ts : Dict Str CodeTemplate}
    (h : PatternSearch py kind text m ts) :
    ∃ what p, PatternMeans py kind text what p ∧ (EachOnce what p → 2 * p.size + 7 ≤ py.depth →
      ∀ (s₁ s₂ : Str) (c₁ c₂ : Ctx) subs₁ subs₂, py.file s₁ = some c₁ → py.file s₂ = some c₂ → SameShape c₁.tree c₂.tree →
        SearchGives py m ts s₁ subs₁ → SearchGives py m ts s₂ subs₂ →
          ∃ (hits₁ hits₂ : List PatternHit) (os₁ os₂ : List (Option Substitution)), subs₁ = os₁.filterMap id ∧ subs₂ = os₂.filterMap id ∧
            PatternHits what p c₁.tree hits₁ ∧ PatternHits what p c₂.tree hits₂ ∧
            Forall2 (fun (h : PatternHit) o => ReportIn py c₁ ts (h.label c₁) o) hits₁ os₁ ∧
            Forall2 (fun (h : PatternHit) o => ReportIn py c₂ ts (h.label c₂) o) hits₂ os₂ ∧
            Forall2 (fun a b : PatternHit => a.path = b.path ∧ SameShape a.node b.node) hits₁ hits₂) := by
  obtain ⟨what, p, hp, hr⟩ := search_means hfit h
  refine ⟨what, p, hp, fun honce hd s₁ s₂ c₁ c₂ subs₁ subs₂ h₁ h₂ hs hf₁ hf₂ => ?_⟩
  obtain ⟨c, hits₁, os₁, hc, a1, a2, a3⟩ := hr hd _ _ hf₁
  rw [h₁] at hc; cases hc
  obtain ⟨c, hits₂, os₂, hc, b1, b2, b3⟩ := hr hd _ _ hf₂
  rw [h₂] at hc; cases hc
  exact ⟨hits₁, hits₂, os₁, os₂, a2, b2, a1, b1, a3, b3, C115_hits (patternMeans_syntactic hfit hp) honce hs a1 b1⟩

/-- `f($x)` has its metavariable once, ... -/
theorem keOnce : EachOnce keWhat msGeneral :=
  ⟨[(str "x", exNameAt 20 (str "gensym_x"))],
    .node (by decide) (.cons (o := []) (by decide)
      (.node (by decide) (.cons (o := []) (by decide) (.const (by decide) (by decide)) (.ctx .nil)))
      (.cons (by decide) (.list (by decide) (.cons (.named (x := str "x") (by decide) trivial) .nil))
        (.cons (o := []) (by decide) (.list (by decide) .nil) .nil))), by decide⟩

/-- ... and the trees of `f(a)` and, say, `f( a )` have the same shape, and other identities. -/
example : Syntactic msGeneral ∧ EachOnce keWhat msGeneral ∧
    SameShape (mdModule (mdCall 10 (exNameAt 20 (str "a")))) (mdModule (mdCall 50 (exNameAt 60 (str "a")))) ∧
    mdModule (mdCall 10 (exNameAt 20 (str "a"))) ≠ mdModule (mdCall 50 (exNameAt 60 (str "a"))) :=
  ⟨mdCall_syntactic .., keOnce, rfl, fun h => by simp [mdModule, mdCall, exNameAt] at h⟩

/-- The search of C112 is one that the theorems speak of. -/
theorem keSearch : PatternSearch kePy .expr (str "f($x)") keMatcher keTemplates where
  tokens := by
    obtain ⟨ps, hps⟩ := mdTplPlain
    exact ⟨_, ps, rfl, hps⟩
  pattern := kePattern
  templates := by decide +kernel

example : SearchGives kePy keMatcher keTemplates (str "f(a)") [keSub] := ⟨[], _, rfl, keFind⟩

end Refex
