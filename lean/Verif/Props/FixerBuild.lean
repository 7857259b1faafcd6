import Verif.Props.Fixers
import Verif.Spec.FixerBuild
/-
Properties C65 (construction), C66 (the registry of fixers) and C73 (templates attached to a matcher).
-/
namespace Refex
set_option autoImplicit false

theorem dunder_iff (l : Label) : (match MatchKey.name l with
    | .name ('_' :: '_' :: _) => true
    | _ => false) = true ↔ ∃ s, l = '_' :: '_' :: s := by
  constructor
  · intro h
    split at h
    · rename_i h'; cases h'; exact ⟨_, rfl⟩
    · cases h
  · rintro ⟨s, rfl⟩; rfl

theorem checkTemplates_ok_iff (env : Templates) (vars : List Label) (d : Replacements) :
    checkTemplates env vars d = .ok () ↔
      ∀ k, (∃ e ∈ d, k = MatchKey.name e.1 ∨ k ∈ (env.sem e.2).vars) → ∃ l, k = .name l ∧ (l ∈ vars ∨ ∃ s, l = '_' :: '_' :: s) := by
  have hmem : ∀ k, k ∈ (d.flatMap fun e => MatchKey.name e.1 :: (env.sem e.2).vars) ↔
      ∃ e ∈ d, k = MatchKey.name e.1 ∨ k ∈ (env.sem e.2).vars := by
    intro k; simp [List.mem_flatMap, List.mem_cons]
  unfold checkTemplates
  simp only
  constructor
  · intro h
    split at h
    · cases h
    rename_i h1
    split at h
    · rename_i h2
      intro k hk
      rw [← hmem] at hk
      cases k with
      | num n =>
        exfalso; apply h1
        rw [List.any_eq_true]
        exact ⟨.num n, List.mem_filter.2 ⟨hk, rfl⟩, rfl⟩
      | name l =>
        refine ⟨l, rfl, ?_⟩
        by_cases hl : l ∈ vars
        · exact .inl hl
        · right
          have := List.all_eq_true.1 h2 (.name l) (List.mem_filter.2 ⟨hk, by simpa using hl⟩)
          exact (dunder_iff l).1 this
    · cases h
  · intro h
    rw [if_neg, if_pos]
    · rw [List.all_eq_true]
      intro k hk
      obtain ⟨hk1, hk2⟩ := List.mem_filter.1 hk
      obtain ⟨l, rfl, hl⟩ := h k ((hmem k).1 hk1)
      rcases hl with hl | hl
      · simp [hl] at hk2
      · exact (dunder_iff l).2 hl
    · intro hc
      rw [List.any_eq_true] at hc
      obtain ⟨k, hk, hk'⟩ := hc
      obtain ⟨l, rfl, _⟩ := h k ((hmem k).1 (List.mem_filter.1 hk).1)
      cases hk'

/-- **C73**: templates can be attached to a matcher exactly when every label that has a template and every variable that a
template mentions is one the matcher may bind, or a reserved label. -/
theorem C73_accepted (env : Templates) (g : Str → List Label) (m : Matcher) (d : Replacements) (hd : d.WF) :
    checkTemplates env (str "__root" :: m.bindVars g) d = .ok () ↔ TemplatesFit env g m d := by
  rw [checkTemplates_ok_iff]
  have hu : ∀ l, (l ∈ str "__root" :: m.bindVars g ∨ ∃ s, l = '_' :: '_' :: s) ↔ Usable m g l := by
    intro l
    unfold Usable
    constructor
    · rintro (h | h)
      · rcases List.mem_cons.1 h with rfl | h
        · exact .inr ⟨str "root", rfl⟩
        · exact .inl h
      · exact .inr h
    · rintro (h | h)
      · exact .inl (List.mem_cons_of_mem _ h)
      · exact .inr h
  simp only [hu]
  constructor
  · intro h l t hlt
    have hm := Dict.get?_some_mem hlt
    refine ⟨?_, fun v hv => h v ⟨_, hm, .inr hv⟩⟩
    obtain ⟨l', e, hl'⟩ := h (.name l) ⟨_, hm, .inl rfl⟩
    cases e; exact hl'
  · rintro h k ⟨⟨l, t⟩, hm, hk⟩
    obtain ⟨h1, h2⟩ := h l t (Dict.get?_of_mem hd hm)
    rcases hk with rfl | hk
    · exact ⟨l, rfl, h1⟩
    · exact h2 k hk

/-- **C73**: what is refused is refused with a `ValueError`, or (for a numbered variable) an `AttributeError`. -/
theorem C73_refused (env : Templates) (vars : List Label) (d : Replacements) (e : Exc) (h : checkTemplates env vars d = .error e) :
    e = .valueError ∨ e = .attributeError ∧ ∃ l t n, (l, t) ∈ d ∧ .num n ∈ (env.sem t).vars := by
  unfold checkTemplates at h
  simp only at h
  split at h
  · rename_i h1
    cases h
    right
    refine ⟨rfl, ?_⟩
    rw [List.any_eq_true] at h1
    obtain ⟨k, hk, hk'⟩ := h1
    cases k with
    | name l => cases hk'
    | num n =>
      obtain ⟨⟨l, t⟩, hm, hk2⟩ := List.mem_flatMap.1 (List.mem_filter.1 hk).1
      rcases List.mem_cons.1 hk2 with h | h
      · cases h
      · exact ⟨l, t, n, hm, h⟩
  · split at h
    · cases h
    · cases h; exact .inl rfl

theorem addMeta_fit {env : Templates} (hl : LiteralNames env) {g : Str → List Label} {m : Matcher} (F : Fixer) (d : Replacements)
    (hd : ∀ l ∈ metadataLabels, d.get? l = none) : TemplatesFit env g m (F.addMeta d) ↔ TemplatesFit env g m d := by
  obtain ⟨m1, m2, m3, m4⟩ := addMeta_meta F d hd
  have hdun : ∀ l ∈ metadataLabels, ∃ s, l = '_' :: '_' :: s := by
    intro l hm
    simp only [metadataLabels, List.mem_cons, List.not_mem_nil, or_false] at hm
    rcases hm with rfl | rfl | rfl | rfl <;> exact ⟨_, rfl⟩
  constructor
  · intro h l t hlt
    refine h l t ?_
    rw [addMeta_other F d (fun hm => by rw [hd l hm] at hlt; cases hlt)]
    exact hlt
  · intro h l t hlt
    by_cases hm : l ∈ metadataLabels
    · refine ⟨.inr (hdun l hm), ?_⟩
      have : ∃ s, t = litCode s := by
        simp only [metadataLabels, List.mem_cons, List.not_mem_nil, or_false] at hm
        rcases hm with rfl | rfl | rfl | rfl
        · rw [m1] at hlt; cases hs : F.message <;> rw [hs] at hlt <;> cases hlt; exact ⟨_, rfl⟩
        · rw [m2] at hlt; cases hs : F.url <;> rw [hs] at hlt <;> cases hlt; exact ⟨_, rfl⟩
        · rw [m3] at hlt; cases hs : F.category <;> rw [hs] at hlt <;> cases hlt; exact ⟨_, rfl⟩
        · rw [m4] at hlt; split at hlt <;> cases hlt; exact ⟨_, rfl⟩
      obtain ⟨s, rfl⟩ := this
      rw [hl s]
      intro v hv; cases hv
    · rw [addMeta_other F d hm] at hlt
      exact h l t hlt

theorem initial_wf {heap : MapHeap} (hwf : ∀ r, (heap r).WF) (F : Fixer) : (F.initial heap).WF := by
  unfold Fixer.initial
  split
  · simp [Dict.WF, Dict.keys]
  · exact hwf _

theorem initial_nometa {heap : MapHeap} (hn : ∀ r, ∀ l ∈ metadataLabels, (heap r).get? l = none) (F : Fixer) :
    ∀ l ∈ metadataLabels, (F.initial heap).get? l = none := by
  unfold Fixer.initial
  split
  · intro l hm
    have hne : l ≠ str "__root" := by intro e; subst e; revert hm; decide
    simp [Dict.get?, Ne.symm hne]
  · exact hn _

theorem initial_build {F G : Fixer} (h : ∀ r, F.replacement = .mapping r → G.replacement ≠ .mapping r) (heap : MapHeap) :
    G.initial (F.build heap) = G.initial heap := by
  unfold Fixer.initial
  cases hr : G.replacement with
  | template t => rfl
  | mapping r => exact build_other (fun e => h r e hr) heap

theorem buildFixers_ok_iff {env : Templates} (hl : LiteralNames env) (g : Str → List Label) (fs : List Fixer) (ho : OwnMappings fs) (heap : MapHeap)
    (hwf : ∀ F ∈ fs, (F.initial heap).WF) (hn : ∀ F ∈ fs, ∀ l ∈ metadataLabels, (F.initial heap).get? l = none) :
    (∃ heap', buildFixers env g fs heap = .ok heap') ↔ ∀ F ∈ fs, TemplatesFit env g F.matcher (F.initial heap) := by
  induction fs generalizing heap with
  | nil => simp [buildFixers]
  | cons F fs ih =>
    unfold OwnMappings at ho
    rw [List.pairwise_cons] at ho
    have hI : ∀ G ∈ fs, G.initial (F.build heap) = G.initial heap := fun G hG => initial_build (ho.1 G hG) heap
    have ih' := ih ho.2 (F.build heap) (fun G hG => by rw [hI G hG]; exact hwf G (List.mem_cons_of_mem _ hG))
      (fun G hG => by rw [hI G hG]; exact hn G (List.mem_cons_of_mem _ hG))
    have hF := (C73_accepted env g F.matcher _ (addMeta_wf F (hwf F (by simp)))).trans (addMeta_fit hl (g := g) (m := F.matcher) F _ (hn F (by simp)))
    unfold buildFixers
    cases hc : checkTemplates env (str "__root" :: F.matcher.bindVars g) (F.addMeta (F.initial heap)) with
    | error e =>
      rw [hc] at hF
      constructor
      · rintro ⟨_, h⟩; cases h
      · intro h; exact absurd (hF.2 (h F (by simp))) (by simp)
    | ok u =>
      have hf : TemplatesFit env g F.matcher (F.initial heap) := hF.1 hc
      simp only [ih']
      constructor
      · intro h G hG
        rcases List.mem_cons.1 hG with rfl | hG
        · exact hf
        · rw [← hI G hG]; exact h G hG
      · intro h G hG
        rw [hI G hG]; exact h G (List.mem_cons_of_mem _ hG)

theorem fixersOk_iff (n : Nat) (fs : List Fixer) (heap : MapHeap) :
    fixersOk (n + 2) fs heap = .ok () ↔ ∀ F ∈ fs, ∃ tys, typeFilter n [] F.matcher = .ok (some tys) := by
  induction fs with
  | nil => simp [fixersOk]
  | cons F fs ih =>
    unfold fixersOk
    rw [typeFilter_fromMatcher]
    cases h : typeFilter n [] F.matcher with
    | error e => simp [h]
    | ok o =>
      cases o with
      | none => simp [h]
      | some tys => simp [h, ih]

/-- **C65**: fixers that do not share a mapping can be combined exactly when the templates of each fit its matcher and each
knows which types of nodes it can match. -/
theorem C65_accepted (env : Templates) (hl : LiteralNames env) (g : Str → List Label) (n : Nat) (fs : List Fixer) (heap : MapHeap)
    (hwf : ∀ r, (heap r).WF) (hnometa : ∀ r, ∀ l ∈ metadataLabels, (heap r).get? l = none) (hown : OwnMappings fs) :
    (∃ heap', combineFixers env g (n + 2) fs heap = .ok heap') ↔
      ∀ F ∈ fs, TemplatesFit env g F.matcher (F.initial heap) ∧ ∃ tys, typeFilter n [] F.matcher = .ok (some tys) := by
  have hb := buildFixers_ok_iff hl g fs hown heap (fun F _ => initial_wf hwf F) (fun F _ => initial_nometa hnometa F)
  unfold combineFixers
  constructor
  · rintro ⟨heap', h⟩
    split at h
    · cases h
    · rename_i h1 e1
      split at h
      · cases h
      · rename_i u e2
        have hu : u = () := rfl
        subst hu
        exact fun F hF => ⟨hb.1 ⟨_, e1⟩ F hF, (fixersOk_iff n fs h1).1 e2 F hF⟩
  · intro h
    obtain ⟨h1, e1⟩ := hb.2 fun F hF => (h F hF).1
    have e2 := (fixersOk_iff n fs h1).2 fun F hF => (h F hF).2
    exact ⟨h1, by rw [e1, ]; simp only [e2]⟩

/-! ### Examples, and sharing a mapping -/

/-- Literal templates for the names of literals, else as in `exTpls`. -/
def exFixTpls : Templates where
  text := id
  sem := fun t => if str "LiteralTemplate:" <+: t then literalTemplate (t.drop 16) else exTpls.sem t
  pass := literalTemplate (str "pass")

theorem exFix_literals : LiteralNames exFixTpls := by
  intro s
  have h : str "LiteralTemplate:" <+: litCode s := List.prefix_append _ _
  simp only [exFixTpls, if_pos h]
  congr 1

/-- A fixer that negates the test of `if` statements. -/
def exFixer1 (r : Nat) : Fixer := { matcher := exIfMatcher, replacement := .mapping r, message := some (str "M1") }

/-- A fixer with no message for `while` statements. -/
def exFixer2 (r : Nat) : Fixer :=
  { matcher := .node (str "While") [str "test", str "body"] [.bind (str "t") .anything none none, .anything]
    replacement := .mapping r, message := some (str "M2") }

/-- Two equal mappings. -/
def exMaps : MapHeap := fun _ => [(str "t", str "n")]

theorem exFix_own : OwnMappings [exFixer1 0, exFixer2 1] := by
  unfold OwnMappings
  rw [List.pairwise_cons]
  refine ⟨?_, by simp⟩
  intro G hG r h1 h2
  simp only [List.mem_cons, List.not_mem_nil, or_false] at hG
  subst hG
  cases h1
  cases h2

example : (∀ F ∈ [exFixer1 0, exFixer2 1], Ordinary exIfCtx F.matcher) ∧ OwnMappings [exFixer1 0, exFixer2 1] ∧
    (∀ r, (exMaps r).WF) ∧ (∀ r, ∀ l ∈ metadataLabels, (exMaps r).get? l = none) ∧
    ∃ heap', combineFixers exFixTpls exIfCtx.rxGroups 5 [exFixer1 0, exFixer2 1] exMaps = .ok heap' := by
  refine ⟨?_, exFix_own, by simp [exMaps, Dict.WF, Dict.keys], fun r => (by decide : ∀ l ∈ metadataLabels, Dict.get? [(str "t", str "n")] l = none), _, rfl⟩
  intro F hF
  simp only [List.mem_cons, List.not_mem_nil, or_false] at hF
  rcases hF with rfl | rfl
  · exact exIf_ordinary
  · refine ⟨rfl, ?_⟩
    intro l hl
    have : l = str "t" := by
      simpa [exFixer2, Matcher.bindVars, Matcher.bindVarsList] using hl
    subst this
    decide

/-- The finding for the `if` statement with this message. -/
def exFixFound (msg : String) : Found where
  matchedSpans := [(.name (str "t"), (3, 4)), (.name (str "__root"), (0, 9))]
  replacements := [(.name (str "t"), str "not x")]
  primaryLabel := .name (str "__root")
  message := some (str msg)
  significant := true

/-- The match of the `if` statement by the combined matcher. -/
theorem exFix_found {fs : List Fixer} {heap : MapHeap} {ts : Replacements}
    (h1 : attempt exIfCtx 9 (combinedMatcher fs heap) [] exIf = .ok (some (exIfMi ts), []))
    (h2 : attempt exIfCtx 9 (combinedMatcher fs heap) [] exIfCtx.tree = .ok (none, []))
    (h3 : attempt exIfCtx 9 (combinedMatcher fs heap) [] (.list 2 [exIf]) = .ok (none, [])) :
    treeFind exIfCtx 9 (combinedMatcher fs heap) = ([exIfMi ts], none) := by
  unfold treeFind
  have ed : exIfCtx.done = [] := rfl
  have et : exIfCtx.tree = .node 1 (str "Module") [str "body"] [.list 2 [exIf]] := rfl
  rw [et] at h2
  rw [ed, et]
  rw [findLoop_miss (ks := []) h2]
  simp only [Val.children, List.append_nil]
  rw [findLoop_miss (ks := []) h3]
  simp only [Val.children, List.append_nil]
  rw [findLoop_hit h1]
  simp [findLoop]

-- With a mapping of its own each fixer gives its own message.
example : ∃ heap' f, combineFixers exFixTpls exIfCtx.rxGroups 5 [exFixer1 0, exFixer2 1] exMaps = .ok heap' ∧
    pySearch exIfCtx exTokInfo exFixTpls 9 (combinedMatcher [exFixer1 0, exFixer2 1] heap') = .ok [f] ∧
    f.message = some (str "M1") ∧ f.significant = true ∧ f.replacements = [(.name (str "t"), str "not x")] := by
  refine ⟨_, exFixFound "M1", rfl, ?_, rfl, rfl, rfl⟩
  unfold pySearch
  rw [exFix_found rfl rfl rfl]
  rfl

/-- **C65**, the claim for fixers that share a mapping object is false: the fixer for `if` statements, which has message M1,
reports with the message M2 of the fixer for `while` statements. -/
theorem C65_shared_mapping_false : ∃ heap' f, combineFixers exFixTpls exIfCtx.rxGroups 5 [exFixer1 0, exFixer2 0] exMaps = .ok heap' ∧
    pySearch exIfCtx exTokInfo exFixTpls 9 (combinedMatcher [exFixer1 0, exFixer2 0] heap') = .ok [f] ∧
    f.matchedSpans.get? (.name (str "__root")) = some (0, 9) ∧ f.message = some (str "M2") := by
  refine ⟨_, exFixFound "M2", rfl, ?_, rfl, rfl⟩
  unfold pySearch
  rw [exFix_found rfl rfl rfl]
  rfl

/-- `AnyOf(Bind('t', While), If)`. -/
def exMaybe : Matcher := .anyOf [.bind (str "t") (.typeIs (str "While")) none none, .typeIs (str "If")]

/-- **C73**: templates that were accepted can still mention a variable that a particular match does not bind. The search then
ends in a `KeyError`. -/
theorem C73_unbound_false : checkTemplates exTpls (str "__root" :: exMaybe.bindVars exIfCtx.rxGroups) [(str "__root", str "n")] = .ok () ∧
    pySearch exIfCtx exTokInfo exTpls 9 (fromMatcher exMaybe [(str "__root", str "n")]) = .error .keyError := by
  refine ⟨rfl, ?_⟩
  have h : treeFind exIfCtx 9 (fromMatcher exMaybe [(str "__root", str "n")]) =
      ([⟨.lexical exIf (0, 9), [(str "__root", ⟨.lexical exIf (0, 9), .merge, .keepLast⟩)], [(str "__root", str "n")]⟩], none) := by
    unfold treeFind
    have ed : exIfCtx.done = [] := rfl
    have et : exIfCtx.tree = .node 1 (str "Module") [str "body"] [.list 2 [exIf]] := rfl
    rw [ed, et]
    rw [findLoop_miss (ks := []) rfl]
    simp only [Val.children, List.append_nil]
    rw [findLoop_miss (ks := []) rfl]
    simp only [Val.children, List.append_nil]
    have ha : attempt exIfCtx 9 (fromMatcher exMaybe [(str "__root", str "n")]) [] exIf =
      .ok (some ⟨.lexical exIf (0, 9), [(str "__root", ⟨.lexical exIf (0, 9), .merge, .keepLast⟩)], [(str "__root", str "n")]⟩, []) := rfl
    rw [findLoop_hit ha]
    simp [findLoop]
  unfold pySearch
  rw [h]
  rfl

/-! ### C66 -/

theorem lookup_register {α : Type} {r r' : Registry α} {name : Str} {fs : List α} (h : r.register name fs = .ok r') (k : Str) :
    r.lookup name = none ∧ r'.lookup k = if k = name then some fs else r.lookup k := by
  unfold Registry.register at h
  split at h
  · cases h
  · rename_i hn
    cases h
    have hn : r.lookup name = none := by simpa using hn
    refine ⟨hn, ?_⟩
    unfold Registry.lookup at hn ⊢
    by_cases hk : k = str "*"
    · subst hk
      have : str "*" ≠ name := by rintro rfl; simp at hn
      simp [this]
    · simp only [if_neg hk, Dict.get?_set]

/-- **C66**: registering under a name fails, with a `ValueError`, exactly when the name is taken. -/
theorem C66_taken {α : Type} (r : Registry α) (name : Str) (fs : List α) :
    (r.lookup name = none → ∃ r', r.register name fs = .ok r') ∧ (r.lookup name ≠ none → r.register name fs = .error .valueError) := by
  unfold Registry.register
  cases h : r.lookup name with
  | none => simp
  | some x => simp

/-- **C66**: after any history of registrations, a name stands for what was first registered under it, and '*' for the
default fixers at the start followed by those added as defaults, in order. -/
theorem C66_history {α : Type} (r : Registry α) (ops : List (RegOp α)) (name : Str) :
    (regRun r ops).lookup name =
      if name = str "*" then some (r.defaults ++ defaultsOf ops) else (r.lookup name).or (FirstNamed (groupsOf ops) name) := by
  induction ops generalizing r with
  | nil =>
    simp only [regRun, defaultsOf, List.append_nil, groupsOf, FirstNamed, List.find?_nil, Option.map_none, Option.or_none]
    unfold Registry.lookup
    split <;> rfl
  | cons op ops ih =>
    cases op with
    | defaults fs =>
      rw [regRun, ih]
      simp only [Registry.registerDefault, defaultsOf, groupsOf, List.append_assoc, Registry.lookup]
      by_cases hs : name = str "*"
      · rw [if_pos hs, if_pos hs]
      · rw [if_neg hs, if_neg hs, if_neg hs, if_neg hs]
    | group nm fs =>
      rw [regRun]
      cases hr : r.register nm fs with
      | error e =>
        simp only [ih, defaultsOf, groupsOf]
        split
        · rfl
        · rename_i hstar
          by_cases hn : nm = name
          · subst hn
            have : r.lookup nm ≠ none := fun h => by
              obtain ⟨r', h'⟩ := (C66_taken r nm fs).1 h
              rw [hr] at h'; cases h'
            cases h : r.lookup nm with
            | none => exact absurd h this
            | some x => simp
          · simp [FirstNamed, hn]
      | ok r' =>
        simp only [ih, defaultsOf, groupsOf]
        have hl := lookup_register hr
        have hd : r'.defaults = r.defaults := by
          unfold Registry.register at hr
          split at hr
          · cases hr
          · cases hr; rfl
        rw [hd]
        split
        · rfl
        · obtain ⟨h1, h2⟩ := hl name
          rw [h2]
          by_cases hn : name = nm
          · subst hn
            simp [FirstNamed, h1]
          · have : nm ≠ name := fun e => hn e.symm
            simp [FirstNamed, hn, this]

/-- **C66**: at import the three groups are registered under their names and '*' stands for all of them, in that order. -/
theorem C66_builtin {α : Type} (a b d : List α) : ∃ r, builtinRegistry a b d = .ok r ∧ r.defaults = a ++ b ++ d ∧
    ∀ name, r.lookup name = if name = str "*" then some (a ++ b ++ d) else if name = str "correctness" then some a
      else if name = str "idiom" then some b else if name = str "unittest" then some d else none := by
  refine ⟨⟨a ++ b ++ d, [(str "correctness", a), (str "idiom", b), (str "unittest", d)]⟩, ?_, rfl, ?_⟩
  · have e : ∀ (x : List α), builtinRegistry a b d = .ok ⟨[] ++ [] ++ a ++ b ++ d, [(str "correctness", a), (str "idiom", b), (str "unittest", d)]⟩ := by
      intro x; rfl
    simpa using e []
  · intro name
    unfold Registry.lookup
    split
    · rfl
    · by_cases h1 : name = str "correctness"
      · subst h1; rfl
      by_cases h2 : name = str "idiom"
      · subst h2; rfl
      by_cases h3 : name = str "unittest"
      · subst h3; rfl
      rw [if_neg h1, if_neg h2, if_neg h3]
      exact Dict.get?_none_iff.2 fun v hv => by
        simp only [List.mem_cons, Prod.mk.injEq, List.not_mem_nil, or_false] at hv
        rcases hv with h | h | h
        · exact h1 h.1
        · exact h2 h.1
        · exact h3 h.1

/-- **C66**: after the import and any later registrations, `from_pattern` combines: for '*' the three groups and then the
fixers added as defaults (but no group registered later); for a built-in name that group; for another name what was first
registered under it; for any other pattern it raises a `ValueError`. -/
theorem C66_from_pattern {α : Type} (a b d : List α) (r : Registry α) (hr : builtinRegistry a b d = .ok r) (ops : List (RegOp α)) (pattern : Str) :
    (regRun r ops).fromPattern pattern =
      if pattern = str "*" then .ok (a ++ b ++ d ++ defaultsOf ops) else if pattern = str "correctness" then .ok a
      else if pattern = str "idiom" then .ok b else if pattern = str "unittest" then .ok d
      else match FirstNamed (groupsOf ops) pattern with
        | some fs => .ok fs
        | none => .error .valueError := by
  obtain ⟨r', h1, h2, h3⟩ := C66_builtin a b d
  rw [hr] at h1
  cases h1
  unfold Registry.fromPattern
  rw [C66_history, h3, h2]
  by_cases e0 : pattern = str "*"
  · rw [if_pos e0, if_pos e0]
  rw [if_neg e0, if_neg e0, if_neg e0]
  by_cases e1 : pattern = str "correctness"
  · rw [if_pos e1, if_pos e1]; rfl
  rw [if_neg e1, if_neg e1]
  by_cases e2 : pattern = str "idiom"
  · rw [if_pos e2, if_pos e2]; rfl
  rw [if_neg e2, if_neg e2]
  by_cases e3 : pattern = str "unittest"
  · rw [if_pos e3, if_pos e3]; rfl
  rw [if_neg e3, if_neg e3, Option.none_or]
  cases FirstNamed (groupsOf ops) pattern <;> rfl

example : ∃ r, builtinRegistry [1, 2] [3] [4] = .ok r ∧
    (regRun r [.group (str "mine") [7], .defaults [5], .group (str "mine") [8], .group (str "idiom") [9]]).fromPattern (str "*") = .ok [1, 2, 3, 4, 5] ∧
    (regRun r [.group (str "mine") [7], .defaults [5], .group (str "mine") [8], .group (str "idiom") [9]]).fromPattern (str "mine") = .ok [7] ∧
    (regRun r [.group (str "mine") [7]]).fromPattern (str "other") = .error .valueError := ⟨_, rfl, rfl, rfl, rfl⟩

end Refex
