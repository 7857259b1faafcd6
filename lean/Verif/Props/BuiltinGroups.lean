import Verif.Spec.Groups
import Verif.Props.BuiltinRules
import Verif.Props.FixerBuild
/- C83: the built-in fixers can be combined, and say what they do. -/
namespace Refex
set_option autoImplicit false

theorem submatchers_get_restricted (l : List (Label × Str)) (rs : Dict Label Matcher) (hv : (l.map Prod.snd).Nodup) (y : Str) :
    (submatchers [] l rs).get? y = (l.find? fun p => decide (p.2 = y)).map fun p => metaBind p.1 ((rs.get? p.1).getD .anything) := by
  unfold submatchers
  simp only [List.foldl_nil]
  suffices H : ∀ (d : Dict Str Matcher), (l.foldl (fun d e => d.set e.2 (metaBind e.1 ((rs.get? e.1).getD .anything))) d).get? y =
      ((l.find? fun p => decide (p.2 = y)).map fun p => metaBind p.1 ((rs.get? p.1).getD .anything)).or (d.get? y) by
    rw [H []]; simp [Dict.get?]
  induction l with
  | nil => intro d; simp
  | cons e l ih =>
    intro d
    simp only [List.map_cons, List.nodup_cons] at hv
    rw [List.foldl_cons, ih hv.2, Dict.get?_set, List.find?_cons]
    by_cases h : e.2 = y
    · subst h
      have : l.find? (fun p => decide (p.2 = e.2)) = none := by
        rw [List.find?_eq_none]
        intro p hp hc
        exact hv.1 (List.mem_map.2 ⟨p, hp, by simpa using hc⟩)
      rw [this]
      simp [Dict.get?]
    · have h' : ¬ y = e.2 := fun e => h e.symm
      simp [h, h']

section
variable {mangle : Label → Str} {g : Str → List Label} {subs : Dict Str Matcher}

theorem astPattern_other {ty : Str} (h : ty ≠ str "Name") (fs : List (Str × Val)) :
    astPattern subs (codeNode ty fs) = .node ty (fs.map Prod.fst) (fieldPatterns subs false (fs.map Prod.fst) (fs.map Prod.snd)) := by
  unfold codeNode
  rw [astPattern]
  have : nameId (.node 0 ty (fs.map Prod.fst) (fs.map Prod.snd)) = none := by unfold nameId; exact if_neg h
  rw [this]
  simp only [Option.bind_none, h, decide_false]

theorem mem_bindVars_node {ty : Str} (h : ty ≠ str "Name") {fs : List (Str × Val)} {x : Label} {f : Str × Val} (hf : f ∈ fs)
    (hx : x ∈ (astPattern subs f.2).bindVars g) : x ∈ (astPattern subs (codeNode ty fs)).bindVars g := by
  rw [astPattern_other h, Matcher.bindVars, mem_bindVarsList]
  refine ⟨_, ?_, hx⟩
  clear h
  induction fs with
  | nil => cases hf
  | cons e fs ih =>
    simp only [List.map_cons, fieldPatterns]
    rcases List.mem_cons.1 hf with rfl | hf
    · simp
    · exact List.mem_cons_of_mem _ (ih hf)

theorem mem_bindVars_list {i : Nat} {vs : List Val} {x : Label} {v : Val} (hv : v ∈ vs) (hx : x ∈ (astPattern subs v).bindVars g) :
    x ∈ (astPattern subs (.list i vs)).bindVars g := by
  rw [astPattern, Matcher.bindVars, mem_bindVarsList]
  refine ⟨_, ?_, hx⟩
  induction vs with
  | nil => cases hv
  | cons e vs ih =>
    simp only [astPatterns]
    rcases List.mem_cons.1 hv with rfl | hv
    · simp
    · exact List.mem_cons_of_mem _ (ih hv)

mutual
theorem mem_pattern_vars (S : List Label)
    (hS : ∀ x ∈ S, ∃ m, subs.get? (mangle x) = some (metaBind x m)) : ∀ (p : Code), (∀ x ∈ p.vars, x ∈ S) → ∀ x ∈ p.vars, x ∈ (astPattern subs (p.val mangle)).bindVars g
  | .var y, hp, x, hx => by
    cases List.mem_singleton.1 hx
    obtain ⟨m, hm⟩ := hS y (hp y hx)
    have : nameId (.node 0 (str "Name") [str "id", str "ctx"] [.const 0 (.str (mangle y)), loadNode]) = some (mangle y) := rfl
    simp only [Code.val, nameNode, codeNode, List.map_cons, List.map_nil]
    rw [astPattern, this]
    simp only [Option.bind_some, hm, metaBind, Matcher.bindVars]
    exact List.mem_cons_self ..
  | .name s, hp, x, hx => by cases hx
  | .int i, hp, x, hx => by cases hx
  | .attr e a, hp, x, hx => by
    refine mem_bindVars_node (by decide) (List.mem_cons_self ..) (mem_pattern_vars S hS e hp x hx)
  | .call f as ks, hp, x, hx => by
    simp only [Code.vars, List.mem_append] at hp hx
    rcases hx with hx | hx | hx
    · exact mem_bindVars_node (by decide) (List.mem_cons_self ..) (mem_pattern_vars S hS f (fun y hy => hp y (.inl hy)) x hx)
    · obtain ⟨v, h1, h2⟩ := mem_patterns_vars S hS as (fun y hy => hp y (.inr (.inl hy))) x hx
      exact mem_bindVars_node (by decide) (List.mem_cons_of_mem _ (List.mem_cons_self ..)) (mem_bindVars_list h1 h2)
    · obtain ⟨v, h1, h2⟩ := mem_patterns_vars S hS ks (fun y hy => hp y (.inr (.inr hy))) x hx
      exact mem_bindVars_node (by decide) (List.mem_cons_of_mem _ (List.mem_cons_of_mem _ (List.mem_cons_self ..))) (mem_bindVars_list h1 h2)
  | .keyword a e, hp, x, hx => mem_bindVars_node (by decide) (List.mem_cons_of_mem _ (List.mem_cons_self ..)) (mem_pattern_vars S hS e hp x hx)
  | .compare l op r, hp, x, hx => by
    simp only [Code.vars, List.mem_append] at hp hx
    rcases hx with hx | hx
    · exact mem_bindVars_node (by decide) (List.mem_cons_self ..) (mem_pattern_vars S hS l (fun y hy => hp y (.inl hy)) x hx)
    · exact mem_bindVars_node (by decide) (List.mem_cons_of_mem _ (List.mem_cons_of_mem _ (List.mem_cons_self ..)))
        (mem_bindVars_list (List.mem_cons_self ..) (mem_pattern_vars S hS r (fun y hy => hp y (.inr hy)) x hx))
  | .not e, hp, x, hx => mem_bindVars_node (by decide) (List.mem_cons_of_mem _ (List.mem_cons_self ..)) (mem_pattern_vars S hS e hp x hx)
  | .mod l r, hp, x, hx => by
    simp only [Code.vars, List.mem_append] at hp hx
    rcases hx with hx | hx
    · exact mem_bindVars_node (by decide) (List.mem_cons_self ..) (mem_pattern_vars S hS l (fun y hy => hp y (.inl hy)) x hx)
    · exact mem_bindVars_node (by decide) (List.mem_cons_of_mem _ (List.mem_cons_of_mem _ (List.mem_cons_self ..)))
        (mem_pattern_vars S hS r (fun y hy => hp y (.inr hy)) x hx)
  | .tuple1 e, hp, x, hx => mem_bindVars_node (by decide) (List.mem_cons_self ..) (mem_bindVars_list (List.mem_cons_self ..) (mem_pattern_vars S hS e hp x hx))
  | .emptyList, hp, x, hx => by cases hx
  | .emptyDict, hp, x, hx => by cases hx
  | .comp set e t i, hp, x, hx => by
    simp only [Code.vars, List.mem_append] at hp hx
    have hne : (if set then str "SetComp" else str "ListComp") ≠ str "Name" := by cases set <;> decide
    rcases hx with hx | hx
    · exact mem_bindVars_node hne (List.mem_cons_self ..) (mem_pattern_vars S hS e (fun y hy => hp y (.inl hy)) x hx)
    · refine mem_bindVars_node hne (List.mem_cons_of_mem _ (List.mem_cons_self ..)) (mem_bindVars_list (List.mem_cons_self ..) ?_)
      rcases hx with hx | hx
      · exact mem_bindVars_node (by decide) (List.mem_cons_self ..) (mem_pattern_vars S hS t (fun y hy => hp y (.inr (.inl hy))) x hx)
      · exact mem_bindVars_node (by decide) (List.mem_cons_of_mem _ (List.mem_cons_self ..)) (mem_pattern_vars S hS i (fun y hy => hp y (.inr (.inr hy))) x hx)
  | .assign t e, hp, x, hx => by
    simp only [Code.vars, List.mem_append] at hp hx
    rcases hx with hx | hx
    · exact mem_bindVars_node (by decide) (List.mem_cons_self ..) (mem_bindVars_list (List.mem_cons_self ..) (mem_pattern_vars S hS t (fun y hy => hp y (.inl hy)) x hx))
    · exact mem_bindVars_node (by decide) (List.mem_cons_of_mem _ (List.mem_cons_self ..)) (mem_pattern_vars S hS e (fun y hy => hp y (.inr hy)) x hx)
  | .expr e, hp, x, hx => mem_bindVars_node (by decide) (List.mem_cons_self ..) (mem_pattern_vars S hS e hp x hx)
theorem mem_patterns_vars (S : List Label)
    (hS : ∀ x ∈ S, ∃ m, subs.get? (mangle x) = some (metaBind x m)) : ∀ (ps : List Code), (∀ x ∈ Code.varss ps, x ∈ S) → ∀ x ∈ Code.varss ps,
    ∃ v ∈ Code.vals mangle ps, x ∈ (astPattern subs v).bindVars g
  | [], hp, x, hx => by cases hx
  | p :: ps, hp, x, hx => by
    simp only [Code.varss, List.mem_append] at hp hx
    rcases hx with hx | hx
    · exact ⟨_, List.mem_cons_self .., mem_pattern_vars S hS p (fun y hy => hp y (.inl hy)) x hx⟩
    · obtain ⟨v, h1, h2⟩ := mem_patterns_vars S hS ps (fun y hy => hp y (.inr hy)) x hx
      exact ⟨v, List.mem_cons_of_mem _ h1, h2⟩
end

theorem mem_code_pattern {p : Code} (hm : Mangles mangle p) (rs : Dict Label Matcher) {x : Label} (hx : x ∈ p.vars) :
    x ∈ (p.pattern mangle rs).bindVars g := by
  unfold Code.pattern patternMatcher
  simp only [Matcher.bindVars]
  refine mem_pattern_vars p.vars (fun y hy => ?_) p (fun y h => h) x hx
  have hsub := submatchers_get_restricted (codeVariables mangle p) rs (codeVariables_nodup hm) (mangle y)
  unfold codeVariables at hsub
  rw [hsub]
  have : ((dedup p.vars).map fun x => (x, mangle x)).find? (fun p => decide (p.2 = mangle y)) = some (y, mangle y) := by
    rw [List.find?_map]
    have : (dedup p.vars).find? ((fun p => decide (p.2 = mangle y)) ∘ fun x => (x, mangle x)) = some y := by
      have hmem : y ∈ dedup p.vars := (mem_dedup _ y).2 hy
      have hsub : ∀ z ∈ dedup p.vars, z ∈ p.vars := fun z => (mem_dedup _ z).1
      generalize dedup p.vars = l at hmem hsub
      induction l with
      | nil => cases hmem
      | cons z l ih =>
        rw [List.find?_cons]
        by_cases h : mangle z = mangle y
        · simp only [Function.comp, h, decide_true]
          rw [hm.inj z (hsub z (List.mem_cons_self ..)) y hy h]
        · simp only [Function.comp, h, decide_false]
          rcases List.mem_cons.1 hmem with rfl | hmem
          · exact absurd rfl h
          · exact ih hmem fun w hw => hsub w (List.mem_cons_of_mem _ hw)
    rw [this]; rfl
  rw [this]
  exact ⟨_, rfl⟩

theorem mem_guard {gd : Guard} {m : Matcher} {x : Label} (hx : x ∈ m.bindVars g) : x ∈ (gd.matcher m).bindVars g := by
  cases gd
  · exact hx
  · simpa [Guard.matcher, Matcher.bindVars] using hx
  · simp [Guard.matcher, Matcher.bindVars, Matcher.bindVarsList, hx]

theorem filter_code (p : Code) (rs : Dict Label Matcher) (n : Nat) (h : ∀ x, p ≠ .var x) (h' : ∀ s, p ≠ .name s) (env : Env) :
    ∃ tys, typeFilter (n + 3) env (p.pattern mangle rs) = .ok (some tys) := by
  unfold Code.pattern patternMatcher
  change ∃ tys, typeFilter (n + 1) env (astPattern _ (p.val mangle)) = .ok (some tys)
  have : ∀ (ty : Str) (fs : List (Str × Val)), ty ≠ str "Name" →
      ∃ tys, typeFilter (n + 1) env (astPattern (submatchers [] (List.map (fun x => (x, mangle x)) (dedup p.vars)) rs) (codeNode ty fs)) = .ok (some tys) := by
    intro ty fs hty
    rw [astPattern_other hty]
    exact ⟨_, rfl⟩
  cases p <;> try exact this _ _ (by decide)
  case var x => exact absurd rfl (h x)
  case name x => exact absurd rfl (h' x)
  case comp set e t i => exact this _ _ (by cases set <;> decide)

theorem filter_guard {gd : Guard} {m : Matcher} {n : Nat} {tys tys' : List Str} (h : typeFilter (n + 1) [] m = .ok (some tys))
    (h' : typeFilter (n + 2) [] m = .ok (some tys')) : ∃ tys, typeFilter (n + 2) [] (gd.matcher m) = .ok (some tys) := by
  cases gd with
  | none => exact ⟨_, h'⟩
  | imported s => exact ⟨_, h⟩
  | regex rx =>
    refine ⟨tys, ?_⟩
    have : typeFilter (n + 1) [] (.matchesRegex rx .anything) = .ok none := rfl
    rw [Guard.matcher, typeFilter]
    simp only [List.mapM_cons, List.mapM_nil, h, this]
    rfl

theorem rule_compound : ∀ r ∈ builtinRules, (match r.old with | .var _ => false | .name _ => false | _ => true) = true := by decide

theorem filter_rule {r : Rule} (hr : r ∈ builtinRules) (n : Nat) :
    ∃ tys, typeFilter (n + 4) [] (r.fixer mangle).matcher = .ok (some tys) := by
  have h := rule_compound r hr
  have h1 : ∀ x, r.old ≠ .var x := fun x e => by rw [e] at h; cases h
  have h2 : ∀ x, r.old ≠ .name x := fun x e => by rw [e] at h; cases h
  obtain ⟨_, t1⟩ := filter_code (mangle := mangle) r.old (r.restrictions.map fun e => (e.1, e.2.matcher)) n h1 h2 []
  obtain ⟨_, t2⟩ := filter_code (mangle := mangle) r.old (r.restrictions.map fun e => (e.1, e.2.matcher)) (n + 1) h1 h2 []
  exact filter_guard t1 t2

theorem fit_rule {env : Templates} (hv : TemplateVariables env) {r : Rule} (hr : r ∈ builtinRules) (hm : Mangles mangle r.old) (heap : MapHeap) :
    TemplatesFit env g (r.fixer mangle).matcher ((r.fixer mangle).initial heap) := by
  intro l t h
  have : l = str "__root" ∧ t = templateCode r.kind r.newText := by
    simp only [Rule.fixer, Fixer.initial, Dict.get?] at h
    simp [List.lookup] at h
    exact ⟨h.1.symm, h.2.symm⟩
  obtain ⟨rfl, rfl⟩ := this
  refine ⟨.inr ⟨_, rfl⟩, fun v hvv => ?_⟩
  obtain ⟨x, hx, rfl⟩ := hv.rules r hr v hvv
  exact ⟨x, rfl, .inl (mem_guard (mem_code_pattern hm _ (builtin_bound r hr x hx)))⟩

theorem filter_attrib (ref : Nat) (d : Code) (n : Nat) : ∃ tys, typeFilter (n + 1) [] (attribFixer mangle ref d).matcher = .ok (some tys) := ⟨_, rfl⟩

theorem filter_loggingError (ref : Nat) (n : Nat) : ∃ tys, typeFilter (n + 2) [] (loggingErrorFixer mangle ref).matcher = .ok (some tys) := ⟨_, rfl⟩

theorem filter_loggingException (ref : Nat) (n : Nat) : ∃ tys, typeFilter (n + 6) [] (loggingExceptionFixer mangle ref).matcher = .ok (some tys) := by
  obtain ⟨tys, h⟩ := filter_code (mangle := mangle) (.expr (.call (loggingAttr "exception") [.var (str "arg")] [])) [(str "arg", nameWith (.bind (str "e") .anything none none))] n
    (fun _ => by simp) (fun _ => by simp) []
  refine ⟨tys, ?_⟩
  simp only [loggingExceptionFixer, loggingExceptionMatcher]
  rw [typeFilter]
  have h' : typeFilter (n + 5) [] (.bind (str "logging_exception") (.rebind ((Code.expr (.call (loggingAttr "exception") [.var (str "arg")] [])).pattern mangle
      [(str "arg", nameWith (.bind (str "e") .anything none none))]) (some .mergeIdentical) none) none none) = .ok (some tys) := h
  have h2 : ∀ a b, typeFilter (n + 5) [] (.hasFirstAncestor a b) = .ok none := fun _ _ => rfl
  simp only [List.mapM_cons, List.mapM_nil, h', h2, inExceptionHandler]
  rfl

theorem fit_singleton {env : Templates} {m : Matcher} {l : Label} {t : Str} (h : l ∈ m.bindVars g)
    (hv : ∀ v ∈ (env.sem t).vars, ∃ l', v = .name l' ∧ l' ∈ m.bindVars g) : TemplatesFit env g m [(l, t)] := by
  intro l' t' h'
  have : l = l' ∧ t = t' := by simpa [Dict.get?, List.lookup] using h'
  obtain ⟨rfl, rfl⟩ := this
  refine ⟨.inl h, fun v hvv => ?_⟩
  obtain ⟨x, rfl, hx⟩ := hv v hvv
  exact ⟨x, rfl, .inl hx⟩

theorem fit_attrib {env : Templates} (hv : TemplateVariables env) (d : Code) {ref : Nat} (h : ref < 3) :
    TemplatesFit env g (attribFixer mangle ref d).matcher ((attribFixer mangle ref d).initial builtinHeap) := by
  have hk : str "keyword" ∈ (attribMatcher mangle d).bindVars g := by
    simp [attribMatcher, callWith, nodeWith, Matcher.bindVars, Matcher.bindVarsList]
  have hs : ∀ text, shVariables text = .ok [] → ∀ v ∈ (env.sem (shCode text)).vars, ∃ l', v = .name l' ∧ l' ∈ (attribMatcher mangle d).bindVars g := by
    intro text ht v hvv
    rw [hv.sh text [] ht] at hvv
    cases hvv
  match ref, h with
  | 0, _ => exact fit_singleton hk (hs _ rfl)
  | 1, _ => exact fit_singleton hk (hs _ rfl)
  | 2, _ => exact fit_singleton hk (hs _ rfl)

theorem fit_loggingError {env : Templates} (hv : TemplateVariables env) :
    TemplatesFit env g (loggingErrorFixer mangle 3).matcher ((loggingErrorFixer mangle 3).initial builtinHeap) := by
  refine fit_singleton ?_ ?_
  · simp [loggingErrorFixer, loggingErrorMatcher, callWith, nodeWith, Matcher.bindVars, Matcher.bindVarsList]
  · rw [hv.logging]; intro v h; cases h

theorem fit_loggingException {env : Templates} (hv : TemplateVariables env) :
    TemplatesFit env g (loggingExceptionFixer mangle 4).matcher ((loggingExceptionFixer mangle 4).initial builtinHeap) := by
  refine fit_singleton ?_ ?_
  · simp [loggingExceptionFixer, loggingExceptionMatcher, Matcher.bindVars, Matcher.bindVarsList]
  · rw [hv.sh _ [str "func"] rfl]
    intro v h
    cases List.mem_singleton.1 h
    refine ⟨_, rfl, ?_⟩
    simp [loggingExceptionFixer, loggingExceptionMatcher, Matcher.bindVars, Matcher.bindVarsList, tryWith, nodeWith, triedStatement, callBound, callWith]

theorem builtinHeap_wf : ∀ r, (builtinHeap r).WF
  | 0 | 1 | 2 | 3 | 4 => by simp [builtinHeap, Dict.WF, Dict.keys]
  | _ + 5 => by simp [builtinHeap, Dict.WF, Dict.keys]

theorem builtinHeap_nometa : ∀ r, ∀ l ∈ metadataLabels, (builtinHeap r).get? l = none
  | 0 | 1 | 2 | 3 | 4 => by decide
  | _ + 5 => fun _ _ => rfl

/-- The fixers of rules need no mapping. -/
theorem rules_own (rs : List Rule) : ∀ F ∈ rs.map (Rule.fixer mangle), ∀ r, F.replacement ≠ .mapping r := by
  intro F hF r
  obtain ⟨x, _, rfl⟩ := List.mem_map.1 hF
  simp [Rule.fixer]

theorem own_append {a b : List Fixer} (ha : OwnMappings a) (hb : OwnMappings b)
    (h : ∀ F ∈ a, ∀ G ∈ b, ∀ r, F.replacement = .mapping r → G.replacement ≠ .mapping r) : OwnMappings (a ++ b) :=
  List.pairwise_append.2 ⟨ha, hb, h⟩

theorem own_rules (rs : List Rule) : OwnMappings (rs.map (Rule.fixer mangle)) := by
  induction rs with
  | nil => exact List.Pairwise.nil
  | cons x rs ih => exact List.Pairwise.cons (fun _ _ r h => by cases h) ih

theorem own_correctness : OwnMappings (correctnessFixers mangle) := by
  unfold correctnessFixers
  refine own_append (own_append (own_rules _) ?_ fun F hF G _ r h => absurd h (rules_own _ F hF r)) (own_rules _) fun F _ G hG r _ => rules_own _ G hG r
  simp [OwnMappings, attribFixer]

theorem own_idiom : OwnMappings (idiomFixers mangle) := by
  unfold idiomFixers
  refine own_append (own_append (own_rules _) (own_rules _) fun F _ G hG r _ => rules_own _ G hG r) ?_ fun F hF G _ r h => ?_
  · simp [OwnMappings, loggingErrorFixer, loggingExceptionFixer]
  · rcases List.mem_append.1 hF with hF | hF <;> exact absurd h (rules_own _ F hF r)

theorem correctness_refs {F : Fixer} (hF : F ∈ correctnessFixers mangle) {r : Nat} (h : F.replacement = .mapping r) : r < 3 := by
  unfold correctnessFixers at hF
  rcases List.mem_append.1 hF with hF | hF
  · rcases List.mem_append.1 hF with hF | hF
    · exact absurd h (rules_own _ F hF r)
    · simp only [List.mem_cons, List.not_mem_nil, or_false] at hF
      rcases hF with rfl | rfl | rfl <;> cases h <;> decide
  · exact absurd h (rules_own _ F hF r)

theorem idiom_refs {F : Fixer} (hF : F ∈ idiomFixers mangle) {r : Nat} (h : F.replacement = .mapping r) : 3 ≤ r := by
  unfold idiomFixers at hF
  rcases List.mem_append.1 hF with hF | hF
  · rcases List.mem_append.1 hF with hF | hF <;> exact absurd h (rules_own _ F hF r)
  · simp only [List.mem_cons, List.not_mem_nil, or_false] at hF
    rcases hF with rfl | rfl <;> cases h <;> decide

theorem own_all : OwnMappings (correctnessFixers mangle ++ idiomFixers mangle ++ unittestFixers mangle) := by
  refine own_append (own_append own_correctness own_idiom fun F hF G hG r h h' => ?_) (own_rules _) fun F _ G hG r _ => rules_own _ G hG r
  have := correctness_refs hF h
  have := idiom_refs hG h'
  omega

theorem group_fixer {F : Fixer} (hF : F ∈ correctnessFixers mangle ++ idiomFixers mangle ++ unittestFixers mangle) :
    (∃ r ∈ builtinRules, F = r.fixer mangle) ∨ (∃ ref < 3, ∃ d, F = attribFixer mangle ref d) ∨ F = loggingErrorFixer mangle 3 ∨
      F = loggingExceptionFixer mangle 4 := by
  have rule : ∀ (rs : List Rule), (∀ r ∈ rs, r ∈ builtinRules) → F ∈ rs.map (Rule.fixer mangle) → ∃ r ∈ builtinRules, F = r.fixer mangle := by
    intro rs hrs h
    obtain ⟨r, hr, rfl⟩ := List.mem_map.1 h
    exact ⟨r, hrs r hr, rfl⟩
  unfold correctnessFixers idiomFixers unittestFixers at hF
  simp only [List.mem_append] at hF
  have hb : ∀ r, r ∈ builtinRules ↔ ((r ∈ unittestRules ∨ r ∈ idiomRules) ∨ r ∈ datetimeRules) ∨ ((r ∈ literalRules ∨ r ∈ yamlRules) ∨ r ∈ parensRules) ∨ r ∈ constantRules := by
    intro r; simp only [builtinRules, List.mem_append]
  rcases hF with (((hF | hF) | hF) | ((hF | hF) | hF)) | hF
  · refine .inl (rule _ (fun r h => ?_) hF)
    rw [hb]; simp only [List.mem_append] at h; exact .inr (.inl h)
  · right; left
    simp only [List.mem_cons, List.not_mem_nil, or_false] at hF
    rcases hF with rfl | rfl | rfl
    · exact ⟨0, by decide, _, rfl⟩
    · exact ⟨1, by decide, _, rfl⟩
    · exact ⟨2, by decide, _, rfl⟩
  · exact .inl (rule _ (fun r h => (hb r).2 (.inl (.inr h))) hF)
  · exact .inl (rule _ (fun r h => (hb r).2 (.inl (.inl (.inr h)))) hF)
  · exact .inl (rule _ (fun r h => (hb r).2 (.inr (.inr h))) hF)
  · right; right
    simpa using hF
  · exact .inl (rule _ (fun r h => (hb r).2 (.inl (.inl (.inl h)))) hF)

theorem own_sub {a b : List Fixer} (h : a.Sublist b) (hb : OwnMappings b) : OwnMappings a := hb.sublist h

theorem combine_group {env : Templates} (hv : TemplateVariables env) (hm : ∀ r ∈ builtinRules, Mangles mangle r.old) (n : Nat)
    {name : Str} (hname : name ∈ [str "*", str "correctness", str "idiom", str "unittest"]) :
    ∃ registry fs heap, refexRegistry mangle = .ok registry ∧ registry.fromPattern name = .ok fs ∧ fs ≠ [] ∧
      fs.Sublist (correctnessFixers mangle ++ idiomFixers mangle ++ unittestFixers mangle) ∧
      combineFixers env g (n + 8) fs builtinHeap = .ok heap := by
  obtain ⟨r, h1, h2, h3⟩ := C66_builtin (correctnessFixers mangle) (idiomFixers mangle) (unittestFixers mangle)
  have H : ∀ fs : List Fixer, fs.Sublist (correctnessFixers mangle ++ idiomFixers mangle ++ unittestFixers mangle) →
      ∃ heap, combineFixers env g (n + 8) fs builtinHeap = .ok heap := by
    intro fs hsub
    refine (C65_accepted env hv.literal g (n + 6) fs builtinHeap builtinHeap_wf builtinHeap_nometa (own_sub hsub own_all)).2 fun F hF => ?_
    rcases group_fixer (hsub.subset hF) with ⟨r, hr, rfl⟩ | ⟨ref, href, d, rfl⟩ | rfl | rfl
    · exact ⟨fit_rule hv hr (hm r hr) _, filter_rule hr (n + 2)⟩
    · exact ⟨fit_attrib hv d href, filter_attrib ref d (n + 5)⟩
    · exact ⟨fit_loggingError hv, filter_loggingError 3 (n + 4)⟩
    · exact ⟨fit_loggingException hv, filter_loggingException 4 n⟩
  have key : ∃ fs, r.lookup name = some fs ∧ fs ≠ [] ∧ fs.Sublist (correctnessFixers mangle ++ idiomFixers mangle ++ unittestFixers mangle) := by
    simp only [List.mem_cons, List.not_mem_nil, or_false] at hname
    rcases hname with rfl | rfl | rfl | rfl
    · exact ⟨_, h3 _, by simp [correctnessFixers], List.Sublist.refl _⟩
    · refine ⟨_, h3 _, ?_, List.Sublist.trans (List.sublist_append_left _ _) (List.sublist_append_left _ _)⟩
      simp [correctnessFixers]
    · refine ⟨_, h3 _, ?_, List.Sublist.trans (List.sublist_append_right _ _) (List.sublist_append_left _ _)⟩
      simp [idiomFixers]
    · refine ⟨_, h3 _, ?_, List.sublist_append_right _ _⟩
      simp [unittestFixers, unittestRules]
  obtain ⟨fs, k1, k2, k3⟩ := key
  obtain ⟨heap, hh⟩ := H fs k3
  exact ⟨r, fs, heap, h1, by unfold Registry.fromPattern; rw [k1], k2, k3, hh⟩

/-- **C83**: `from_pattern` with the name of a built-in group (or `*`) gives fixers that can be combined: every label and variable of
their templates is one their matcher binds, each knows which types of nodes it can match, and no two share a mapping. -/
theorem C83_combine {env : Templates} (hv : TemplateVariables env) (hm : ∀ r ∈ builtinRules, Mangles mangle r.old) (n : Nat)
    {name : Str} (hname : name ∈ [str "*", str "correctness", str "idiom", str "unittest"]) :
    ∃ registry fs heap, refexRegistry mangle = .ok registry ∧ registry.fromPattern name = .ok fs ∧ fs ≠ [] ∧
      combineFixers env g (n + 8) fs builtinHeap = .ok heap := by
  obtain ⟨r, fs, heap, h1, h2, h3, _, h4⟩ := combine_group (g := g) hv hm n hname
  exact ⟨r, fs, heap, h1, h2, h3, h4⟩

/-- **C83**: the texts that the messages are made from are the code of the rule with `...` for each metavariable. -/
theorem C83_dotted : ∀ r ∈ builtinRules, dotted r.oldText = r.old.dots.text ∧ dotted r.newText = r.new.dots.text := by decide

/-- The method of `self` that the code calls. -/
def Code.method : Code → Str
  | .call (.attr (.name _) m) _ _ => m
  | .attr (.name _) m => m
  | _ => []

/-- **C83**: the message of a rule for assertions names the new and the old assertion, and its URL is about the new one. -/
theorem C83_assertion_messages : ∀ r ∈ unittestRules,
    (r.category = str "pylint.g-generic-assert" ∧ r.significant = true ∧
      r.message = r.new.dots.text ++ str " is a more specific assertion, and may give more detailed error information than " ++ r.old.dots.text ++ str "." ∧
      (r.url = str "https://docs.python.org/3/library/unittest.html#unittest.TestCase." ++ r.new.method ∨
        r.url = str "https://github.com/abseil/abseil-py/search?q=%22def+" ++ r.new.method ++ str "%22")) ∨
    (r.category = str "pylint.g-deprecated-assert" ∧ r.significant = false ∧
      r.message = r.old.dots.text ++ str " is a deprecated alias for " ++ r.new.dots.text ++ str " in the unittest module." ∧
      r.url = str "https://docs.python.org/2/library/unittest.html#unittest.TestCase." ++ r.old.method) := by decide +kernel

/-- **C83**: the message of a rule for idioms shows the old and the new code. -/
theorem C83_idiom_messages : ∀ r ∈ idiomRules, r.significant = false ∧
    r.message = str "This could be more Pythonic: " ++ r.old.dots.text ++ str " -> " ++ r.new.dots.text ++ str "." ∧
    r.url = str "https://refex.readthedocs.io/en/latest/guide/fixers/idiom.html" := by decide +kernel

/-- Code that is a statement. -/
def Code.isStatement : Code → Bool
  | .assign _ _ => true
  | _ => false

theorem rule_kinds : ∀ r ∈ builtinRules,
    templateCode r.kind r.newText = (if r.new.isStatement then str "PythonStmtTemplate:" else str "PythonExprTemplate:") ++ r.newText ∧
    r.old.isStatement = r.new.isStatement := by decide +kernel

/-- **C83**: statements are replaced by statement templates, expressions by expression templates, with the rule's new text. -/
theorem C83_template_kind {r : Rule} (hr : r ∈ builtinRules) :
    (r.fixer mangle).replacement =
      .template ((if r.old.isStatement then str "PythonStmtTemplate:" else str "PythonExprTemplate:") ++ r.newText) := by
  obtain ⟨h, h'⟩ := rule_kinds r hr
  rw [h', ← h]
  rfl

theorem rule_metadata : ∀ r ∈ builtinRules, r.message ≠ [] ∧ r.url ≠ [] ∧ r.category ≠ [] := by decide +kernel

/-- **C83**: every built-in fixer has a message, a URL and a category. -/
theorem C83_metadata {F : Fixer} (hF : F ∈ correctnessFixers mangle ++ idiomFixers mangle ++ unittestFixers mangle) :
    ∃ message url category, F.message = some message ∧ F.url = some url ∧ F.category = some category ∧
      message ≠ [] ∧ url ≠ [] ∧ category ≠ [] := by
  rcases group_fixer hF with ⟨r, hr, rfl⟩ | ⟨ref, href, d, rfl⟩ | rfl | rfl
  · exact ⟨_, _, _, rfl, rfl, rfl, rule_metadata r hr⟩
  · exact ⟨_, _, _, rfl, rfl, rfl, by decide +kernel⟩
  · exact ⟨_, _, _, rfl, rfl, rfl, by decide +kernel⟩
  · exact ⟨_, _, _, rfl, rfl, rfl, by decide +kernel⟩

end

/-- Templates with the variables of their texts. -/
def exTemplates : Templates where
  text c := c
  pass := literalTemplate []
  sem c :=
    match c with
    | 'L' :: _ => literalTemplate (c.drop 16)
    | 'S' :: _ =>
      match shVariables (c.drop 11) with
      | .ok names => ⟨names.map .name, fun _ _ => .ok []⟩
      | .error _ => literalTemplate []
    | _ =>
      match builtinRules.find? fun r => decide (templateCode r.kind r.newText = c) with
      | some r => ⟨r.new.vars.map .name, fun _ _ => .ok []⟩
      | none => literalTemplate []

theorem exTemplates_rules : ∀ r ∈ builtinRules, (match templateCode r.kind r.newText with | 'L' :: _ => false | 'S' :: _ => false | _ => true) = true ∧
    (match builtinRules.find? fun r' => decide (templateCode r'.kind r'.newText = templateCode r.kind r.newText) with
    | some r' => r'.new.vars.all fun x => decide (x ∈ r.new.vars)
    | none => true) = true := by decide +kernel

/-- The hypothesis of `C83_combine` can be met. -/
theorem exTemplates_variables : TemplateVariables exTemplates where
  literal s := rfl
  sh text names h := by
    have : exTemplates.sem (shCode text) = (match shVariables text with
      | .ok names => ⟨names.map .name, fun _ _ => .ok []⟩
      | .error _ => literalTemplate []) := rfl
    rw [this, h]
  rules r hr v hv := by
    obtain ⟨h1, h2⟩ := exTemplates_rules r hr
    unfold exTemplates at hv
    simp only at hv
    generalize templateCode r.kind r.newText = c at h1 h2 hv
    split at hv
    · cases h1
    · cases h1
    · split at hv
      · rename_i r' e
        rw [e] at h2
        obtain ⟨x, hx, rfl⟩ := List.mem_map.1 hv
        exact ⟨x, by simpa using List.all_eq_true.1 h2 x hx, rfl⟩
      · cases hv
  logging := by decide +kernel

example (n : Nat) : ∃ registry fs heap, refexRegistry exMangle = .ok registry ∧ registry.fromPattern (str "*") = .ok fs ∧ fs ≠ [] ∧
    combineFixers exTemplates (fun _ => []) (n + 8) fs builtinHeap = .ok heap :=
  C83_combine exTemplates_variables (fun r hr => (exMangle_rules r hr).1) n (by simp)

end Refex
