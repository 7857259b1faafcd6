import Verif.Props.Restrictions
/- C81: the built-in rules find and produce the code they show. -/
namespace Refex
set_option autoImplicit false

mutual
/-- What stands for the metavariables is listed in their order. -/
theorem reads_vars : ∀ (p : Code) {v : Val} {occ : Occs}, p.Reads v occ → occ.map Prod.fst = p.vars
  | .var x, v, occ, h => by cases h; rfl
  | .name s, v, occ, h => by cases h; rfl
  | .int n, v, occ, h => by cases h; rfl
  | .attr e a, v, occ, h => by cases h with | attr h1 _ => exact reads_vars e h1
  | .call f as ks, v, occ, h => by
    cases h with | call h1 h2 h3 =>
    rw [List.map_append, List.map_append, reads_vars f h1, readss_vars as h2, readss_vars ks h3]; rfl
  | .keyword a e, v, occ, h => by cases h with | keyword h1 => exact reads_vars e h1
  | .compare l op r, v, occ, h => by
    cases h with | compare h1 _ _ _ h2 => rw [List.map_append, reads_vars l h1, reads_vars r h2]; rfl
  | .not e, v, occ, h => by cases h with | not _ h1 => exact reads_vars e h1
  | .mod l r, v, occ, h => by
    cases h with | mod h1 _ h2 => rw [List.map_append, reads_vars l h1, reads_vars r h2]; rfl
  | .tuple1 e, v, occ, h => by cases h with | tuple1 _ h1 _ => exact reads_vars e h1
  | .emptyList, v, occ, h => by cases h; rfl
  | .emptyDict, v, occ, h => by cases h; rfl
  | .comp set e t i, v, occ, h => by
    cases h with | comp h1 _ h2 h3 _ => rw [List.map_append, List.map_append, reads_vars e h1, reads_vars t h2, reads_vars i h3]; rfl
  | .assign t e, v, occ, h => by
    cases h with | assign _ h1 h2 => rw [List.map_append, reads_vars t h1, reads_vars e h2]; rfl
  | .expr e, v, occ, h => by cases h with | expr h1 => exact reads_vars e h1
theorem readss_vars : ∀ (ps : List Code) {vs : List Val} {occ : Occs}, CodesRead ps vs occ → occ.map Prod.fst = Code.varss ps
  | [], vs, occ, h => by cases h; rfl
  | p :: ps, vs, occ, h => by
    cases h with | cons h1 h2 => rw [List.map_append, reads_vars p h1, readss_vars ps h2]; rfl
end

theorem occs_of_length (occ : Occs) (x : Label) : (occ.of x).length = (occ.map Prod.fst).count x := by
  unfold Occs.of
  induction occ with
  | nil => rfl
  | cons e occ ih =>
    rw [List.map_cons, List.count_cons]
    by_cases h : e.1 = x
    · rw [List.filter_cons_of_pos (by simpa using h), List.map_cons, List.length_cons, ih]; simp [h]
    · rw [List.filter_cons_of_neg (by simpa using h), ih]; simp [h]

theorem allAlike_short {vs : List Val} (h : vs.length ≤ 1) : AllAlike vs := by
  intro i j a b hij hi hj
  have := (List.getElem?_eq_some_iff.1 hj).1
  omega

/-- The code can be used as a pattern: its operators are comparison operators, the names of its metavariables are new, and none of
these occurs more than twice. -/
structure CodeOk (mangle : Label → Str) (p : Code) : Prop where
  ops : ∀ op ∈ p.ops, op ∈ comparisonOps
  mangles : Mangles mangle p
  twice : ∀ x, p.vars.count x ≤ 2

section
variable {mangle : Label → Str} {c : Ctx} {env : Env} {g : Grammar} {p : Code} {restrictions : Dict Label Matcher} {allowed : Label → Val → Prop} {N : Nat}

/-- **C81**: a pattern matches exactly the trees that read like it, with equivalent code for the occurrences of the same metavariable,
and something allowed for each; the bindings are the last of these. -/
theorem C81_pattern (hg : PythonGrammar g) (hp : CodeOk mangle p) (hr : RestrictionsAllow c env N restrictions allowed) {b : Bool} {v : Val}
    (hv : Parsed g b v) {n : Nat} (hn : 2 * (p.val mangle).size + N + 4 ≤ n) (ks : List Key) :
    ((∃ occ, p.Reads v occ ∧ AllowedOccs allowed occ ∧ ∀ x, AllAlike (occ.of x)) →
      ∃ mi occ, run c n env (p.pattern mangle restrictions) v ks = .ok (some mi, ks) ∧ p.Reads v occ ∧ AllowedOccs allowed occ ∧ (∀ x, AllAlike (occ.of x)) ∧
        mi.obj = createMatch c v ∧
        ∀ x, mi.bindings.get? x = (occ.of x).getLast?.map fun w => ⟨createMatch c w, .merge, .keepLast⟩) ∧
    ((¬ ∃ occ, p.Reads v occ ∧ AllowedOccs allowed occ ∧ ∀ x, AllAlike (occ.of x)) →
      run c n env (p.pattern mangle restrictions) v ks = .ok (none, ks)) := by
  have hl : ¬ g.nodeType (str "list") := hg.leaves (str "list") (by decide)
  have hnd := codeVariables_nodup hp.mangles
  have hpar := parsed_code hg mangle p hp.ops
  have hiff := fun (v : Val) (occ : Occs) => reads_iff (allowed := allowed) p (v := v) (occ := occ) (holesAre hp.mangles) (fun x h => h) (fun x h => h) (opsOk hp.ops)
  have hex := C59_exact_twice (anonymous := []) hnd hr g hl (p.val mangle) hpar b v hv n hn ks (fun occ hi x => by
    rw [occs_of_length, reads_vars p ((hiff v occ).1 hi).1]; exact hp.twice x)
  have hq : (∃ occ, Instance (holeAt (metaNames [] (codeVariables mangle p))) allowed (p.val mangle) v occ ∧ ∀ x, AllAlike (occ.of x)) ↔
      ∃ occ, p.Reads v occ ∧ AllowedOccs allowed occ ∧ ∀ x, AllAlike (occ.of x) := by
    constructor
    · rintro ⟨occ, h1, h2⟩; exact ⟨occ, ((hiff v occ).1 h1).1, ((hiff v occ).1 h1).2, h2⟩
    · rintro ⟨occ, h1, h2, h3⟩; exact ⟨occ, (hiff v occ).2 ⟨h1, h2⟩, h3⟩
  have hm := C59_match_is_instance (anonymous := []) hnd hr g hl (p.val mangle) hpar b v hv n hn ks
  refine ⟨fun h => ?_, fun h => ?_⟩
  · obtain ⟨occ, h1, h2⟩ := hq.2 h
    obtain ⟨mi', h3, _⟩ := C59_instance_matches (anonymous := []) hnd hr g hl (p.val mangle) hpar b v hv n hn ks occ h1 h2
    rcases hm with hm | ⟨mi, occ', g1, g2, _, g4, g5⟩
    · rw [h3] at hm; cases hm
    · obtain rfl := instance_det _ _ _ _ h1 g2
      exact ⟨mi, occ, g1, ((hiff v occ).1 h1).1, ((hiff v occ).1 h1).2, h2, g4, g5⟩
  · rcases hm with hm | ⟨mi, occ', g1, _⟩
    · exact hm
    · exact absurd (hq.1 (hex.1 ⟨mi, g1⟩)) h

end

/-- **C81**: the texts of the rules are those of the code they are said to be. -/
theorem C81_texts : ∀ r ∈ builtinRules, r.old.text = r.oldText ∧ r.new.text = r.newText := by decide

theorem builtin_ops : ∀ r ∈ builtinRules, (∀ op ∈ r.old.ops, op ∈ comparisonOps) ∧ (∀ op ∈ r.new.ops, op ∈ comparisonOps) := by decide

theorem builtin_twice : ∀ r ∈ builtinRules, ∀ x ∈ r.old.vars, r.old.vars.count x ≤ 2 := by decide

theorem builtin_once : ∀ r ∈ builtinRules, ∀ x ∈ r.new.vars, r.new.vars.count x ≤ 1 := by decide

theorem builtin_bound : ∀ r ∈ builtinRules, ∀ x ∈ r.new.vars, x ∈ r.old.vars := by decide

theorem assertion_once : ∀ r ∈ unittestRules ++ datetimeRules, ∀ x ∈ r.old.vars, r.old.vars.count x ≤ 1 := by decide

theorem count_le_of {l : List Label} {k : Nat} (h : ∀ x ∈ l, l.count x ≤ k) (x : Label) : l.count x ≤ k := by
  by_cases hx : x ∈ l
  · exact h x hx
  · rw [List.count_eq_zero_of_not_mem hx]; exact Nat.zero_le _

theorem builtin_guards : ∀ r ∈ builtinRules, r.guard = .none ∨ r.guard = .imported (str "yaml") ∨ r.guard = .regex parensRegex := by decide

theorem plain_rules : ∀ r ∈ unittestRules ++ idiomRules ++ datetimeRules, r.restrictions = [] ∧ r.kind = .expr ∧ r.guard = .none := by decide

theorem no_restrictions (c : Ctx) (env : Env) : RestrictionsAllow c env 1 [] (fun _ _ => True) :=
  ⟨fun x m h => (by cases h), Nat.le_refl 1, fun _ _ _ => trivial⟩

section
variable {mangle : Label → Str} {c : Ctx} {env : Env} {g : Grammar} {digit : Char → Prop} {ss : List TopStmt}

theorem rule_codeOk {r : Rule} (hr : r ∈ builtinRules) (hm : Mangles mangle r.old) : CodeOk mangle r.old :=
  ⟨(builtin_ops r hr).1, hm, count_le_of (builtin_twice r hr)⟩

/-- **C81**: the matcher of a built-in rule accepts exactly the trees that the rule shows; it reports the tree itself, and binds each
metavariable to (the last of) what stands for it. -/
theorem C81_finds {r : Rule} (hr : r ∈ builtinRules) (hm : Mangles mangle r.old) (hg : PythonGrammar g) (hx : RegexFits digit c)
    (hss : FileTree c.tree ss) {b : Bool} {v : Val} (hv : Parsed g b v) {n : Nat} (hn : 2 * (r.old.val mangle).size + 9 ≤ n) (ks : List Key) :
    ((∃ occ, r.Shows digit c ss v occ) →
      ∃ mi occ, run c n env (r.fixer mangle).matcher v ks = .ok (some mi, ks) ∧ r.Shows digit c ss v occ ∧ mi.obj = createMatch c v ∧
        ∀ x, mi.bindings.get? x = (occ.of x).getLast?.map fun w => ⟨createMatch c w, .merge, .keepLast⟩) ∧
    ((¬ ∃ occ, r.Shows digit c ss v occ) → run c n env (r.fixer mangle).matcher v ks = .ok (none, ks)) := by
  have hin : 2 * (r.old.val mangle).size + 8 ≤ r.guard.inner n := by
    cases r.guard <;> simp only [Guard.inner] <;> omega
  obtain ⟨h1, h2⟩ := C81_pattern (c := c) (env := env) hg (rule_codeOk hr hm) (rule_restrictions hx r) hv (n := r.guard.inner n) (by omega) ks
  obtain ⟨g1, g2, g3⟩ := guard_outcome (env := env) hx hss (gd := r.guard) (fun rx e => by have := builtin_guards r hr; rw [e] at this; rcases this with h | h | h <;> cases h; rfl)
    (m := r.old.pattern mangle (r.restrictions.map fun e => (e.1, e.2.matcher))) (v := v) (n := n) (by omega) (ks := ks)
  refine ⟨fun h => ?_, fun h => ?_⟩
  · obtain ⟨occ, k1, k2, k3, k4⟩ := h
    obtain ⟨mi, occ, e1, e2, e2', e3, e4, e5⟩ := h1 ⟨occ, k1, fun e he => k3 e.1 e.2 he, k2⟩
    obtain ⟨mi', f1, f2, f3⟩ := g1 mi k4 e1 e4
    exact ⟨mi', occ, f1, ⟨e2, e3, fun x w h => e2' (x, w) h, k4⟩, f2, fun x => by rw [f3, e5]⟩
  · by_cases ho : ∃ occ, r.old.Reads v occ ∧ AllowedOccs (r.Allowed digit c) occ ∧ ∀ x, AllAlike (occ.of x)
    · obtain ⟨mi, _, e1, _⟩ := h1 ho
      obtain ⟨occ, k1, k2, k3⟩ := ho
      exact g3 (fun hG => h ⟨occ, k1, k3, fun x w h => k2 (x, w) h, hG⟩) ⟨_, e1⟩
    · exact g2 (h2 ho)

theorem plain_shows {r : Rule} (hr : r ∈ unittestRules ++ idiomRules ++ datetimeRules) {v : Val} {occ : Occs} :
    r.Shows digit c ss v occ ↔ r.old.Reads v occ ∧ ∀ x, AllAlike (occ.of x) := by
  obtain ⟨h1, _, h2⟩ := plain_rules r hr
  refine ⟨fun h => ⟨h.reads, h.alike⟩, fun h => ⟨h.1, h.2, fun x w _ k hk => ?_, ?_⟩⟩
  · rw [h1] at hk; cases hk
  · rw [h2]; exact trivial

/-- **C81**: for the rules without restrictions, whatever the file. -/
theorem C81_finds_plain {r : Rule} (hr : r ∈ unittestRules ++ idiomRules ++ datetimeRules) (hm : Mangles mangle r.old) (hg : PythonGrammar g) {b : Bool} {v : Val}
    (hv : Parsed g b v) {n : Nat} (hn : 2 * (r.old.val mangle).size + 5 ≤ n) (ks : List Key) :
    ((∃ occ, r.old.Reads v occ ∧ ∀ x, AllAlike (occ.of x)) →
      ∃ mi occ, run c n env (r.fixer mangle).matcher v ks = .ok (some mi, ks) ∧ (r.old.Reads v occ ∧ ∀ x, AllAlike (occ.of x)) ∧ mi.obj = createMatch c v ∧
        ∀ x, mi.bindings.get? x = (occ.of x).getLast?.map fun w => ⟨createMatch c w, .merge, .keepLast⟩) ∧
    ((¬ ∃ occ, r.old.Reads v occ ∧ ∀ x, AllAlike (occ.of x)) → run c n env (r.fixer mangle).matcher v ks = .ok (none, ks)) := by
  have hb : r ∈ builtinRules := by unfold builtinRules; exact List.mem_append_left _ hr
  obtain ⟨h1, h2⟩ := C81_pattern (c := c) (env := env) hg (rule_codeOk hb hm) (no_restrictions c env) hv (n := n) (by omega) ks
  have hfix : (r.fixer mangle).matcher = r.old.pattern mangle [] := by
    obtain ⟨k1, _, k2⟩ := plain_rules r hr
    unfold Rule.fixer
    simp only [k1, k2, List.map_nil]
    rfl
  rw [hfix]
  refine ⟨fun h => ?_, fun h => h2 ?_⟩
  · obtain ⟨occ, g1, g2⟩ := h
    obtain ⟨mi, occ, e1, e2, _, e3, e4, e5⟩ := h1 ⟨occ, g1, fun _ _ => trivial, g2⟩
    exact ⟨mi, occ, e1, ⟨e2, e3⟩, e4, e5⟩
  · rintro ⟨occ, g1, _, g2⟩
    exact h ⟨occ, g1, g2⟩

/-- **C81**: for assertions and datetimes, where no metavariable is repeated, the tree only has to read like the old code. -/
theorem C81_finds_simple {r : Rule} (hr : r ∈ unittestRules ++ datetimeRules) (hm : Mangles mangle r.old) (hg : PythonGrammar g) {b : Bool} {v : Val}
    (hv : Parsed g b v) {n : Nat} (hn : 2 * (r.old.val mangle).size + 5 ≤ n) (ks : List Key) :
    (∃ mi, run c n env (r.fixer mangle).matcher v ks = .ok (some mi, ks)) ↔ ∃ occ, r.old.Reads v occ := by
  have hr' : r ∈ unittestRules ++ idiomRules ++ datetimeRules := by
    simp only [List.mem_append] at hr ⊢
    rcases hr with hr | hr
    · exact .inl (.inl hr)
    · exact .inr hr
  obtain ⟨h1, h2⟩ := C81_finds_plain (c := c) (env := env) hr' hm hg hv hn ks
  constructor
  · rintro ⟨mi, h⟩
    refine Classical.byContradiction fun hne => ?_
    rw [h2 fun ⟨occ, ho⟩ => hne ⟨occ, ho.1⟩] at h
    cases h
  · rintro ⟨occ, h⟩
    obtain ⟨mi, _, e, _⟩ := h1 ⟨occ, h, fun x => allAlike_short (by rw [occs_of_length, reads_vars _ h]; exact count_le_of (assertion_once r hr) x)⟩
    exact ⟨mi, e⟩

/-- **C81**: the comprehension rules accept exactly a comprehension with one plain `for` in which the target and the element are
equivalent code. -/
theorem C81_comprehension {set : Bool} {r : Rule} (hr : r ∈ idiomRules) (ho : r.old = .comp set vA vA vB) (hm : Mangles mangle r.old)
    (hg : PythonGrammar g) {b : Bool} {v : Val} (hv : Parsed g b v) {n : Nat} (hn : 2 * (r.old.val mangle).size + 5 ≤ n) (ks : List Key) :
    (∃ mi, run c n env (r.fixer mangle).matcher v ks = .ok (some mi, ks)) ↔
    ∃ i j k l m elt target iter async, v = .node i (if set then str "SetComp" else str "ListComp") [str "elt", str "generators"] [elt, .list j
        [.node k (str "comprehension") [str "target", str "iter", str "ifs", str "is_async"] [target, iter, .list l [], .const m async]]] ∧
      async.pyEq (.int 0) = true ∧ Alike elt target := by
  have hr' : r ∈ unittestRules ++ idiomRules ++ datetimeRules := by simp only [List.mem_append]; exact .inl (.inr hr)
  obtain ⟨h1, h2⟩ := C81_finds_plain (c := c) (env := env) hr' hm hg hv hn ks
  constructor
  · rintro ⟨mi, h⟩
    have : ∃ occ, r.old.Reads v occ ∧ ∀ x, AllAlike (occ.of x) := Classical.byContradiction fun hne => by rw [h2 hne] at h; cases h
    obtain ⟨occ, g1, g2⟩ := this
    rw [ho] at g1
    cases g1 with
    | comp e1 hs e2 e3 hc =>
      obtain ⟨j, rfl⟩ := hs
      cases e1; cases e2; cases e3
      refine ⟨_, _, _, _, _, _, _, _, _, rfl, hc, ?_⟩
      exact g2 (str "a") 0 1 _ _ (by decide) rfl rfl
  · rintro ⟨i, j, k, l, m, elt, target, iter, async, rfl, hc, ha⟩
    have hread : r.old.Reads (.node i (if set then str "SetComp" else str "ListComp") [str "elt", str "generators"] [elt, .list j
        [.node k (str "comprehension") [str "target", str "iter", str "ifs", str "is_async"] [target, iter, .list l [], .const m async]]])
        ([(str "a", elt)] ++ ([(str "a", target)] ++ [(str "b", iter)])) := by
      rw [ho]; exact .comp .var ⟨j, rfl⟩ .var .var hc
    have hall : ∀ x, AllAlike (Occs.of ([(str "a", elt)] ++ ([(str "a", target)] ++ [(str "b", iter)])) x) := fun x => by
      by_cases hx : x = str "a"
      · subst hx
        intro i' j' p q hij hi hj
        have hof : Occs.of ([(str "a", elt)] ++ ([(str "a", target)] ++ [(str "b", iter)])) (str "a") = [elt, target] := rfl
        rw [hof] at hi hj
        match i', j' with
        | 0, 1 => cases hi; cases hj; exact ha
        | i' + 1, 1 => omega
        | i', 0 => omega
        | i', j' + 2 => cases hj
      · refine allAlike_short ?_
        rw [occs_of_length]
        have : (([(str "a", elt)] ++ ([(str "a", target)] ++ [(str "b", iter)]) : Occs).map Prod.fst).count x = [str "b"].count x := by
          simp only [List.map_append, List.map_cons, List.map_nil, List.cons_append, List.nil_append, List.count_cons]
          have : (str "a" == x) = false := by simp; exact fun h => hx h.symm
          simp [this]
        rw [this]
        exact Nat.le_trans List.count_le_length (by simp)
    obtain ⟨mi, _, e, _⟩ := h1 ⟨_, hread, hall⟩
    exact ⟨mi, e⟩

theorem rule_replaces {r : Rule} (hr : r ∈ builtinRules) (hmn : Mangles mangle r.new) (hg : PythonGrammar g) {m : Nat} {penv : PyEnv}
    (henv : penv.Fits g) {t : PyTemplate} (ht : t.astMatcher = r.kind.template.matcher (r.new.pattern mangle []))
    {v : Val} {occ : Occs} (hold : r.old.Reads v occ) {mi : MatchInfo}
    (hbs : ∀ x, mi.bindings.get? x = (occ.of x).getLast?.map fun w => ⟨createMatch c w, .merge, .keepLast⟩)
    {ms : Dict Label PyMatch} (hw : ms.WF) (hms : ∀ x bd, mi.bindings.get? x = some bd → ∃ pm, ms.get? x = some pm ∧ pm.obj = bd.value)
    {text : Str} (h : t.substituteMatch m penv (some c) mi.obj ms = .ok text) :
    ∃ replacement cc e occ', (text = replacement ∨ text = str "(" ++ replacement ++ str ")") ∧
      penv.parse replacement = some cc ∧ r.kind.template.Part cc.tree e ∧ r.new.Reads e occ' ∧
      ∀ x w', (x, w') ∈ occ' → ∃ w, (occ.of x).getLast? = some w ∧
        ∀ w1 sp, createMatch c w = .lexical w1 sp → penv.isExpr w1 = true → Parsed g false w1 → SameTree w1 w' := by
  have hmod : HasModules g :=
    ⟨hg.leaves (str "list") (by decide), (hg.types (str "Module", [(str "body", true), (str "type_ignores", true)]) (by decide)).1,
     (hg.types (str "Module", [(str "body", true), (str "type_ignores", true)]) (by decide)).2,
     (hg.types (str "Expr", [(str "value", false)]) (by decide)).1, (hg.types (str "Expr", [(str "value", false)]) (by decide)).2⟩
  have htt : TemplateOf g t r.kind.template [] (codeVariables mangle r.new) (r.new.val mangle) :=
    ⟨ht, codeVariables_nodup hmn, parsed_code hg mangle r.new (builtin_ops r hr).2⟩
  obtain ⟨replacement, map, cc, occ', g1, _, _, g4, ⟨e, he, hI⟩, g6⟩ := C53_substitute_structure hmod henv htt hw h
  obtain ⟨hread, _⟩ := (reads_iff (allowed := fun _ _ => True) r.new (holesAre hmn) (fun x h => h) (fun x h => h) (opsOk (builtin_ops r hr).2)).1 hI
  refine ⟨replacement, cc, e, occ', g1, g4, he, hread, fun x w' hx => ?_⟩
  have hcount : (occ'.of x).length ≤ 1 := by
    rw [occs_of_length, reads_vars _ hread]; exact count_le_of (builtin_once r hr) x
  have hmem : w' ∈ occ'.of x := List.mem_map.2 ⟨(x, w'), List.mem_filter.2 ⟨hx, by simp⟩, rfl⟩
  have hlast : (occ'.of x).getLast? = some w' := by
    match hh : occ'.of x with
    | [] => rw [hh] at hmem; cases hmem
    | [a] => rw [hh] at hmem; rw [List.mem_singleton.1 hmem]; rfl
    | a :: b :: l => rw [hh] at hcount; simp only [List.length_cons] at hcount; omega
  have hxold : x ∈ r.old.vars := builtin_bound r hr x (by rw [← reads_vars _ hread]; exact List.mem_map.2 ⟨(x, w'), hx, rfl⟩)
  have hlast' : ∃ w, (occ.of x).getLast? = some w := by
    rw [← reads_vars _ hold] at hxold
    obtain ⟨⟨y, w⟩, hy, rfl⟩ := List.mem_map.1 hxold
    have : w ∈ occ.of y := List.mem_map.2 ⟨(y, w), List.mem_filter.2 ⟨hy, by simp⟩, rfl⟩
    cases hh : (occ.of y).getLast? with
    | none => rw [List.getLast?_eq_none_iff] at hh; rw [hh] at this; cases this
    | some w => exact ⟨w, rfl⟩
  obtain ⟨w, hwl⟩ := hlast'
  refine ⟨w, hwl, fun w1 sp hc hE hP => ?_⟩
  obtain ⟨pm, hpm, hsame⟩ := g6 x w' hlast
  have hb := hbs x
  rw [hwl] at hb
  obtain ⟨pm', hpm', hobj⟩ := hms x _ hb
  rw [hpm] at hpm'
  cases hpm'
  exact hsame w1 sp (by rw [hobj]; exact hc) hE hP

/-- **C81**: what a rule puts in the place of a match, if its template accepts the match, is text (perhaps in parentheses) that parses
to a tree reading like the new code; for each metavariable stands the same tree as in the match. -/
theorem C81_replaces {r : Rule} (hr : r ∈ builtinRules) (hmo : Mangles mangle r.old) (hmn : Mangles mangle r.new) (hg : PythonGrammar g)
    (hrx : RegexFits digit c) (hss : FileTree c.tree ss) {n m : Nat} {penv : PyEnv} (henv : penv.Fits g) {t : PyTemplate}
    (ht : t.astMatcher = r.kind.template.matcher (r.new.pattern mangle []))
    {b : Bool} {v : Val} (hv : Parsed g b v) (hn : 2 * (r.old.val mangle).size + 9 ≤ n) {ks ks' : List Key} {mi : MatchInfo}
    (hrun : run c n env (r.fixer mangle).matcher v ks = .ok (some mi, ks'))
    {ms : Dict Label PyMatch} (hw : ms.WF) (hms : ∀ x bd, mi.bindings.get? x = some bd → ∃ pm, ms.get? x = some pm ∧ pm.obj = bd.value)
    {text : Str} (h : t.substituteMatch m penv (some c) mi.obj ms = .ok text) :
    ∃ replacement cc occ e occ', (text = replacement ∨ text = str "(" ++ replacement ++ str ")") ∧
      penv.parse replacement = some cc ∧ r.kind.template.Part cc.tree e ∧ r.Shows digit c ss v occ ∧ r.new.Reads e occ' ∧
      ∀ x w', (x, w') ∈ occ' → ∃ w, (occ.of x).getLast? = some w ∧
        ∀ w1 sp, createMatch c w = .lexical w1 sp → penv.isExpr w1 = true → Parsed g false w1 → SameTree w1 w' := by
  obtain ⟨h1, h2⟩ := C81_finds (c := c) (env := env) hr hmo hg hrx hss hv hn ks
  have hex : ∃ occ, r.Shows digit c ss v occ := Classical.byContradiction fun hne => by rw [h2 hne] at hrun; cases hrun
  obtain ⟨mi', occ, e1, e2, e3, e4⟩ := h1 hex
  rw [hrun] at e1
  cases e1
  obtain ⟨replacement, cc, e, occ', k1, k2, k3, k4, k5⟩ := rule_replaces hr hmn hg henv ht e2.reads e4 hw hms h
  exact ⟨replacement, cc, occ, e, occ', k1, k2, k3, e2, k4, k5⟩

/-- **C81**: for the rules without restrictions, whatever the file. -/
theorem C81_replaces_plain {r : Rule} (hr : r ∈ unittestRules ++ idiomRules ++ datetimeRules) (hmo : Mangles mangle r.old) (hmn : Mangles mangle r.new)
    (hg : PythonGrammar g) {n m : Nat} {penv : PyEnv} (henv : penv.Fits g) {t : PyTemplate}
    (ht : t.astMatcher = exprTemplate (r.new.pattern mangle []))
    {b : Bool} {v : Val} (hv : Parsed g b v) (hn : 2 * (r.old.val mangle).size + 5 ≤ n) {ks ks' : List Key} {mi : MatchInfo}
    (hrun : run c n env (r.fixer mangle).matcher v ks = .ok (some mi, ks'))
    {ms : Dict Label PyMatch} (hw : ms.WF) (hms : ∀ x bd, mi.bindings.get? x = some bd → ∃ pm, ms.get? x = some pm ∧ pm.obj = bd.value)
    {text : Str} (h : t.substituteMatch m penv (some c) mi.obj ms = .ok text) :
    ∃ replacement cc occ e occ', (text = replacement ∨ text = str "(" ++ replacement ++ str ")") ∧
      penv.parse replacement = some cc ∧ OneExpr cc.tree e ∧ (r.old.Reads v occ ∧ ∀ x, AllAlike (occ.of x)) ∧ r.new.Reads e occ' ∧
      ∀ x w', (x, w') ∈ occ' → ∃ w, (occ.of x).getLast? = some w ∧
        ∀ w1 sp, createMatch c w = .lexical w1 sp → penv.isExpr w1 = true → Parsed g false w1 → SameTree w1 w' := by
  obtain ⟨h1, h2⟩ := C81_finds_plain (c := c) (env := env) hr hmo hg hv hn ks
  have hex : ∃ occ, r.old.Reads v occ ∧ ∀ x, AllAlike (occ.of x) := Classical.byContradiction fun hne => by rw [h2 hne] at hrun; cases hrun
  obtain ⟨mi', occ, e1, e2, e3, e4⟩ := h1 hex
  rw [hrun] at e1
  cases e1
  have hk := (plain_rules r hr).2.1
  obtain ⟨replacement, cc, e, occ', k1, k2, k3, k4, k5⟩ := rule_replaces (by unfold builtinRules; exact List.mem_append_left _ hr) hmn hg henv
    (by rw [hk]; exact ht) e2.1 e4 hw hms h
  rw [hk] at k3
  exact ⟨replacement, cc, occ, e, occ', k1, k2, k3, e2, k4, k5⟩

end

/-! ### Examples -/

/-- The grammar of just the node types of the rules. -/
def exPython : Grammar where
  nodeType ty := ty ∈ codeTypes.map Prod.fst
  fields ty := match codeTypes.find? (fun e => decide (e.1 = ty)) with
    | some e => e.2
    | none => []

theorem exPython_ok : PythonGrammar exPython := by
  constructor
  · show ∀ e ∈ codeTypes, e.1 ∈ codeTypes.map Prod.fst ∧ exPython.fields e.1 = e.2
    decide
  · show ∀ t ∈ [str "str", str "int", str "NoneType", str "list"], ¬ t ∈ codeTypes.map Prod.fst
    decide

/-- `gensym_x` for `$x`. -/
def exMangle (x : Label) : Str := str "gensym_" ++ x

theorem exMangle_inj (x y : Label) (h : exMangle x = exMangle y) : x = y := List.append_cancel_left h

theorem exMangle_rules : ∀ r ∈ builtinRules, Mangles exMangle r.old ∧ Mangles exMangle r.new := by
  have h : ∀ r ∈ builtinRules, (∀ x ∈ r.old.vars, ∀ s ∈ r.old.names, exMangle x ≠ s) ∧ (∀ x ∈ r.new.vars, ∀ s ∈ r.new.names, exMangle x ≠ s) := by decide
  exact fun r hr => ⟨⟨fun x _ y _ => exMangle_inj x y, (h r hr).1⟩, ⟨fun x _ y _ => exMangle_inj x y, (h r hr).2⟩⟩

/-- `self.assertTrue(x == y)` -/
def exAssert : Code := selfCall "assertTrue" [.compare (.name (str "x")) (str "Eq") (.name (str "y"))]

/-- The rule that makes it `self.assertEqual(x, y)`. -/
def exAssertRule : Rule :=
  assertRule "self.assertTrue($lhs == $rhs)" (assertCmp "assertTrue" "Eq") "self.assertEqual($lhs, $rhs)" (selfCall "assertEqual" [vLhs, vRhs]) "assertEqual"

/-- Non-vacuity of C81: the rule finds `self.assertTrue(x == y)`. -/
example (c : Ctx) (ks : List Key) :
    exAssertRule ∈ builtinRules ∧ ∃ mi, run c 200 [] (exAssertRule.fixer exMangle).matcher (exAssert.val exMangle) ks = .ok (some mi, ks) := by
  have hr : exAssertRule ∈ unittestRules ++ datetimeRules := by unfold unittestRules exAssertRule; simp
  have hb : exAssertRule ∈ builtinRules := by unfold builtinRules unittestRules exAssertRule; simp
  refine ⟨hb, ?_⟩
  refine (C81_finds_simple hr (exMangle_rules _ hb).1 exPython_ok (parsed_code exPython_ok exMangle exAssert (by decide)) (by decide) ks).2 ?_
  exact ⟨_, .call (.attr .name ⟨0, rfl⟩) (.cons (.compare .var ⟨0, rfl⟩ ⟨0, rfl⟩ ⟨0, rfl⟩ .var) .nil) .nil⟩

/-- and does not find `self.assertTrue(x)`. -/
example (c : Ctx) (ks : List Key) :
    ¬ ∃ mi, run c 200 [] (exAssertRule.fixer exMangle).matcher ((selfCall "assertTrue" [.name (str "x")]).val exMangle) ks = .ok (some mi, ks) := by
  have hr : exAssertRule ∈ unittestRules ++ datetimeRules := by unfold unittestRules exAssertRule; simp
  have hb : exAssertRule ∈ builtinRules := by unfold builtinRules unittestRules exAssertRule; simp
  rw [C81_finds_simple hr (exMangle_rules _ hb).1 exPython_ok (parsed_code exPython_ok exMangle _ (by decide)) (by decide) ks]
  rintro ⟨occ, h⟩
  have h : (Code.call (.attr (.name (str "self")) (str "assertTrue")) [.compare vLhs (str "Eq") vRhs] []).Reads
    ((selfCall "assertTrue" [.name (str "x")]).val exMangle) occ := h
  simp only [selfCall, Code.val, Code.vals, codeNode, List.map_cons, List.map_nil] at h
  cases h with | call _ h2 _ => cases h2 with | cons h3 _ => unfold nameNode codeNode at h3; cases h3

/-- The comprehension rule finds `[x for x in y]`. -/
example (c : Ctx) (ks : List Key) (r : Rule) (hr : r ∈ idiomRules) (ho : r.old = .comp false vA vA vB) :
    ∃ mi, run c 200 [] (r.fixer exMangle).matcher ((Code.comp false (.name (str "x")) (.name (str "x")) (.name (str "y"))).val exMangle) ks = .ok (some mi, ks) := by
  have hb : r ∈ builtinRules := by unfold builtinRules; simp only [List.mem_append]; exact .inl (.inl (.inr hr))
  refine (C81_comprehension hr ho (exMangle_rules r hb).1 exPython_ok (parsed_code exPython_ok exMangle _ (by decide)) (by rw [ho]; decide) ks).2 ?_
  refine ⟨_, _, _, _, _, _, _, _, _, rfl, by decide, ?_⟩
  refine ⟨by simp [Code.val, nameNode, codeNode], by simp [Code.val, nameNode, codeNode], ?_⟩
  unfold astEquivalent
  simp [Code.val, nameNode, codeNode, Val.ident]

end Refex
