import Verif.Props.BuiltinGroups
import Verif.Props.FirstAncestor
import Verif.Props.NoTemplates
import Verif.Props.RuleMeaning
import Verif.Spec.SpecialFixers
/- C85: the built-in fixers for `attr.ib` and logging. -/
namespace Refex
set_option autoImplicit false

/-- On the candidate, the matcher gives the result, raises nothing and leaves the `Once` keys alone. -/
def Yields (c : Ctx) (n : Nat) (env : Env) (m : Matcher) (v : Val) (o : Option MatchInfo) : Prop := ∀ ks, run c n env m v ks = .ok (o, ks)

theorem parsed_fields {g : Grammar} (hg : PythonGrammar g) {b : Bool} {v : Val} (hv : Parsed g b v) {ty : Str} {fs : List (Str × Bool)}
    (hty : v.ty = ty) (he : (ty, fs) ∈ codeTypes) : ∃ i vs, v = .node i ty (fs.map Prod.fst) vs ∧ vs.length = fs.length ∧
      ∀ (k : Nat) f v, fs[k]? = some f → vs[k]? = some v → Parsed g f.2 v := by
  obtain ⟨h1, h2⟩ := hg.types _ he
  cases hv with
  | const h => rw [hty] at h; exact absurd h1 h
  | list h =>
    exact absurd (show g.nodeType (str "list") from by have : str "list" = ty := hty; rw [this]; exact h1) (hg.leaves _ (by decide))
  | @node i t ns vs hn hns hnd hlen hvs =>
    have : t = ty := hty
    subst this
    subst hns
    dsimp only at h2
    rw [h2] at hlen hvs ⊢
    exact ⟨i, vs, rfl, by simpa using hlen, hvs⟩

theorem parsed_list {g : Grammar} {v : Val} (hv : Parsed g true v) : ∃ i vs, v = .list i vs ∧ ∀ w ∈ vs, Parsed g false w := by
  cases hv with
  | list h => exact ⟨_, _, rfl, h⟩

theorem parsed_call {g : Grammar} (hg : PythonGrammar g) {b : Bool} {v : Val} (hv : Parsed g b v) (hty : v.ty = str "Call") :
    ∃ f args keywords, IsAnyCall v f args keywords ∧ Parsed g false f ∧ (∀ a ∈ args, Parsed g false a) ∧ ∀ a ∈ keywords, Parsed g false a := by
  obtain ⟨i, vs, rfl, hl, hp⟩ := parsed_fields hg hv hty (fs := [(str "func", false), (str "args", true), (str "keywords", true)]) (by decide)
  match vs, hl, hp with
  | [f, a, k], _, hp =>
    obtain ⟨j, as, rfl, ha⟩ := parsed_list (hp 1 _ a rfl rfl)
    obtain ⟨m, ks, rfl, hk⟩ := parsed_list (hp 2 _ k rfl rfl)
    exact ⟨f, as, ks, ⟨i, j, m, rfl⟩, hp 0 _ f rfl rfl, ha, hk⟩

theorem parsed_keyword {g : Grammar} (hg : PythonGrammar g) {b : Bool} {v : Val} (hv : Parsed g b v) (hty : v.ty = str "keyword") :
    ∃ i a value, v = .node i (str "keyword") [str "arg", str "value"] [a, value] ∧ Parsed g false value := by
  obtain ⟨i, vs, rfl, hl, hp⟩ := parsed_fields hg hv hty (fs := [(str "arg", false), (str "value", false)]) (by decide)
  match vs, hl, hp with
  | [a, value], _, hp => exact ⟨i, a, value, rfl, hp 1 _ value rfl rfl⟩

mutual
theorem astPattern_noTemplates {subs : Dict Str Matcher} (h : ∀ k m, subs.get? k = some m → m.noTemplates = true) :
    ∀ v : Val, (astPattern subs v).noTemplates = true
  | .const _ _ => rfl
  | .list _ vs => by
    rw [astPattern, Matcher.noTemplates]
    exact astPatterns_noTemplates h vs
  | .node i t ns vs => by
    rw [astPattern]
    split
    · rename_i m hm
      obtain ⟨k, _, hk⟩ := Option.bind_eq_some_iff.1 hm
      exact h k m hk
    · rw [Matcher.noTemplates]
      exact fieldPatterns_noTemplates h _ ns vs
theorem astPatterns_noTemplates {subs : Dict Str Matcher} (h : ∀ k m, subs.get? k = some m → m.noTemplates = true) :
    ∀ vs : List Val, Matcher.noTemplatesList (astPatterns subs vs) = true
  | [] => rfl
  | v :: vs => by
    rw [astPatterns, Matcher.noTemplatesList, astPattern_noTemplates h v, astPatterns_noTemplates h vs]; rfl
theorem fieldPatterns_noTemplates {subs : Dict Str Matcher} (h : ∀ k m, subs.get? k = some m → m.noTemplates = true) (b : Bool) (ns : List Str) :
    ∀ vs : List Val, Matcher.noTemplatesList (fieldPatterns subs b ns vs) = true
  | [] => by cases ns <;> rfl
  | v :: vs => by
    cases ns with
    | nil => rfl
    | cons a ns =>
      rw [fieldPatterns, Matcher.noTemplatesList, fieldPatterns_noTemplates h b ns vs]
      split
      · rfl
      · rw [astPattern_noTemplates h v]; rfl
end

theorem submatchers_values {P : Matcher → Prop} (l : List (Label × Str)) (rs : Dict Label Matcher)
    (h : ∀ x, P (metaBind x ((rs.get? x).getD .anything))) : ∀ k m, (submatchers [] l rs).get? k = some m → P m := by
  unfold submatchers
  simp only [List.foldl_nil]
  suffices H : ∀ d : Dict Str Matcher, (∀ k m, d.get? k = some m → P m) →
      ∀ k m, (l.foldl (fun d e => d.set e.2 (metaBind e.1 ((rs.get? e.1).getD .anything))) d).get? k = some m → P m by
    exact H [] (by intro k m h; cases h)
  induction l with
  | nil => intro d hd; exact hd
  | cons e l ih =>
    intro d hd
    refine ih _ fun k m hk => ?_
    rw [Dict.get?_set] at hk
    split at hk
    · cases hk; exact h e.1
    · exact hd k m hk

theorem pattern_noTemplates (mangle : Label → Str) (p : Code) (rs : Dict Label Matcher) (h : ∀ x m, rs.get? x = some m → m.noTemplates = true) :
    (p.pattern mangle rs).noTemplates = true := by
  unfold Code.pattern patternMatcher
  rw [Matcher.noTemplates, Matcher.noTemplates]
  refine astPattern_noTemplates (submatchers_values _ _ fun x => ?_) _
  unfold metaBind
  rw [Matcher.noTemplates]
  cases hx : rs.get? x with
  | none => rfl
  | some m => exact h x m hx

section
variable {mangle : Label → Str} {c : Ctx} {g : Grammar} {n : Nat}

/-- Code without metavariables. -/
theorem gives_code (hg : PythonGrammar g) {p : Code} (hp : p.vars = []) (hops : ∀ op ∈ p.ops, op ∈ comparisonOps) {b : Bool} {v : Val}
    (hv : Parsed g b v) (hn : 2 * (p.val mangle).size + 5 ≤ n) :
    (p.Reads v [] → Yields c n [] (p.pattern mangle []) v (some ⟨createMatch c v, [], []⟩)) ∧
    (¬ p.Reads v [] → Yields c n [] (p.pattern mangle []) v none) := by
  have hok : CodeOk mangle p := ⟨hops, ⟨by simp [hp], by simp [hp]⟩, by simp [hp]⟩
  have hno : ∀ occ, p.Reads v occ → occ = [] := fun occ h => by
    have := reads_vars p h; rw [hp] at this; simpa using this
  refine ⟨fun h ks => ?_, fun h ks => ?_⟩
  · obtain ⟨mi, occ, h1, h2, _, _, h3, h4⟩ := (C81_pattern hg hok (no_restrictions c []) hv hn ks).1 ⟨[], h, by simp [AllowedOccs], by intro x; simp [Occs.of, AllAlike]⟩
    obtain rfl := hno occ h2
    have hr := run_bare c n [] (p.pattern mangle []) v ks (pattern_noTemplates _ _ _ (by intro x m h; cases h)) (by intro p h; cases h) mi ks h1
    have hb : mi.bindings = [] := by
      cases hm : mi.bindings with
      | nil => rfl
      | cons e bs =>
        have := h4 e.1
        rw [hm] at this
        simp [Dict.get?, Occs.of] at this
    rw [h1]
    cases mi
    simp only at h3 hr hb
    rw [h3, hr, hb]
  · refine (C81_pattern hg hok (no_restrictions c []) hv hn ks).2 ?_
    rintro ⟨occ, h1, _⟩
    obtain rfl := hno occ h1
    exact h h1

theorem firstMatch_first {m : Matcher} {P : Val → Prop} {F : Val → MatchInfo} {vs : List Val} (h1 : ∀ w ∈ vs, P w → Yields c n [] m w (some (F w)))
    (h0 : ∀ w ∈ vs, ¬ P w → Yields c n [] m w none) (ks : List Key) :
    (∀ k, FirstOf P vs k → firstMatch (vs.map fun w => run c n [] m w) ks = .ok (some (F k), ks)) ∧
    ((∀ w ∈ vs, ¬ P w) → firstMatch (vs.map fun w => run c n [] m w) ks = .ok (none, ks)) := by
  induction vs with
  | nil => exact ⟨fun k ⟨pre, post, h, _⟩ => by simp at h, fun _ => rfl⟩
  | cons v vs ih =>
    obtain ⟨i1, i2⟩ := ih (fun w hw => h1 w (List.mem_cons_of_mem _ hw)) (fun w hw => h0 w (List.mem_cons_of_mem _ hw))
    refine ⟨?_, fun h => ?_⟩
    · rintro k ⟨pre, post, he, hk, hpre⟩
      cases pre with
      | nil =>
        simp only [List.nil_append, List.cons.injEq] at he
        obtain ⟨rfl, rfl⟩ := he
        simp only [List.map_cons, firstMatch, h1 v (List.mem_cons_self ..) hk ks]
      | cons u pre =>
        simp only [List.cons_append, List.cons.injEq] at he
        obtain ⟨rfl, rfl⟩ := he
        simp only [List.map_cons, firstMatch, h0 v (List.mem_cons_self ..) (hpre v (List.mem_cons_self ..)) ks]
        exact i1 k ⟨pre, post, rfl, hk, fun w hw => hpre w (List.mem_cons_of_mem _ hw)⟩
    · simp only [List.map_cons, firstMatch, h0 v (List.mem_cons_self ..) (h v (List.mem_cons_self ..)) ks]
      exact i2 fun w hw => h w (List.mem_cons_of_mem _ hw)

theorem yields_contains {m : Matcher} {P : Val → Prop} {F : Val → MatchInfo} {i : Nat} {vs : List Val} (h1 : ∀ w ∈ vs, P w → Yields c n [] m w (some (F w)))
    (h0 : ∀ w ∈ vs, ¬ P w → Yields c n [] m w none) :
    (∀ k, FirstOf P vs k → Yields c (n + 1) [] (.contains m) (.list i vs) (some ⟨createMatch c (.list i vs), (F k).bindings, []⟩)) ∧
    ((∀ w ∈ vs, ¬ P w) → Yields c (n + 1) [] (.contains m) (.list i vs) none) := by
  refine ⟨fun k hk ks => ?_, fun h ks => ?_⟩
  · simp only [run, seqItems, (firstMatch_first h1 h0 ks).1 k hk]; rfl
  · simp only [run, seqItems, (firstMatch_first h1 h0 ks).2 h]; rfl

theorem firstOf_exists {P : Val → Prop} {vs : List Val} {w : Val} (hw : w ∈ vs) (h : P w) : ∃ k, FirstOf P vs k := by
  induction vs with
  | nil => cases hw
  | cons v vs ih =>
    by_cases hv : P v
    · exact ⟨v, [], vs, rfl, hv, by simp⟩
    · rcases List.mem_cons.1 hw with rfl | hw
      · exact absurd h hv
      · obtain ⟨k, pre, post, rfl, h1, h2⟩ := ih hw
        refine ⟨k, v :: pre, post, rfl, h1, fun u hu => ?_⟩
        rcases List.mem_cons.1 hu with rfl | hu
        · exact hv
        · exact h2 u hu

theorem firstOf_mem {P : Val → Prop} {vs : List Val} {k : Val} (h : FirstOf P vs k) : k ∈ vs ∧ P k := by
  obtain ⟨pre, post, rfl, h, _⟩ := h
  exact ⟨by simp, h⟩

/-- The keyword argument `default=` with the given code. -/
theorem yields_default (hg : PythonGrammar g) {d : Code} (hd : d.vars = []) (hops : ∀ op ∈ d.ops, op ∈ comparisonOps) {b : Bool} {k : Val}
    (hk : Parsed g b k) (hn : 2 * (d.val mangle).size + 5 ≤ n) :
    ((∃ value, IsKeywordArg k (str "default") value ∧ d.Reads value []) →
      Yields c (n + 2) [] (.bind (str "keyword") (keywordWith [("arg", equalsStr "default"), ("value", d.pattern mangle [])]) none none) k
        (some ⟨createMatch c k, [(str "keyword", ⟨createMatch c k, .merge, .keepLast⟩)], []⟩)) ∧
    ((¬ ∃ value, IsKeywordArg k (str "default") value ∧ d.Reads value []) →
      Yields c (n + 2) [] (.bind (str "keyword") (keywordWith [("arg", equalsStr "default"), ("value", d.pattern mangle [])]) none none) k none) := by
  obtain ⟨n, rfl⟩ : ∃ m, n = m + 1 := ⟨n - 1, by omega⟩
  have hpat : keywordWith [("arg", equalsStr "default"), ("value", d.pattern mangle [])] =
      .node (str "keyword") [str "arg", str "value"] [equalsStr "default", d.pattern mangle []] := rfl
  have hbind : ∀ ks o, run c (n + 2) [] (keywordWith [("arg", equalsStr "default"), ("value", d.pattern mangle [])]) k ks = .ok (o, ks) →
      (o = none ∨ o = some ⟨createMatch c k, [], []⟩) →
      run c (n + 3) [] (.bind (str "keyword") (keywordWith [("arg", equalsStr "default"), ("value", d.pattern mangle [])]) none none) k ks =
        .ok (o.map fun _ => ⟨createMatch c k, [(str "keyword", ⟨createMatch c k, .merge, .keepLast⟩)], []⟩, ks) := by
    intro ks o h ho
    rw [run]
    simp only [h]
    rcases ho with rfl | rfl
    · rfl
    · rfl
  have key : ∀ ks, ((∃ value, IsKeywordArg k (str "default") value ∧ d.Reads value []) →
      run c (n + 2) [] (keywordWith [("arg", equalsStr "default"), ("value", d.pattern mangle [])]) k ks = .ok (some ⟨createMatch c k, [], []⟩, ks)) ∧
      ((¬ ∃ value, IsKeywordArg k (str "default") value ∧ d.Reads value []) →
      run c (n + 2) [] (keywordWith [("arg", equalsStr "default"), ("value", d.pattern mangle [])]) k ks = .ok (none, ks)) := by
    intro ks
    by_cases hty : k.ty = str "keyword"
    · obtain ⟨i, a, value, rfl, hp⟩ := parsed_keyword hg hk hty
      obtain ⟨y1, y2⟩ := gives_code (c := c) (mangle := mangle) (n := n + 1) hg hd hops hp hn
      have hrun : run c (n + 2) [] (keywordWith [("arg", equalsStr "default"), ("value", d.pattern mangle [])]) (.node i (str "keyword") [str "arg", str "value"] [a, value]) ks =
          accumulate c (.node i (str "keyword") [str "arg", str "value"] [a, value])
            [run c (n + 1) [] (equalsStr "default") a, run c (n + 1) [] (d.pattern mangle []) value] ks := by
        rw [hpat, run, if_neg (by intro h; exact h rfl)]
        rfl
      rw [hrun]
      have heq : run c (n + 1) [] (equalsStr "default") a = fun ks => if a.pyEq (.const 0 (.str (str "default"))) then found c a [] ks else .ok (none, ks) := by
        funext ks; rfl
      refine ⟨?_, fun h => ?_⟩
      · rintro ⟨value', ⟨i', j', e⟩, hr⟩
        injection e with _ _ _ e
        injection e with e1 e
        injection e with e2 _
        subst e1; subst e2
        rw [heq]
        have : (Val.const j' (.str (str "default"))).pyEq (.const 0 (.str (str "default"))) = true := rfl
        simp only [accumulate, accumLoop, this, if_pos, found, y1 hr _]
        rfl
      · rw [heq]
        by_cases hq : a.pyEq (.const 0 (.str (str "default"))) = true
        · obtain ⟨j, rfl⟩ := pyEq_str (.inl hq)
          have hnr : ¬ d.Reads value [] := fun hr => h ⟨value, ⟨_, _, rfl⟩, hr⟩
          simp only [accumulate, accumLoop, hq, if_pos, found, y2 hnr _]
          rfl
        · simp only [accumulate, accumLoop, hq]
          rfl
    · have hno : ¬ ∃ value, IsKeywordArg k (str "default") value ∧ d.Reads value [] := by
        rintro ⟨value, ⟨i, j, rfl⟩, _⟩; exact hty rfl
      refine ⟨fun h => absurd h hno, fun _ => ?_⟩
      rw [hpat, run, if_pos hty]
  refine ⟨fun h ks => ?_, fun h ks => ?_⟩
  · exact hbind ks _ ((key ks).1 h) (.inr rfl)
  · exact hbind ks _ ((key ks).2 h) (.inl rfl)

/-- What the matcher of an `attr.ib` fixer reports on the call with keyword argument `k`. -/
def attribFinding (c : Ctx) (v k : Val) : MatchInfo := ⟨createMatch c v, [(str "keyword", ⟨createMatch c k, .merge, .keepLast⟩)], []⟩

theorem attrib_code (hg : PythonGrammar g) {d : Code} (hd : d.vars = []) (hops : ∀ op ∈ d.ops, op ∈ comparisonOps) {b : Bool} {v : Val}
    (hv : Parsed g b v) (hn : 2 * (d.val mangle).size + 5 ≤ n) (hn' : 40 ≤ n) :
    (∀ k, AttribDefault d v k → Yields c (n + 4) [] (attribMatcher mangle d) v (some (attribFinding c v k))) ∧
    ((¬ ∃ k, AttribDefault d v k) → Yields c (n + 4) [] (attribMatcher mangle d) v none) := by
  have hpat : attribMatcher mangle d = .node (str "Call") [str "func", str "args", str "keywords"] [attrIb.pattern mangle [], .anything,
    .contains (.bind (str "keyword") (keywordWith [("arg", equalsStr "default"), ("value", d.pattern mangle [])]) none none)] := rfl
  by_cases hty : v.ty = str "Call"
  · obtain ⟨f, args, keywords, ⟨i, j, m, rfl⟩, hf, ha, hk⟩ := parsed_call hg hv hty
    have hrun : ∀ ks, run c (n + 4) [] (attribMatcher mangle d) (.node i (str "Call") [str "func", str "args", str "keywords"] [f, .list j args, .list m keywords]) ks =
        accumulate c (.node i (str "Call") [str "func", str "args", str "keywords"] [f, .list j args, .list m keywords])
          [run c (n + 3) [] (attrIb.pattern mangle []) f, run c (n + 3) [] .anything (.list j args),
           run c (n + 3) [] (.contains (.bind (str "keyword") (keywordWith [("arg", equalsStr "default"), ("value", d.pattern mangle [])]) none none)) (.list m keywords)] ks := by
      intro ks
      rw [hpat, run, if_neg (by intro h; exact h rfl)]
      rfl
    have hsz : 2 * (attrIb.val mangle).size + 5 ≤ n + 3 := by
      have : (attrIb.val mangle).size = 6 := rfl
      omega
    obtain ⟨f1, f2⟩ := gives_code (c := c) (mangle := mangle) (n := n + 3) hg (p := attrIb) rfl (by intro op h; cases h) hf hsz
    obtain ⟨k1, k2⟩ := yields_contains (c := c) (n := n + 2) (i := m) (vs := keywords)
      (m := .bind (str "keyword") (keywordWith [("arg", equalsStr "default"), ("value", d.pattern mangle [])]) none none)
      (P := fun k => ∃ value, IsKeywordArg k (str "default") value ∧ d.Reads value [])
      (F := fun k => ⟨createMatch c k, [(str "keyword", ⟨createMatch c k, .merge, .keepLast⟩)], []⟩)
      (fun w hw h => (yields_default hg hd hops (hk w hw) hn).1 h) (fun w hw h => (yields_default hg hd hops (hk w hw) hn).2 h)
    refine ⟨?_, fun h ks => ?_⟩
    · rintro k ⟨f', args', keywords', ⟨i', j', m', e⟩, hr, hfirst⟩ ks
      injection e with _ _ _ e
      injection e with e1 e
      injection e with e2 e
      injection e with e3 _
      injection e2 with _ e2
      injection e3 with _ e3
      subst e1 e2 e3
      rw [hrun]
      simp only [accumulate, accumLoop, f1 hr _, k1 k hfirst _]
      rfl
    · rw [hrun]
      by_cases hr : attrIb.Reads f []
      · have hnone : ∀ w ∈ keywords, ¬ ∃ value, IsKeywordArg w (str "default") value ∧ d.Reads value [] := by
          intro w hw hx
          obtain ⟨k, hk⟩ := firstOf_exists (P := fun k => ∃ value, IsKeywordArg k (str "default") value ∧ d.Reads value []) hw hx
          exact h ⟨k, f, args, keywords, ⟨_, _, _, rfl⟩, hr, hk⟩
        simp only [accumulate, accumLoop, f1 hr _, k2 hnone _]
        rfl
      · simp only [accumulate, accumLoop, f2 hr _]
  · refine ⟨fun k h => ?_, fun _ ks => ?_⟩
    · obtain ⟨_, _, _, ⟨_, _, _, rfl⟩, _⟩ := h
      exact absurd rfl hty
    · rw [hpat, run, if_pos hty]

/-- **C85**, `attr.ib`: a fixer for `attr.ib(default=[])` (`{}`, `set()`) accepts exactly the calls of `attr.ib` that have a keyword argument
`default=` of which the value is exactly that code, wherever it stands among the arguments and whatever the others are; and it marks the
first such keyword argument, and nothing else, for replacement. -/
theorem C85_attrib (hg : PythonGrammar g) {d : Code} {text : Str} (hd : (d, text) ∈ attribDefaults) {b : Bool} {v : Val}
    (hv : Parsed g b v) (hn : 44 ≤ n) :
    (∀ k, AttribDefault d v k → Yields c n [] (attribMatcher mangle d) v (some (attribFinding c v k))) ∧
    ((¬ ∃ k, AttribDefault d v k) → Yields c n [] (attribMatcher mangle d) v none) := by
  obtain ⟨n, rfl⟩ : ∃ m, n = m + 4 := ⟨n - 4, by omega⟩
  have h : d.vars = [] ∧ d.ops = [] ∧ (d.val mangle).size ≤ 10 := by
    simp only [attribDefaults, List.mem_cons, List.not_mem_nil, or_false, Prod.mk.injEq] at hd
    rcases hd with ⟨rfl, _⟩ | ⟨rfl, _⟩ | ⟨rfl, _⟩
    · exact ⟨rfl, rfl, Nat.le_of_ble_eq_true rfl⟩
    · exact ⟨rfl, rfl, Nat.le_of_ble_eq_true rfl⟩
    · exact ⟨rfl, rfl, Nat.le_of_ble_eq_true rfl⟩
  exact attrib_code hg h.1 (by rw [h.2.1]; intro op h; cases h) hv (by omega) (by omega)

end

/-- **C85**: the three defaults, and what the built-in fixers put in the place of the keyword argument. -/
theorem C85_attrib_fixers (mangle : Label → Str) (r : Nat) (d : Code) (text : Str) (h : attribDefaults[r]? = some (d, text)) :
    attribFixer mangle r d ∈ correctnessFixers mangle ∧ (attribFixer mangle r d).matcher = attribMatcher mangle d ∧
    (attribFixer mangle r d).replacement = .mapping r ∧ builtinHeap r = [(str "keyword", shCode text)] ∧
    ((d, text) = (.emptyList, str "factory=list") ∨ (d, text) = (.emptyDict, str "factory=dict") ∨
      (d, text) = (.call (.name (str "set")) [] [], str "factory=set")) := by
  match r, h with
  | 0, h => cases h; exact ⟨by simp [correctnessFixers], rfl, rfl, rfl, .inl rfl⟩
  | 1, h => cases h; exact ⟨by simp [correctnessFixers], rfl, rfl, rfl, .inr (.inl rfl)⟩
  | 2, h => cases h; exact ⟨by simp [correctnessFixers], rfl, rfl, rfl, .inr (.inr rfl)⟩
  | r + 3, h => cases h


section
variable {mangle : Label → Str} {c : Ctx} {g : Grammar} {n : Nat}

/-- What the name of a handler (or the `id` of a name) is bound to. -/
def exceptionBinding (c : Ctx) (v : Val) : Bindings := [(str "e", ⟨createMatch c v, .mergeIdentical, .keepLast⟩)]

/-- The name that the second matcher of `inExceptionHandler` binds. -/
def handlerName (w : Val) : Val := if (w.getattr (str "name")).ty = str "Name" then (w.getattr (str "name")).getattr (str "id") else w.getattr (str "name")

theorem answers_handler (c : Ctx) :
    Answers c [] (handlerWith []) 2 (fun w => if w.ty = str "ExceptHandler" then some ⟨createMatch c w, [], []⟩ else none) := by
  refine ⟨fun n hn v ks => ?_, fun n hn => ?_⟩
  · obtain ⟨n, rfl⟩ : ∃ m, n = m + 2 := ⟨n - 2, by omega⟩
    have hp : handlerWith [] = .node (str "ExceptHandler") [str "type", str "name", str "body"] [.anything, .anything, .anything] := rfl
    rw [hp, run]
    by_cases h : v.ty = str "ExceptHandler"
    · rw [if_neg (by simp [h]), if_pos h]; rfl
    · rw [if_pos h, if_neg h]
  · obtain ⟨n, rfl⟩ : ∃ m, n = m + 1 := ⟨n - 1, by omega⟩
    exact ⟨_, rfl⟩

theorem answers_handler_name (c : Ctx) :
    Answers c [] (handlerWith [("name", .anyOf [nameWith (bindIdentical "e"), bindIdentical "e"])]) 6
      (fun w => if w.ty = str "ExceptHandler" then some ⟨createMatch c w, exceptionBinding c (handlerName w), []⟩ else none) := by
  refine ⟨fun n hn v ks => ?_, fun n hn => ?_⟩
  · obtain ⟨n, rfl⟩ : ∃ m, n = m + 6 := ⟨n - 6, by omega⟩
    have hp : handlerWith [("name", .anyOf [nameWith (bindIdentical "e"), bindIdentical "e"])] =
      .node (str "ExceptHandler") [str "type", str "name", str "body"] [.anything, .anyOf [nameWith (bindIdentical "e"), bindIdentical "e"], .anything] := rfl
    have hw : nameWith (bindIdentical "e") = .node (str "Name") [str "id", str "ctx"] [bindIdentical "e", .anything] := rfl
    rw [hp, run]
    by_cases h : v.ty = str "ExceptHandler"
    · rw [if_neg (by simp [h]), if_pos h]
      have key : ∀ ks, run c (n + 5) [] (.anyOf [nameWith (bindIdentical "e"), bindIdentical "e"]) (v.getattr (str "name")) ks =
          .ok (some ⟨createMatch c (v.getattr (str "name")), exceptionBinding c (handlerName v), []⟩, ks) := by
        intro ks
        have hf : [nameWith (bindIdentical "e"), bindIdentical "e"].mapM (typeFilter (n + 4) []) = .ok [some [str "Name"], none] := rfl
        have ht : typedMatchers ([nameWith (bindIdentical "e"), bindIdentical "e"].zip [some [str "Name"], none]) =
          [(str "Name", [nameWith (bindIdentical "e"), bindIdentical "e"])] := rfl
        rw [run]
        simp only [hf]
        unfold dispatch handlerName
        rw [ht, hw]
        by_cases h2 : (v.getattr (str "name")).ty = str "Name"
        · have hg : Dict.get? [(str "Name", [Matcher.node (str "Name") [str "id", str "ctx"] [bindIdentical "e", .anything], bindIdentical "e"])] (v.getattr (str "name")).ty =
              some [Matcher.node (str "Name") [str "id", str "ctx"] [bindIdentical "e", .anything], bindIdentical "e"] := by rw [h2]; rfl
          rw [if_pos h2, hg]
          simp only [Option.getD_some, List.map_cons, firstMatch]
          rw [run, if_neg (by simp [h2])]
          rfl
        · have hg : Dict.get? [(str "Name", [Matcher.node (str "Name") [str "id", str "ctx"] [bindIdentical "e", .anything], bindIdentical "e"])] (v.getattr (str "name")).ty =
              none := by
            simp only [Dict.get?]
            rw [if_neg (fun e => h2 e.symm)]
          rw [if_neg h2, hg]
          rfl
      simp only [List.zip_cons_cons, List.zip_nil_right, List.map_cons, List.map_nil, accumulate, accumLoop, key]
      rfl
    · rw [if_pos h, if_neg h]
  · obtain ⟨n, rfl⟩ : ∃ m, n = m + 1 := ⟨n - 1, by omega⟩
    exact ⟨_, rfl⟩

theorem nearestAround_unique {tree : Val} {p : Path} {ty : Str} {v w : Val} (h1 : NearestAround tree p ty v) (h2 : NearestAround tree p ty w) : v = w := by
  obtain ⟨q, a1, a2, a3, a4, a5⟩ := h1
  obtain ⟨q', b1, b2, b3, b4, b5⟩ := h2
  have : q.length = q'.length := by
    rcases Nat.lt_trichotomy q.length q'.length with h | h | h
    · exact absurd b4 (a5 q' w b1 b2 h b3)
    · exact h
    · exact absurd a4 (b5 q v a1 a2 h a3)
  have : q = q' := by
    obtain ⟨t, rfl⟩ := a1
    obtain ⟨t', e⟩ := b1
    exact (List.append_inj e this.symm).1.symm
  subst this
  rw [a3] at b3
  exact Option.some.inj b3

/-- `HasFirstAncestor` with a test of the type: the nearest object around the candidate of the type decides. -/
theorem yields_nearest {ty : Str} {first also : Matcher} {d : Nat} {accA : Val → Option MatchInfo} (hu : Unshared c.tree)
    (hF : Answers c [] first d (fun w => if w.ty = ty then some ⟨createMatch c w, [], []⟩ else none)) (hA : Answers c [] also d accA)
    (hbare : ∀ w b, accA w = some b → mergeBindings [] b.bindings = .ok (some b.bindings))
    {p : Path} {v : Val} (hp : c.tree.at? p = some v) (hv : v.isInner) (hn : d + 1 ≤ n) :
    (∀ w, NearestAround c.tree p ty w → Yields c n [] (.hasFirstAncestor first also) v ((accA w).map fun b => ⟨createMatch c v, b.bindings, []⟩)) ∧
    ((¬ ∃ w, NearestAround c.tree p ty w) → Yields c n [] (.hasFirstAncestor first also) v none) := by
  have hacc : ∀ q, ((c.tree.at? q).bind fun w => if w.ty = ty then some (⟨createMatch c w, [], []⟩ : MatchInfo) else none) = none ↔
      ∀ u, c.tree.at? q = some u → u.ty ≠ ty := by
    intro q
    cases c.tree.at? q with
    | none => simp
    | some u => simp
  have hobj : ∀ (w : Val) (a : MatchInfo), (if w.ty = ty then some (⟨createMatch c w, [], []⟩ : MatchInfo) else none) = some a →
      w.isInner → a.obj.matched? = some w := by
    intro w a h hw
    split at h
    · cases h
      unfold createMatch
      cases w with
      | const i x => exact absurd rfl (hw i x)
      | list _ _ => rfl
      | node i t ns vs =>
        simp only
        split
        · rfl
        · split
          · split <;> rfl
          · split <;> rfl
    · cases h
  have main : ∀ ks, ((¬ ∃ w, NearestAround c.tree p ty w) ∧ run c n [] (.hasFirstAncestor first also) v ks = .ok (none, ks)) ∨
      ∃ w, NearestAround c.tree p ty w ∧ run c n [] (.hasFirstAncestor first also) v ks = .ok ((accA w).map fun b => ⟨createMatch c v, b.bindings, []⟩, ks) := by
    intro ks
    rcases C61_first_ancestor hu hF hA hobj hp hv n hn ks with ⟨h1, h2⟩ | ⟨q0, i, q, w, a, e, hq, hw, hr⟩
    · refine .inl ⟨?_, h2⟩
      rintro ⟨w, q, a1, a2, a3, a4, _⟩
      rcases List.eq_nil_or_concat p with rfl | ⟨p', i, rfl⟩
      · exact a2 (List.prefix_nil.1 a1)
      · rw [List.concat_eq_append] at *
        have hq' : q <+: p' := by
          rcases prefix_snoc a1 with h | h
          · exact h
          · exact absurd h a2
        exact (hacc q).1 (h1 p' i rfl q hq') w a3 a4
    · refine .inr ⟨w, ⟨q, ?_, ?_, hw, ?_, ?_⟩, ?_⟩
      · rw [e]; exact hq.above.trans (List.prefix_append ..)
      · intro h
        have := hq.above.length_le
        rw [h, e] at this
        simp at this
        omega
      · have := hq.accepted
        rw [hw] at this
        simp only [Option.bind_some] at this
        split at this
        · assumption
        · cases this
      · intro q' u h1 h2 h3 h4
        refine (hacc q').1 (hq.nearest q' ?_ h3) u h4
        rw [e] at h1 h2
        rcases prefix_snoc h1 with h | h
        · exact h
        · exact absurd h h2
      · rw [hr]
        have ha : a.bindings = [] := by
          have := hq.accepted
          rw [hw] at this
          simp only [Option.bind_some] at this
          split at this
          · cases this; rfl
          · cases this
        cases hb : accA w with
        | none => rfl
        | some b => simp only [ha, hbare w b hb, Option.map_some]
  refine ⟨fun w hw ks => ?_, fun h ks => ?_⟩
  · rcases main ks with ⟨h, _⟩ | ⟨w', hw', hr⟩
    · exact absurd ⟨w, hw⟩ h
    · rw [nearestAround_unique hw hw', hr]
  · rcases main ks with ⟨_, hr⟩ | ⟨w', hw', _⟩
    · exact hr
    · exact absurd ⟨w', hw'⟩ h

theorem yields_inHandler (hu : Unshared c.tree) {p : Path} {v : Val} (hp : c.tree.at? p = some v) (hv : v.isInner) (hn : 7 ≤ n) :
    (∀ w, NearestAround c.tree p (str "ExceptHandler") w →
      Yields c n [] inExceptionHandler v (some ⟨createMatch c v, exceptionBinding c (handlerName w), []⟩)) ∧
    ((¬ ∃ w, NearestAround c.tree p (str "ExceptHandler") w) → Yields c n [] inExceptionHandler v none) := by
  obtain ⟨h1, h2⟩ := yields_nearest (n := n) hu
    ⟨fun n hn => (answers_handler c).answers n (by omega), fun n hn => (answers_handler c).filter n (by omega)⟩
    (answers_handler_name c) (by
      intro w b h
      split at h
      · cases h; rfl
      · cases h) hp hv hn
  refine ⟨fun w hw => ?_, h2⟩
  have := h1 w hw
  obtain ⟨_, _, _, _, hty, _⟩ := hw
  rw [if_pos hty] at this
  exact this

/-- The exception's name. -/
def exceptionName (s : Str) : Bindings := [(str "e", ⟨.string s, .mergeIdentical, .keepLast⟩)]

theorem merge_exceptionName (s t : Str) : mergeBindings (exceptionName s) (exceptionName t) = .ok (if s = t then some (exceptionName t) else none) := by
  simp only [mergeBindings, mergeBindingsIn, exceptionName, Dict.keys, Dict.has, Dict.get?, mergeStep, List.map_cons, List.map_nil]
  by_cases e : s = t
  · subst e
    simp [BindConflict.verdict, Dict.get?, mergeStep, updateFrom, BindMerge.pick, BoundValue.pyEq, MObj.pyEq, Dict.set]
  · simp [BindConflict.verdict, Dict.get?, mergeStep, updateFrom, BindMerge.pick, BoundValue.pyEq, MObj.pyEq, Dict.set, e]

theorem yields_exception_arg (hu : Unshared c.tree) (hpy : PythonNames c.tree) {p : Path} {a : Val} (hp : c.tree.at? p = some a) (ha : a.isInner)
    (hn : 8 ≤ n) :
    (∀ s, IsNameNode a s → InHandlerOf c.tree p s →
      Yields c n [] (.allOf [inExceptionHandler, nameWith (bindIdentical "e")]) a (some ⟨createMatch c a, exceptionName s, []⟩)) ∧
    ((¬ ∃ s, IsNameNode a s ∧ InHandlerOf c.tree p s) → Yields c n [] (.allOf [inExceptionHandler, nameWith (bindIdentical "e")]) a none) := by
  obtain ⟨n, rfl⟩ : ∃ m, n = m + 8 := ⟨n - 8, by omega⟩
  obtain ⟨h1, h2⟩ := yields_inHandler (n := n + 7) hu hp ha (by omega)
  have hw : nameWith (bindIdentical "e") = .node (str "Name") [str "id", str "ctx"] [bindIdentical "e", .anything] := rfl
  have hname : ∀ s, IsNameNode a s → ∀ ks, run c (n + 7) [] (nameWith (bindIdentical "e")) a ks = .ok (some ⟨createMatch c a, exceptionName s, []⟩, ks) := by
    rintro s ⟨i, j, ctx, rfl⟩ ks
    rw [hw, run, if_neg (by intro h; exact h rfl)]
    rfl
  have hnot : a.ty ≠ str "Name" → ∀ ks, run c (n + 7) [] (nameWith (bindIdentical "e")) a ks = .ok (none, ks) := by
    intro h ks
    rw [hw, run, if_pos h]
  refine ⟨fun s hs ⟨h, i, hh, hi⟩ ks => ?_, fun hno ks => ?_⟩
  · have e : exceptionBinding c (handlerName h) = exceptionName s := by
      unfold handlerName
      rw [hi]
      rfl
    rw [run]
    simp only [List.map_cons, List.map_nil, accumulate, accumLoop, h1 h hh _, hname s hs, e]
    have hm : mergeBindings [] (exceptionName s) = .ok (some (exceptionName s)) := rfl
    simp only [hm, merge_exceptionName]
    rfl
  · rw [run]
    simp only [List.map_cons, List.map_nil, accumulate, accumLoop]
    by_cases hh : ∃ w, NearestAround c.tree p (str "ExceptHandler") w
    · obtain ⟨h, hh⟩ := hh
      simp only [h1 h hh _]
      have hm : ∀ v, mergeBindings [] (exceptionBinding c v) = .ok (some (exceptionBinding c v)) := fun _ => rfl
      simp only [hm]
      by_cases hty : a.ty = str "Name"
      · obtain ⟨s, hs⟩ := hpy.names p a hp hty
        have hr : mergeReplacements [] [] = .ok [] := rfl
        simp only [hr, hname s hs]
        obtain ⟨q, _, _, hq, hqt, _⟩ := id hh
        rcases hpy.handlers q h hq hqt with ⟨i, t, hi⟩ | ⟨i, hi⟩
        · have e : exceptionBinding c (handlerName h) = exceptionName t := by
            unfold handlerName
            rw [hi]
            rfl
          have hne : t ≠ s := by
            rintro rfl
            exact hno ⟨t, hs, h, i, hh, hi⟩
          rw [e]
          simp only [merge_exceptionName, if_neg hne]
        · have e : exceptionBinding c (handlerName h) = [(str "e", ⟨.object (.const i .none), .mergeIdentical, .keepLast⟩)] := by
            unfold handlerName
            rw [hi]
            rfl
          rw [e]
          rfl
      · have hr : mergeReplacements [] [] = .ok [] := rfl
        simp only [hr, hnot hty]
    · simp only [h2 hh _]

/-- No keyword argument of the name. -/
theorem yields_without (hg : PythonGrammar g) {i : Nat} {keywords : List Val} (hk : ∀ k ∈ keywords, Parsed g false k) (x : String) (hn : 5 ≤ n) :
    ((∀ k ∈ keywords, ∀ value, ¬ IsKeywordArg k (str x) value) →
      Yields c n [] (.unlessM (.contains (keywordWith [("arg", equalsStr x)]))) (.list i keywords) (some ⟨createMatch c (.list i keywords), [], []⟩)) ∧
    ((¬ ∀ k ∈ keywords, ∀ value, ¬ IsKeywordArg k (str x) value) →
      Yields c n [] (.unlessM (.contains (keywordWith [("arg", equalsStr x)]))) (.list i keywords) none) := by
  obtain ⟨n, rfl⟩ : ∃ m, n = m + 5 := ⟨n - 5, by omega⟩
  have hpat : keywordWith [("arg", equalsStr x)] = .node (str "keyword") [str "arg", str "value"] [equalsStr x, .anything] := rfl
  have hone : ∀ k ∈ keywords, ((∃ value, IsKeywordArg k (str x) value) → Yields c (n + 3) [] (keywordWith [("arg", equalsStr x)]) k (some ⟨createMatch c k, [], []⟩)) ∧
      ((¬ ∃ value, IsKeywordArg k (str x) value) → Yields c (n + 3) [] (keywordWith [("arg", equalsStr x)]) k none) := by
    intro k hkm
    by_cases hty : k.ty = str "keyword"
    · obtain ⟨i, a, value, rfl, _⟩ := parsed_keyword hg (hk k hkm) hty
      have hrun : ∀ ks, run c (n + 3) [] (keywordWith [("arg", equalsStr x)]) (.node i (str "keyword") [str "arg", str "value"] [a, value]) ks =
          accumulate c (.node i (str "keyword") [str "arg", str "value"] [a, value])
            [run c (n + 2) [] (equalsStr x) a, run c (n + 2) [] .anything value] ks := by
        intro ks
        rw [hpat, run, if_neg (by intro h; exact h rfl)]
        rfl
      have heq : run c (n + 2) [] (equalsStr x) a = fun ks => if a.pyEq (.const 0 (.str (str x))) then found c a [] ks else .ok (none, ks) := by
        funext ks; rfl
      refine ⟨?_, fun h ks => ?_⟩
      · rintro ⟨value', i', j', e⟩ ks
        injection e with _ _ _ e
        injection e with e1 e
        subst e1
        rw [hrun, heq]
        have : (Val.const j' (.str (str x))).pyEq (.const 0 (.str (str x))) = true := by simp [Val.pyEq, Const.pyEq, Const.whole?]
        simp only [accumulate, accumLoop, this, if_pos, found]
        rfl
      · rw [hrun, heq]
        by_cases hq : a.pyEq (.const 0 (.str (str x))) = true
        · obtain ⟨j, rfl⟩ := pyEq_str (.inl hq)
          exact absurd ⟨value, _, _, rfl⟩ h
        · simp only [accumulate, accumLoop, hq]
          rfl
    · refine ⟨?_, fun _ ks => ?_⟩
      · rintro ⟨value, i, j, rfl⟩; exact absurd rfl hty
      · rw [hpat, run, if_pos hty]
  obtain ⟨k1, k2⟩ := yields_contains (c := c) (n := n + 3) (i := i) (vs := keywords) (m := keywordWith [("arg", equalsStr x)])
    (P := fun k => ∃ value, IsKeywordArg k (str x) value) (F := fun k => ⟨createMatch c k, [], []⟩)
    (fun w hw => (hone w hw).1) (fun w hw => (hone w hw).2)
  refine ⟨fun h ks => ?_, fun h ks => ?_⟩
  · rw [run, k2 (by rintro w hw ⟨value, hv⟩; exact h w hw value hv) ks]
    rfl
  · have : ∃ w ∈ keywords, ∃ value, IsKeywordArg w (str x) value := by
      refine Classical.byContradiction fun hc => h fun k hk value hv => hc ⟨k, hk, value, hv⟩
    obtain ⟨w, hw, hx⟩ := this
    obtain ⟨k, hf⟩ := firstOf_exists (P := fun k => ∃ value, IsKeywordArg k (str x) value) hw hx
    rw [run, k1 k hf ks]

/-- What the first logging fixer reports: the call, with its function and the name of the exception. -/
def loggingErrorFinding (c : Ctx) (v f : Val) (s : Str) : MatchInfo :=
  ⟨createMatch c v, (str "logging_error", ⟨createMatch c f, .merge, .keepLast⟩) :: exceptionName s, []⟩

/-- **C85**, `logging.error`: the fixer accepts exactly the calls of `logging.error`, without `exc_info=`, that have among their positional
arguments the name of the exception that is handled by the nearest handler around; and what it marks for replacement is the function that
is called (`logging.error`) and not the arguments. -/
theorem C85_logging_error (hg : PythonGrammar g) (hu : Unshared c.tree) (hpy : PythonNames c.tree) {p : Path} {v : Val} (hp : c.tree.at? p = some v)
    {b : Bool} (hv : Parsed g b v) (hn : 24 ≤ n) :
    (∀ f, LoggingError c.tree p v f → ∃ s, Yields c n [] (loggingErrorMatcher mangle) v (some (loggingErrorFinding c v f s)) ∧
      ∃ (f' : Val) (args keywords : List Val) (k : Nat) (a : Val), IsAnyCall v f' args keywords ∧ args[k]? = some a ∧ IsNameNode a s ∧
        InHandlerOf c.tree (p ++ [1, k]) s) ∧
    ((¬ ∃ f, LoggingError c.tree p v f) → Yields c n [] (loggingErrorMatcher mangle) v none) := by
  obtain ⟨n, rfl⟩ : ∃ m, n = m + 24 := ⟨n - 24, by omega⟩
  have hpat : loggingErrorMatcher mangle = .allOf [.node (str "Call") [str "func", str "args", str "keywords"]
    [.bind (str "logging_error") ((loggingAttr "error").pattern mangle []) none none,
     .contains (.allOf [inExceptionHandler, nameWith (bindIdentical "e")]), .unlessM (.contains (keywordWith [("arg", equalsStr "exc_info")]))]] := rfl
  by_cases hty : v.ty = str "Call"
  · obtain ⟨f, args, keywords, ⟨i, j, m, rfl⟩, hf, ha, hk⟩ := parsed_call hg hv hty
    have hrun : ∀ ks, run c (n + 24) [] (loggingErrorMatcher mangle) (.node i (str "Call") [str "func", str "args", str "keywords"] [f, .list j args, .list m keywords]) ks =
        accumulate c (.node i (str "Call") [str "func", str "args", str "keywords"] [f, .list j args, .list m keywords])
          [accumulate c (.node i (str "Call") [str "func", str "args", str "keywords"] [f, .list j args, .list m keywords])
            [run c (n + 22) [] (.bind (str "logging_error") ((loggingAttr "error").pattern mangle []) none none) f,
             run c (n + 22) [] (.contains (.allOf [inExceptionHandler, nameWith (bindIdentical "e")])) (.list j args),
             run c (n + 22) [] (.unlessM (.contains (keywordWith [("arg", equalsStr "exc_info")]))) (.list m keywords)]] ks := by
      intro ks
      rw [hpat, run]
      simp only [List.map_cons, List.map_nil]
      have : run c (n + 23) [] (.node (str "Call") [str "func", str "args", str "keywords"]
        [.bind (str "logging_error") ((loggingAttr "error").pattern mangle []) none none,
        .contains (.allOf [inExceptionHandler, nameWith (bindIdentical "e")]), .unlessM (.contains (keywordWith [("arg", equalsStr "exc_info")]))])
          (.node i (str "Call") [str "func", str "args", str "keywords"] [f, .list j args, .list m keywords]) =
          accumulate c (.node i (str "Call") [str "func", str "args", str "keywords"] [f, .list j args, .list m keywords])
            [run c (n + 22) [] (.bind (str "logging_error") ((loggingAttr "error").pattern mangle []) none none) f,
             run c (n + 22) [] (.contains (.allOf [inExceptionHandler, nameWith (bindIdentical "e")])) (.list j args),
             run c (n + 22) [] (.unlessM (.contains (keywordWith [("arg", equalsStr "exc_info")]))) (.list m keywords)] := by
        funext ks
        rw [run, if_neg (by intro h; exact h rfl)]
        rfl
      rw [this]
    have hsz : 2 * ((loggingAttr "error").val mangle).size + 5 ≤ n + 21 := by
      have : ((loggingAttr "error").val mangle).size = 6 := rfl
      omega
    obtain ⟨f1, f2⟩ := gives_code (c := c) (mangle := mangle) (n := n + 21) hg (p := loggingAttr "error") rfl (by intro op h; cases h) hf hsz
    have fb : ∀ ks o, run c (n + 21) [] ((loggingAttr "error").pattern mangle []) f ks = .ok (o, ks) → (o = none ∨ o = some ⟨createMatch c f, [], []⟩) →
        run c (n + 22) [] (.bind (str "logging_error") ((loggingAttr "error").pattern mangle []) none none) f ks =
          .ok (o.map fun _ => ⟨createMatch c f, [(str "logging_error", ⟨createMatch c f, .merge, .keepLast⟩)], []⟩, ks) := by
      intro ks o h ho
      rw [run]
      simp only [h]
      rcases ho with rfl | rfl
      · rfl
      · rfl
    have harg : ∀ k a, args[k]? = some a → c.tree.at? (p ++ [1, k]) = some a := by
      intro k a h
      rw [at?_append, hp]
      show (Option.some (Val.list j args)).bind (fun w => w.at? [k]) = some a
      simp only [Option.bind_some, Val.at?, Val.children, h]
    have hinner := hpy.args p _ f args keywords hp ⟨i, j, m, rfl⟩
    obtain ⟨k1, k2⟩ := yields_contains (c := c) (n := n + 21) (i := j) (vs := args) (m := .allOf [inExceptionHandler, nameWith (bindIdentical "e")])
      (P := fun a => ∃ (k : Nat) (s : Str), args[k]? = some a ∧ IsNameNode a s ∧ InHandlerOf c.tree (p ++ [1, k]) s)
      (F := fun a => ⟨createMatch c a, exceptionBinding c (a.getattr (str "id")), []⟩)
      (by
        rintro w hw ⟨k, s, hks, hns, hin⟩
        have := (yields_exception_arg (n := n + 21) hu hpy (harg k w hks) (hinner w hw) (by omega)).1 s hns hin
        obtain ⟨i', j', ctx, rfl⟩ := hns
        exact this)
      (by
        intro w hw h
        obtain ⟨k, hkw⟩ := List.mem_iff_getElem?.1 hw
        exact (yields_exception_arg (n := n + 21) hu hpy (harg k w hkw) (hinner w hw) (by omega)).2
          fun ⟨s, h1, h2⟩ => h ⟨k, s, hkw, h1, h2⟩)
    obtain ⟨e1, e2⟩ := yields_without (c := c) (n := n + 22) hg (i := m) hk "exc_info" (by omega)
    have hr : mergeReplacements [] [] = .ok [] := rfl
    refine ⟨?_, fun h ks => ?_⟩
    · rintro f' ⟨args', keywords', ⟨i', j', m', e⟩, hrd, ⟨k, a, s, hka, hns, hin⟩, hkw⟩
      injection e with _ _ _ e
      injection e with e1' e
      injection e with e2' e
      injection e with e3' _
      injection e2' with _ e2'
      injection e3' with _ e3'
      subst e1' e2' e3'
      obtain ⟨a', hfirst⟩ := firstOf_exists (P := fun a => ∃ (k : Nat) (s : Str), args[k]? = some a ∧ IsNameNode a s ∧ InHandlerOf c.tree (p ++ [1, k]) s)
        (List.mem_of_getElem? hka) ⟨k, s, hka, hns, hin⟩
      obtain ⟨_, k', s', hka', hns', hin'⟩ := firstOf_mem hfirst
      refine ⟨s', fun ks => ?_, f, args, keywords, k', a', ⟨_, _, _, rfl⟩, hka', hns', hin'⟩
      have hb : exceptionBinding c (a'.getattr (str "id")) = exceptionName s' := by
        obtain ⟨_, _, _, rfl⟩ := hns'
        rfl
      rw [hrun]
      have hm1 : ∀ b : BoundValue, mergeBindings [] [(str "logging_error", b)] = .ok (some [(str "logging_error", b)]) := fun _ => rfl
      have hm2 : ∀ b : BoundValue, mergeBindings [(str "logging_error", b)] (exceptionName s') = .ok (some ((str "logging_error", b) :: exceptionName s')) := fun _ => rfl
      have hm3 : ∀ b : BoundValue, mergeBindings ((str "logging_error", b) :: exceptionName s') [] = .ok (some ((str "logging_error", b) :: exceptionName s')) := fun _ => rfl
      have hm4 : ∀ b : BoundValue, mergeBindings [] ((str "logging_error", b) :: exceptionName s') = .ok (some ((str "logging_error", b) :: exceptionName s')) := fun _ => rfl
      simp only [accumulate, accumLoop, fb _ _ (f1 hrd _) (.inr rfl), k1 a' hfirst _, e1 hkw _, hb, hr, Option.map_some, hm1, hm2, hm3, hm4]
      rfl
    · rw [hrun]
      by_cases hrd : (loggingAttr "error").Reads f []
      · by_cases hx : ∃ w ∈ args, ∃ (k : Nat) (s : Str), args[k]? = some w ∧ IsNameNode w s ∧ InHandlerOf c.tree (p ++ [1, k]) s
        · obtain ⟨w, hw, k, s, h1, h2, h3⟩ := hx
          obtain ⟨a', hfirst⟩ := firstOf_exists (P := fun a => ∃ (k : Nat) (s : Str), args[k]? = some a ∧ IsNameNode a s ∧ InHandlerOf c.tree (p ++ [1, k]) s)
            hw ⟨k, s, h1, h2, h3⟩
          obtain ⟨_, k', s', hka', hns', hin'⟩ := firstOf_mem hfirst
          have hb : exceptionBinding c (a'.getattr (str "id")) = exceptionName s' := by
            obtain ⟨_, _, _, rfl⟩ := hns'
            rfl
          have hkw : ¬ ∀ k ∈ keywords, ∀ value, ¬ IsKeywordArg k (str "exc_info") value := fun hkw =>
            h ⟨f, args, keywords, ⟨_, _, _, rfl⟩, hrd, ⟨k, w, s, h1, h2, h3⟩, hkw⟩
          have hm1 : ∀ b : BoundValue, mergeBindings [] [(str "logging_error", b)] = .ok (some [(str "logging_error", b)]) := fun _ => rfl
          have hm2 : ∀ b : BoundValue, mergeBindings [(str "logging_error", b)] (exceptionName s') = .ok (some ((str "logging_error", b) :: exceptionName s')) := fun _ => rfl
          simp only [accumulate, accumLoop, fb _ _ (f1 hrd _) (.inr rfl), k1 a' hfirst _, e2 hkw _, hb, hr, Option.map_some, hm1, hm2]
        · have hm1 : ∀ b : BoundValue, mergeBindings [] [(str "logging_error", b)] = .ok (some [(str "logging_error", b)]) := fun _ => rfl
          simp only [accumulate, accumLoop, fb _ _ (f1 hrd _) (.inr rfl), k2 (fun w hw hc => hx ⟨w, hw, hc⟩) _, hr, Option.map_some, hm1]
      · simp only [accumulate, accumLoop, fb _ _ (f2 hrd _) (.inl rfl), Option.map_none]
  · refine ⟨fun f h => ?_, fun _ ks => ?_⟩
    · obtain ⟨_, _, ⟨_, _, _, rfl⟩, _⟩ := h
      exact absurd rfl hty
    · rw [hpat, run]
      have : run c (n + 23) [] (.node (str "Call") [str "func", str "args", str "keywords"]
        [.bind (str "logging_error") ((loggingAttr "error").pattern mangle []) none none,
        .contains (.allOf [inExceptionHandler, nameWith (bindIdentical "e")]), .unlessM (.contains (keywordWith [("arg", equalsStr "exc_info")]))]) v ks = .ok (none, ks) := by
        rw [run, if_pos hty]
      simp only [List.map_cons, List.map_nil, accumulate, accumLoop, this]

end

/-- **C85**: what is put in the place of the function. -/
theorem C85_logging_error_fixer (mangle : Label → Str) :
    loggingErrorFixer mangle 3 ∈ idiomFixers mangle ∧ (loggingErrorFixer mangle 3).matcher = loggingErrorMatcher mangle ∧
    (loggingErrorFixer mangle 3).replacement = .mapping 3 ∧ builtinHeap 3 = [(str "logging_error", templateCode .stmt (str "logging.exception"))] :=
  ⟨by simp [idiomFixers], rfl, rfl, rfl⟩


section
variable {mangle : Label → Str} {c : Ctx} {g : Grammar} {n : Nat}

theorem yields_itemsAre_one {m : Matcher} {i : Nat} {vs : List Val} (o : Val → Option MatchInfo)
    (h : ∀ a ∈ vs, Yields c n [] m a (o a)) (hbare : ∀ a mi, o a = some mi → mergeBindings [] mi.bindings = .ok (some mi.bindings))
    (hn : 2 ≤ n) :
    (∀ a, vs = [a] → Yields c (n + 2) [] (.itemsAre [m]) (.list i vs) ((o a).map fun mi => ⟨createMatch c (.list i vs), mi.bindings, []⟩)) ∧
    ((¬ ∃ a, vs = [a]) → Yields c (n + 2) [] (.itemsAre [m]) (.list i vs) none) := by
  obtain ⟨n, rfl⟩ : ∃ m, n = m + 2 := ⟨n - 2, by omega⟩
  refine ⟨?_, fun hno ks => ?_⟩
  · rintro a rfl ks
    have h2 : ∀ ks, run c (n + 3) [] (.hasItem 0 m) (.list i [a]) ks = .ok ((o a).map fun mi => ⟨createMatch c (.list i [a]), mi.bindings, []⟩, ks) := by
      intro ks
      have hg : getItem (.list i [a]) 0 = some a := rfl
      rw [run, hg]
      simp only [h a (List.mem_cons_self ..) ks, rewrap]
      cases o a <;> rfl
    have h1 : ∀ ks, run c (n + 3) [] (.unlessM (.hasItem 1 .anything)) (.list i [a]) ks = found c (.list i [a]) [] ks := by
      intro ks
      rfl
    rw [run]
    simp only [enumFrom, List.map_cons, List.map_nil, List.length_cons, List.length_nil, Nat.zero_add, accumulate, accumLoop]
    have e1 : ((1 : Nat) : Int) = 1 := rfl
    have e0 : ((0 : Nat) : Int) = 0 := rfl
    rw [e1, h1, e0]
    have hm : mergeBindings [] [] = .ok (some []) := rfl
    have hr : mergeReplacements [] [] = .ok [] := rfl
    simp only [found, hm, hr, h2]
    cases ha : o a with
    | none => rfl
    | some mi => simp only [Option.map_some, hbare a mi ha, hr]
  · rw [run]
    simp only [enumFrom, List.map_cons, List.map_nil, List.length_cons, List.length_nil, Nat.zero_add, accumulate, accumLoop]
    have e1 : ((1 : Nat) : Int) = 1 := rfl
    have e0 : ((0 : Nat) : Int) = 0 := rfl
    rw [e1, e0]
    have hm : mergeBindings [] [] = .ok (some []) := rfl
    have hr : mergeReplacements [] [] = .ok [] := rfl
    match vs, hno with
    | [], _ => rfl
    | [a], hno => exact absurd ⟨a, rfl⟩ hno
    | a :: b :: vs, _ =>
      have : run c (n + 3) [] (.unlessM (.hasItem 1 .anything)) (.list i (a :: b :: vs)) ks = .ok (none, ks) := by
        have hg : getItem (.list i (a :: b :: vs)) 1 = some b := by simp [getItem, seqItems]
        rw [run, run, hg]
        rfl
      rw [this]

theorem yields_itemsAre_none {i : Nat} {vs : List Val} :
    (vs = [] → Yields c (n + 4) [] (.itemsAre []) (.list i vs) (some ⟨createMatch c (.list i vs), [], []⟩)) ∧
    (vs ≠ [] → Yields c (n + 4) [] (.itemsAre []) (.list i vs) none) := by
  refine ⟨?_, fun h ks => ?_⟩
  · rintro rfl ks; rfl
  · cases vs with
    | nil => exact absurd rfl h
    | cons a vs =>
      have : run c (n + 3) [] (.unlessM (.hasItem 0 .anything)) (.list i (a :: vs)) ks = .ok (none, ks) := by
        have hg : getItem (.list i (a :: vs)) 0 = some a := by simp [getItem, seqItems]
        rw [run, run, hg]
        rfl
      have e0 : ((0 : Nat) : Int) = 0 := rfl
      rw [run]
      simp only [enumFrom, List.map_nil, List.length_nil, accumulate, accumLoop, e0, this]

/-- The pattern without the metavariable. -/
theorem logging_pattern_shape (hne : mangle (str "arg") ≠ str "logging") (m : Matcher) :
    (Code.expr (.call (loggingAttr "exception") [.var (str "arg")] [])).pattern mangle [(str "arg", m)] =
      .delegate (.rebind (.node (str "Expr") [str "value"] [.node (str "Call") [str "func", str "args", str "keywords"]
        [astPattern [] ((loggingAttr "exception").val mangle), .itemsAre [metaBind (str "arg") m], .itemsAre []]]) (some .merge) (some .keepLast)) true := by
  have hsub : submatchers [] ((dedup (Code.expr (.call (loggingAttr "exception") [.var (str "arg")] [])).vars).map fun x => (x, mangle x)) [(str "arg", m)] =
      [(mangle (str "arg"), metaBind (str "arg") m)] := rfl
  unfold Code.pattern patternMatcher
  rw [hsub]
  have hne' : ¬ str "logging" = mangle (str "arg") := fun e => hne e.symm
  have hlog : astPattern [(mangle (str "arg"), metaBind (str "arg") m)] (nameNode (str "logging")) = astPattern [] (nameNode (str "logging")) := by
    unfold nameNode codeNode
    have hid : nameId (.node 0 (str "Name") [str "id", str "ctx"] [.const 0 (.str (str "logging")), loadNode]) = some (str "logging") := rfl
    have hget : Dict.get? [(mangle (str "arg"), metaBind (str "arg") m)] (str "logging") = none := by simp [Dict.get?, hne]
    simp only [List.map_cons, List.map_nil]
    rw [astPattern, astPattern, hid]
    simp only [Option.bind_some, hget]
    rfl
  have harg : astPattern [(mangle (str "arg"), metaBind (str "arg") m)] (nameNode (mangle (str "arg"))) = metaBind (str "arg") m := by
    unfold nameNode codeNode
    have hid : nameId (.node 0 (str "Name") [str "id", str "ctx"] [.const 0 (.str (mangle (str "arg"))), loadNode]) = some (mangle (str "arg")) := rfl
    have hget : Dict.get? [(mangle (str "arg"), metaBind (str "arg") m)] (mangle (str "arg")) = some (metaBind (str "arg") m) := by simp [Dict.get?]
    simp only [List.map_cons, List.map_nil]
    rw [astPattern, hid]
    simp only [Option.bind_some, hget]
  have hattr : astPattern [(mangle (str "arg"), metaBind (str "arg") m)] ((loggingAttr "exception").val mangle) =
      astPattern [] ((loggingAttr "exception").val mangle) := by
    show astPattern _ (codeNode (str "Attribute") [(str "value", nameNode (str "logging")), (str "attr", .const 0 (.str (str "exception"))), (str "ctx", loadNode)]) =
      astPattern _ (codeNode (str "Attribute") [(str "value", nameNode (str "logging")), (str "attr", .const 0 (.str (str "exception"))), (str "ctx", loadNode)])
    rw [astPattern_other (by decide), astPattern_other (by decide)]
    simp only [List.map_cons, List.map_nil, fieldPatterns, hlog]
    rfl
  show Matcher.delegate (.rebind (astPattern _ (codeNode (str "Expr") [(str "value", codeNode (str "Call") [(str "func", (loggingAttr "exception").val mangle),
    (str "args", .list 0 [nameNode (mangle (str "arg"))]), (str "keywords", .list 0 [])])])) (some .merge) (some .keepLast)) true = _
  rw [astPattern_other (by decide)]
  simp only [List.map_cons, List.map_nil, fieldPatterns, Bool.false_eq_true, and_false, if_false]
  rw [astPattern_other (by decide)]
  simp only [List.map_cons, List.map_nil, fieldPatterns, Bool.false_eq_true, and_false, if_false, hattr, astPattern, astPatterns, harg]

/-- The code without metavariables, inside of a pattern. -/
theorem delegate_inner {m : Matcher} {v : Val} {o : Option MatchInfo} (ho : o = none ∨ o = some ⟨createMatch c v, [], []⟩)
    (h : Yields c (n + 2) [] (.delegate (.rebind m (some .merge) (some .keepLast)) true) v o) : Yields c n [] m v o := by
  intro ks
  have h := h ks
  rw [run, run] at h
  cases hr : run c n [] m v ks with
  | error e => rw [hr] at h; cases h
  | ok r =>
    obtain ⟨r, ks'⟩ := r
    rw [hr] at h
    cases r with
    | none =>
      cases h; rfl
    | some mi =>
      simp only [Except.ok.injEq, Prod.mk.injEq] at h
      obtain ⟨h1, rfl⟩ := h
      rcases ho with rfl | rfl
      · cases h1
      · cases mi
        rename_i ob bs rs
        simp only [Option.some.injEq, MatchInfo.mk.injEq, List.map_eq_nil_iff] at h1
        obtain ⟨rfl, rfl, rfl⟩ := h1
        rfl

/-- What the first part of the matcher binds. -/
def loggingBindings (c : Ctx) (v a : Val) (s : Str) : Bindings :=
  [(str "e", ⟨.string s, .mergeIdentical, .keepLast⟩), (str "arg", ⟨createMatch c a, .mergeIdentical, .keepLast⟩),
   (str "logging_exception", ⟨createMatch c v, .merge, .keepLast⟩)]

/-- `logging.exception(e)`, as a statement -/
def IsLoggingCall (v a : Val) (s : Str) : Prop :=
  (Code.expr (.call (.attr (.name (str "logging")) (str "exception")) [.var (str "arg")] [])).Reads v [(str "arg", a)] ∧ IsNameNode a s

/-- What the argument binds. -/
def exceptionArgBindings (c : Ctx) (a : Val) : Bindings :=
  [(str "e", ⟨createMatch c (a.getattr (str "id")), .merge, .keepLast⟩), (str "arg", ⟨createMatch c a, .mergeEquivalentAst, .keepLast⟩)]

theorem yields_arg (a : Val) : Yields c (n + 4) [] (metaBind (str "arg") (nameWith (.bind (str "e") .anything none none))) a
    (if a.ty = str "Name" then some ⟨createMatch c a, exceptionArgBindings c a, []⟩ else none) := by
  intro ks
  have hw : nameWith (.bind (str "e") .anything none none) = .node (str "Name") [str "id", str "ctx"] [.bind (str "e") .anything none none, .anything] := rfl
  rw [metaBind, run, hw, run]
  by_cases h : a.ty = str "Name"
  · rw [if_neg (by simp [h]), if_pos h]; rfl
  · rw [if_pos h, if_neg h]

theorem loggingCall_iff {v a : Val} {s : Str} : IsLoggingCall v a s ↔ ∃ i w f k, v = .node i (str "Expr") [str "value"] [w] ∧ IsAnyCall w f [a] k ∧ k = [] ∧
    (loggingAttr "exception").Reads f [] ∧ IsNameNode a s := by
  constructor
  · rintro ⟨h, hs⟩
    generalize hocc : [(str "arg", a)] = occ at h
    cases h with
    | expr h =>
      cases h with
      | call hf has hks =>
        have := reads_vars _ hf
        simp only [Code.vars, List.map_eq_nil_iff] at this
        subst this
        cases has with
        | cons ha hr =>
          cases hr
          cases hks
          cases ha
          simp only [List.nil_append, List.append_nil, List.cons.injEq, Prod.mk.injEq, and_true, true_and] at hocc
          subst hocc
          exact ⟨_, _, _, _, rfl, ⟨_, _, _, rfl⟩, rfl, hf, hs⟩
  · rintro ⟨i, w, f, k, rfl, ⟨i', j, m, rfl⟩, rfl, hf, hs⟩
    refine ⟨?_, hs⟩
    have h1 : CodesRead [.var (str "arg")] [a] [(str "arg", a)] := .cons .var .nil
    exact .expr (.call hf h1 .nil)

theorem yields_logging_call (hg : PythonGrammar g) (hne : mangle (str "arg") ≠ str "logging") {b : Bool} {v : Val} (hv : Parsed g b v)
    (hnames : ∀ i w f args keywords, v = .node i (str "Expr") [str "value"] [w] → IsAnyCall w f args keywords → ∀ a ∈ args, a.ty = str "Name" → ∃ s, IsNameNode a s) (hn : 40 ≤ n) :
    (∀ a s, IsLoggingCall v a s → Yields c n [] (.bind (str "logging_exception")
      (.rebind ((Code.expr (.call (loggingAttr "exception") [.var (str "arg")] [])).pattern mangle
        [(str "arg", nameWith (.bind (str "e") .anything none none))]) (some .mergeIdentical) none) none none) v
        (some ⟨createMatch c v, loggingBindings c v a s, []⟩)) ∧
    ((¬ ∃ a s, IsLoggingCall v a s) → Yields c n [] (.bind (str "logging_exception")
      (.rebind ((Code.expr (.call (loggingAttr "exception") [.var (str "arg")] [])).pattern mangle
        [(str "arg", nameWith (.bind (str "e") .anything none none))]) (some .mergeIdentical) none) none none) v none) := by
  obtain ⟨n, rfl⟩ : ∃ m, n = m + 40 := ⟨n - 40, by omega⟩
  rw [logging_pattern_shape hne]
  -- what is around the call
  have houter : ∀ ks o, run c (n + 36) [] (.node (str "Expr") [str "value"] [.node (str "Call") [str "func", str "args", str "keywords"]
        [astPattern [] ((loggingAttr "exception").val mangle), .itemsAre [metaBind (str "arg") (nameWith (.bind (str "e") .anything none none))], .itemsAre []]]) v ks = .ok (o, ks) →
      (o = none ∨ ∃ a s, o = some ⟨createMatch c v, [(str "e", ⟨.string s, .merge, .keepLast⟩), (str "arg", ⟨createMatch c a, .mergeEquivalentAst, .keepLast⟩)], []⟩) →
      run c (n + 40) [] (.bind (str "logging_exception")
      (.rebind (.delegate (.rebind (.node (str "Expr") [str "value"] [.node (str "Call") [str "func", str "args", str "keywords"]
        [astPattern [] ((loggingAttr "exception").val mangle), .itemsAre [metaBind (str "arg") (nameWith (.bind (str "e") .anything none none))], .itemsAre []]]) (some .merge) (some .keepLast)) true) (some .mergeIdentical) none) none none) v ks =
        .ok (o.map fun mi => ⟨createMatch c v, (mi.bindings.map fun e => (e.1, { e.2 with onConflict := .mergeIdentical })) ++
          [(str "logging_exception", ⟨createMatch c v, .merge, .keepLast⟩)], []⟩, ks) := by
    intro ks o h ho
    rw [run, run, run, run, h]
    rcases ho with rfl | ⟨a, s, rfl⟩
    · rfl
    · rfl
  -- the statement
  by_cases hty : v.ty = str "Expr"
  · obtain ⟨i, vs, rfl, hl, hp⟩ := parsed_fields hg hv hty (fs := [(str "value", false)]) (by decide)
    match vs, hl, hp with
    | [w], _, hp =>
    simp only [List.map_cons, List.map_nil] at hv hnames houter ⊢
    have hw := hp 0 _ w rfl rfl
    have hrun : ∀ ks, run c (n + 36) [] (.node (str "Expr") [str "value"] [.node (str "Call") [str "func", str "args", str "keywords"]
        [astPattern [] ((loggingAttr "exception").val mangle), .itemsAre [metaBind (str "arg") (nameWith (.bind (str "e") .anything none none))], .itemsAre []]]) (.node i (str "Expr") [str "value"] [w]) ks =
        accumulate c (.node i (str "Expr") [str "value"] [w]) [run c (n + 35) [] (.node (str "Call") [str "func", str "args", str "keywords"]
        [astPattern [] ((loggingAttr "exception").val mangle), .itemsAre [metaBind (str "arg") (nameWith (.bind (str "e") .anything none none))], .itemsAre []]) w] ks := by
      intro ks
      rw [run, if_neg (by intro h; exact h rfl)]
      rfl
    by_cases hwt : w.ty = str "Call"
    · obtain ⟨f, args, keywords, ⟨i', j, m, rfl⟩, hf, ha, hk⟩ := parsed_call hg hw hwt
      have hrun2 : ∀ ks, run c (n + 35) [] (.node (str "Call") [str "func", str "args", str "keywords"]
          [astPattern [] ((loggingAttr "exception").val mangle), .itemsAre [metaBind (str "arg") (nameWith (.bind (str "e") .anything none none))], .itemsAre []])
            (.node i' (str "Call") [str "func", str "args", str "keywords"] [f, .list j args, .list m keywords]) ks =
          accumulate c (.node i' (str "Call") [str "func", str "args", str "keywords"] [f, .list j args, .list m keywords])
          [run c (n + 34) [] (astPattern [] ((loggingAttr "exception").val mangle)) f,
           run c (n + 34) [] (.itemsAre [metaBind (str "arg") (nameWith (.bind (str "e") .anything none none))]) (.list j args),
           run c (n + 34) [] (.itemsAre []) (.list m keywords)] ks := by
        intro ks
        rw [run, if_neg (by intro h; exact h rfl)]
        rfl
      have hsz : 2 * ((loggingAttr "exception").val mangle).size + 5 ≤ n + 36 := by
        have : ((loggingAttr "exception").val mangle).size = 6 := rfl
        omega
      obtain ⟨f1, f2⟩ := gives_code (c := c) (mangle := mangle) (n := n + 36) hg (p := loggingAttr "exception") rfl (by intro op h; cases h) hf hsz
      have g1 : (loggingAttr "exception").Reads f [] →
          Yields c (n + 34) [] (astPattern [] ((loggingAttr "exception").val mangle)) f (some ⟨createMatch c f, [], []⟩) := fun h => delegate_inner (.inr rfl) (f1 h)
      have g2 : ¬ (loggingAttr "exception").Reads f [] →
          Yields c (n + 34) [] (astPattern [] ((loggingAttr "exception").val mangle)) f none := fun h => delegate_inner (.inl rfl) (f2 h)
      obtain ⟨a1, a2⟩ := yields_itemsAre_one (c := c) (n := n + 32) (i := j) (vs := args) _ (fun a _ => yields_arg (c := c) (n := n + 28) a)
        (by
          intro a mi h
          split at h
          · cases h; rfl
          · cases h) (by omega)
      obtain ⟨k1, k2⟩ := yields_itemsAre_none (c := c) (n := n + 30) (i := m) (vs := keywords)
      have hm0 : mergeBindings [] [] = .ok (some []) := rfl
      have hr : mergeReplacements [] [] = .ok [] := rfl
      have hm1 : ∀ a, mergeBindings [] (exceptionArgBindings c a) = .ok (some (exceptionArgBindings c a)) := fun _ => rfl
      have hm2 : ∀ a, mergeBindings (exceptionArgBindings c a) [] = .ok (some (exceptionArgBindings c a)) := fun _ => rfl
      refine ⟨?_, fun h ks => ?_⟩
      · intro a s h ks
        obtain ⟨i2, w2, f2', k2', e, ⟨i3, j3, m3, rfl⟩, rfl, hfr, hs⟩ := loggingCall_iff.1 h
        injection e with _ _ _ e
        injection e with e _
        injection e with _ _ _ e
        injection e with e1' e
        injection e with e2' e
        injection e with e3' _
        injection e2' with _ e2'
        injection e3' with _ e3'
        subst e1' e2' e3'
        have hty : a.ty = str "Name" := by obtain ⟨_, _, _, rfl⟩ := hs; rfl
        have key := a1 a rfl
        rw [if_pos hty] at key
        rw [houter ks _ (o := some ⟨createMatch c (.node i (str "Expr") [str "value"] [.node i' (str "Call") [str "func", str "args", str "keywords"] [f, .list j [a], .list m []]]), exceptionArgBindings c a, []⟩)]
        · obtain ⟨_, _, _, rfl⟩ := hs
          rfl
        · obtain ⟨i5, j5, c5, rfl⟩ := hs
          exact .inr ⟨.node i5 (str "Name") [str "id", str "ctx"] [.const j5 (.str s), c5], s, rfl⟩
        · rw [hrun]
          simp only [accumulate, accumLoop, hrun2, g1 hfr _, key _, k1 rfl _, hm0, hr, Option.map_some, hm1, hm2]
      · rw [houter ks none _ (.inl rfl)]
        · rfl
        · rw [hrun]
          by_cases hfr : (loggingAttr "exception").Reads f []
          · by_cases hone : ∃ a, args = [a]
            · obtain ⟨a, rfl⟩ := hone
              by_cases hat : a.ty = str "Name"
              · obtain ⟨s, hs⟩ := hnames _ _ f [a] keywords rfl ⟨i', j, m, rfl⟩ a (List.mem_cons_self ..) hat
                have hkw : keywords ≠ [] := by
                  rintro rfl
                  exact h ⟨a, s, loggingCall_iff.2 ⟨_, _, _, _, rfl, ⟨_, _, _, rfl⟩, rfl, hfr, hs⟩⟩
                have key := a1 a rfl
                rw [if_pos hat] at key
                simp only [accumulate, accumLoop, hrun2, g1 hfr _, key _, k2 hkw _, hm0, hr, Option.map_some, hm1]
              · have key := a1 a rfl
                rw [if_neg hat] at key
                simp only [accumulate, accumLoop, hrun2, g1 hfr _, key _, hm0, hr, Option.map_none]
            · simp only [accumulate, accumLoop, hrun2, g1 hfr _, a2 hone _, hm0, hr]
          · simp only [accumulate, accumLoop, hrun2, g2 hfr _]
    · refine ⟨fun a s h => ?_, fun _ ks => ?_⟩
      · obtain ⟨_, _, _, _, e, ⟨_, _, _, rfl⟩, _⟩ := loggingCall_iff.1 h
        injection e with _ _ _ e
        injection e with e _
        subst e
        exact absurd rfl hwt
      · rw [houter ks none _ (.inl rfl)]
        · rfl
        · rw [hrun]
          have : run c (n + 35) [] (.node (str "Call") [str "func", str "args", str "keywords"]
            [astPattern [] ((loggingAttr "exception").val mangle), .itemsAre [metaBind (str "arg") (nameWith (.bind (str "e") .anything none none))], .itemsAre []]) w ks =
            .ok (none, ks) := by rw [run, if_pos hwt]
          simp only [accumulate, accumLoop, this]
  · refine ⟨fun a s h => ?_, fun _ ks => ?_⟩
    · obtain ⟨_, _, _, _, rfl, _⟩ := loggingCall_iff.1 h
      exact absurd rfl hty
    · rw [houter ks none _ (.inl rfl)]
      · rfl
      · rw [run, if_pos hty]

/-- What the function of the tried call is bound to. -/
def funcBindings (c : Ctx) (f : Val) : Bindings := [(str "func", ⟨createMatch c f, .merge, .keepLast⟩)]

theorem yields_callBound (v : Val) : Yields c (n + 3) [] callBound v
    (if v.ty = str "Call" then some ⟨createMatch c v, funcBindings c (v.getattr (str "func")), []⟩ else none) := by
  intro ks
  have hp : callBound = .node (str "Call") [str "func", str "args", str "keywords"] [.bind (str "func") .anything none none, .anything, .anything] := rfl
  rw [hp, run]
  by_cases h : v.ty = str "Call"
  · rw [if_neg (by simp [h]), if_pos h]; rfl
  · rw [if_pos h, if_neg h]

theorem yields_notQuoted (v : Val) :
    (TextMatches c v quoteRegex → Yields c (n + 3) [] (.unlessM (.matchesRegex quoteRegex .anything)) v none) ∧
    (¬ TextMatches c v quoteRegex → Yields c (n + 3) [] (.unlessM (.matchesRegex quoteRegex .anything)) v (some ⟨createMatch c v, [], []⟩)) := by
  have ha : ∀ ks, run c (n + 1) [] .anything v ks = .ok (some ⟨createMatch c v, [], []⟩, ks) := fun _ => rfl
  refine ⟨?_, fun h ks => ?_⟩
  · rintro ⟨a, b, m, hs, hm⟩ ks
    obtain ⟨bs, hb, _⟩ := mergeBindings_nil_right (regexBindings c quoteRegex m)
    rw [run, run, ha]
    simp only [hs, hm, hb]
  · rw [run, run, ha]
    simp only
    cases hs : (createMatch c v).span? with
    | none => rfl
    | some ab =>
      obtain ⟨a, b⟩ := ab
      cases hm : c.rxMatch quoteRegex a b with
      | none => simp only [hm]; rfl
      | some m => exact absurd ⟨a, b, m, hs, hm⟩ h

/-- A node matcher with a condition on the value only. -/
def valueCall (ty : String) : Matcher :=
  if ty = "Assign" then nodeWith ty ["targets", "value", "type_comment"] [("value", callBound)] else nodeWith ty ["value"] [("value", callBound)]

theorem yields_valueCall {ty : String} (hty : ty = "Return" ∨ ty = "Expr" ∨ ty = "Assign") {v : Val} (hv : v.ty = str ty) :
    Yields c (n + 4) [] (valueCall ty) v
      (if (v.getattr (str "value")).ty = str "Call" then
        some ⟨createMatch c v, funcBindings c ((v.getattr (str "value")).getattr (str "func")), []⟩ else none) := by
  intro ks
  have key := yields_callBound (c := c) (n := n) (v.getattr (str "value"))
  have hm0 : mergeBindings [] [] = .ok (some []) := rfl
  have hr : mergeReplacements [] [] = .ok [] := rfl
  have hm1 : ∀ f, mergeBindings [] (funcBindings c f) = .ok (some (funcBindings c f)) := fun _ => rfl
  have hm2 : ∀ f, mergeBindings (funcBindings c f) [] = .ok (some (funcBindings c f)) := fun _ => rfl
  have ha : ∀ w ks, run c (n + 3) [] .anything w ks = .ok (some ⟨createMatch c w, [], []⟩, ks) := fun _ _ => rfl
  rcases hty with rfl | rfl | rfl
  · have hp : valueCall "Return" = .node (str "Return") [str "value"] [callBound] := rfl
    rw [hp, run, if_neg (by simp [hv])]
    simp only [List.zip_cons_cons, List.zip_nil_right, List.map_cons, List.map_nil, accumulate, accumLoop, key _]
    by_cases hcall : (v.getattr (str "value")).ty = str "Call"
    · simp only [if_pos hcall, hm1, hr]
    · simp only [if_neg hcall]
  · have hp : valueCall "Expr" = .node (str "Expr") [str "value"] [callBound] := rfl
    rw [hp, run, if_neg (by simp [hv])]
    simp only [List.zip_cons_cons, List.zip_nil_right, List.map_cons, List.map_nil, accumulate, accumLoop, key _]
    by_cases hcall : (v.getattr (str "value")).ty = str "Call"
    · simp only [if_pos hcall, hm1, hr]
    · simp only [if_neg hcall]
  · have hp : valueCall "Assign" = .node (str "Assign") [str "targets", str "value", str "type_comment"] [.anything, callBound, .anything] := rfl
    rw [hp, run, if_neg (by simp [hv])]
    simp only [List.zip_cons_cons, List.zip_nil_right, List.map_cons, List.map_nil, accumulate, accumLoop, key _, ha, hm0, hr]
    by_cases hcall : (v.getattr (str "value")).ty = str "Call"
    · simp only [if_pos hcall, hm1, hr, hm2]
    · simp only [if_neg hcall]

theorem yields_tried (v : Val) :
    (∀ f, CallStatement v f → ¬ TextMatches c v quoteRegex → Yields c (n + 8) [] triedStatement v (some ⟨createMatch c v, funcBindings c f, []⟩)) ∧
    ((¬ ∃ f, CallStatement v f ∧ ¬ TextMatches c v quoteRegex) → Yields c (n + 8) [] triedStatement v none) := by
  have hshape : triedStatement = .allOf [.anyOf [valueCall "Return", valueCall "Expr", valueCall "Assign"], .unlessM (.matchesRegex quoteRegex .anything)] := rfl
  have hf : [valueCall "Return", valueCall "Expr", valueCall "Assign"].mapM (typeFilter (n + 6) []) = .ok [some [str "Return"], some [str "Expr"], some [str "Assign"]] := rfl
  have hd : dispatch ([valueCall "Return", valueCall "Expr", valueCall "Assign"].zip [some [str "Return"], some [str "Expr"], some [str "Assign"]]) v.ty =
      if v.ty = str "Return" then [valueCall "Return"] else if v.ty = str "Expr" then [valueCall "Expr"] else
      if v.ty = str "Assign" then [valueCall "Assign"] else [] := by
    have ht : typedMatchers ([valueCall "Return", valueCall "Expr", valueCall "Assign"].zip [some [str "Return"], some [str "Expr"], some [str "Assign"]]) =
      [(str "Return", [valueCall "Return"]), (str "Expr", [valueCall "Expr"]), (str "Assign", [valueCall "Assign"])] := rfl
    unfold dispatch
    rw [ht]
    simp only [Dict.get?]
    by_cases h1 : v.ty = str "Return"
    · rw [if_pos h1.symm, if_pos h1]; rfl
    · rw [if_neg (fun e => h1 e.symm), if_neg h1]
      by_cases h2 : v.ty = str "Expr"
      · rw [if_pos h2.symm, if_pos h2]; rfl
      · rw [if_neg (fun e => h2 e.symm), if_neg h2]
        by_cases h3 : v.ty = str "Assign"
        · rw [if_pos h3.symm, if_pos h3]; rfl
        · rw [if_neg (fun e => h3 e.symm), if_neg h3]; rfl
  have hany : Yields c (n + 7) [] (.anyOf [valueCall "Return", valueCall "Expr", valueCall "Assign"]) v
      (if (v.ty = str "Return" ∨ v.ty = str "Expr" ∨ v.ty = str "Assign") ∧ (v.getattr (str "value")).ty = str "Call" then
        some ⟨createMatch c v, funcBindings c ((v.getattr (str "value")).getattr (str "func")), []⟩ else none) := by
    intro ks
    rw [run]
    simp only [hf, hd]
    have one : ∀ ty : String, (ty = "Return" ∨ ty = "Expr" ∨ ty = "Assign") → v.ty = str ty →
        firstMatch (List.map (fun m => run c (n + 6) [] m v) [valueCall ty]) ks = .ok (if (v.getattr (str "value")).ty = str "Call" then
          some ⟨createMatch c v, funcBindings c ((v.getattr (str "value")).getattr (str "func")), []⟩ else none, ks) := by
      intro ty h1 h2
      simp only [List.map_cons, List.map_nil, firstMatch, yields_valueCall (c := c) (n := n + 2) h1 h2 _]
      by_cases hcall : (v.getattr (str "value")).ty = str "Call"
      · simp only [if_pos hcall]
      · simp only [if_neg hcall]
    by_cases h1 : v.ty = str "Return"
    · rw [if_pos h1, one "Return" (.inl rfl) h1]; simp only [h1, true_or, true_and]
    · rw [if_neg h1]
      by_cases h2 : v.ty = str "Expr"
      · rw [if_pos h2, one "Expr" (.inr (.inl rfl)) h2]; simp only [h2, true_or, or_true, true_and]
      · rw [if_neg h2]
        by_cases h3 : v.ty = str "Assign"
        · rw [if_pos h3, one "Assign" (.inr (.inr rfl)) h3]; simp only [h3, or_true, true_and]
        · rw [if_neg h3, if_neg (by rintro ⟨h | h | h, _⟩ <;> contradiction)]
          rfl
  obtain ⟨q1, q2⟩ := yields_notQuoted (c := c) (n := n + 4) v
  have hm1 : ∀ f, mergeBindings [] (funcBindings c f) = .ok (some (funcBindings c f)) := fun _ => rfl
  have hm2 : ∀ f, mergeBindings (funcBindings c f) [] = .ok (some (funcBindings c f)) := fun _ => rfl
  have hr : mergeReplacements [] [] = .ok [] := rfl
  refine ⟨?_, fun h ks => ?_⟩
  · rintro f ⟨h1, h2, rfl⟩ hq ks
    have hany := hany
    rw [if_pos ⟨h1, h2⟩] at hany
    rw [hshape, run]
    simp only [List.map_cons, List.map_nil, accumulate, accumLoop, hany _, q2 hq _, hm1, hm2, hr]
  · rw [hshape, run]
    by_cases hc : (v.ty = str "Return" ∨ v.ty = str "Expr" ∨ v.ty = str "Assign") ∧ (v.getattr (str "value")).ty = str "Call"
    · have hq : TextMatches c v quoteRegex := Classical.byContradiction fun hq => h ⟨_, ⟨hc.1, hc.2, rfl⟩, hq⟩
      have hany := hany
      rw [if_pos hc] at hany
      simp only [List.map_cons, List.map_nil, accumulate, accumLoop, hany _, q1 hq _, hm1, hr]
    · have hany := hany
      rw [if_neg hc] at hany
      simp only [List.map_cons, List.map_nil, accumulate, accumLoop, hany _]

theorem yields_itemsAre_any {m : Matcher} {v : Val} (h : ∀ i a, v = .list i [a] → False) (hc : ∀ i x, Yields c n [] m (.const i x) none) (hn : 2 ≤ n) :
    Yields c (n + 2) [] (.itemsAre [m]) v none := by
  obtain ⟨n, rfl⟩ : ∃ m, n = m + 2 := ⟨n - 2, by omega⟩
  intro ks
  have e1 : ((1 : Nat) : Int) = 1 := rfl
  have e0 : ((0 : Nat) : Int) = 0 := rfl
  have hm : mergeBindings [] [] = .ok (some []) := rfl
  have hr : mergeReplacements [] [] = .ok [] := rfl
  rw [run]
  simp only [enumFrom, List.map_cons, List.map_nil, List.length_cons, List.length_nil, Nat.zero_add, accumulate, accumLoop, e1, e0]
  have two : ∀ w, getItem v 1 = some w → run c (n + 3) [] (.unlessM (.hasItem 1 .anything)) v ks = .ok (none, ks) := by
    intro w hg
    rw [run, run, hg]
    rfl
  have one : ∀ ks, getItem v 1 = none → run c (n + 3) [] (.unlessM (.hasItem 1 .anything)) v ks = .ok (some ⟨createMatch c v, [], []⟩, ks) := by
    intro ks hg
    rw [run, run, hg]
    rfl
  have zero : ∀ ks, getItem v 0 = none → run c (n + 3) [] (.hasItem 0 m) v ks = .ok (none, ks) := by
    intro ks hg
    rw [run, hg]
  cases h1 : getItem v 1 with
  | some w => rw [two w h1]
  | none =>
    simp only [one ks h1, hm, hr]
    cases h0 : getItem v 0 with
    | none => simp only [zero ks h0]
    | some w =>
      have hw : ∃ i x, w = .const i x := by
        unfold getItem at h0 h1
        cases v with
        | list i vs =>
          simp only [seqItems] at h0 h1
          match vs with
          | [] => simp at h0
          | [a] => exact absurd rfl (fun e => h i a e)
          | a :: b :: vs => simp at h1
        | node i t ns vs => simp [seqItems] at h0
        | const i x =>
          cases x with
          | str s =>
            simp only [seqItems] at h0
            match s with
            | [] => simp at h0
            | ch :: s =>
              simp at h0
              exact ⟨_, _, h0.symm⟩
          | _ => simp [seqItems] at h0
      obtain ⟨i, x, rfl⟩ := hw
      have : run c (n + 3) [] (.hasItem 0 m) v ks = .ok (none, ks) := by
        rw [run, h0]
        simp only [hc i x ks, rewrap]
      simp only [this]

/-- What the third part of the matcher answers on a `try` statement. -/
noncomputable def triedAnswer (c : Ctx) (w : Val) : Option MatchInfo :=
  open Classical in
  if h : w.ty = str "Try" ∧ ∃ f i st, w.getattr (str "body") = .list i [st] ∧ CallStatement st f ∧ ¬ TextMatches c st quoteRegex then
    some ⟨createMatch c w, funcBindings c h.2.choose, []⟩
  else none

theorem answers_try (c : Ctx) : Answers c [] (tryWith []) 2 (fun w => if w.ty = str "Try" then some ⟨createMatch c w, [], []⟩ else none) := by
  refine ⟨fun n hn v ks => ?_, fun n hn => ?_⟩
  · obtain ⟨n, rfl⟩ : ∃ m, n = m + 2 := ⟨n - 2, by omega⟩
    have hp : tryWith [] = .node (str "Try") [str "body", str "handlers", str "orelse", str "finalbody"] [.anything, .anything, .anything, .anything] := rfl
    rw [hp, run]
    by_cases h : v.ty = str "Try"
    · rw [if_neg (by simp [h]), if_pos h]; rfl
    · rw [if_pos h, if_neg h]
  · obtain ⟨n, rfl⟩ : ∃ m, n = m + 1 := ⟨n - 1, by omega⟩
    exact ⟨_, rfl⟩

theorem answers_tried (c : Ctx) : Answers c [] (tryWith [("body", .allOf [.itemsAre [triedStatement]])]) 12 (triedAnswer c) := by
  refine ⟨fun n hn v ks => ?_, fun n hn => ?_⟩
  · obtain ⟨n, rfl⟩ : ∃ m, n = m + 12 := ⟨n - 12, by omega⟩
    have hp : tryWith [("body", .allOf [.itemsAre [triedStatement]])] = .node (str "Try") [str "body", str "handlers", str "orelse", str "finalbody"]
      [.allOf [.itemsAre [triedStatement]], .anything, .anything, .anything] := rfl
    rw [hp, run]
    by_cases h : v.ty = str "Try"
    · rw [if_neg (by simp [h])]
      have hm0 : mergeBindings [] [] = .ok (some []) := rfl
      have hr : mergeReplacements [] [] = .ok [] := rfl
      have hm1 : ∀ f, mergeBindings [] (funcBindings c f) = .ok (some (funcBindings c f)) := fun _ => rfl
      have hm2 : ∀ f, mergeBindings (funcBindings c f) [] = .ok (some (funcBindings c f)) := fun _ => rfl
      have ha : ∀ w ks, run c (n + 11) [] .anything w ks = .ok (some ⟨createMatch c w, [], []⟩, ks) := fun _ _ => rfl
      have hall : ∀ ks o, run c (n + 10) [] (.itemsAre [triedStatement]) (v.getattr (str "body")) ks = .ok (o, ks) →
          (o = none ∨ ∃ f, o = some ⟨createMatch c (v.getattr (str "body")), funcBindings c f, []⟩) →
          run c (n + 11) [] (.allOf [.itemsAre [triedStatement]]) (v.getattr (str "body")) ks = .ok (o, ks) := by
        intro ks o h ho
        rw [run]
        simp only [List.map_cons, List.map_nil, accumulate, accumLoop, h]
        rcases ho with rfl | ⟨f, rfl⟩
        · rfl
        · simp only [hm1, hr]
      unfold triedAnswer
      have hnone : ∀ i x, Yields c (n + 8) [] triedStatement (.const i x) none := by
        intro i x
        refine (yields_tried (c := c) (n := n) (.const i x)).2 ?_
        rintro ⟨f, ⟨_, hc, _⟩, _⟩
        revert hc
        show (Val.ty (.const 0 .none)) = _ → False
        decide
      split
      · rename_i hx
        obtain ⟨i, st, hb, hc, hq⟩ := hx.2.choose_spec
        have key := (yields_itemsAre_one (c := c) (n := n + 8) (i := i) (vs := [st]) (m := triedStatement)
          (fun _ => some ⟨createMatch c st, funcBindings c hx.2.choose, []⟩)
          (by
            intro a ha
            cases List.mem_singleton.1 ha
            exact (yields_tried (c := c) (n := n) st).1 _ hc hq)
          (by
            intro a mi h
            cases h; rfl) (by omega)).1 st rfl
        rw [← hb] at key
        have := fun ks => hall ks _ (key ks) (.inr ⟨_, rfl⟩)
        simp only [Option.map_some] at this
        simp only [List.zip_cons_cons, List.zip_nil_right, List.map_cons, List.map_nil, accumulate, accumLoop, this, ha, hm1, hm2, hr]
      · rename_i hx
        have hno : ∀ ks, run c (n + 10) [] (.itemsAre [triedStatement]) (v.getattr (str "body")) ks = .ok (none, ks) := by
          by_cases hl : ∃ i a, v.getattr (str "body") = .list i [a]
          · obtain ⟨i, st, hb⟩ := hl
            have key := (yields_itemsAre_one (c := c) (n := n + 8) (i := i) (vs := [st]) (m := triedStatement) (fun a => none)
              (by
                intro a ha
                cases List.mem_singleton.1 ha
                refine (yields_tried (c := c) (n := n) st).2 ?_
                rintro ⟨f, hc, hq⟩
                exact hx ⟨h, f, i, st, hb, hc, hq⟩) (by intro a mi h; cases h) (by omega)).1 st rfl
            rw [hb]
            exact key
          · exact yields_itemsAre_any (fun i a e => hl ⟨i, a, e⟩) hnone (by omega)
        have := fun ks => hall ks _ (hno ks) (.inl rfl)
        simp only [List.zip_cons_cons, List.zip_nil_right, List.map_cons, List.map_nil, accumulate, accumLoop, this]
    · rw [if_pos h]
      unfold triedAnswer
      rw [dif_neg (fun hx => h hx.1)]
  · obtain ⟨n, rfl⟩ : ∃ m, n = m + 1 := ⟨n - 1, by omega⟩
    exact ⟨_, rfl⟩

/-- What the second logging fixer reports. -/
def loggingExceptionFinding (c : Ctx) (v a f : Val) (s : Str) : MatchInfo := ⟨createMatch c v, loggingBindings c v a s ++ funcBindings c f, []⟩

theorem loggingException_iff {p : Path} {v a f : Val} {s : Str} : LoggingException c p v a f s ↔
    IsLoggingCall v a s ∧ InHandlerOf c.tree p s ∧ ∃ t i st, NearestAround c.tree p (str "Try") t ∧ t.getattr (str "body") = .list i [st] ∧
      CallStatement st f ∧ ¬ TextMatches c st quoteRegex := by
  unfold LoggingException IsLoggingCall quoteRegex
  simp only [and_assoc]

theorem merge_handler (v a : Val) (s t : Str) :
    mergeBindings (loggingBindings c v a s) (exceptionName t) = .ok (if s = t then some (loggingBindings c v a t) else none) := by
  have h : mergeBindings (loggingBindings c v a s) (exceptionName t) =
    mergeBindingsIn [str "e"] [str "arg", str "logging_exception"] [] (loggingBindings c v a s) (exceptionName t) := rfl
  have hl : (loggingBindings c v a s).get? (str "e") = some ⟨.string s, .mergeIdentical, .keepLast⟩ := rfl
  have hr : (exceptionName t).get? (str "e") = some ⟨.string t, .mergeIdentical, .keepLast⟩ := rfl
  have hstep : mergeStep (loggingBindings c v a s) (exceptionName t) ([], false) (str "e") =
      .ok (if s = t then ([(str "e", ⟨.string t, .mergeIdentical, .keepLast⟩)], false) else ([], true)) := by
    unfold mergeStep
    rw [hl, hr]
    by_cases e : s = t
    · subst e
      simp [BindConflict.verdict, BoundValue.pyEq, MObj.pyEq, BindMerge.pick, Dict.set]
    · simp [BindConflict.verdict, BoundValue.pyEq, MObj.pyEq, e]
  rw [h]
  unfold mergeBindingsIn
  rw [List.foldlM_cons, hstep]
  by_cases e : s = t
  · subst e
    rw [if_pos rfl, if_pos rfl]; rfl
  · rw [if_neg e, if_neg e]; rfl

theorem triedAnswer_some {w st f : Val} {i : Nat} (h1 : w.ty = str "Try") (h2 : w.getattr (str "body") = .list i [st]) (h3 : CallStatement st f)
    (h4 : ¬ TextMatches c st quoteRegex) : triedAnswer c w = some ⟨createMatch c w, funcBindings c f, []⟩ := by
  unfold triedAnswer
  have hx : w.ty = str "Try" ∧ ∃ f i st, w.getattr (str "body") = .list i [st] ∧ CallStatement st f ∧ ¬ TextMatches c st quoteRegex := ⟨h1, f, i, st, h2, h3, h4⟩
  rw [dif_pos hx]
  obtain ⟨i', st', hb, hc, _⟩ := hx.2.choose_spec
  have hf : hx.2.choose = f := by
    rw [h2] at hb
    injection hb with _ hb
    injection hb with hb _
    subst hb
    rw [hc.2.2, h3.2.2]
  rw [hf]

/-- **C85**, `logging.exception`: the fixer accepts exactly the statements `logging.exception(e)` where `e` is the name of the exception that
is handled by the nearest handler around, and the body of the nearest `try` around is a single statement that calls a function and has no
double quote inside. It binds that function. -/
theorem C85_logging_exception (hg : PythonGrammar g) (hne : mangle (str "arg") ≠ str "logging") (hu : Unshared c.tree) (hpy : PythonNames c.tree)
    {p : Path} {v : Val} (hp : c.tree.at? p = some v) {b : Bool} (hv : Parsed g b v) (hn : 41 ≤ n) :
    (∀ a f s, LoggingException c p v a f s →
      Yields c n [] (loggingExceptionMatcher mangle) v (some (loggingExceptionFinding c v a f s))) ∧
    ((¬ ∃ a f s, LoggingException c p v a f s) → Yields c n [] (loggingExceptionMatcher mangle) v none) := by
  obtain ⟨n, rfl⟩ : ∃ m, n = m + 41 := ⟨n - 41, by omega⟩
  obtain ⟨l1, l2⟩ := yields_logging_call (c := c) (n := n + 40) (mangle := mangle) hg hne hv (by
    rintro i w f args keywords rfl ⟨i', j, m, rfl⟩ a ha hty
    obtain ⟨k, hk⟩ := List.mem_iff_getElem?.1 ha
    refine hpy.names (p ++ [0, 1, k]) a ?_ hty
    rw [at?_append, hp]
    show (Val.list j args).at? [k] = some a
    simp only [Val.at?, Val.children, hk]) (by omega)
  have hm0 : mergeBindings [] [] = .ok (some []) := rfl
  have hr : mergeReplacements [] [] = .ok [] := rfl
  have hm1 : ∀ a s, mergeBindings [] (loggingBindings c v a s) = .ok (some (loggingBindings c v a s)) := fun _ _ => rfl
  have hm2 : ∀ a s f, mergeBindings (loggingBindings c v a s) (funcBindings c f) = .ok (some (loggingBindings c v a s ++ funcBindings c f)) := fun _ _ _ => rfl
  have hrun : ∀ ks, run c (n + 41) [] (loggingExceptionMatcher mangle) v ks = accumulate c v
      [run c (n + 40) [] (.bind (str "logging_exception")
        (.rebind ((Code.expr (.call (loggingAttr "exception") [.var (str "arg")] [])).pattern mangle
          [(str "arg", nameWith (.bind (str "e") .anything none none))]) (some .mergeIdentical) none) none none) v,
       run c (n + 40) [] inExceptionHandler v,
       run c (n + 40) [] (.hasFirstAncestor (tryWith []) (tryWith [("body", .allOf [.itemsAre [triedStatement]])])) v] ks := by
    intro ks
    unfold loggingExceptionMatcher
    rw [run]
    rfl
  by_cases hlog : ∃ a s, IsLoggingCall v a s
  · obtain ⟨a, s, hlog⟩ := hlog
    have hinner : v.isInner := by
      obtain ⟨_, _, _, _, rfl, _⟩ := loggingCall_iff.1 hlog
      intro i x e; cases e
    have huniq : ∀ a' s', IsLoggingCall v a' s' → a' = a ∧ s' = s := by
      intro a' s' h
      obtain ⟨i1, w1, f1, k1, rfl, ⟨x1, y1, z1, rfl⟩, rfl, _, hs1⟩ := loggingCall_iff.1 hlog
      obtain ⟨i2, w2, f2, k2, e, ⟨x2, y2, z2, rfl⟩, rfl, _, hs2⟩ := loggingCall_iff.1 h
      injection e with _ _ _ e
      injection e with e _
      injection e with _ _ _ e
      injection e with _ e
      injection e with e _
      injection e with _ e
      injection e with e _
      subst e
      obtain ⟨_, _, _, rfl⟩ := hs1
      obtain ⟨_, _, _, e⟩ := hs2
      injection e with _ _ _ e
      injection e with e _
      injection e with _ e
      injection e with e
      exact ⟨rfl, e.symm⟩
    obtain ⟨h1, h2⟩ := yields_inHandler (n := n + 40) hu hp hinner (by omega)
    obtain ⟨t1, t2⟩ := yields_nearest (n := n + 40) hu
      ⟨fun n hn => (answers_try c).answers n (by omega), fun n hn => (answers_try c).filter n (by omega)⟩ (answers_tried c) (by
        intro w b h
        unfold triedAnswer at h
        split at h
        · cases h; rfl
        · cases h) hp hinner (by omega)
    have hhandler : ∀ h i t, NearestAround c.tree p (str "ExceptHandler") h → h.getattr (str "name") = .const i (.str t) →
        exceptionBinding c (handlerName h) = exceptionName t := by
      intro h i t _ hi
      unfold handlerName
      rw [hi]
      rfl
    refine ⟨?_, fun hno ks => ?_⟩
    · intro a' f s' h ks
      obtain ⟨hl, ⟨h, i, hh, hi⟩, t, j, st, ht, hb, hc, hq⟩ := loggingException_iff.1 h
      obtain ⟨rfl, rfl⟩ := huniq a' s' hl
      have tt := t1 t ht
      rw [triedAnswer_some (by obtain ⟨_, _, _, _, h, _⟩ := ht; exact h) hb hc hq] at tt
      rw [hrun]
      simp only [accumulate, accumLoop, l1 _ _ hl _, h1 h hh _, hhandler h i _ hh hi, tt _, hm1, hr, merge_handler, if_pos, Option.map_some, hm2]
      rfl
    · rw [hrun]
      by_cases hh : ∃ w, NearestAround c.tree p (str "ExceptHandler") w
      · obtain ⟨h, hh⟩ := hh
        obtain ⟨q, _, _, hq, hqt, _⟩ := id hh
        rcases hpy.handlers q h hq hqt with ⟨i, t, hi⟩ | ⟨i, hi⟩
        · by_cases hst : s = t
          · subst hst
            have htried : ∀ ks, run c (n + 40) [] (.hasFirstAncestor (tryWith []) (tryWith [("body", .allOf [.itemsAre [triedStatement]])])) v ks = .ok (none, ks) := by
              by_cases ht : ∃ w, NearestAround c.tree p (str "Try") w
              · obtain ⟨w, ht⟩ := ht
                have tt := t1 w ht
                have : triedAnswer c w = none := by
                  unfold triedAnswer
                  rw [dif_neg]
                  rintro ⟨_, f, i', st, hb, hc, hq⟩
                  exact hno ⟨a, f, s, loggingException_iff.2 ⟨hlog, ⟨h, i, hh, hi⟩, w, i', st, ht, hb, hc, hq⟩⟩
                rw [this] at tt
                exact tt
              · exact t2 ht
            simp only [accumulate, accumLoop, l1 _ _ hlog _, h1 h hh _, hhandler h i _ hh hi, htried, hm1, hr, merge_handler, if_pos]
          · simp only [accumulate, accumLoop, l1 _ _ hlog _, h1 h hh _, hhandler h i _ hh hi, hm1, hr, merge_handler, if_neg hst]
        · have e : exceptionBinding c (handlerName h) = [(str "e", ⟨.object (.const i .none), .mergeIdentical, .keepLast⟩)] := by
            unfold handlerName
            rw [hi]
            rfl
          have hm : mergeBindings (loggingBindings c v a s) [(str "e", ⟨.object (.const i .none), .mergeIdentical, .keepLast⟩)] = .ok none := rfl
          simp only [accumulate, accumLoop, l1 _ _ hlog _, h1 h hh _, e, hm1, hr, hm]
      · simp only [accumulate, accumLoop, l1 _ _ hlog _, h2 hh _, hm1, hr]
  · refine ⟨fun a f s h => absurd ⟨a, s, (loggingException_iff.1 h).1⟩ hlog, fun _ ks => ?_⟩
    rw [hrun]
    simp only [accumulate, accumLoop, l2 hlog _]

end

/-- **C85**: what is put in the place of the statement. -/
theorem C85_logging_exception_fixer (mangle : Label → Str) :
    loggingExceptionFixer mangle 4 ∈ idiomFixers mangle ∧ (loggingExceptionFixer mangle 4).matcher = loggingExceptionMatcher mangle ∧
    (loggingExceptionFixer mangle 4).replacement = .mapping 4 ∧
    builtinHeap 4 = [(str "logging_exception", shCode (str "logging.exception('Call to \"$func\" resulted in an error')"))] :=
  ⟨by simp [idiomFixers], rfl, rfl, rfl⟩


/-! ### Examples -/

/-- A check that an object is the name of something. -/
def nameCheck : Val → Bool
  | .node _ t ns [.const _ (.str _), _] => decide (t = str "Name") && decide (ns = [str "id", str "ctx"])
  | _ => false

theorem nameCheck_iff {w : Val} (h : nameCheck w = true) : ∃ s, IsNameNode w s := by
  unfold nameCheck at h
  split at h
  · simp only [Bool.and_eq_true, decide_eq_true_eq] at h
    obtain ⟨rfl, rfl⟩ := h
    exact ⟨_, _, _, _, rfl⟩
  · cases h

/-- A check that an object is a string or `None`. -/
def identifierCheck : Val → Bool
  | .const _ (.str _) => true
  | .const _ .none => true
  | _ => false

/-- A check that the second child is a list without leaves. -/
def argsCheck : Val → Bool
  | .node _ _ _ [_, .list _ args, _] => args.all fun a => !isLeaf a
  | _ => true

/-- A check that an object is a list. -/
def listCheck : Val → Bool
  | .list _ _ => true
  | _ => false

theorem pythonNames_of_check {tree : Val} (h : (allPos tree).all (fun a => (decide (a.2.ty ≠ str "Name") || nameCheck a.2) &&
    (decide (a.2.ty ≠ str "ExceptHandler") || identifierCheck (a.2.getattr (str "name"))) && argsCheck a.2 &&
    (decide (a.2.ty ≠ str "Try") || listCheck (a.2.getattr (str "body")))) = true) : PythonNames tree := by
  have hc := fun p w (hw : tree.at? p = some w) => (List.all_eq_true.1 h) _ (mem_allPos _ _ _ hw)
  simp only [Bool.and_eq_true, Bool.or_eq_true, decide_eq_true_eq] at hc
  refine ⟨fun p w hw hty => ?_, fun p w hw hty => ?_, fun p w f args keywords hw hcall a ha => ?_, fun p w hw hty => ?_⟩
  · exact nameCheck_iff ((hc p w hw).1.1.1.resolve_left (fun hn => hn hty))
  · have := (hc p w hw).1.1.2.resolve_left (fun hn => hn hty)
    unfold identifierCheck at this
    split at this
    · rename_i e; exact .inl ⟨_, _, e⟩
    · rename_i e; exact .inr ⟨_, e⟩
    · cases this
  · have := (hc p w hw).1.2
    obtain ⟨i, j, k, rfl⟩ := hcall
    have := (List.all_eq_true.1 this) a ha
    intro i c e
    subst e
    cases this
  · have := (hc p w hw).2.resolve_left (fun hn => hn hty)
    unfold listCheck at this
    split at this
    · rename_i e; exact ⟨_, _, e⟩
    · cases this

/-- The name, at the given identities. -/
def exNameAt (i : Nat) (s : Str) : Val := .node i (str "Name") [str "id", str "ctx"] [.const (i + 1) (.str s), .node (i + 2) (str "Load") [] []]

/-- `logging.method(e)` -/
def exLogCall (method : String) : Val :=
  .node 40 (str "Call") [str "func", str "args", str "keywords"]
    [.node 41 (str "Attribute") [str "value", str "attr", str "ctx"] [exNameAt 42 (str "logging"), .const 45 (.str (str method)), .node 46 (str "Load") [] []],
     .list 47 [exNameAt 48 (str "e")], .list 51 []]

/-- The tree of
```
try:
  f()
except Error as e:
  logging.method(e)
``` -/
def exTry (method : String) : Val :=
  .node 1 (str "Try") [str "body", str "handlers", str "orelse", str "finalbody"]
    [.list 2 [.node 3 (str "Expr") [str "value"] [.node 4 (str "Call") [str "func", str "args", str "keywords"] [exNameAt 5 (str "f"), .list 8 [], .list 9 []]]],
     .list 10 [.node 11 (str "ExceptHandler") [str "type", str "name", str "body"] [exNameAt 12 (str "Error"), .const 15 (.str (str "e")),
       .list 16 [.node 17 (str "Expr") [str "value"] [exLogCall method]]]],
     .list 60 [], .list 61 []]

/-- The hypotheses hold of the tree. -/
example : Unshared (exTry "error") ∧ PythonNames (exTry "error") ∧ Unshared (exTry "exception") ∧ PythonNames (exTry "exception") :=
  ⟨unshared_of_check (by decide +kernel), pythonNames_of_check (by decide +kernel), unshared_of_check (by decide +kernel), pythonNames_of_check (by decide +kernel)⟩

theorem prefix_cases {q : Path} {a : Nat} {p : Path} (h : q <+: a :: p) : q = [] ∨ ∃ q', q = a :: q' ∧ q' <+: p := by
  cases q with
  | nil => exact .inl rfl
  | cons b q => obtain ⟨rfl, h'⟩ := List.cons_prefix_cons.1 h; exact .inr ⟨q, rfl, h'⟩

/-- The exception is handled at the argument and at the statement. -/
theorem exTry_handler (method : String) : InHandlerOf (exTry method) [1, 0, 2, 0, 0, 1, 0] (str "e") ∧ InHandlerOf (exTry method) [1, 0, 2, 0] (str "e") := by
  constructor
  · refine ⟨_, 15, ⟨[1, 0], by decide, by decide, rfl, rfl, ?_⟩, rfl⟩
    intro q0 u g0 h2 h3 h4
    rcases prefix_cases g0 with rfl | ⟨q1, rfl, g1⟩
    · simp at h3
    rcases prefix_cases g1 with rfl | ⟨q2, rfl, g2⟩
    · simp at h3
    rcases prefix_cases g2 with rfl | ⟨q3, rfl, g3⟩
    · simp at h3
    rcases prefix_cases g3 with rfl | ⟨q4, rfl, g4⟩
    · cases h4; exact (by decide : str "list" ≠ str "ExceptHandler")
    rcases prefix_cases g4 with rfl | ⟨q5, rfl, g5⟩
    · cases h4; exact (by decide : str "Expr" ≠ str "ExceptHandler")
    rcases prefix_cases g5 with rfl | ⟨q6, rfl, g6⟩
    · cases h4; exact (by decide : str "Call" ≠ str "ExceptHandler")
    rcases prefix_cases g6 with rfl | ⟨q7, rfl, g7⟩
    · cases h4; exact (by decide : str "list" ≠ str "ExceptHandler")
    · cases List.prefix_nil.1 g7
      exact absurd rfl h2
  · refine ⟨_, 15, ⟨[1, 0], by decide, by decide, rfl, rfl, ?_⟩, rfl⟩
    intro q0 u g0 h2 h3 h4
    rcases prefix_cases g0 with rfl | ⟨q1, rfl, g1⟩
    · simp at h3
    rcases prefix_cases g1 with rfl | ⟨q2, rfl, g2⟩
    · simp at h3
    rcases prefix_cases g2 with rfl | ⟨q3, rfl, g3⟩
    · simp at h3
    rcases prefix_cases g3 with rfl | ⟨q4, rfl, g4⟩
    · cases h4; exact (by decide : str "list" ≠ str "ExceptHandler")
    · cases List.prefix_nil.1 g4
      exact absurd rfl h2

/-- Non-vacuity: `logging.error(e)` in a handler. -/
example : (exTry "error").at? [1, 0, 2, 0, 0] = some (exLogCall "error") ∧ ∃ f, LoggingError (exTry "error") [1, 0, 2, 0, 0] (exLogCall "error") f :=
  ⟨rfl, _, _, _, ⟨_, _, _, rfl⟩, .attr .name ⟨_, rfl⟩, ⟨0, _, str "e", rfl, ⟨_, _, _, rfl⟩, (exTry_handler "error").1⟩, by simp⟩

/-- Non-vacuity: `logging.exception(e)` in a handler. -/
example (c : Ctx) (h : c.tree = exTry "exception") (htok : c.tok 3 = none) :
    ∃ v a f, c.tree.at? [1, 0, 2, 0] = some v ∧ LoggingException c [1, 0, 2, 0] v a f (str "e") := by
  refine ⟨.node 17 (str "Expr") [str "value"] [exLogCall "exception"], exNameAt 48 (str "e"), exNameAt 5 (str "f"), by rw [h]; rfl,
    loggingException_iff.2 ⟨loggingCall_iff.2 ⟨_, _, _, _, rfl, ⟨_, _, _, rfl⟩, rfl, .attr .name ⟨_, rfl⟩, ⟨_, _, _, rfl⟩⟩, by rw [h]; exact (exTry_handler "exception").2,
      exTry "exception", 2, _, ⟨[], by simp, by simp, by rw [h]; rfl, rfl, ?_⟩, rfl, ⟨.inr (.inl rfl), rfl, rfl⟩, ?_⟩⟩
  · intro q0 u g0 h2 h3 h4
    rw [h] at h4
    rcases prefix_cases g0 with rfl | ⟨q1, rfl, g1⟩
    · simp at h3
    rcases prefix_cases g1 with rfl | ⟨q2, rfl, g2⟩
    · cases h4; exact (by decide : str "list" ≠ str "Try")
    rcases prefix_cases g2 with rfl | ⟨q3, rfl, g3⟩
    · cases h4; exact (by decide : str "ExceptHandler" ≠ str "Try")
    rcases prefix_cases g3 with rfl | ⟨q4, rfl, g4⟩
    · cases h4; exact (by decide : str "list" ≠ str "Try")
    · cases List.prefix_nil.1 g4
      exact absurd rfl h2
  · rintro ⟨a, b, m, hs, _⟩
    simp [createMatch, htok, MObj.span?] at hs

/-- `attr.ib(x, converter=f, default=[])` -/
def exAttrib : Val :=
  .node 1 (str "Call") [str "func", str "args", str "keywords"]
    [.node 2 (str "Attribute") [str "value", str "attr", str "ctx"] [exNameAt 3 (str "attr"), .const 6 (.str (str "ib")), .node 7 (str "Load") [] []],
     .list 8 [exNameAt 9 (str "x")],
     .list 12 [.node 13 (str "keyword") [str "arg", str "value"] [.const 14 (.str (str "converter")), exNameAt 15 (str "f")],
       .node 18 (str "keyword") [str "arg", str "value"] [.const 19 (.str (str "default")), .node 20 (str "List") [str "elts", str "ctx"] [.list 21 [], .node 22 (str "Load") [] []]]]]

/-- Non-vacuity: its keyword argument is found. -/
example : ∃ k, AttribDefault .emptyList exAttrib k := by
  refine ⟨_, _, _, _, ⟨_, _, _, rfl⟩, .attr .name ⟨_, rfl⟩, [_], [], rfl, ⟨_, ⟨_, _, rfl⟩, .emptyList ⟨_, rfl⟩⟩, ?_⟩
  intro w hw
  cases List.mem_singleton.1 hw
  rintro ⟨value, ⟨i, j, e⟩, _⟩
  injection e with _ _ _ e
  injection e with e _
  injection e with _ e
  injection e with e
  exact absurd e (by decide)

/-- The tree of
```
try:
  f()
except Error as e:
  try:
    g()
  finally:
    logging.exception(e)
``` -/
def exNestedTry : Val :=
  .node 1 (str "Try") [str "body", str "handlers", str "orelse", str "finalbody"]
    [.list 2 [.node 3 (str "Expr") [str "value"] [.node 4 (str "Call") [str "func", str "args", str "keywords"] [exNameAt 5 (str "f"), .list 8 [], .list 9 []]]],
     .list 10 [.node 11 (str "ExceptHandler") [str "type", str "name", str "body"] [exNameAt 12 (str "Error"), .const 15 (.str (str "e")),
       .list 16 [.node 17 (str "Try") [str "body", str "handlers", str "orelse", str "finalbody"]
         [.list 18 [.node 19 (str "Expr") [str "value"] [.node 20 (str "Call") [str "func", str "args", str "keywords"] [exNameAt 21 (str "g"), .list 24 [], .list 25 []]]],
          .list 26 [], .list 27 [], .list 28 [.node 29 (str "Expr") [str "value"] [exLogCall "exception"]]]]]],
     .list 60 [], .list 61 []]

/-- **C85**, refutation: the function named in the new message is not always the one that failed. Where the statement is inside of another
`try` in the handler, here in the `finally` block, it is the function called there: `g` and not `f`, although `e` is the exception of `f`. -/
theorem C85_wrong_function_false (c : Ctx) (h : c.tree = exNestedTry) (htok : c.tok 19 = none) :
    ∃ v a, c.tree.at? [1, 0, 2, 0, 3, 0] = some v ∧ LoggingException c [1, 0, 2, 0, 3, 0] v a (exNameAt 21 (str "g")) (str "e") := by
  refine ⟨.node 29 (str "Expr") [str "value"] [exLogCall "exception"], exNameAt 48 (str "e"), by rw [h]; rfl,
    loggingException_iff.2 ⟨loggingCall_iff.2 ⟨_, _, _, _, rfl, ⟨_, _, _, rfl⟩, rfl, .attr .name ⟨_, rfl⟩, ⟨_, _, _, rfl⟩⟩,
      ⟨_, 15, ⟨[1, 0], by decide, by decide, by rw [h]; rfl, rfl, ?_⟩, rfl⟩,
      _, 18, _, ⟨[1, 0, 2, 0], by decide, by decide, by rw [h]; rfl, rfl, ?_⟩, rfl, ⟨.inr (.inl rfl), rfl, rfl⟩, ?_⟩⟩
  · intro q0 u g0 h2 h3 h4
    rw [h] at h4
    rcases prefix_cases g0 with rfl | ⟨q1, rfl, g1⟩
    · simp at h3
    rcases prefix_cases g1 with rfl | ⟨q2, rfl, g2⟩
    · simp at h3
    rcases prefix_cases g2 with rfl | ⟨q3, rfl, g3⟩
    · simp at h3
    rcases prefix_cases g3 with rfl | ⟨q4, rfl, g4⟩
    · cases h4; exact (by decide : str "list" ≠ str "ExceptHandler")
    rcases prefix_cases g4 with rfl | ⟨q5, rfl, g5⟩
    · cases h4; exact (by decide : str "Try" ≠ str "ExceptHandler")
    rcases prefix_cases g5 with rfl | ⟨q6, rfl, g6⟩
    · cases h4; exact (by decide : str "list" ≠ str "ExceptHandler")
    · cases List.prefix_nil.1 g6
      exact absurd rfl h2
  · intro q0 u g0 h2 h3 h4
    rw [h] at h4
    rcases prefix_cases g0 with rfl | ⟨q1, rfl, g1⟩
    · simp at h3
    rcases prefix_cases g1 with rfl | ⟨q2, rfl, g2⟩
    · simp at h3
    rcases prefix_cases g2 with rfl | ⟨q3, rfl, g3⟩
    · simp at h3
    rcases prefix_cases g3 with rfl | ⟨q4, rfl, g4⟩
    · simp at h3
    rcases prefix_cases g4 with rfl | ⟨q5, rfl, g5⟩
    · simp at h3
    rcases prefix_cases g5 with rfl | ⟨q6, rfl, g6⟩
    · cases h4; exact (by decide : str "list" ≠ str "Try")
    · cases List.prefix_nil.1 g6
      exact absurd rfl h2
  · rintro ⟨a, b, m, hs, _⟩
    simp [createMatch, htok, MObj.span?] at hs

end Refex
