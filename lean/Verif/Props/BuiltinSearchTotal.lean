import Verif.Props.BuiltinSearch
/- A search with the built-in fixers raises nothing, if the code has places in the text. -/
namespace Refex
set_option autoImplicit false

/-- The type of the node that the code is, if it is no metavariable. -/
def Code.nodeType : Code → Option Str
  | .var _ => none
  | .name _ => some (str "Name")
  | .int _ => some (str "Constant")
  | .attr _ _ => some (str "Attribute")
  | .call _ _ _ => some (str "Call")
  | .keyword _ _ => some (str "keyword")
  | .compare _ _ _ => some (str "Compare")
  | .not _ => some (str "UnaryOp")
  | .mod _ _ => some (str "BinOp")
  | .tuple1 _ => some (str "Tuple")
  | .emptyList => some (str "List")
  | .emptyDict => some (str "Dict")
  | .comp s _ _ _ => some (if s then str "SetComp" else str "ListComp")
  | .assign _ _ => some (str "Assign")
  | .expr _ => some (str "Expr")

theorem reads_nodeType {p : Code} {v : Val} {occ : Occs} {t : Str} (h : p.Reads v occ) (ht : p.nodeType = some t) :
    v.ty = t ∧ ∃ i ns vs, v = .node i t ns vs := by
  cases h <;> cases ht <;> exact ⟨rfl, _, _, _, rfl⟩

theorem rule_nodeType : ∀ r ∈ builtinRules, ∃ t ∈ fixerTypes, r.old.nodeType = some t := by decide +kernel

theorem applies_type {mangle : Label → Str} {digit : Char → Prop} {c : Ctx} {ss : List TopStmt} {p : Path} {v : Val} {F : Fixer}
    (h : FixerApplies mangle digit c ss p v F) : ∃ t ∈ fixerTypes, v.ty = t ∧ ∃ i ns vs, v = .node i t ns vs := by
  cases h with
  | rule hr hs =>
    obtain ⟨t, h1, h2⟩ := rule_nodeType _ hr
    exact ⟨t, h1, reads_nodeType hs.reads h2⟩
  | attrib _ h =>
    obtain ⟨f, args, ks, ⟨i, j, k, rfl⟩, _⟩ := h
    exact ⟨str "Call", by decide, rfl, _, _, _, rfl⟩
  | loggingError h =>
    obtain ⟨args, ks, ⟨i, j, k, rfl⟩, _⟩ := h
    exact ⟨str "Call", by decide, rfl, _, _, _, rfl⟩
  | loggingException h => exact ⟨str "Expr", by decide, reads_nodeType h.1 rfl⟩

section
variable {c : Ctx} {tk : TokInfo} {env : Templates} {ts : Replacements} {mi mi' : MatchInfo}

theorem sanitizeLoop_nothing {nav : Nav} {dict : Dict Str LexMatch} {templates : Dict Str Str} {r : Removed} : ∀ {items : List (Str × Str)},
    (∀ k t m, (k, t) ∈ items → dict.get? k = some m → m.stmt ≠ none → t ≠ []) → sanitizeLoop nav items dict templates r = .ok (dict, templates, r)
  | [], _ => rfl
  | (k, t) :: items, h => by
    rw [sanitizeLoop]
    have ih := sanitizeLoop_nothing (nav := nav) (dict := dict) (templates := templates) (r := r) (items := items)
      fun k t m hm => h k t m (List.mem_cons_of_mem _ hm)
    split
    · exact ih
    · rename_i m hm
      split
      · exact ih
      · rename_i id hid
        rw [if_pos (h k t m (List.mem_cons_self ..) hm (by rw [hid]; simp))]
        exact ih

theorem sanitize_decorated (hd : Decorated ts mi mi') (hw : ts.WF) (hnr : ∀ l, ¬ RemovesStmt env ts mi l) (r : Removed) :
    sanitizeLoop (navOfTree c tk) (mi'.replacements.map fun e => (e.1, env.text e.2))
      (mi'.bindings.filterMap fun e => (lexOf tk e.2.value).map fun m => (e.1, m))
      (mi'.replacements.map fun e => (e.1, env.text e.2)) r =
      .ok (mi'.bindings.filterMap fun e => (lexOf tk e.2.value).map fun m => (e.1, m), mi'.replacements.map fun e => (e.1, env.text e.2), r) := by
  refine sanitizeLoop_nothing fun k t m hm hg hs => ?_
  rw [get?_filterMap_val hd.2.2.1 (fun b : BoundValue => lexOf tk b.value)] at hg
  have hl : (LabelOf mi k).bind (lexOf tk) = some m := by
    rw [← labelOf_decorated hd]
    cases hb : mi'.bindings.get? k with
    | none => rw [hb] at hg; cases hg
    | some b => rw [hb] at hg; exact hg
  rw [hd.2.1] at hm
  obtain ⟨e, he, hx⟩ := List.mem_map.1 hm
  cases hx
  intro ht
  cases ho : LabelOf mi e.1 with
  | none => rw [ho] at hl; cases hl
  | some o =>
    rw [ho] at hl
    cases o with
    | lexical v sp =>
      refine hnr e.1 ⟨⟨e.2, Dict.get?_of_mem hw he, ht⟩, v, sp, ho, ?_⟩
      simp only [Option.bind_some, lexOf, Option.some.injEq] at hl
      subst hl
      by_cases hv : v.ty ∈ stmtTypes
      · exact hv
      · simp [hv] at hs
    | _ => cases hl

/-- A match with a place in the text is reported or refused, or one of its templates raises an exception (other than `RewriteError`). -/
theorem pyReport_outcome (hd : Decorated ts mi mi') (hw : ts.WF) {v : Val} {sp : Span} (hobj : mi.obj = .lexical v sp)
    (hs : ∃ o, getSimpleLoop c.tree (c.tree.size + 1) none v = some o) (hnr : ∀ l, ¬ RemovesStmt env ts mi l)
    (hcat : ∀ t ms m s, ts.get? (str "__category") = some t → (env.sem t).substitute m ms = .ok s → categoryOk s = true)
    (hun : ∀ l t, ts.get? l = some t → l ∈ metadataLabels ∨ l = str "__root" ∨ ∀ s, l ≠ '_' :: '_' :: s) (r : Removed) :
    (∃ o, pyReport c tk env mi' r = .ok (o, r)) ∨
    ∃ e l t ms m, pyReport c tk env mi' r = .error e ∧ e ≠ .rewriteError ∧ ts.get? l = some t ∧ Offered c env ts mi ms ∧ Applies ms l m ∧
      (env.sem t).substitute m ms = .error e := by
  have hsan := sanitize_decorated (c := c) (tk := tk) hd hw hnr r
  obtain ⟨ho, ht⟩ := offered_of_sanitize hd hw hsan
  have hwr : mi'.replacements.WF := by rw [hd.2.1]; exact hw
  unfold pyReport
  simp only [hsan]
  generalize hms : matchDict c.text mi'.bindings (mi'.bindings.filterMap fun e => (lexOf tk e.2.value).map fun m => (e.1, m)) = ms at ho
  have hwf := templateDict_wf env hwr (mi'.replacements.map fun e => (e.1, env.text e.2))
  generalize htd : templateDict env mi'.replacements (mi'.replacements.map fun e => (e.1, env.text e.2)) = td at ht hwf
  have hout : ∀ l, ts.get? l = none → td.get? (.name l) = none := by
    intro l hl; rw [← htd]; exact templateDict_name env _ _ l (by rw [hd.2.1]; exact hl)
  have hnum : ∀ n, td.get? (.num n) = none := fun n => by rw [← htd]; exact templateDict_num ..
  have hin : ∀ l t, ts.get? l = some t → td.get? (.name l) = some (env.sem t) := fun l t hl => (ht l t hl).resolve_right fun h => hnr l h.1
  have hroot : ms.get? (.name (str "__root")) = some ⟨some (slice c.text sp.1 sp.2), some sp, some v⟩ := by
    rw [ho.names _ (hnr _), LabelOf, if_pos rfl, hobj]; rfl
  cases hrw : rewriteTemplates ms td with
  | error e =>
    by_cases hre : e = .rewriteError
    · subst hre; exact .inl ⟨none, rfl⟩
    · right
      rcases rewriteTemplates_error hrw with ⟨n, t, hm⟩ | ⟨k, t, m, hm, ha, hf⟩
      · have := Dict.get?_of_mem hwf hm
        rw [hnum] at this; cases this
      · have hg := Dict.get?_of_mem hwf hm
        cases k with
        | num n => rw [hnum] at hg; cases hg
        | name l =>
          cases hc : ts.get? l with
          | none => rw [hout l hc] at hg; cases hg
          | some code =>
            rw [hin l code hc] at hg
            cases hg
            refine ⟨e, l, code, ms, m, ?_, hre, hc, ho, appliedTo_name.1 ha, hf⟩
            cases e <;> first | rfl | exact absurd rfl hre
  | ok repl =>
    left
    have hks : ∃ ks, keySpanOf c mi'.bindings = .ok ks := by
      obtain ⟨o, hso⟩ := hs
      unfold keySpanOf
      rw [hd.2.2.2, if_pos rfl]
      simp only [hobj, hso]
      cases o with
      | none => exact ⟨_, rfl⟩
      | some x => exact ⟨_, rfl⟩
    obtain ⟨ks, hks⟩ := hks
    have hacc : Acceptable ms repl := by
      refine ⟨fun s hs => ?_, ⟨_, sp, hroot, rfl⟩, fun k s hs hnm => ?_⟩
      · obtain ⟨t, m, h1, _, h3⟩ := ((C19_right_labels ms td hwf repl hrw).1 _ _).1 hs
        cases hc : ts.get? (str "__category") with
        | none => rw [hout _ hc] at h1; cases h1
        | some code => rw [hin _ code hc] at h1; cases h1; exact hcat code ms m s hc h3
      · obtain ⟨t, m, h1, h2, h3⟩ := ((C19_right_labels ms td hwf repl hrw).1 _ _).1 hs
        cases k with
        | num n => rw [hnum] at h1; cases h1
        | name l =>
          rcases appliedTo_name.1 h2 with ⟨h4, h5⟩ | ⟨h4, _, s, h5⟩
          · cases hm : m.span with
            | none => exact absurd hm h5
            | some sp => exact ⟨m, sp, h4, hm⟩
          · cases hc : ts.get? l with
            | none => rw [hout _ hc] at h1; cases h1
            | some code =>
              rcases hun l code hc with h6 | rfl | h6
              · refine absurd ?_ hnm
                simp only [metadataLabels, List.mem_cons, List.not_mem_nil, or_false] at h6
                unfold IsMetadataLabel
                rcases h6 with rfl | rfl | rfl | rfl <;> simp
              · rw [hroot] at h4; cases h4
              · exact absurd h5 (h6 s)
    obtain ⟨f, hf⟩ := (buildFound_eq ms ho.wf repl ks).2.1 hacc
    simp only [hks, hf]
    exact ⟨some f, rfl⟩

/-- A match with a place in the text, whose templates raise nothing but `RewriteError`, is reported or refused. -/
theorem pyReport_total (hd : Decorated ts mi mi') (hw : ts.WF) {v : Val} {sp : Span} (hobj : mi.obj = .lexical v sp)
    (hs : ∃ o, getSimpleLoop c.tree (c.tree.size + 1) none v = some o) (hnr : ∀ l, ¬ RemovesStmt env ts mi l)
    (hsub : ∀ l t ms m e, ts.get? l = some t → Offered c env ts mi ms → Applies ms l m → (env.sem t).substitute m ms = .error e → e = .rewriteError)
    (hcat : ∀ t ms m s, ts.get? (str "__category") = some t → (env.sem t).substitute m ms = .ok s → categoryOk s = true)
    (hun : ∀ l t, ts.get? l = some t → l ∈ metadataLabels ∨ l = str "__root" ∨ ∀ s, l ≠ '_' :: '_' :: s) (r : Removed) :
    ∃ o, pyReport c tk env mi' r = .ok (o, r) := by
  rcases pyReport_outcome (tk := tk) hd hw hobj hs hnr hcat hun r with h | ⟨e, l, t, ms, m, _, hne, h1, h2, h3, h4⟩
  · exact h
  · exact absurd (hsub l t ms m e h1 h2 h3 h4) hne

/-- The exception of a search is that of one of its matches. -/
theorem pyReports_outcome {Q : Exc → Prop} : ∀ {mis : List MatchInfo} {r : Removed},
    (∀ mi ∈ mis, ∀ r, (∃ o, pyReport c tk env mi r = .ok (o, r)) ∨ ∃ e, pyReport c tk env mi r = .error e ∧ Q e) →
    (∃ fs, pyReports c tk env mis r = .ok fs) ∨ ∃ e, pyReports c tk env mis r = .error e ∧ Q e
  | [], _, _ => .inl ⟨[], rfl⟩
  | mi :: mis, r, h => by
    rcases h mi (List.mem_cons_self ..) r with ⟨o, ho⟩ | ⟨e, he, hq⟩
    · rcases pyReports_outcome (mis := mis) (r := r) fun m hm => h m (List.mem_cons_of_mem _ hm) with ⟨fs, hfs⟩ | ⟨e, he, hq⟩
      · exact .inl ⟨o.toList ++ fs, by rw [pyReports, ho]; simp only [hfs]; rfl⟩
      · exact .inr ⟨e, by rw [pyReports, ho]; simp only [he]; rfl, hq⟩
    · exact .inr ⟨e, by rw [pyReports, he], hq⟩

theorem pyReports_total : ∀ {mis : List MatchInfo} {r : Removed}, (∀ mi ∈ mis, ∀ r, ∃ o, pyReport c tk env mi r = .ok (o, r)) →
    ∃ fs, pyReports c tk env mis r = .ok fs
  | [], _, _ => ⟨[], rfl⟩
  | mi :: mis, r, h => by
    obtain ⟨o, ho⟩ := h mi (List.mem_cons_self ..) r
    obtain ⟨fs, hfs⟩ := pyReports_total (mis := mis) (r := r) fun m hm => h m (List.mem_cons_of_mem _ hm)
    exact ⟨o.toList ++ fs, by rw [pyReports, ho]; simp only [hfs]; rfl⟩

/-- A match that has no place in the text is not reported. -/
theorem pyReport_unlocated (hd : Decorated ts mi mi') (hw : ts.WF) {v : Val} (hobj : mi.obj = .object v) {r r' : Removed} {o : Option Found}
    (h : pyReport c tk env mi' r = .ok (o, r')) : o = none := by
  unfold pyReport at h
  simp only at h
  split at h
  · cases h
  · rename_i lex' texts' r1 hs
    obtain ⟨ho, _⟩ := offered_of_sanitize hd hw hs
    split at h
    · cases h; rfl
    · cases h
    · split at h
      · cases h
      · split at h
        · cases h
        · rename_i f hf
          obtain ⟨m, sp, h1, h2⟩ := ((buildFound_eq _ ho.wf _ _).1 f hf).2.2.1
          have hn : ¬ RemovesStmt env ts mi (str "__root") := by
            rintro ⟨_, v, sp, h, _⟩
            rw [LabelOf, if_pos rfl, hobj] at h
            cases h
          rw [ho.names _ hn, LabelOf, if_pos rfl, hobj] at h1
          cases h1
          cases h2

end

section
variable {mangle : Label → Str} {digit : Char → Prop} {g : Grammar} {ss : List TopStmt} {c : Ctx} {n : Nat}

theorem simple_ends_below (hu : Unshared c.tree) (hbody : hasBody c.tree = true) {p : Path} {v : Val} (hp : c.tree.at? p = some v) (hv : v.isInner) :
    ∃ o, getSimpleLoop c.tree (c.tree.size + 1) none v = some o := by
  have key : ∀ (k : Nat) (s q : Path), s.length ≤ k → q ++ s = p → (∃ b, c.tree.at? q = some b ∧ hasBody b = true) →
      ∃ q s b, q ++ s = p ∧ c.tree.at? q = some b ∧ hasBody b = true ∧ ∀ (t : Path) (x : Val), t <+: s → t ≠ [] → c.tree.at? (q ++ t) = some x → hasBody x = false := by
    intro k
    induction k with
    | zero =>
      rintro s q hk he ⟨b, h1, h2⟩
      have : s = [] := List.length_eq_zero_iff.1 (by omega)
      subst this
      exact ⟨q, [], b, he, h1, h2, fun t x ht hne _ => absurd (List.prefix_nil.1 ht) hne⟩
    | succ k ih =>
      rintro s q hk he ⟨b, h1, h2⟩
      by_cases hx : ∃ (t : Path) (x : Val), t <+: s ∧ t ≠ [] ∧ c.tree.at? (q ++ t) = some x ∧ hasBody x = true
      · obtain ⟨t, x, ⟨s', rfl⟩, hne, h3, h4⟩ := hx
        have : 0 < t.length := List.length_pos_iff.2 hne
        exact ih s' (q ++ t) (by rw [List.length_append] at hk; omega) (by rw [List.append_assoc]; exact he) ⟨x, h3, h4⟩
      · refine ⟨q, s, b, he, h1, h2, fun t x ht hne hx' => ?_⟩
        cases hb : hasBody x with
        | false => rfl
        | true => exact absurd ⟨t, x, ht, hne, hx', hb⟩ hx
  obtain ⟨q, s, b, rfl, h1, h2, h3⟩ := key p.length p [] (Nat.le_refl _) rfl ⟨c.tree, rfl, hbody⟩
  have hlen := at?_depth (q ++ s) c.tree v hp
  exact ⟨_, C50_simple_node hu q s h1 h2 hp hv h3 (c.tree.size + 1) (by rw [List.length_append] at hlen; omega)⟩

theorem simple_ends (hu : Unshared c.tree) (hf : FileTree c.tree ss) {p : Path} {v : Val} (hp : c.tree.at? p = some v) (hv : v.isInner) :
    ∃ o, getSimpleLoop c.tree (c.tree.size + 1) none v = some o := by
  refine simple_ends_below hu ?_ hp hv
  generalize c.tree = tree at hf
  cases hf
  simp [hasBody]

theorem get?_single {l a : Label} {t b : Str} (h : Dict.get? [(a, b)] l = some t) : l = a ∧ t = b := by
  unfold Dict.get? at h
  split at h
  · rename_i e; cases h; exact ⟨e.symm, rfl⟩
  · cases h

theorem forall2_mem_left {α β : Type} {R : α → β → Prop} {as : List α} {bs : List β} (h : Forall2 R as bs) {a : α} (ha : a ∈ as) : ∃ b ∈ bs, R a b := by
  induction h with
  | nil => cases ha
  | cons h1 h2 ih =>
    rcases List.mem_cons.1 ha with rfl | ha
    · exact ⟨_, List.mem_cons_self .., h1⟩
    · obtain ⟨b, hb, hr⟩ := ih ha
      exact ⟨b, List.mem_cons_of_mem _ hb, hr⟩

theorem rule_category : ∀ r ∈ builtinRules, categoryOk r.category = true := by decide +kernel

theorem fixer_category {F : Fixer} (hF : F ∈ correctnessFixers mangle ++ idiomFixers mangle ++ unittestFixers mangle) :
    ∃ s, F.category = some s ∧ categoryOk s = true := by
  rcases group_kinds hF with ⟨r, hr, rfl⟩ | ⟨i, d, text, _, rfl⟩ | rfl | rfl
  · exact ⟨_, rfl, rule_category r hr⟩
  · exact ⟨_, rfl, by decide +kernel⟩
  · exact ⟨_, rfl, by decide +kernel⟩
  · exact ⟨_, rfl, by decide +kernel⟩

/-- The only labels with templates, beside those of the metadata. -/
theorem initial_labels {F : Fixer} (hF : F ∈ correctnessFixers mangle ++ idiomFixers mangle ++ unittestFixers mangle) {l : Label} {t : Str}
    (h : (F.initial builtinHeap).get? l = some t) : l = str "__root" ∨ l = str "keyword" ∨ l = str "logging_error" ∨ l = str "logging_exception" := by
  rcases group_kinds hF with ⟨r, hr, rfl⟩ | ⟨i, d, text, hi, rfl⟩ | rfl | rfl
  · exact .inl (get?_single h).1
  · have : i = 0 ∨ i = 1 ∨ i = 2 := by
      have := (List.getElem?_eq_some_iff.1 hi).1
      have e : attribDefaults.length = 3 := rfl
      omega
    rcases this with rfl | rfl | rfl <;> exact .inr (.inl (get?_single h).1)
  · exact .inr (.inr (.inl (get?_single h).1))
  · exact .inr (.inr (.inr (get?_single h).1))

/-- The variables of a fixer's templates are bound when it applies. -/
theorem variables_bound {env : Templates} (hv : TemplateVariables env) {p : Path} {v : Val} {F : Fixer} {mi : MatchInfo}
    (hm : FixerMarks mangle digit c ss p v F mi) {l : Label} {t : Str} (h : (F.initial builtinHeap).get? l = some t) :
    ∀ y ∈ (env.sem t).vars, ∃ x, y = .name x ∧ LabelOf mi x ≠ none := by
  have hlab : ∀ {x : Label} {b : BoundValue}, mi.bindings.get? x = some b → LabelOf mi x ≠ none := by
    intro x b hb
    unfold LabelOf
    split
    · simp
    · rw [hb]; simp
  cases hm with
  | rule hr hs ho hb =>
    rename_i r occ
    obtain ⟨rfl, rfl⟩ := get?_single h
    intro y hy
    obtain ⟨x, hx, rfl⟩ := hv.rules r hr y hy
    refine ⟨x, rfl, ?_⟩
    by_cases hne : x = str "__root"
    · unfold LabelOf; rw [if_pos hne]; simp
    · have hxo := builtin_bound r hr x hx
      rw [← reads_vars _ hs.reads] at hxo
      obtain ⟨⟨y, w⟩, hyo, rfl⟩ := List.mem_map.1 hxo
      have hw : w ∈ occ.of y := List.mem_map.2 ⟨(y, w), List.mem_filter.2 ⟨hyo, by simp⟩, rfl⟩
      have := hb y hne
      cases hh : mi.bindings.get? y with
      | some b => exact hlab hh
      | none =>
        rw [hh] at this
        cases hl : (occ.of y).getLast? with
        | none => rw [List.getLast?_eq_none_iff.1 hl] at hw; cases hw
        | some w' => rw [hl] at this; cases this
  | attrib hi ha ho hk =>
    rename_i i d text k
    have : i = 0 ∨ i = 1 ∨ i = 2 := by
      have := (List.getElem?_eq_some_iff.1 hi).1
      have e : attribDefaults.length = 3 := rfl
      omega
    rcases this with rfl | rfl | rfl
    all_goals
      obtain ⟨rfl, rfl⟩ := get?_single h
      intro y hy
      rw [hv.sh _ [] (by decide +kernel)] at hy
      cases hy
  | loggingError _ _ _ =>
    obtain ⟨rfl, rfl⟩ := get?_single h
    intro y hy
    rw [hv.logging] at hy
    cases hy
  | loggingException _ _ _ hf =>
    obtain ⟨rfl, rfl⟩ := get?_single h
    intro y hy
    rw [hv.sh _ [str "func"] (by decide +kernel)] at hy
    simp only [List.map_cons, List.map_nil, List.mem_singleton] at hy
    obtain ⟨b, hb, _⟩ := hf
    exact ⟨_, hy, hlab hb⟩

theorem marks_obj {p : Path} {v : Val} {F : Fixer} {mi : MatchInfo} (hm : FixerMarks mangle digit c ss p v F mi) : mi.obj = createMatch c v := by
  cases hm <;> assumption

/-- **C86**: on a Python file where the nodes that fixers look for have places in the text, `find_iter` of a searcher with a built-in group of fixers (whose templates are
not empty) reports, or raises the exception (other than `RewriteError`) that the template of a fixer raises at an outermost place where it applies. The variables of the
template are bound there. -/
theorem C86_exceptions (hc : PythonFile mangle digit g ss c) (hloc : NodesLocated c) {env : Templates} (hv : TemplateVariables env)
    (htext : ∀ F ∈ correctnessFixers mangle ++ idiomFixers mangle ++ unittestFixers mangle, ∀ l t, (F.initial builtinHeap).get? l = some t → env.text t ≠ [])
    {registry : Registry Fixer} {fs : List Fixer} {heap : MapHeap} {name : Str} {k : Nat} (h1 : refexRegistry mangle = .ok registry)
    (h2 : registry.fromPattern name = .ok fs) (h3 : combineFixers env c.rxGroups k fs builtinHeap = .ok heap) (hn : 58 ≤ n) (tk : TokInfo) :
    (∃ found, pySearch c tk env n (combinedMatcher fs heap) = .ok found) ∨
    ∃ e, pySearch c tk env n (combinedMatcher fs heap) = .error e ∧ e ≠ .rewriteError ∧
      ∃ p v F mi l t ms m, Site mangle digit c ss fs p ∧ c.tree.at? p = some v ∧ FirstApplies mangle digit c ss fs p v F ∧ FixerMarks mangle digit c ss p v F mi ∧
        (F.initial builtinHeap).get? l = some t ∧ ms.WF ∧ (∀ x, ms.get? (.name x) = (LabelOf mi x).map (matchVOf c.text)) ∧ (∀ n, ms.get? (.num n) = none) ∧ Applies ms l m ∧ (∀ x ∈ (env.sem t).vars, ms.get? x ≠ none) ∧
        (env.sem t).substitute m ms = .error e := by
  obtain ⟨hnone, rs, k1, k2, k3, k4⟩ := builtin_matches hc h1 h2 h3 hn
  have hsub := registry_groups h1 h2
  have := pyReports_outcome (c := c) (tk := tk) (env := env) (mis := (treeFind c n (combinedMatcher fs heap)).1) (r := {})
    (Q := fun e => e ≠ .rewriteError ∧ ∃ p v F mi l t ms m, Site mangle digit c ss fs p ∧ c.tree.at? p = some v ∧ FirstApplies mangle digit c ss fs p v F ∧ FixerMarks mangle digit c ss p v F mi ∧
        (F.initial builtinHeap).get? l = some t ∧ ms.WF ∧ (∀ x, ms.get? (.name x) = (LabelOf mi x).map (matchVOf c.text)) ∧ (∀ n, ms.get? (.num n) = none) ∧ Applies ms l m ∧
        (∀ x ∈ (env.sem t).vars, ms.get? x ≠ none) ∧ (env.sem t).substitute m ms = .error e) (by
    intro mi' hmi r
    rw [k1] at hmi
    obtain ⟨rp, hrp, rfl⟩ := List.mem_map.1 hmi
    obtain ⟨v, F, mi, e1, e2, e3, e4, e5, e6⟩ := k4 rp hrp
    have hF := hsub.subset e3
    have e2' := e2
    obtain ⟨pre, post, _, ha, _⟩ := e2
    obtain ⟨t, ht1, ht2, i, ns, vs, rfl⟩ := applies_type ha
    obtain ⟨sp, hsp⟩ := hloc _ i t ns vs e1 ht1
    have hobj : mi.obj = .lexical (.node i t ns vs) sp := by
      rw [marks_obj e4]
      simp only [createMatch, hsp]
      rw [if_neg, if_neg]
      · rintro rfl; revert ht1; decide
      · rintro rfl; revert ht1; decide
    have hmeta := addMeta_meta F _ (builtin_initial F).2
    have hlit : ∀ l t, l ∈ metadataLabels → (F.addMeta (F.initial builtinHeap)).get? l = some t → ∃ s, t = litCode s := by
      intro l t hl hg
      obtain ⟨m1, m2, m3, m4⟩ := hmeta
      simp only [metadataLabels, List.mem_cons, List.not_mem_nil, or_false] at hl
      rcases hl with rfl | rfl | rfl | rfl
      · rw [m1] at hg; obtain ⟨s, _, rfl⟩ := Option.map_eq_some_iff.1 hg; exact ⟨s, rfl⟩
      · rw [m2] at hg; obtain ⟨s, _, rfl⟩ := Option.map_eq_some_iff.1 hg; exact ⟨s, rfl⟩
      · rw [m3] at hg; obtain ⟨s, _, rfl⟩ := Option.map_eq_some_iff.1 hg; exact ⟨s, rfl⟩
      · rw [m4] at hg
        split at hg
        · cases hg; exact ⟨_, rfl⟩
        · cases hg
    have hnr : ∀ l, ¬ RemovesStmt env (F.addMeta (F.initial builtinHeap)) mi l := by
      rintro l hr
      by_cases hl : l ∈ metadataLabels
      · exact unlabelled_removes e5 hl hr
      · obtain ⟨⟨t, h4, h5⟩, _⟩ := hr
        rw [addMeta_other F _ hl] at h4
        exact htext F hF l t h4 h5
    have hout := pyReport_outcome (tk := tk) e6 (addMeta_wf F (builtin_initial F).1) hobj (simple_ends hc.unshared hc.file e1 (by simp [Val.isInner])) hnr (by
      intro t ms m s hg hs
      obtain ⟨cat, hc1, hc2⟩ := fixer_category hF
      rw [hmeta.2.2.1, hc1] at hg
      cases hg
      rw [hv.literal] at hs
      cases hs
      exact hc2) (by
      intro l t hg
      by_cases hl : l ∈ metadataLabels
      · exact .inl hl
      · rw [addMeta_other F _ hl] at hg
        rcases initial_labels hF hg with rfl | rfl | rfl | rfl
        · exact .inr (.inl rfl)
        all_goals exact .inr (.inr fun s h => by cases h)) r
    rcases hout with h | ⟨e, l, t, ms, m, he, hne, hg, ho, ha, hsub'⟩
    · exact .inl h
    · right
      refine ⟨e, he, hne, _, _, F, mi, l, t, ms, m, (k3 _).1 (List.mem_map.2 ⟨rp, hrp, rfl⟩), e1, e2', e4, ?_, ho.wf, fun x => ho.names x (hnr x), ho.only, ha, ?_, hsub'⟩
      · by_cases hl : l ∈ metadataLabels
        · obtain ⟨s, rfl⟩ := hlit l t hl hg
          rw [hv.literal] at hsub'
          cases hsub'
        · rwa [addMeta_other F _ hl] at hg
      · intro y hy
        by_cases hl : l ∈ metadataLabels
        · obtain ⟨s, rfl⟩ := hlit l t hl hg
          rw [hv.literal] at hsub'
          cases hsub'
        · rw [addMeta_other F _ hl] at hg
          obtain ⟨x, rfl, hx⟩ := variables_bound hv e4 hg y hy
          rw [ho.names x (hnr x)]
          cases hh : LabelOf mi x with
          | none => exact absurd hh hx
          | some o => simp)
  unfold pySearch
  rcases this with ⟨found, hfound⟩ | ⟨e, he, hq⟩
  · left
    exact ⟨found, by rw [hfound, hnone]⟩
  · right
    exact ⟨e, by rw [he], hq⟩

/-- **C86**: `find_iter` of a searcher with a built-in group of fixers raises no exception on a Python file where the nodes that fixers look
for have places in the text, if the templates raise nothing but `RewriteError`. -/
theorem C86_no_exception (hc : PythonFile mangle digit g ss c) (hloc : NodesLocated c) {env : Templates} (hv : TemplateVariables env) (ht : GoodTemplates mangle env)
    {registry : Registry Fixer} {fs : List Fixer} {heap : MapHeap} {name : Str} {k : Nat} (h1 : refexRegistry mangle = .ok registry)
    (h2 : registry.fromPattern name = .ok fs) (h3 : combineFixers env c.rxGroups k fs builtinHeap = .ok heap) (hn : 58 ≤ n) (tk : TokInfo) :
    ∃ found, pySearch c tk env n (combinedMatcher fs heap) = .ok found := by
  rcases C86_exceptions hc hloc hv (fun F hF l t h => (ht F hF l t h).1) h1 h2 h3 hn tk with h | ⟨e, _, hne, _, _, F, _, l, t, ms, m, _, _, ⟨_, _, hF, _⟩, _, hg, _, _, _, _, hb, hs⟩
  · exact h
  · exact absurd ((ht F ((registry_groups h1 h2).subset (hF ▸ by simp)) l t hg).2 m ms e hb hs) hne

/-- **C86** (a finding): if the outermost place where a fixer made of a pattern and a template applies has no position in the text (as
inside an f-string before Python 3.12), the search raises an exception, and nothing of the file is reported. -/
theorem C86_unlocated (hc : PythonFile mangle digit g ss c) {env : Templates} (hv : TemplateVariables env)
    {registry : Registry Fixer} {fs : List Fixer} {heap : MapHeap} {name : Str} {k : Nat} (h1 : refexRegistry mangle = .ok registry)
    (h2 : registry.fromPattern name = .ok fs) (h3 : combineFixers env c.rxGroups k fs builtinHeap = .ok heap) (hn : 58 ≤ n) (tk : TokInfo)
    {p : Path} (hp : Site mangle digit c ss fs p) {v : Val} (hat : c.tree.at? p = some v) (hno : createMatch c v = .object v)
    (hr : ∀ F ∈ fs, FixerApplies mangle digit c ss p v F → ∃ r ∈ builtinRules, F = r.fixer mangle) :
    ∃ e, pySearch c tk env n (combinedMatcher fs heap) = .error e := by
  cases h : pySearch c tk env n (combinedMatcher fs heap) with
  | error e => exact ⟨e, rfl⟩
  | ok found =>
    exfalso
    obtain ⟨hnone, rs, k1, k2, k3, k4⟩ := builtin_matches hc h1 h2 h3 hn
    unfold pySearch at h
    split at h
    · cases h
    · rename_i fs' hp' _
      rw [k1] at hp'
      obtain ⟨os, ho1, ho2⟩ := pyReports_each hp'
      obtain ⟨rp, hrp, hpath⟩ := List.mem_map.1 ((k3 p).2 hp)
      obtain ⟨o, _, r0, r0', hrep⟩ := forall2_mem_left ho2 (List.mem_map.2 ⟨rp, hrp, rfl⟩)
      obtain ⟨v', F, mi, e1, e2, e3, e4, e5, e6⟩ := k4 rp hrp
      rw [hpath, hat] at e1
      cases e1
      have hobj : mi.obj = .object v := by rw [marks_obj e4, hno]
      have hwf := addMeta_wf F (builtin_initial F).1
      have hnone := pyReport_unlocated e6 hwf hobj hrep
      subst hnone
      obtain ⟨ms, l, t, m, q1, q2, q3, q4⟩ := pyReport_spec e6 hwf e5 hrep
      obtain ⟨pre, post, _, ha, _⟩ := e2
      rw [hpath] at ha
      obtain ⟨r, hr1, rfl⟩ := hr F e3 ha
      have hlab : LabelOf mi (str "__root") = some (.object v) := by rw [LabelOf, if_pos rfl, hobj]
      have hnr : ¬ RemovesStmt env ((r.fixer mangle).addMeta ((r.fixer mangle).initial builtinHeap)) mi (str "__root") := by
        rintro ⟨_, v, sp, h, _⟩
        rw [hlab] at h
        cases h
      have hmeta := addMeta_meta (r.fixer mangle) _ (builtin_initial (r.fixer mangle)).2
      by_cases hl : l ∈ metadataLabels
      · have hq := q4.resolve_right fun h => unlabelled_removes e5 hl h.1
        obtain ⟨m1, m2, m3, m4⟩ := hmeta
        simp only [metadataLabels, List.mem_cons, List.not_mem_nil, or_false] at hl
        have hx : ∀ s, t = litCode s → False := by
          rintro s rfl
          rw [hv.literal] at hq
          cases hq
        rcases hl with rfl | rfl | rfl | rfl
        · rw [m1] at q2; obtain ⟨s, _, rfl⟩ := Option.map_eq_some_iff.1 q2; exact hx s rfl
        · rw [m2] at q2; obtain ⟨s, _, rfl⟩ := Option.map_eq_some_iff.1 q2; exact hx s rfl
        · rw [m3] at q2; obtain ⟨s, _, rfl⟩ := Option.map_eq_some_iff.1 q2; exact hx s rfl
        · rw [m4] at q2
          split at q2
          · cases q2; exact hx _ rfl
          · cases q2
      · rw [addMeta_other _ _ hl] at q2
        obtain ⟨rfl, rfl⟩ := get?_single q2
        have hg := q1.names _ hnr
        rw [hlab] at hg
        rcases q3 with ⟨q5, q6⟩ | ⟨q5, _⟩
        · rw [hg] at q5; cases q5; exact q6 rfl
        · rw [hg] at q5; cases q5
    · cases h

end

end Refex
