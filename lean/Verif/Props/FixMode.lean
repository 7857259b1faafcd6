import Verif.Spec.FixMode
import Verif.Props.Iterated
import Verif.Props.ModesTemplateMore
import Verif.Props.BuiltinSearchTotal
/- C97: mode `fix` of the command line. -/
namespace Refex
set_option autoImplicit false

variable {py : Python} {mangle : Label → Str} {groups : Str → List Label} {digit : Char → Prop} {g : Grammar}

/-! ### Templates by name -/

theorem afterPrefix_append (pre s : Str) : afterPrefix pre (pre ++ s) = some s := by
  induction pre with
  | nil => cases s <;> rfl
  | cons c cs ih => simp [afterPrefix, ih]

theorem fixTemplate_lit (s : Str) : py.fixTemplate (litCode s) = .ok ⟨s, .ok [], fun _ => literalTemplate s⟩ := by
  unfold Python.fixTemplate litCode
  rw [afterPrefix_append]

theorem fixTemplate_sh (s : Str) : py.fixTemplate (shCode s) = .ok (shCodeTemplate s) := by
  unfold Python.fixTemplate shCode
  rw [show afterPrefix (str "LiteralTemplate:") (str "ShTemplate:" ++ s) = none from rfl]
  simp only
  rw [afterPrefix_append]

theorem fixTemplate_expr (s : Str) : py.fixTemplate (templateCode .expr s) = (py.pyTemplate .expr s).map (·.code py) := by
  unfold Python.fixTemplate templateCode
  simp only
  rw [show afterPrefix (str "LiteralTemplate:") (str "PythonExprTemplate:" ++ s) = none from rfl]
  simp only
  rw [show afterPrefix (str "ShTemplate:") (str "PythonExprTemplate:" ++ s) = none from rfl]
  simp only
  rw [afterPrefix_append]

theorem fixTemplate_stmt (s : Str) : py.fixTemplate (templateCode .stmt s) = (py.pyTemplate .stmt s).map (·.code py) := by
  unfold Python.fixTemplate templateCode
  simp only
  rw [show afterPrefix (str "LiteralTemplate:") (str "PythonStmtTemplate:" ++ s) = none from rfl]
  simp only
  rw [show afterPrefix (str "ShTemplate:") (str "PythonStmtTemplate:" ++ s) = none from rfl]
  simp only
  rw [show afterPrefix (str "PythonExprTemplate:") (str "PythonStmtTemplate:" ++ s) = none from rfl]
  simp only
  rw [afterPrefix_append]

theorem template_sh (s : Str) : py.template (str "sh") s = .ok (shCodeTemplate s) := by
  unfold Python.template
  rw [if_neg (by decide), if_pos rfl]

theorem template_expr (s : Str) : py.template (str "py.expr") s = (py.pyTemplate .expr s).map (·.code py) := by
  unfold Python.template
  rw [if_neg (by decide), if_neg (by decide), if_neg (by decide), if_pos rfl]

theorem template_stmt (s : Str) : py.template (str "py.stmt") s = (py.pyTemplate .stmt s).map (·.code py) := by
  unfold Python.template
  rw [if_neg (by decide), if_neg (by decide), if_neg (by decide), if_neg (by decide), if_pos rfl]

theorem template_rule (k : RuleKind) (s : Str) : py.template k.subMode s = py.fixTemplate (templateCode k s) := by
  cases k
  · exact (template_expr s).trans (fixTemplate_expr s).symm
  · exact (template_stmt s).trans (fixTemplate_stmt s).symm

theorem pyTemplate_text {kind : PatternKind} {text : Str} {t : PyTemplate} (h : py.pyTemplate kind text = .ok t) : t.template = text := by
  unfold Python.pyTemplate at h
  split at h
  · cases h
  split at h
  · cases h
  split at h
  · cases h
  · cases h; rfl

theorem template_text {mode s : Str} {t : CodeTemplate} (hm : mode = str "sh" ∨ mode = str "py.expr" ∨ mode = str "py.stmt") (h : py.template mode s = .ok t) :
    t.text = s := by
  rcases hm with rfl | rfl | rfl
  · rw [template_sh] at h; cases h; rfl
  · rw [template_expr] at h
    cases hp : py.pyTemplate .expr s with
    | error e => rw [hp] at h; cases h
    | ok t' => rw [hp] at h; cases h; exact pyTemplate_text hp
  · rw [template_stmt] at h
    cases hp : py.pyTemplate .stmt s with
    | error e => rw [hp] at h; cases h
    | ok t' => rw [hp] at h; cases h; exact pyTemplate_text hp

theorem fixTemplates_sem {c : Option Ctx} {name : Str} {t : CodeTemplate} (h : py.fixTemplate name = .ok t) :
    (py.fixTemplates c).sem name = t.on c ∧ (py.fixTemplates c).text name = t.text := by
  simp only [Python.fixTemplates, h, and_self]

theorem code_vars {kind : PatternKind} {text : Str} (htok : TokensFit py) {vars : List Label} {t : PyTemplate} (h : py.pyTemplate kind text = .ok t)
    (hvars : ∀ toks, py.tokens (withNewline text) = some toks → ∀ x, Mentions toks x → x ∈ vars) (c : Option Ctx) :
    ∀ v ∈ ((t.code py).on c).vars, ∃ x ∈ vars, v = .name x := by
  obtain ⟨toks, mt, htk, _⟩ := pyTemplate_parts h
  obtain ⟨vs, h1, h2⟩ := template_variables htok.ends h htk
  intro v hv
  have : v ∈ vs := by
    have h1 : (Except.ok (t.variables.map MatchKey.name) : Except Exc (List MatchKey)) = .ok vs := h1
    cases h1; exact hv
  obtain ⟨x, rfl, hx⟩ := (h2 v).1 this
  exact ⟨x, hvars toks htk x hx, rfl⟩

theorem fixTemplates_variables (htok : TokensFit py) (c : Option Ctx) : TemplateVariables (py.fixTemplates c) where
  literal := fun s => (fixTemplates_sem (fixTemplate_lit s)).1
  sh := fun text names h => by
    rw [(fixTemplates_sem (fixTemplate_sh text)).1]
    simp only [shCodeTemplate, h]
  rules := by
    intro r hr v hv
    cases ht : py.fixTemplate (templateCode r.kind r.newText) with
    | error e => simp only [Python.fixTemplates, ht, literalTemplate] at hv; cases hv
    | ok t =>
      rw [(fixTemplates_sem ht).1] at hv
      cases hk : r.kind with
      | expr =>
        rw [hk, fixTemplate_expr] at ht
        cases hp : py.pyTemplate .expr r.newText with
        | error e => rw [hp] at ht; cases ht
        | ok t' =>
          rw [hp] at ht; cases ht
          exact code_vars htok hp (htok.rules r hr) c v hv
      | stmt =>
        rw [hk, fixTemplate_stmt] at ht
        cases hp : py.pyTemplate .stmt r.newText with
        | error e => rw [hp] at ht; cases ht
        | ok t' =>
          rw [hp] at ht; cases ht
          exact code_vars htok hp (htok.rules r hr) c v hv
  logging := by
    cases ht : py.fixTemplate (templateCode .stmt (str "logging.exception")) with
    | error e => simp only [Python.fixTemplates, ht, literalTemplate]
    | ok t =>
      rw [(fixTemplates_sem ht).1]
      rw [fixTemplate_stmt] at ht
      cases hp : py.pyTemplate .stmt (str "logging.exception") with
      | error e => rw [hp] at ht; cases ht
      | ok t' =>
        rw [hp] at ht; cases ht
        have := code_vars htok (vars := []) hp (fun toks h x hx => absurd hx (htok.logging toks h x)) c
        cases hv : ((t'.code py).on c).vars with
        | nil => rfl
        | cons v vs =>
          rw [hv] at this
          obtain ⟨x, hx, _⟩ := this v (List.mem_cons_self ..)
          cases hx

/-! ### The templates of the fixers -/

theorem makeTemplates_ok {names : List Str} : py.makeTemplates names = .ok () ↔ ∀ n ∈ names, ∃ t, py.fixTemplate n = .ok t := by
  induction names with
  | nil => simp [Python.makeTemplates]
  | cons n names ih =>
    simp only [Python.makeTemplates, List.mem_cons, forall_eq_or_imp]
    cases h : py.fixTemplate n with
    | error e => simp
    | ok t => simp [ih]

theorem own_writes {c : Ctx} {ss : List TopStmt} {p : Path} {v : Val} {F : Fixer} {mi : MatchInfo} (hm : FixerMarks mangle digit c ss p v F mi) (l : Label) (t : CodeTemplate) :
    (∃ name, (F.initial builtinHeap).get? l = some name ∧ py.fixTemplate name = .ok t) ↔ FixerWrites py mangle F l t := by
  constructor
  · rintro ⟨name, hn, ht⟩
    cases hm with
    | @rule r occ mi hr _ _ _ =>
      obtain ⟨rfl, rfl⟩ := get?_single hn
      exact .rule hr ((template_rule _ _).trans ht)
    | @attrib i d text k mi hi _ _ _ =>
      have hi3 : i < 3 := by
        have := (List.getElem?_eq_some_iff.1 hi).1
        simpa [attribDefaults] using this
      have key : (attribFixer mangle i d).initial builtinHeap = [(str "keyword", shCode text)] := by
        match i, hi3 with
        | 0, _ => cases hi; rfl
        | 1, _ => cases hi; rfl
        | 2, _ => cases hi; rfl
      rw [key] at hn
      obtain ⟨rfl, rfl⟩ := get?_single hn
      exact .attrib hi (by rw [template_sh, ← fixTemplate_sh (py := py)]; exact ht)
    | loggingError _ _ _ =>
      obtain ⟨rfl, rfl⟩ := get?_single hn
      exact .loggingError (by rw [template_stmt, ← fixTemplate_stmt]; exact ht)
    | loggingException _ _ _ _ =>
      obtain ⟨rfl, rfl⟩ := get?_single hn
      exact .loggingException (by rw [template_sh, ← fixTemplate_sh (py := py)]; exact ht)
  · intro h
    cases h with
    | @rule r t hr ht => exact ⟨_, rfl, (template_rule _ _).symm.trans ht⟩
    | @attrib i d text t hi ht =>
      have hi3 : i < 3 := by
        have := (List.getElem?_eq_some_iff.1 hi).1
        simpa [attribDefaults] using this
      have key : (attribFixer mangle i d).initial builtinHeap = [(str "keyword", shCode text)] := by
        match i, hi3 with
        | 0, _ => cases hi; rfl
        | 1, _ => cases hi; rfl
        | 2, _ => cases hi; rfl
      exact ⟨shCode text, by rw [key]; rfl, by rw [fixTemplate_sh, ← template_sh (py := py)]; exact ht⟩
    | loggingError ht => exact ⟨_, rfl, by rw [fixTemplate_stmt, ← template_stmt]; exact ht⟩
    | loggingException ht => exact ⟨_, rfl, by rw [fixTemplate_sh, ← template_sh (py := py)]; exact ht⟩

theorem newTexts_nonempty : ∀ r ∈ builtinRules, r.newText ≠ [] := by
  have : builtinRules.all (fun r => !r.newText.isEmpty) = true := by decide +kernel
  intro r hr h
  have := List.all_eq_true.1 this r hr
  rw [h] at this
  cases this

theorem writes_nonempty {F : Fixer} {l : Label} {t : CodeTemplate} (h : FixerWrites py mangle F l t) : t.text ≠ [] := by
  cases h with
  | @rule r t hr ht =>
    rw [template_text (by cases r.kind <;> simp [RuleKind.subMode]) ht]
    exact newTexts_nonempty r hr
  | @attrib i d text t hi ht =>
    rw [template_text (.inl rfl) ht]
    match i with
    | 0 => cases hi; decide
    | 1 => cases hi; decide
    | 2 => cases hi; decide
    | i + 3 => simp [attribDefaults] at hi
  | loggingError ht => rw [template_text (.inr (.inr rfl)) ht]; decide
  | loggingException ht => rw [template_text (.inl rfl) ht]; decide

/-! ### The search -/

theorem buildFixers_same {env env' : Templates} {gr gr' : Str → List Label} {fs : List Fixer} {heap a b : MapHeap} (ha : buildFixers env gr fs heap = .ok a)
    (hb : buildFixers env' gr' fs heap = .ok b) : a = b := by
  induction fs generalizing heap with
  | nil => cases ha; cases hb; rfl
  | cons F fs ih =>
    simp only [buildFixers] at ha hb
    split at ha
    · cases ha
    · split at hb
      · cases hb
      · exact ih ha hb

theorem combine_heap {env env' : Templates} {gr gr' : Str → List Label} {n n' : Nat} {fs : List Fixer} {heap a b : MapHeap}
    (ha : combineFixers env gr n fs heap = .ok a) (hb : combineFixers env' gr' n' fs heap = .ok b) : a = b := by
  unfold combineFixers at ha hb
  split at ha
  · cases ha
  split at hb
  · cases hb
  split at ha
  · cases ha
  split at hb
  · cases hb
  cases ha; cases hb
  exact buildFixers_same (by assumption) (by assumption)

section
variable {c : Ctx} {ss : List TopStmt} {p : Path} {v : Val} {F : Fixer} {mi : MatchInfo} (hm : FixerMarks mangle digit c ss p v F mi)
  (hmade : ∀ l name, (F.initial builtinHeap).get? l = some name → ∃ t, py.fixTemplate name = .ok t) (hu : Unlabelled mi)
include hm hmade hu

theorem fix_removes (l : Label) : ¬ RemovesStmt (py.fixTemplates (some c)) (F.addMeta (F.initial builtinHeap)) mi l := by
  intro hr
  by_cases hl : l ∈ metadataLabels
  · exact unlabelled_removes hu hl hr
  · obtain ⟨⟨name, hn, ht⟩, _⟩ := hr
    rw [addMeta_other F _ hl] at hn
    obtain ⟨t, hmk⟩ := hmade l name hn
    rw [(fixTemplates_sem hmk).2] at ht
    exact writes_nonempty ((own_writes hm l t).1 ⟨name, hn, hmk⟩) ht

theorem fix_offers {ms : Dict MatchKey MatchV} (ho : Offered c (py.fixTemplates (some c)) (F.addMeta (F.initial builtinHeap)) mi ms) : OffersAll c mi ms :=
  ⟨ho.wf, fun l => ho.names l (fix_removes hm hmade hu l), ho.only⟩

theorem applies_label {ms : Dict MatchKey MatchV} (ho : OffersAll c mi ms) {l : Label} {t : CodeTemplate} (hw : FixerWrites py mangle F l t) {m : MatchV} :
    Applies ms l m ↔ ms.get? (.name l) = some m ∧ m.span ≠ none := by
  constructor
  · rintro (h | ⟨h1, _, s, h2⟩)
    · exact h
    · exfalso
      cases hw with
      | rule =>
        rw [ho.names, LabelOf, if_pos rfl] at h1
        cases h1
      | attrib =>
        have : (str "keyword").head? = some '_' := by rw [h2]; rfl
        revert this; decide
      | loggingError =>
        have : (str "logging_error").head? = some '_' := by rw [h2]; rfl
        revert this; decide
      | loggingException =>
        have : (str "logging_exception").head? = some '_' := by rw [h2]; rfl
        revert this; decide
  · exact .inl

theorem fix_gives {ms : Dict MatchKey MatchV} (ho : OffersAll c mi ms) {l : Label} {new : Str} :
    (l ∉ metadataLabels ∧ Gives (py.fixTemplates (some c)) (F.addMeta (F.initial builtinHeap)) ms l new) ↔
      ∃ t m, FixerWrites py mangle F l t ∧ ms.get? (.name l) = some m ∧ m.span ≠ none ∧ (t.on (some c)).substitute m ms = .ok new := by
  constructor
  · rintro ⟨hl, name, m, hn, ha, hs⟩
    rw [addMeta_other F _ hl] at hn
    obtain ⟨t, hmk⟩ := hmade l name hn
    rw [(fixTemplates_sem hmk).1] at hs
    have hw := (own_writes hm l t).1 ⟨name, hn, hmk⟩
    obtain ⟨h1, h2⟩ := (applies_label hm hmade hu ho hw).1 ha
    exact ⟨t, m, hw, h1, h2, hs⟩
  · rintro ⟨t, m, hw, h1, h2, hs⟩
    obtain ⟨name, hn, hmk⟩ := (own_writes hm l t).2 hw
    have hl : l ∉ metadataLabels := fun h => by rw [(builtin_initial F).2 l h] at hn; cases hn
    exact ⟨hl, name, m, by rw [addMeta_other F _ hl]; exact hn, .inl ⟨h1, h2⟩, by rw [(fixTemplates_sem hmk).1]; exact hs⟩

theorem fix_report (htok : TokensFit py) (hun : Unshared c.tree) {mi' : MatchInfo} (hd : Decorated (F.addMeta (F.initial builtinHeap)) mi mi') {f : Found}
    (h : Finding c (py.fixTemplates (some c)) (F.addMeta (F.initial builtinHeap)) mi f) (hk : keySpanOf c mi'.bindings = .ok f.keySpan) :
    FixReport py mangle c F mi f.substitution := by
  have hff := fixerFinding_of (fixTemplates_variables htok (some c)).literal (builtin_initial F).2 hu h
  obtain ⟨hp, ⟨ms, ho, h1, h2, h3, h4, _, _, _, _⟩, h9⟩ := h
  have ho' := fix_offers hm hmade hu ho
  refine ⟨?_, fun l => ?_, wf_map_label h2 h9, ⟨ms, f.replacements.map fun e => (e.1.label, e.2), ho', rfl, fun l new => ?_⟩, hff.message, hff.url, hff.category,
    hff.significant, keySpan_part hun hd hk⟩
  · show f.primaryLabel.label = _; rw [hp]; rfl
  · have := h1 l
    rw [ho'.names l] at this
    have e : f.substitution.matchedSpans.get? l = f.matchedSpans.get? (.name l) := get?_map_label _ h2 l
    rw [e, this]
    cases LabelOf mi l <;> rfl
  · rw [get?_map_label _ h4, h3 l new (fix_removes hm hmade hu l)]
    exact fix_gives hm hmade hu ho'

theorem fix_refused (h : Refused c (py.fixTemplates (some c)) (F.addMeta (F.initial builtinHeap)) mi) : FixRefused py mangle c F mi := by
  obtain ⟨ms, l, name, m, ho, hn, ha, hs⟩ := h
  have ho' := fix_offers hm hmade hu ho
  rcases hs with hs | ⟨hr, _⟩
  · by_cases hl : l ∈ metadataLabels
    · exfalso
      have hlit : ∃ s, name = litCode s := by
        obtain ⟨m1, m2, m3, m4⟩ := addMeta_meta F _ (builtin_initial F).2
        have opt : ∀ (o : Option Str), o.map litCode = some name → ∃ s, name = litCode s := by
          intro o h
          cases o with
          | none => cases h
          | some s => exact ⟨s, (Option.some.inj h).symm⟩
        simp only [metadataLabels, List.mem_cons, List.not_mem_nil, or_false] at hl
        rcases hl with rfl | rfl | rfl | rfl
        · rw [m1] at hn; exact opt _ hn
        · rw [m2] at hn; exact opt _ hn
        · rw [m3] at hn; exact opt _ hn
        · rw [m4] at hn
          split at hn
          · exact ⟨_, (Option.some.inj hn).symm⟩
          · cases hn
      obtain ⟨s, rfl⟩ := hlit
      rw [(fixTemplates_sem (fixTemplate_lit s)).1] at hs
      cases hs
    · rw [addMeta_other F _ hl] at hn
      obtain ⟨t, hmk⟩ := hmade l name hn
      rw [(fixTemplates_sem hmk).1] at hs
      have hw := (own_writes hm l t).1 ⟨name, hn, hmk⟩
      obtain ⟨h1, h2⟩ := (applies_label hm hmade hu ho' hw).1 ha
      exact ⟨ms, l, t, m, ho', hw, h1, h2, hs⟩
  · exact absurd hr (fix_removes hm hmade hu l)

end

theorem fix_search {c : Ctx} {ss : List TopStmt} (hc : PythonFile mangle digit g ss c) (htok : TokensFit py)
    (hmade : py.makeTemplates (fixerTemplates (correctnessFixers mangle ++ idiomFixers mangle ++ unittestFixers mangle)) = .ok ())
    {registry : Registry Fixer} {fs : List Fixer} {heap : MapHeap} {name : Str} {k : Nat} (h1 : refexRegistry mangle = .ok registry)
    (h2 : registry.fromPattern name = .ok fs) (h3 : combineFixers (py.fixTemplates (some c)) c.rxGroups k fs builtinHeap = .ok heap) (hn : 58 ≤ py.depth)
    (tk : TokInfo) {found : List Found} (h : pySearch c tk (py.fixTemplates (some c)) py.depth (combinedMatcher fs heap) = .ok found) :
    ∃ (ps : List Path) (os : List (Option Found)), ps.Pairwise (fun a b => before a b = true) ∧ (∀ p, p ∈ ps ↔ Site mangle digit c ss fs p) ∧
      found = os.filterMap id ∧
      Forall2 (fun p o => ∃ v F mi, c.tree.at? p = some v ∧ FirstApplies mangle digit c ss fs p v F ∧ FixerMarks mangle digit c ss p v F mi ∧
        FixOutcome py mangle c F mi (o.map Found.substitution)) ps os := by
  have hsub := registry_groups h1 h2
  obtain ⟨hnone, rs, k1, k2, k3, k4⟩ := builtin_matches hc h1 h2 h3 hn
  unfold pySearch at h
  split at h
  · cases h
  · rename_i fs' hp _
    cases h
    rw [k1] at hp
    obtain ⟨os, ho1, ho2⟩ := pyReports_each hp
    refine ⟨rs.map (·.path), os, k2, k3, ho1, ?_⟩
    refine forall2_from_map (forall2_imp (forall2_map_left ho2) ?_)
    rintro r hr o ⟨r0, r0', hrep⟩
    obtain ⟨v, F, mi, e1, e2, e3, e4, e5, e6⟩ := k4 r hr
    have hspec := pyReport_spec e6 (addMeta_wf F (builtin_initial F).1) e5 hrep
    have hF := hsub.subset e3
    have hmk : ∀ l name, (F.initial builtinHeap).get? l = some name → ∃ t, py.fixTemplate name = .ok t := by
      intro l name hn
      exact makeTemplates_ok.1 hmade name (List.mem_flatMap.2 ⟨F, hF, List.mem_map.2 ⟨(l, name), Dict.get?_some_mem hn, rfl⟩⟩)
    refine ⟨v, F, mi, e1, e2, e4, ?_⟩
    cases o with
    | none => exact fix_refused e4 hmk e5 hspec
    | some f => exact fix_report e4 hmk e5 htok hc.unshared e6 hspec.1 hspec.2
  · cases h

end Refex
