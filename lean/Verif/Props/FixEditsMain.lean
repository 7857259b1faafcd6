import Verif.Props.FixEdits
/- C104: the edits that `--mode=fix` makes. -/
namespace Refex
set_option autoImplicit false

variable {py : Python} {digit : Char → Prop} {g : Grammar} {c : Ctx} {ss : List TopStmt}

theorem vars_not_root : ∀ r ∈ builtinRules, str "__root" ∉ r.old.vars := by decide +kernel

/-- As `rule_replaces`, from what the matches offer. -/
theorem rule_replaced {mangle : Label → Str} {r : Rule} (hr : r ∈ builtinRules) (hmn : Mangles mangle r.new) (hg : PythonGrammar g) {m : Nat} {penv : PyEnv}
    (henv : penv.Fits g) {t : PyTemplate} (ht : t.astMatcher = r.kind.template.matcher (r.new.pattern mangle []))
    {v : Val} {occ : Occs} (hold : r.old.Reads v occ) {obj : MObj} {ms : Dict Label PyMatch} (hw : ms.WF)
    (hms : ∀ x w w1 sp, (occ.of x).getLast? = some w → createMatch c w = .lexical w1 sp → ∀ pm, ms.get? x = some pm → pm.obj = .lexical w1 sp)
    {text : Str} (h : t.substituteMatch m penv (some c) obj ms = .ok text) :
    ∃ replacement cc e occ', (text = replacement ∨ text = str "(" ++ replacement ++ str ")") ∧
      penv.parse replacement = some cc ∧ r.kind.template.Part cc.tree e ∧ r.new.Reads e occ' ∧
      ∀ x w', (x, w') ∈ occ' → ∃ w, (occ.of x).getLast? = some w ∧
        ∀ w1 sp, createMatch c w = .lexical w1 sp → penv.isExpr w1 = true → Parsed g false w1 → SameTree w1 w' := by
  have hmod : HasModules g :=
    ⟨hg.leaves (str "list") (by decide), (hg.types (str "Module", [(str "body", true), (str "type_ignores", true)]) (by decide)).1,
     (hg.types (str "Module", [(str "body", true), (str "type_ignores", true)]) (by decide)).2,
     (hg.types (str "Expr", [(str "value", false)]) (by decide)).1, (hg.types (str "Expr", [(str "value", false)]) (by decide)).2⟩
  have htt : TemplateOf g t r.kind.template [] (codeVariables mangle r.new) (r.new.val mangle) :=
    ⟨ht, codeVariables_nodup hmn, parsed_code hg mangle r.new (builtin_ops r hr).2⟩
  obtain ⟨replacement, map, cc, occ', g1, _, _, g4, ⟨e, he, hI⟩, g6⟩ := C53_substitute_structure hmod henv htt hw h
  obtain ⟨hread, _⟩ := (reads_iff (allowed := fun _ _ => True) r.new (holesAre hmn) (fun x h => h) (fun x h => h) (opsOk (builtin_ops r hr).2)).1 hI
  refine ⟨replacement, cc, e, occ', g1, g4, he, hread, fun x w' hx => ?_⟩
  have hcount : (occ'.of x).length ≤ 1 := by
    rw [occs_of_length, reads_vars _ hread]; exact count_le_of (builtin_once r hr) x
  have hmem : w' ∈ occ'.of x := List.mem_map.2 ⟨(x, w'), List.mem_filter.2 ⟨hx, by simp⟩, rfl⟩
  have hlast : (occ'.of x).getLast? = some w' := by
    match hh : occ'.of x with
    | [] => rw [hh] at hmem; cases hmem
    | [a] => rw [hh] at hmem; rw [List.mem_singleton.1 hmem]; rfl
    | a :: b :: l => rw [hh] at hcount; simp only [List.length_cons] at hcount; omega
  have hxold : x ∈ r.old.vars := builtin_bound r hr x (by rw [← reads_vars _ hread]; exact List.mem_map.2 ⟨(x, w'), hx, rfl⟩)
  have hlast' : ∃ w, (occ.of x).getLast? = some w := by
    rw [← reads_vars _ hold] at hxold
    obtain ⟨⟨y, w⟩, hy, rfl⟩ := List.mem_map.1 hxold
    have : w ∈ occ.of y := List.mem_map.2 ⟨(y, w), List.mem_filter.2 ⟨hy, by simp⟩, rfl⟩
    cases hh : (occ.of y).getLast? with
    | none => rw [List.getLast?_eq_none_iff] at hh; rw [hh] at this; cases this
    | some w => exact ⟨w, rfl⟩
  obtain ⟨w, hwl⟩ := hlast'
  refine ⟨w, hwl, fun w1 sp hc hE hP => ?_⟩
  obtain ⟨pm, hpm, hsame⟩ := g6 x w' hlast
  exact hsame w1 sp (hms x w w1 sp hwl hc pm hpm) hE hP

theorem code_ok {t : PyTemplate} {m : MatchV} {ms : Dict MatchKey MatchV} {new : Str} (h : ((t.code py).on (some c)).substitute m ms = .ok new) :
    t.substituteMatch py.depth py.env (some c) m.obj (namedMatches ms) = .ok new := by
  have h : (match t.substituteMatch py.depth py.env (some c) m.obj (namedMatches ms) with
    | .error e => (.error e.toExc : Except Exc Str)
    | .ok s => .ok s) = .ok new := h
  split at h
  · cases h
  · cases h; assumption

theorem template_code {kind : RuleKind} {text : Str} {t : CodeTemplate} (h : py.template kind.subMode text = .ok t) : ∃ pt, py.pyTemplate kind.asPattern text = .ok pt ∧ t = pt.code py := by
  rw [template_rule] at h
  cases kind with
  | expr =>
    rw [fixTemplate_expr] at h
    cases hp : py.pyTemplate .expr text with
    | error e => rw [hp] at h; cases h
    | ok pt => rw [hp] at h; cases h; exact ⟨pt, hp, rfl⟩
  | stmt =>
    rw [fixTemplate_stmt] at h
    cases hp : py.pyTemplate .stmt text with
    | error e => rw [hp] at h; cases h
    | ok pt => rw [hp] at h; cases h; exact ⟨pt, hp, rfl⟩

theorem templateCode_inj {k k' : RuleKind} {s s' : Str} (h : templateCode k s = templateCode k' s') : k = k' ∧ s = s' := by
  cases k <;> cases k'
  · exact ⟨rfl, List.append_cancel_left h⟩
  · exact absurd h (by intro h; injection (List.cons.inj (List.cons.inj (List.cons.inj (List.cons.inj (List.cons.inj (List.cons.inj h).2).2).2).2).2).2 with h; exact absurd h (by decide))
  · exact absurd h (by intro h; injection (List.cons.inj (List.cons.inj (List.cons.inj (List.cons.inj (List.cons.inj (List.cons.inj h).2).2).2).2).2).2 with h; exact absurd h (by decide))
  · exact ⟨rfl, List.append_cancel_left h⟩

theorem shSource_lits (text : Str) : shSource (text.map ShPart.lit) = text := by
  unfold shSource
  induction text with
  | nil => rfl
  | cons ch text ih => rw [List.map_cons, List.flatMap_cons, ih]; rfl

theorem shWF_lits {text : Str} (h : '$' ∉ text) {ps : List ShPart} (hps : ShWF ps) : ShWF (text.map ShPart.lit ++ ps) := by
  induction text with
  | nil => exact hps
  | cons ch text ih =>
    simp only [List.mem_cons, not_or] at h
    exact ⟨fun e => h.1 e.symm, ih h.2⟩

theorem lits_value (f : Str → Str) (text : Str) : (text.map ShPart.lit).flatMap (ShPart.value f) = text := by
  induction text with
  | nil => rfl
  | cons ch text ih => rw [List.map_cons, List.flatMap_cons, ih]; rfl

theorem lits_names {text : Str} {q : ShPart} (h : q ∈ text.map ShPart.lit) {n : Str} (hn : q.name? = some n) : False := by
  obtain ⟨ch, _, rfl⟩ := List.mem_map.1 h
  cases hn

/-- A shell-style template without dollars. -/
theorem sh_plain {text : Str} (h : '$' ∉ text) {ms : Dict MatchKey MatchV} (hw : ms.WF) : shSubstitute text ms = .ok text := by
  have := C18_substitute (text.map ShPart.lit) (by simpa using shWF_lits h (ps := []) trivial) ms hw (fun n => n) (fun q hq n hn => (lits_names hq hn).elim)
  rw [shSource_lits, lits_value] at this
  exact this

/-- A shell-style template with one name. -/
theorem sh_one {a b name : Str} (ha : '$' ∉ a) (hb : '$' ∉ b) (hname : IsName name) (hend : ∀ ch, b.head? = some ch → isIdChar ch = false)
    {ms : Dict MatchKey MatchV} (hw : ms.WF) {new : Str} (h : shSubstitute (a ++ '$' :: name ++ b) ms = .ok new) :
    ∃ text, TextOf ms (.name name) text ∧ new = a ++ text ++ b := by
  have hsrc : shSource (a.map ShPart.lit ++ (.bare name :: b.map ShPart.lit)) = a ++ '$' :: name ++ b := by
    have e : shSource (a.map ShPart.lit ++ (.bare name :: b.map ShPart.lit)) = shSource (a.map ShPart.lit) ++ (('$' :: name) ++ shSource (b.map ShPart.lit)) := by
      unfold shSource; rw [List.flatMap_append, List.flatMap_cons]; rfl
    rw [e, shSource_lits, shSource_lits]; simp
  have hwf : ShWF (a.map ShPart.lit ++ (.bare name :: b.map ShPart.lit)) :=
    shWF_lits ha ⟨hname, by rw [shSource_lits]; exact hend, by simpa using shWF_lits hb (ps := []) trivial⟩
  rw [← hsrc] at h
  by_cases ht : ∃ text, TextOf ms (.name name) text
  · obtain ⟨text, ht⟩ := ht
    refine ⟨text, ht, ?_⟩
    rw [C18_substitute _ hwf ms hw (fun _ => text) (fun q hq n hn => by
      rcases List.mem_append.1 hq with hq | hq
      · exact (lits_names hq hn).elim
      · rcases List.mem_cons.1 hq with rfl | hq
        · cases hn; exact ht
        · exact (lits_names hq hn).elim)] at h
    rw [List.flatMap_append, List.flatMap_cons, lits_value, lits_value] at h
    cases h
    simp [ShPart.value]
  · rw [C18_needs_names _ hwf ms hw ⟨.bare name, by simp, name, rfl, fun s hs => ht ⟨s, hs⟩⟩] at h
    cases h

theorem label_of_marks {mi : MatchInfo} {x : String} {w : Val} (h : Marks c mi x w) (hx : str x ≠ str "__root") : LabelOf mi (str x) = some (createMatch c w) := by
  obtain ⟨b, hb, e⟩ := h
  rw [LabelOf, if_neg hx, hb, Option.map_some, e]

section
variable (hfit : PythonFits g py) (hnew : ReadsReplacements py) (hg : PythonGrammar g)
include hfit hnew hg

/-- **C104**: what is put in the place of what a built-in fixer has found. -/
theorem C104_edit {p : Path} {v : Val} {F : Fixer} {mi : MatchInfo} (hm : FixerMarks gensymName digit c ss p v F mi) {s : Substitution}
    (hrep : FixReport py gensymName c F mi s) {rs : Dict Label Str} (hrs : s.replacements = some rs) {l : Label} {new : Str} (hl : rs.get? l = some new) :
    ∃ w sp, FixEdit py gensymName digit g c ss p v F l w new ∧ createMatch c w = .lexical w sp ∧ s.matchedSpans.get? l = some sp := by
  obtain ⟨ms, rs', ho, e, hed⟩ := hrep.edits
  rw [hrs] at e; cases e
  obtain ⟨t, m, hw, hml, hsp, hsub⟩ := (hed l new).1 hl
  have hplace : ∀ w, LabelOf mi l = some (createMatch c w) → ∃ sp, createMatch c w = .lexical w sp ∧ s.matchedSpans.get? l = some sp := by
    intro w hlw
    rw [ho.names, hlw] at hml
    cases hml
    obtain ⟨sp, hlex⟩ := located_lexical hsp
    refine ⟨sp, hlex, ?_⟩
    rw [hrep.spans, hlw, hlex]
    rfl
  cases hm with
  | @rule r occ mi hr hs hobj hb => 
    obtain ⟨name, hn, ht⟩ := (own_writes (p := p) (FixerMarks.rule hr hs hobj hb) l t).2 hw
    obtain ⟨rfl, rfl⟩ := get?_single hn
    obtain ⟨pt, hpt, rfl⟩ := template_code ((template_rule _ _).trans ht)
    obtain ⟨pt', h1, _, h2, _⟩ := C104_template hfit.iter hnew hr
    rw [hpt] at h1; cases h1
    obtain ⟨replacement, cc, e, occ', k1, k2, k3, k4, k5⟩ := rule_replaced (c := c) hr (C101_names r hr).2 hg (C93_env_fits hfit) h2 hs.reads
      (namedMatches_wf ho.wf) (fun x w w1 sp hx hlex pm hpm => by
        have hne : x ≠ str "__root" := by
          rintro rfl
          refine vars_not_root r hr ?_
          rw [← reads_vars _ hs.reads]
          have := List.mem_of_getLast? hx
          obtain ⟨⟨y, w'⟩, hy, _⟩ := List.mem_map.1 this
          have hy := List.mem_filter.1 hy
          have e : y = str "__root" := by simpa using hy.2
          exact List.mem_map.2 ⟨(y, w'), hy.1, e⟩
        rw [namedMatches_get, ho.names, LabelOf, if_neg hne, hb x hne, hx] at hpm
        simp only [Option.map_some] at hpm
        cases hpm
        rw [hlex]; rfl) (code_ok hsub)
    obtain ⟨sp, q1, q2⟩ := hplace v (by rw [LabelOf, if_pos rfl, hobj])
    exact ⟨v, sp, .rule hr ⟨replacement, cc, occ, e, occ', k1, k2, k3, hs, k4, k5⟩, q1, q2⟩
  | @attrib i d text k mi hi ha hobj hk =>
    have hi3 : i < 3 := by
      have := (List.getElem?_eq_some_iff.1 hi).1
      simpa [attribDefaults] using this
    have key : (attribFixer gensymName i d).initial builtinHeap = [(str "keyword", shCode text)] := by
      match i, hi3 with
      | 0, _ => cases hi; rfl
      | 1, _ => cases hi; rfl
      | 2, _ => cases hi; rfl
    have hdollar : '$' ∉ text := by
      match i, hi3 with
      | 0, _ => cases hi; decide
      | 1, _ => cases hi; decide
      | 2, _ => cases hi; decide
    obtain ⟨name, hn, ht⟩ := (own_writes (digit := digit) (ss := ss) (p := p) (FixerMarks.attrib hi ha hobj hk) l t).2 hw
    rw [key] at hn
    obtain ⟨rfl, rfl⟩ := get?_single hn
    rw [fixTemplate_sh] at ht
    cases ht
    have hsub : shSubstitute text ms = .ok new := hsub
    rw [sh_plain hdollar ho.wf] at hsub
    cases hsub
    obtain ⟨sp, q1, q2⟩ := hplace k (label_of_marks hk (by decide))
    exact ⟨k, sp, .attrib hi ha, q1, q2⟩
  | @loggingError f mi hlog hobj hk =>
    obtain ⟨name, hn, ht⟩ := (own_writes (digit := digit) (ss := ss) (p := p) (FixerMarks.loggingError hlog hobj hk) l t).2 hw
    obtain ⟨rfl, rfl⟩ := get?_single hn
    obtain ⟨pt, hpt, rfl⟩ := template_code (kind := .stmt) ((template_rule _ _).trans ht)
    obtain ⟨pt', h1, h2, h3, _⟩ := logging_template hfit.iter hnew
    have hpt : py.pyTemplate .stmt (str "logging.exception") = .ok pt := hpt
    rw [hpt] at h1; cases h1
    have htt : TemplateOf g pt .stmt [] (codeVariables gensymName loggingNew) (loggingNew.val gensymName) :=
      ⟨h3, codeVariables_nodup ⟨(by rw [show loggingNew.vars = [] by decide]; exact fun _ h => absurd h List.not_mem_nil), (by rw [show loggingNew.vars = [] by decide]; exact fun _ h => absurd h List.not_mem_nil)⟩, parsed_code hg gensymName loggingNew (by decide)⟩
    obtain ⟨replacement, map, cc, occ', g1, g2, _⟩ := C53_substitute_structure hfit.modules (C93_env_fits hfit) htt (namedMatches_wf ho.wf) (code_ok hsub)
    have := h2 _ _ g2
    subst this
    obtain ⟨sp, q1, q2⟩ := hplace f (label_of_marks hk (by decide))
    exact ⟨f, sp, .loggingError hlog g1, q1, q2⟩
  | @loggingException a f nm mi hlog hobj hk hk2 =>
    obtain ⟨name, hn, ht⟩ := (own_writes (digit := digit) (ss := ss) (p := p) (FixerMarks.loggingException hlog hobj hk hk2) l t).2 hw
    obtain ⟨rfl, rfl⟩ := get?_single hn
    have ht : py.fixTemplate (shCode (str "logging.exception('Call to \"$func\" resulted in an error')")) = .ok t := ht
    rw [fixTemplate_sh] at ht
    cases ht
    have hsub : shSubstitute (str "logging.exception('Call to \"" ++ '$' :: str "func" ++ str "\" resulted in an error')") ms = .ok new := hsub
    obtain ⟨text, htext, rfl⟩ := sh_one (name := str "func") (by decide) (by decide) ⟨'f', str "unc", rfl, by decide, by decide⟩ (by
      intro ch h
      cases h
      decide) ho.wf hsub
    obtain ⟨mv, hmv, hstr⟩ := htext
    rw [ho.names, label_of_marks hk2 (by decide)] at hmv
    cases hmv
    obtain ⟨sp, q1, q2⟩ := hplace v (label_of_marks hk (by decide))
    exact ⟨v, sp, .loggingException hlog hstr, q1, q2⟩

/-- **C104**: everything that is found is one of the edits of the fixers. -/
theorem C104_search {fs : List Fixer} {content : Str} {subs : List Substitution} (hres : FixResult py gensymName digit fs content subs) :
    FixEdits py gensymName digit g fs content subs := by
  refine ⟨hres, fun s hs => ?_⟩
  obtain ⟨c, ss, ps, os, h1, h2, _, _, rfl, h5⟩ := hres
  obtain ⟨o, ho, hos⟩ := List.mem_filterMap.1 hs
  have hos : o = some s := hos
  subst hos
  obtain ⟨p, _, v, F, mi, k1, k2, k3, k4⟩ := forall2_mem_right h5 ho
  obtain ⟨_, rs, _, hrs, _⟩ := FixReport.edits k4
  exact ⟨c, ss, p, v, F, rs, h1, h2, k1, k2, hrs, fun l new hl => C104_edit hfit hnew hg k3 k4 hrs hl⟩

/-- **C104**: the command `--mode=fix`, whose patterns and templates are made of their texts. -/
theorem C104_command (hpat : ReadsPatterns py) {groups : Str → List Label} (hfixer : py.fixer = py.textFixer groups)
    (hfile : ∀ s c, py.file s = some c → ∃ ss, PythonFile gensymName digit g ss c)
    (hd : 58 ≤ py.depth) {w : World} (hw : w.parseAst = py.parseAst) {o : Options} {r : Runner} (hr : runnerFromOptions w py.modes o = .ok r) (hmode : o.mode = str "fix")
    (hne : o.searchReplace ≠ []) :
    ∃ fss, Forall2 (FixersOf gensymName) o.searchReplace fss ∧ ∀ content path out, r.find content path = .ok out →
      PyPath path ∧ AlsoHolds o content ∧ py.file content ≠ none ∧
      IteratedResult (fun t => py.file t ≠ none) (FoundBy o.forceEnable py.pragmas (fss.map (FixEdits py gensymName digit g))) (o.iterate.getD 10) content out := by
  obtain ⟨fss, h1, h2⟩ := C97_command (C101_command hpat hfixer).1 (C104_tokens hfit.iter hnew) hfile hd hw hr hmode hne
  have e : FixEdits py gensymName digit g = FixResult py gensymName digit := by
    funext fs content subs
    exact propext ⟨fun h => h.1, C104_search hfit hnew hg⟩
  refine ⟨fss, h1, fun content path out hout => ?_⟩
  rw [e]
  exact (h2 content path).2.2.2 out hout

end

/-- **C104**: an assertion that is replaced succeeds exactly when what is put in its place does, provided the value of an expression depends on its tree
only (up to `==` of constants). -/
theorem C104_assertions {w : ValueWorld} (hw : w.Pythonic) (hstable : ∀ a b, SameTree a b → w.value a = w.value b) {r : Rule} (hr : r ∈ unittestRules)
    (ha : ∀ e a, r.old ≠ .attr e a) {v : Val}
    (hx : ∀ occ x a, r.old.Reads v occ → (x, a) ∈ occ → ∃ sp, createMatch c a = .lexical a sp ∧ py.isExpr a = true ∧ Parsed g false a)
    {new : Str} (h : RuleEdit py digit g c ss r v new) :
    ∃ text cc e b, Wrapped text new ∧ py.file text = some cc ∧ r.kind.template.Part cc.tree e ∧ Succeeds w v b ∧ Succeeds w e b := by
  obtain ⟨text, cc, occ, e, occ', h1, h2, h3, h4, h5, h6⟩ := h
  have hnd : (occ.map Prod.fst).Nodup := (C82_order hr h4.1 h5).2
  obtain ⟨b, g1, g2⟩ := C82_assertions hw hr ha h4.1 h5 (fun x a a' hxa hxa' => by
    obtain ⟨a1, e1, e2⟩ := h6 x a' hxa'
    rw [occs_of_nodup hnd hxa] at e1
    cases e1
    obtain ⟨sp, f1, f2, f3⟩ := hx occ x a h4.1 hxa
    exact hstable _ _ (e2 a sp f1 f2 f3))
  exact ⟨text, cc, e, b, h1, h2, h3, g1, g2⟩

end Refex
