import Verif.Spec.FixErrors
import Verif.Props.FixModeMain
import Verif.Props.TemplateErrors
/- C97: the exceptions of a search in mode `fix`. -/
namespace Refex
set_option autoImplicit false

variable {py : Python} {mangle : Label → Str} {groups : Str → List Label} {digit : Char → Prop} {g : Grammar} {c : Ctx} {ss : List TopStmt}

/-- What stands for a metavariable in code of the grammar is a tree of the grammar. -/
theorem reads_parsed {p : Code} (hm : Mangles mangle p) (ho : ∀ op ∈ p.ops, op ∈ comparisonOps) {v : Val} {occ : Occs} (h : p.Reads v occ) {b : Bool}
    (hv : Parsed g b v) : ∀ e ∈ occ, ∃ b, Parsed g b e.2 := by
  have hi := (reads_iff (allowed := fun _ _ => True) p (v := v) (occ := occ) (holesAre hm) (fun x h => h) (fun x h => h) (opsOk ho)).2 ⟨h, fun _ _ => trivial⟩
  exact instance_parsed _ _ _ hi b hv

theorem located_lexical {text : Str} {v : Val} (h : (matchVOf text (createMatch c v)).span ≠ none) : ∃ sp, createMatch c v = .lexical v sp := by
  have key : ∀ o, createMatch c v = o → (matchVOf text o).span ≠ none → ∃ sp, o = .lexical v sp := by
    intro o ho hs
    unfold createMatch at ho
    repeat' split at ho
    all_goals subst ho
    all_goals first | exact ⟨_, rfl⟩ | exact absurd rfl hs
  exact key _ rfl h

theorem lexical_eq {v w : Val} {sp : Span} (h : createMatch c v = .lexical w sp) : w = v := by
  obtain ⟨sp', h'⟩ := located_lexical (c := c) (text := []) (v := v) (by rw [h]; simp [matchVOf])
  rw [h] at h'; cases h'; rfl

theorem sh_raises {text : Str} {vs : List Str} (hv : shVariables text = .ok vs) {ms : Dict MatchKey MatchV} (hw : ms.WF) {e : Exc}
    (h : shSubstitute text ms = .error e) : e = .keyError ∧ ∃ n ∈ vs, ∀ s, ¬ TextOf ms (.name n) s := by
  obtain ⟨ps, hps, rfl⟩ : ∃ ps, ShWF ps ∧ shSource ps = text := Classical.byContradiction fun hn => by
    rw [(C18_malformed_rejected text).2 hn] at hv; cases hv
  obtain ⟨vs', hv', hmem⟩ := C18_variables ps hps
  rw [hv] at hv'
  cases hv'
  by_cases hall : ∃ p ∈ ps, ∃ n, p.name? = some n ∧ ∀ s, ¬ TextOf ms (.name n) s
  · rw [C18_needs_names ps hps ms hw hall] at h
    cases h
    obtain ⟨p, hp, n, hn, hno⟩ := hall
    exact ⟨rfl, n, (hmem n).2 ⟨p, hp, hn⟩, hno⟩
  · exfalso
    have hdef : ∀ p ∈ ps, ∀ n, p.name? = some n → ∃ s, TextOf ms (.name n) s := fun p hp n hn =>
      Classical.byContradiction fun hx => hall ⟨p, hp, n, hn, fun s hs => hx ⟨s, hs⟩⟩
    have hdef : ∀ p ∈ ps, ∀ n, p.name? = some n → TextOf ms (.name n) (((ms.get? (.name n)).bind (·.string)).getD []) := by
      intro p hp n hn
      obtain ⟨s, v, h1, h2⟩ := hdef p hp n hn
      exact ⟨v, h1, by rw [h1]; simp [h2]⟩
    rw [C18_substitute ps hps ms hw (fun n => ((ms.get? (.name n)).bind (·.string)).getD []) hdef] at h
    cases h

section
variable (hfit : PythonFits g py) (hword : WordTokens py) (htok : TokensFit py) (hc : PythonFile mangle digit g ss c)
include hfit hword

/-- What a Python template of a fixer raises, at a node of the file. -/
theorem code_raises {F : Fixer} {mi : MatchInfo} {l : Label} {kind : PatternKind} {text : Str} {t : PyTemplate} (ht : py.pyTemplate kind text = .ok t)
    (hwr : FixerWrites py mangle F l (t.code py)) (hun : Unshared c.tree) {p q : Path} (hpq : p <+: q) {w : Val} (hat : c.tree.at? q = some w) (hin : w.isInner)
    (hlab : LabelOf mi l = some (createMatch c w)) {ms : Dict MatchKey MatchV} (ho : OffersAll c mi ms) {m : MatchV} (hm : ms.get? (.name l) = some m)
    (hsp : m.span ≠ none) (hvars : ∀ x ∈ t.variables, ∀ w sp, LabelOf mi x = some (.lexical w sp) → ∃ b, Parsed g b w) {e : Exc}
    (he : ((t.code py).on (some c)).substitute m ms = .error e) (hne : e ≠ .rewriteError) : FixRaises py mangle c p F mi ms e := by
  rw [ho.names, hlab] at hm
  cases hm
  obtain ⟨sp, hlex⟩ := located_lexical hsp
  rw [hlex] at he
  have he : (match t.substituteMatch py.depth py.env (some c) (.lexical w sp) (namedMatches ms) with
    | .error e => (.error e.toExc : Except Exc Str)
    | .ok s => .ok s) = .error e := he
  split at he
  · rename_i te hte
    cases he
    refine .python hwr (by rw [hlab, hlex]) hpq hat (fun h => hne (by rw [h]; rfl)) ?_
    have hne' : text ≠ [] := by
      have := writes_nonempty hwr
      rwa [show (t.code py).text = t.template from rfl, pyTemplate_text ht] at this
    refine C99_raises hfit hword ht hne' (fun c' w' sp' h1 h2 => by cases h1; cases h2; exact ⟨hun, hat, hin⟩) (namedMatches_wf ho.wf) (fun x hx pm w' sp' h1 h2 => ?_) hte
    rw [namedMatches_get, ho.names] at h1
    cases hlx : LabelOf mi x with
    | none => rw [hlx] at h1; cases h1
    | some o =>
      rw [hlx] at h1
      cases h1
      cases o with
      | lexical w'' sp'' =>
        have h2 : MObj.lexical w'' sp'' = .lexical w' sp' := h2
        cases h2
        exact hvars x hx _ _ hlx
      | span s sp'' => cases sp'' <;> cases h2
      | _ => cases h2
  · cases he

include htok hc

/-- What a fixer raises where it applies. -/
theorem fixer_raises {p : Path} {v : Val} (hat : c.tree.at? p = some v) (hin : v.isInner) {F : Fixer} {mi : MatchInfo} (hm : FixerMarks mangle digit c ss p v F mi)
    {l : Label} {name : Str} (hn : (F.initial builtinHeap).get? l = some name) {t : CodeTemplate} (ht : py.fixTemplate name = .ok t)
    {ms : Dict MatchKey MatchV} (ho : OffersAll c mi ms) {m : MatchV} (hl : ms.get? (.name l) = some m) (hsp : m.span ≠ none) {e : Exc}
    (he : (t.on (some c)).substitute m ms = .error e) (hne : e ≠ .rewriteError) : FixRaises py mangle c p F mi ms e := by
  have hwr := (own_writes hm l t).1 ⟨name, hn, ht⟩
  have hpv : ∃ b, Parsed g b v := parsed_at hc.parsed hat
  cases hm with
  | @rule r occ mi hr hs hobj hb =>
    obtain ⟨rfl, rfl⟩ := get?_single hn
    have hroot : LabelOf mi (str "__root") = some (createMatch c v) := by rw [LabelOf, if_pos rfl, hobj]
    have hvars : ∀ x w sp, LabelOf mi x = some (.lexical w sp) → ∃ b, Parsed g b w := by
      intro x w sp hx
      by_cases hr' : x = str "__root"
      · rw [hr', hroot] at hx
        have := lexical_eq (Option.some.inj hx)
        subst this; exact hpv
      · rw [LabelOf, if_neg hr', hb x hr'] at hx
        cases hl : (occ.of x).getLast? with
        | none => rw [hl] at hx; cases hx
        | some w' =>
          rw [hl] at hx
          have := lexical_eq (Option.some.inj hx)
          subst this
          obtain ⟨b, hpv⟩ := hpv
          exact reads_parsed (hc.mangles r hr) (builtin_ops r hr).1 hs.reads hpv (x, w) (Occs.mem_of.1 (List.mem_of_getLast? hl))
    have key : ∃ kind t', py.pyTemplate kind r.newText = .ok t' ∧ t = t'.code py := by
      cases hk : r.kind with
      | expr =>
        rw [hk, fixTemplate_expr] at ht
        cases hp : py.pyTemplate .expr r.newText with
        | error e => rw [hp] at ht; cases ht
        | ok t' => rw [hp] at ht; cases ht; exact ⟨_, t', hp, rfl⟩
      | stmt =>
        rw [hk, fixTemplate_stmt] at ht
        cases hp : py.pyTemplate .stmt r.newText with
        | error e => rw [hp] at ht; cases ht
        | ok t' => rw [hp] at ht; cases ht; exact ⟨_, t', hp, rfl⟩
    obtain ⟨kind, t', ht', rfl⟩ := key
    exact code_raises hfit hword ht' hwr hc.unshared (List.prefix_refl p) hat hin hroot ho hl hsp (fun x _ => hvars x) he hne
  | @attrib i d text k mi hi _ _ hmk =>
    exfalso
    have hi3 : i < 3 := by
      have := (List.getElem?_eq_some_iff.1 hi).1
      simpa [attribDefaults] using this
    have key : (attribFixer mangle i d).initial builtinHeap = [(str "keyword", shCode text)] ∧ shVariables text = .ok [] := by
      match i, hi3 with
      | 0, _ => cases hi; exact ⟨rfl, by decide +kernel⟩
      | 1, _ => cases hi; exact ⟨rfl, by decide +kernel⟩
      | 2, _ => cases hi; exact ⟨rfl, by decide +kernel⟩
    rw [key.1] at hn
    obtain ⟨rfl, rfl⟩ := get?_single hn
    rw [fixTemplate_sh] at ht
    cases ht
    obtain ⟨_, n, hn, _⟩ := sh_raises key.2 ho.wf he
    cases hn
  | @loggingError f mi hle hobj hmk =>
    obtain ⟨rfl, rfl⟩ := get?_single hn
    rw [fixTemplate_stmt] at ht
    obtain ⟨args, kws, ⟨i, j, k, rfl⟩, hrf, _⟩ := hle
    obtain ⟨b, hb1, hb2⟩ := hmk
    have hlab : LabelOf mi (str "logging_error") = some (createMatch c f) := by
      rw [LabelOf, if_neg (by decide), hb1, ← hb2]; rfl
    cases hp : py.pyTemplate .stmt (str "logging.exception") with
    | error e => rw [hp] at ht; cases ht
    | ok t' =>
      rw [hp] at ht; cases ht
      have hno := code_vars htok hp (vars := []) (fun toks h x hx => absurd hx (htok.logging toks h x)) (some c)
      have hfi : f.isInner := by
        cases hrf
        intro i c h; cases h
      exact code_raises hfit hword hp hwr hc.unshared (List.prefix_append p [0]) (by rw [at?_append, hat]; rfl) hfi hlab ho hl hsp (fun x hx => by
        obtain ⟨_, h, _⟩ := hno (.name x) (List.mem_map.2 ⟨x, hx, rfl⟩)
        cases h) he hne
  | @loggingException a f s mi hle hobj _ hmk =>
    obtain ⟨rfl, rfl⟩ := get?_single hn
    rw [fixTemplate_sh] at ht
    cases ht
    obtain ⟨rfl, n, hn, hno⟩ := sh_raises (vs := [str "func"]) (by decide +kernel) ho.wf he
    rw [List.mem_singleton] at hn
    subst hn
    refine .function rfl fun o hlo => ?_
    cases hstr : (matchVOf c.text o).string with
    | none => rfl
    | some s => exact absurd ⟨_, by rw [ho.names, hlo]; rfl, hstr⟩ (hno s)

end

theorem made_text {F : Fixer} (hF : F ∈ correctnessFixers mangle ++ idiomFixers mangle ++ unittestFixers mangle) {l : Label} {name : Str}
    (hn : (F.initial builtinHeap).get? l = some name) {t : CodeTemplate} (ht : py.fixTemplate name = .ok t) : t.text ≠ [] := by
  suffices h : FixerWrites py mangle F l t from writes_nonempty h
  rcases group_kinds hF with ⟨r, hr, rfl⟩ | ⟨i, d, text, hi, rfl⟩ | rfl | rfl
  · obtain ⟨rfl, rfl⟩ := get?_single hn
    exact .rule hr ((template_rule _ _).trans ht)
  · have key : (attribFixer mangle i d).initial builtinHeap = [(str "keyword", shCode text)] := by
      have hi3 : i < 3 := by
        have := (List.getElem?_eq_some_iff.1 hi).1
        simpa [attribDefaults] using this
      match i, hi3 with
      | 0, _ => cases hi; rfl
      | 1, _ => cases hi; rfl
      | 2, _ => cases hi; rfl
    rw [key] at hn
    obtain ⟨rfl, rfl⟩ := get?_single hn
    exact .attrib hi (by rw [template_sh, ← fixTemplate_sh (py := py)]; exact ht)
  · obtain ⟨rfl, rfl⟩ := get?_single hn
    exact .loggingError (by rw [template_stmt, ← fixTemplate_stmt]; exact ht)
  · obtain ⟨rfl, rfl⟩ := get?_single hn
    exact .loggingException (by rw [template_sh, ← fixTemplate_sh (py := py)]; exact ht)

/-- **C97**: where the nodes that fixers look for have places in the text, the search of a Python file in mode `fix` finds something (or nothing), or raises an exception
that the first fixer that applies to an outermost place raises there: nothing but what its Python template raises (C99), or (for one of the fixers) a
KeyError because a function has no text. -/
theorem C97_exceptions (hfit : PythonFits g py) (hword : WordTokens py) (hpy : py.fixer = py.builtinFixer mangle groups) (htok : TokensFit py)
    (hfile : ∀ s c, py.file s = some c → ∃ ss, PythonFile mangle digit g ss c) (hd : 58 ≤ py.depth) {pattern : Option Str} {ts : Dict Str CodeTemplate} {s : Searcher}
    (h : py.factory (str "fix") pattern ts = .ok s) :
    ∃ name fs, pattern = some name ∧ FixGroup mangle name fs ∧ ∀ content path c, py.file content = some c → NodesLocated c →
      (∃ subs, s.find ⟨content, path, py.pragmas content⟩ = .ok subs) ∨
      ∃ e ss p v F mi ms, s.find ⟨content, path, py.pragmas content⟩ = .error e ∧ FileTree c.tree ss ∧ Site mangle digit c ss fs p ∧ c.tree.at? p = some v ∧
        FirstApplies mangle digit c ss fs p v F ∧ FixerMarks mangle digit c ss p v F mi ∧ OffersAll c mi ms ∧ FixRaises py mangle c p F mi ms e := by
  rw [factory_fix hpy] at h
  split at h
  · unfold Python.builtinFixer Python.groupsFixer at h
    split at h
    · cases h
    rename_i hmade
    split at h
    · cases h
    rename_i registry hreg
    have hreg : refexRegistry mangle = .ok registry := hreg
    split at h
    · cases h
    rename_i name
    split at h
    · cases h
    rename_i fs hfs
    split at h
    · cases h
    rename_i heap hcomb
    cases h
    have hg := (fixGroup_iff hreg).1 hfs
    refine ⟨name, fs, rfl, hg, fun content path c hc hloc => ?_⟩
    simp only [fileRegexFiltered, hc]
    obtain ⟨ss, hpf⟩ := hfile _ _ hc
    obtain ⟨n, hn8⟩ : ∃ n, py.depth = n + 8 := ⟨py.depth - 8, by omega⟩
    obtain ⟨registry', fs', heap', e1, e2, _, _, e3⟩ := combine_group (g := c.rxGroups) (fixTemplates_variables htok (some c)) hpf.mangles n (fixGroup_name hg)
    rw [hreg] at e1
    cases e1
    rw [hfs] at e2
    cases e2
    rw [← hn8] at e3
    cases combine_heap hcomb e3
    have hmk : ∀ F ∈ correctnessFixers mangle ++ idiomFixers mangle ++ unittestFixers mangle, ∀ l name, (F.initial builtinHeap).get? l = some name →
        ∃ t, py.fixTemplate name = .ok t := fun F hF l name hn =>
      makeTemplates_ok.1 hmade name (List.mem_flatMap.2 ⟨F, hF, List.mem_map.2 ⟨(l, name), Dict.get?_some_mem hn, rfl⟩⟩)
    have htext : ∀ F ∈ correctnessFixers mangle ++ idiomFixers mangle ++ unittestFixers mangle, ∀ l t, (F.initial builtinHeap).get? l = some t →
        (py.fixTemplates (some c)).text t ≠ [] := by
      intro F hF l name hn
      obtain ⟨t, ht⟩ := hmk F hF l name hn
      rw [(fixTemplates_sem ht).2]
      exact made_text hF hn ht
    rcases C86_exceptions hpf hloc (fixTemplates_variables htok (some c)) htext hreg hfs e3 hd (py.tokInfo content) with
      ⟨found, hf⟩ | ⟨e, he, hne, p, v, F, mi, l, t, ms, m, k1, k2, k3, k4, k5, k6, k7, k8, k9, _, k11⟩
    · left
      rw [hf]
      exact ⟨_, rfl⟩
    · right
      rw [he]
      have ho : OffersAll c mi ms := ⟨k6, k7, k8⟩
      have hF : F ∈ correctnessFixers mangle ++ idiomFixers mangle ++ unittestFixers mangle := by
        obtain ⟨pre, post, h1, _⟩ := k3
        exact (registry_groups hreg hfs).subset (h1 ▸ by simp)
      obtain ⟨ct, hct⟩ := hmk F hF l t k5
      rw [(fixTemplates_sem hct).1] at k11
      have hl : ms.get? (.name l) = some m ∧ m.span ≠ none := by
        rcases k9 with h | ⟨h1, _, s, h2⟩
        · exact h
        · exfalso
          rcases initial_labels hF k5 with rfl | rfl | rfl | rfl
          · rw [k7, LabelOf, if_pos rfl] at h1; cases h1
          all_goals cases h2
      have hin : v.isInner := by
        obtain ⟨_, _, _, ha, _⟩ := k3
        obtain ⟨_, _, _, i, ns, vs, rfl⟩ := applies_type ha
        simp [Val.isInner]
      exact ⟨e, ss, p, v, F, mi, ms, rfl, hpf.file, k1, k2, k3, k4, ho, fixer_raises hfit hword htok hpf k2 hin k4 k5 hct ho hl.1 hl.2 k11 hne⟩
  · cases h

end Refex
