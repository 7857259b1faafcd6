import Verif.Props.Modes
import Verif.Props.Surroundings
/- C93: what a Python template on the command line writes. -/
namespace Refex
set_option autoImplicit false

/-! ### The matcher of a template -/

/-- The metavariables of a pattern have different new names. -/
theorem buildPattern_names {parse : Str → Option Val} (hparse : ∀ s tree, parse s = some tree → ParserTree tree) {iter : List Nat → List Nat}
    (hiter : ∀ l, (iter l).Perm l) {kind : PatternKind} {body : List PTok} {em : PTok} (hes : em.string = []) {added : Bool} {m : Matcher}
    (h : buildPattern parse iter kind (body ++ [em]) added [] = .ok m) :
    ∃ anonymous variables s tree t, m = patternMatcher (submatchers anonymous variables []) t ∧ (variables.map Prod.snd).Nodup ∧ parse s = some tree ∧
      Intended kind tree t := by
  unfold buildPattern at h
  split at h
  · cases h
  · rename_i out idx htp
    split at h
    · cases h
    · rename_i st hr
      split at h
      · cases h
      · rename_i s _
        split at h
        · cases h
        · split at h
          · cases h
          · split at h
            · cases h
            · rename_i tree hps
              split at h
              · cases h
              · split at h
                · cases h
                · rename_i t hpl
                  cases h
                  refine ⟨st.anonymous, st.variables, s, tree, t, rfl, ?_, hps, (pull_iff (hparse s tree hps) kind t).1 hpl⟩
                  obtain ⟨body', mk, hm, ho, hi, _⟩ := tokenPattern_read hes htp
                  have hp := hiter idx
                  have hspec := (markedAt_spec mk 0).1
                  simp only [Nat.zero_le, true_and, Nat.sub_zero] at hspec
                  have hlt : ∀ i ∈ iter idx, i < out.length := by
                    intro i hio
                    obtain ⟨t, ht⟩ := (hspec i).1 (hi ▸ hp.mem_iff.1 hio)
                    have := (List.getElem?_eq_some_iff.1 ht).1
                    rw [ho]; simp; omega
                  have hnd : (iter idx).Nodup := by
                    rw [hp.nodup_iff, hi]
                    exact (markedAt_spec mk 0).2.imp (fun h => by omega)
                  have hw := remapVariables_WF hr
                  refine nodup_snd hw fun x y a hx hy => ?_
                  obtain ⟨_, i, hii, e1, e2⟩ := (C48_tables hlt hnd hr x a).1.1 (Dict.get?_of_mem hw hx)
                  obtain ⟨_, j, hjj, e3, e4⟩ := (C48_tables hlt hnd hr y a).1.1 (Dict.get?_of_mem hw hy)
                  by_cases hij : i = j
                  · subst hij
                    obtain ⟨u, hu, rfl⟩ := e1
                    obtain ⟨u', hu', rfl⟩ := e3
                    rw [hu] at hu'; cases hu'; rfl
                  · exact ((C48_consistent hlt hnd hr hii hjj hij e1 e3 e2 e4).1 rfl).1

theorem factory_whole (kind : PatternKind) (m : Matcher) : kind.factory m = kind.whole.matcher m := by cases kind <;> rfl

section
variable {g : Grammar} {py : Python} (hfit : PythonFits g py)

theorem pyTemplate_parts {kind : PatternKind} {text : Str} {t : PyTemplate} (h : py.pyTemplate kind text = .ok t) :
    ∃ toks m, py.tokens (withNewline text) = some toks ∧ tokenPattern toks (addsNewline text) = some (t.toks, t.metas) ∧ py.pattern kind text = .ok m ∧
      buildPattern py.parse py.iter kind toks (addsNewline text) [] = .ok m ∧ t.template = text ∧ t.astMatcher = kind.factory m := by
  unfold Python.pyTemplate at h
  split at h
  · cases h
  · rename_i toks htoks
    split at h
    · cases h
    · rename_i out idx htp
      split at h
      · cases h
      · rename_i m hm
        cases h
        refine ⟨toks, m, htoks, htp, hm, ?_, rfl, rfl⟩
        unfold Python.pattern at hm
        rw [htoks] at hm
        exact hm

include hfit

theorem pyTemplate_of {kind : PatternKind} {text : Str} {t : PyTemplate} (h : py.pyTemplate kind text = .ok t) :
    ∃ anonymous variables tree, TemplateOf g t kind.whole anonymous variables tree := by
  obtain ⟨toks, m, htoks, _, _, hb, _, ha⟩ := pyTemplate_parts h
  obtain ⟨body, em, rfl, hes⟩ := hfit.tokens _ _ htoks
  obtain ⟨an, vs, s, tree, tr, rfl, hn, hps, hint⟩ := buildPattern_names hfit.parse hfit.iter hes hb
  exact ⟨an, vs, tr, by rw [ha, factory_whole], hn, hfit.grammar _ _ _ _ hps hint⟩

/-- What C53 and C80 assume of Python holds of the templates of the command line. -/
theorem C93_env_fits : py.env.Fits g where
  parsed := fun s c h => (hfit.file s c h).2.1
  module := fun s c h => (hfit.file s c h).2.2
  template := fun s t h => by
    have h : (match py.pyTemplate .module s with
      | .ok t => some t
      | .error _ => none) = some t := h
    split at h
    · rename_i t' ht
      cases h
      exact pyTemplate_of hfit ht
    · cases h

/-! ### What is filled in -/

omit hfit in
theorem namedMatches_get (ms : Dict MatchKey MatchV) (x : Label) : (namedMatches ms).get? x = (ms.get? (.name x)).map fun m => ⟨m.obj, m.string⟩ := by
  unfold namedMatches
  induction ms with
  | nil => rfl
  | cons e ms ih =>
    obtain ⟨k, m⟩ := e
    cases k with
    | num n =>
      rw [List.filterMap_cons, Dict.get?, if_neg (fun h : MatchKey.num n = .name x => by cases h)]
      exact ih
    | name l =>
      rw [List.filterMap_cons, Dict.get?]
      simp only
      rw [Dict.get?]
      by_cases h : l = x
      · rw [if_pos h, if_pos (by rw [h])]; rfl
      · rw [if_neg h, if_neg (fun h' : MatchKey.name l = .name x => h (by injection h'))]
        exact ih

omit hfit in
theorem namedMatches_wf {ms : Dict MatchKey MatchV} (hw : ms.WF) : (namedMatches ms).WF := by
  unfold namedMatches
  induction ms with
  | nil => exact List.nodup_nil
  | cons e ms ih =>
    obtain ⟨k, m⟩ := e
    simp only [Dict.WF, Dict.keys, List.map_cons, List.nodup_cons] at hw
    cases k with
    | num n => rw [List.filterMap_cons]; exact ih hw.2
    | name l =>
      rw [List.filterMap_cons]
      simp only [Dict.WF, Dict.keys, List.map_cons, List.nodup_cons]
      refine ⟨fun hm => hw.1 ?_, ih hw.2⟩
      obtain ⟨⟨l', pm⟩, he, rfl⟩ := List.mem_map.1 hm
      obtain ⟨⟨k', m'⟩, he', hk⟩ := List.mem_filterMap.1 he
      cases k' with
      | num n => cases hk
      | name l'' => cases hk; exact List.mem_map.2 ⟨_, he', rfl⟩

omit hfit in
theorem matchersFor_get (isExpr : Val → Bool) (ms : Dict Label PyMatch) (x : Label) : (matchersFor isExpr ms).get? x = (ms.get? x).map fun m =>
    match m.obj with
    | .lexical w _ => if isExpr w then exactMatcher w else .anything
    | _ => .anything := by
  unfold matchersFor
  exact get?_map_value ms (fun m => match m.obj with
    | .lexical w _ => if isExpr w then exactMatcher w else .anything
    | _ => .anything) x

omit hfit in
theorem each_forall2 {α β : Type} {R : α → β → Prop} {as : List α} {bs : List β} (h : Each R as bs) : Forall2 R as bs := by
  induction h with
  | nil => exact .nil
  | cons h _ ih => exact .cons h ih

omit hfit in
theorem parsed_node {b : Bool} {v : Val} (h : Parsed g b v) (hv : v.isNode = true) : Parsed g false v := by
  cases h with
  | const h => exact .const h
  | list => cases hv
  | node h1 h2 h3 h4 h5 => exact .node h1 h2 h3 h4 h5

omit hfit in
theorem dropParens_wf {n : Nat} {parse : Str → Option Ctx} {t : PyTemplate} {cand : Matcher} : ∀ (rest : List (Label × Str)) (text : Str)
    (safe : Dict Label Str), safe.WF → ∀ r, t.dropParens n parse cand rest text safe = .ok r → r.2.WF
  | [], text, safe, hw, r, h => by rw [PyTemplate.dropParens] at h; cases h; exact hw
  | (k, raw) :: rest, text, safe, hw, r, h => by
    rw [PyTemplate.dropParens] at h
    split at h
    · cases h
    · split at h
      · exact dropParens_wf rest _ _ hw r h
      · split at h
        · cases h
        · exact dropParens_wf rest _ _ hw r h
        · exact dropParens_wf rest _ _ (Dict.WF_set hw k raw) r h

omit hfit in
theorem parenthesized_wf {n : Nat} {parse : Str → Option Ctx} {t : PyTemplate} {matchers : Dict Label Matcher} {strings : Dict Label Str} (hw : strings.WF)
    {r : Str × Dict Label Str} (h : t.parenthesized n parse matchers strings = .ok r) : r.2.WF := by
  unfold PyTemplate.parenthesized at h
  split at h
  · cases h
  · split at h
    · cases h
    · split at h
      · cases h
      · cases h
      · split at h
        · cases h
        · exact dropParens_wf _ _ _ (wf_safe hw) r h

/-- **C93**, the text: a Python template of the command line writes its text with every variable replaced by the text of its match,
in parentheses where that is needed; the whole may be in parentheses. -/
theorem C93_template {kind : PatternKind} {text : Str} {t : PyTemplate} (h : py.pyTemplate kind text = .ok t) (hne : text ≠ [])
    {toks : List PTok} {ps : List (Str × Str)} (htok : py.tokens (withNewline text) = some toks) (hplain : PlainTokens toks ps)
    {parsed : Option Ctx} {m : MatchV} {ms : Dict MatchKey MatchV} (hw : ms.WF)
    (hms : ∀ x m e, ms.get? (.name x) = some m → m.node = some e → ∃ b, Parsed g b e) {r : Str} (hr : ((t.code py).on parsed).substitute m ms = .ok r) :
    ∃ new, (r = new ∨ r = str "(" ++ new ++ str ")") ∧ TextFilled py text (fun x => ms.get? (.name x)) new ∧
      TreeFilled py kind text (fun x => ms.get? (.name x)) new := by
  obtain ⟨toks', mt, htok', htp, hpat, hb, htext, ha⟩ := pyTemplate_parts h
  rw [htok] at htok'; cases htok'
  have hr : (match t.substituteMatch py.depth py.env parsed m.obj (namedMatches ms) with
    | .error e => Except.error e.toExc
    | .ok s => .ok s) = .ok r := hr
  split at hr
  · cases hr
  rename_i r' hsub
  cases hr
  obtain ⟨new, map, hpar, hcase⟩ := C53_substitute hsub
  have hnw := namedMatches_wf hw
  have hsw := stringified_wf hnw
  have hres := hplain
  obtain ⟨⟨body, em, rfl, hem, hes, hz⟩, hlay⟩ := hplain
  rcases buildPattern_outcome hem hes hz hlay py.parse hfit.parse py.iter hfit.iter kind (addsNewline text) [] with ⟨_, hno⟩ | ⟨_, l, s, hread, _, hmade⟩
  · rw [hb] at hno; cases hno
  obtain ⟨an, vs, tree, tr, rfl, hnd, hmean, hnone, hps, hfound, hint⟩ := hmade mt hb
  have hto : TemplateOf g t kind.whole an vs tr := ⟨by rw [ha, factory_whole], hnd, hfit.grammar _ _ _ _ hps hint⟩
  obtain ⟨hfill, hch, c, occ, hc, hS, occ0, hso, hlk⟩ := C53_structure hfit.modules (fun s c h => (hfit.file s c h).2.1) hto hsw hpar
  have hmw : map.WF := parenthesized_wf hsw hpar
  refine ⟨new, ?_, ?_, ?_⟩
  · rcases hcase with h | ⟨c', w, sp, q, parent, parentSpan, _, _, _, _, _, _, _, hin⟩
    · exact .inl h
    · exact (C53_in_parent hfit.modules (C93_env_fits hfit) hin).1
  · have htx := C53_text hem hes hz hlay htp (by rw [htext]; exact hne) hmw
    rw [hfill] at htx
    obtain ⟨qs, l', kept, h1, h2, h3⟩ := htx
    refine ⟨_, ps, qs, l', kept, htok, hres, h1, h2, fun p hp => ?_⟩
    have hg := h3 p hp
    have hx := hch p.1
    rw [stringified_get hnw, namedMatches_get] at hx
    cases hm : ms.get? (.name p.1) with
    | none => rw [hm] at hx; rw [show map.get? p.1 = none from hx] at hg; cases hg
    | some mv =>
      rw [hm] at hx
      cases hstr : mv.string with
      | none =>
        have hx : match mv.string with
          | none => map.get? p.1 = none
          | some s => map.get? p.1 = some s ∨ _ := hx
        rw [hstr] at hx; rw [hx] at hg; cases hg
      | some s =>
        have hx : match mv.string with
          | none => map.get? p.1 = none
          | some s => map.get? p.1 = some s ∨ _ := hx
        rw [hstr] at hx
        refine ⟨mv, s, hm, hstr, ?_⟩
        rcases hx with hx | ⟨_, hx⟩
        · rw [hx] at hg; injection hg with hg; exact .inl hg.symm
        · rw [hx] at hg; injection hg with hg; exact .inr hg.symm
  · obtain ⟨w, hpart, hinst⟩ := hS.inst
    rw [hmean] at hinst
    refine ⟨_, tr, c, w, occ, ⟨_, ps, l, s, tree, htok, hres, hread, hnone, hps, hfound, hint, rfl⟩, hc, hpart, hinst, ⟨occ0, each_forall2 hso, hlk⟩, ?_⟩
    intro x v hv
    have hk := hS.known x v hv
    unfold Dict.has at hk
    rw [matchersFor_get, namedMatches_get] at hk
    cases hm : ms.get? (.name x) with
    | none => rw [hm] at hk; cases hk
    | some mv =>
      refine ⟨mv, hm, fun e he hsp hx => ?_⟩
      obtain ⟨b, hb⟩ := hms x mv e hm he
      refine hS.right x v e hv ?_ (parsed_node hb (hfit.expr e hx))
      rw [matchersFor_get, namedMatches_get, hm]
      cases hsp' : mv.span with
      | none => exact absurd hsp' hsp
      | some sp =>
        have : mv.obj = .lexical e sp := by unfold MatchV.obj; rw [he, hsp']
        show some (match mv.obj with
          | .lexical w _ => if py.isExpr w then exactMatcher w else .anything
          | _ => .anything) = _
        rw [this]
        simp only [hx, if_true]

omit hfit in
/-- The matches of an instance are parts of the file. -/
theorem offered_parsed {c : Ctx} (htree : Parsed g false c.tree) {what : Str → Hole} {t : Val} {hits : List PatternHit} (hh : PatternHits what t c.tree hits)
    {h : PatternHit} (hmem : h ∈ hits) (x : Label) (e : Val) (he : (h.label c x).bind MObj.matched? = some e) : ∃ b, Parsed g b e := by
  obtain ⟨hat, hinst, _⟩ := hh.sound h hmem
  obtain ⟨b, hb⟩ := parsed_at htree hat
  have hval : ∀ w, (createMatch c w).matched? = some e → w = e := by
    intro w hw
    rw [createMatch_matched] at hw
    split at hw
    · cases hw
    · cases hw; rfl
  unfold PatternHit.label at he
  split at he
  · have := hval h.node he
    rw [← this]; exact ⟨b, hb⟩
  · cases hl : (h.occ.of x).getLast? with
    | none => rw [hl] at he; cases he
    | some w =>
      rw [hl] at he
      have := hval w he
      rw [← this]
      exact instance_parsed _ _ _ hinst b hb (x, w) (Occs.mem_of.1 (List.mem_of_getLast? hl))

/-- **C93**, the edits: where no template is empty, what a Python template writes for an instance of the pattern is its own text with every variable replaced by the text of what
stands for it in the instance, and, read as Python, its own tree with the trees of what stands for the variables. -/
theorem C93_edits {kind : PatternKind} {text : Str} {t : PyTemplate} (h : py.pyTemplate kind text = .ok t) (hne : text ≠ [])
    {toks : List PTok} {ps : List (Str × Str)} (htok : py.tokens (withNewline text) = some toks) (hplain : PlainTokens toks ps)
    {content : Str} {c : Ctx} (hc : py.file content = some c) {what : Str → Hole} {pat : Val} {hits : List PatternHit} (hh : PatternHits what pat c.tree hits)
    {hit : PatternHit} (hmem : hit ∈ hits) {ts : Dict Str CodeTemplate} (hts : ∀ l u, ts.get? l = some u → u.text ≠ []) {l : Label} (hl : ts.get? l = some (t.code py))
    {s : Substitution} (hs : Reports c ts (hit.label c) s) {rs : Dict Label Str} (hrs : s.replacements = some rs) {r : Str} (hr : rs.get? l = some r) :
    ∃ new, (r = new ∨ r = str "(" ++ new ++ str ")") ∧ TextFilled py text (fun x => (hit.label c x).map (matchVOf c.text)) new ∧
      TreeFilled py kind text (fun x => (hit.label c x).map (matchVOf c.text)) new := by
  obtain ⟨_, ⟨ms, rs', hoff, _, hrs', hrep, _⟩, _⟩ := hs
  rw [hrs] at hrs'; cases hrs'
  have hnd : ∀ x, ¬ Deletes ts (hit.label c) x := by
    rintro x ⟨⟨u, hu, he⟩, _⟩
    exact hts x u hu he
  obtain ⟨_, u, m, hu, _, hsub⟩ := (hrep l r (hnd l)).1 hr
  rw [hl] at hu; cases hu
  have hfun : (fun x => ms.get? (.name x)) = fun x => (hit.label c x).map (matchVOf c.text) := funext fun x => hoff.names x (hnd x)
  have hms : ∀ x m e, ms.get? (.name x) = some m → m.node = some e → ∃ b, Parsed g b e := by
    intro x m e hx he
    rw [hoff.names x (hnd x)] at hx
    cases ho : hit.label c x with
    | none => rw [ho] at hx; cases hx
    | some o =>
      rw [ho] at hx
      injection hx with hx
      refine offered_parsed (hfit.file _ _ hc).2.1 hh hmem x e ?_
      rw [ho]
      subst hx
      cases o with
      | lexical v sp => exact he
      | string s => cases he
      | object v => cases he
      | span s sp => cases he
      | bare => cases he
  rw [← hfun]
  exact C93_template hfit h hne htok hplain hoff.wf hms hsub

end

end Refex
