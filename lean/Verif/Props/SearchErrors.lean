import Verif.Spec.SearchErrors
import Verif.Props.FixErrors
/- C99: the exceptions of a search for a pattern of the command line. -/
namespace Refex
set_option autoImplicit false

/-- What stands for a metavariable in an instance is below it. -/
theorem instance_below {hole : Val → Hole} {al : Label → Val → Prop} (t v : Val) (occ : Occs) (h : Instance hole al t v occ) :
    ∀ p ∈ occ, ∃ r, v.at? r = some p.2 := by
  suffices H : ∀ k (t : Val), t.size ≤ k → ∀ v occ, Instance hole al t v occ → ∀ p ∈ occ, ∃ r, v.at? r = some p.2 from
    H _ t (Nat.le_refl _) v occ h
  have kids : ∀ {v u w : Val}, u ∈ v.children → (∃ r, u.at? r = some w) → ∃ r, v.at? r = some w := by
    rintro v u w hu ⟨r, hr⟩
    obtain ⟨m, hm⟩ := List.getElem?_of_mem hu
    exact ⟨m :: r, by rw [Val.at?, hm]; exact hr⟩
  intro k
  induction k with
  | zero => intro t ht; have := t.size_pos; omega
  | succ k ih =>
    intro t ht v occ h
    cases h with
    | named e a => intro p hp; simp at hp; subst hp; exact ⟨[], rfl⟩
    | anonymous e => simp
    | const e a => simp
    | @list i j ts vs _ e a =>
      have ih' : ∀ t ∈ ts, ∀ v occ, Instance hole al t v occ → ∀ p ∈ occ, ∃ r, v.at? r = some p.2 := fun t ht' =>
        ih t (by have := size_mem ht'; simp only [Val.size] at ht; omega)
      intro p hp
      refine Exists.elim (?_ : ∃ u ∈ vs, ∃ r, u.at? r = some p.2) fun u hu => kids hu.1 hu.2
      clear ht ih e
      induction ts generalizing vs occ with
      | nil => cases a; simp at hp
      | cons t ts iht =>
        cases a with
        | @cons _ _ w ws o os a1 a2 =>
          rcases List.mem_append.1 hp with hp | hp
          · exact ⟨w, by simp, ih' t (by simp) w o a1 p hp⟩
          · obtain ⟨u, h1, h2⟩ := iht os a2 (fun t ht => ih' t (by simp [ht])) hp
            exact ⟨u, by simp [h1], h2⟩
    | @node i j ty ns ts vs _ e a =>
      have ih' : ∀ t ∈ ts, ∀ v occ, Instance hole al t v occ → ∀ p ∈ occ, ∃ r, v.at? r = some p.2 := fun t ht' =>
        ih t (by have := size_mem ht'; simp only [Val.size] at ht; omega)
      intro p hp
      refine Exists.elim (?_ : ∃ u ∈ vs, ∃ r, u.at? r = some p.2) fun u hu => kids hu.1 hu.2
      clear ht ih e
      induction ts generalizing ns vs occ with
      | nil => cases a; simp at hp
      | cons t ts iht =>
        cases a with
        | @ctx _ ns _ w ws os a2 =>
          obtain ⟨u, h1, h2⟩ := iht _ a2 (fun t ht => ih' t (by simp [ht])) hp
          exact ⟨u, by simp [h1], h2⟩
        | @cons _ n _ ns _ w ws o os _ a1 a2 =>
          rcases List.mem_append.1 hp with hp | hp
          · exact ⟨w, by simp, ih' t (by simp) w o a1 p hp⟩
          · obtain ⟨u, h1, h2⟩ := iht _ a2 (fun t ht => ih' t (by simp [ht])) hp
            exact ⟨u, by simp [h1], h2⟩

theorem file_hasBody {g : Grammar} {py : Python} (hfit : PythonFits g py) {s : Str} {c : Ctx} (h : py.file s = some c) : hasBody c.tree = true := by
  obtain ⟨_, hp, hty⟩ := hfit.file s c h
  generalize c.tree = tree at hp hty
  cases hp with
  | @node i t ns vs h1 h2 h3 h4 h5 =>
    have hty : t = str "Module" := hty
    rw [hasBody, h2, hty, hfit.modules.moduleFields]
    decide
  | const h => exact absurd (hty ▸ hfit.modules.module) h

theorem lexical_inner {c : Ctx} {u w : Val} {sp : Span} (h : createMatch c u = .lexical w sp) : u.isInner := by
  rintro i k rfl
  cases k <;> cases h

/-- What a template raises for an instance of the pattern. -/
theorem template_raises {g : Grammar} {py : Python} (hfit : PythonFits g py) (hword : WordTokens py) {c : Ctx} (hun : Unshared c.tree) {b : Bool}
    (hpar : Parsed g b c.tree) {ts : Dict Str CodeTemplate} {h : PatternHit} (hat : c.tree.at? h.path = some h.node) {what : Str → Hole} {t : Val}
    (hi : Instance (holeAt what) (fun _ _ => True) t h.node h.occ) {l : Label} {ct : CodeTemplate} (hl : ts.get? l = some ct) (hct : OfCode py ct)
    {ms : Dict MatchKey MatchV} (ho : OfferedTo c ts (h.label c) ms) (hnd : ∀ l, ¬ Deletes ts (h.label c) l) {m : MatchV} (hm : ms.get? (.name l) = some m)
    (hsp : m.span ≠ none) {e : Exc} (he : (ct.on (some c)).substitute m ms = .error e) (hne : e ≠ .rewriteError) : SearchRaises py c ts h e := by
  have hlabel : ∀ x w sp, h.label c x = some (.lexical w sp) → ∃ q, h.path <+: q ∧ c.tree.at? q = some w ∧ w.isInner ∧ createMatch c w = .lexical w sp := by
    intro x w sp hx
    have hin : ∀ u, createMatch c u = .lexical w sp → u.isInner := fun u hu => lexical_inner hu
    unfold PatternHit.label at hx
    split at hx
    · injection hx with hx
      have hw := lexical_eq hx
      subst hw
      exact ⟨h.path, List.prefix_refl _, hat, hin _ hx, hx⟩
    · cases hg : (h.occ.of x).getLast? with
      | none => rw [hg] at hx; cases hx
      | some u =>
        rw [hg] at hx
        have hx : some (createMatch c u) = _ := hx
        injection hx with hx
        have hw := lexical_eq hx
        subst hw
        obtain ⟨r, hr⟩ := instance_below _ _ _ hi (x, w) (Occs.mem_of.1 (List.mem_of_getLast? hg))
        exact ⟨h.path ++ r, List.prefix_append _ _, by rw [at?_append, hat]; exact hr, hin _ hx, hx⟩
  rw [ho.names l (hnd l)] at hm
  cases hlab : h.label c l with
  | none => rw [hlab] at hm; cases hm
  | some o =>
  rw [hlab] at hm
  cases hm
  obtain ⟨hne', ⟨kind, text, t', ht', rfl⟩ | ⟨text, vs, hvs, rfl⟩⟩ := hct
  · obtain ⟨w, sp, rfl⟩ : ∃ w sp, o = .lexical w sp := by
      have hcm : ∃ u, o = createMatch c u := by
        unfold PatternHit.label at hlab
        split at hlab
        · cases hlab; exact ⟨_, rfl⟩
        · obtain ⟨u, _, h⟩ := Option.map_eq_some_iff.1 hlab
          exact ⟨u, h.symm⟩
      obtain ⟨u, rfl⟩ := hcm
      obtain ⟨sp, h⟩ := located_lexical hsp
      exact ⟨_, _, h⟩
    obtain ⟨q, hq1, hq2, hq3, _⟩ := hlabel l w sp hlab
    have he : (match t'.substituteMatch py.depth py.env (some c) (.lexical w sp) (namedMatches ms) with
      | .error e => (.error e.toExc : Except Exc Str)
      | .ok s => .ok s) = .error e := he
    split at he
    · rename_i te hte
      cases he
      have hne'' : text ≠ [] := by rwa [show (t'.code py).text = t'.template from rfl, pyTemplate_text ht'] at hne'
      refine .python hl hlab hq1 hq2 ho (fun h => hne (by rw [h]; rfl)) ?_
      refine C99_raises hfit hword ht' hne'' (fun c' w' sp' h1 h2 => by cases h1; cases h2; exact ⟨hun, hq2, hq3⟩) (namedMatches_wf ho.wf) (fun x hx pm w' sp' h1 h2 => ?_) hte
      rw [namedMatches_get, ho.names x (hnd x)] at h1
      cases hlx : h.label c x with
      | none => rw [hlx] at h1; cases h1
      | some o =>
        rw [hlx] at h1
        cases h1
        cases o with
        | lexical w'' sp'' =>
          have h2 : MObj.lexical w'' sp'' = .lexical w' sp' := h2
          cases h2
          obtain ⟨_, _, hq, _⟩ := hlabel x _ _ hlx
          exact parsed_at hpar hq
        | span s sp'' => cases sp'' <;> cases h2
        | _ => cases h2
    · cases he
  · obtain ⟨rfl, n, hn, hno⟩ := sh_raises hvs ho.wf he
    refine .sh hl hvs hn fun o' hlo => ?_
    cases hstr : (matchVOf c.text o').string with
    | none => rfl
    | some s => exact absurd ⟨_, by rw [ho.names n (hnd n), hlo]; rfl, hstr⟩ (hno s)

/-- **C99**: the search of a Python file for a pattern of the command line, with Python templates and shell-style templates: where the outermost instances have places in the
text, it finds something (or nothing), or raises an exception that a template raises for one of those instances: nothing but what a Python template
raises (other than RewriteError), or a KeyError because a name stands for nothing that has a text. -/
theorem C99_search {g : Grammar} {py : Python} (hfit : PythonFits g py) (hword : WordTokens py) {kind : PatternKind} {text : Str} {toks : List PTok} {ps : List (Str × Str)}
    (htok : py.tokens (withNewline text) = some toks) (hplain : PlainTokens toks ps) {m : Matcher} (hm : py.pattern kind text = .ok m)
    {ts : Dict Str CodeTemplate} (hw : ts.WF) (hts : ∀ l t, ts.get? l = some t → OfCode py t) (hlab : UsualLabels ts) :
    ∃ what t, PatternMeans py kind text what t ∧ (2 * t.size + 7 ≤ py.depth → ∀ content path c, py.file content = some c → Unshared c.tree →
      (∀ hits, PatternHits what t c.tree hits → ∀ h ∈ hits, ∃ sp, createMatch c h.node = .lexical h.node sp) →
      (∃ subs, (py.searcher m ts).find ⟨content, path, py.pragmas content⟩ = .ok subs) ∨
      ∃ hits h e, PatternHits what t c.tree hits ∧ h ∈ hits ∧ (py.searcher m ts).find ⟨content, path, py.pragmas content⟩ = .error e ∧ SearchRaises py c ts h e) := by
  obtain ⟨what, t, hmean, hinst, ht, hord⟩ := pattern_means hfit htok hplain hm
  refine ⟨what, t, hmean, fun hdepth content path c hc hun hloc => ?_⟩
  obtain ⟨n, hn⟩ : ∃ n, py.depth = n + 2 := ⟨py.depth - 2, by omega⟩
  obtain ⟨k, hk⟩ : ∃ k, n = k + 4 := ⟨n - 4, by omega⟩
  obtain ⟨hom, f, hf⟩ := hord c k
  rw [← hk] at hf
  have hpar := (hfit.file _ _ hc).2.1
  have hat : ∀ p v, c.tree.at? p = some v → ∀ done, ∃ r, attempt c n m done v = .ok r := by
    intro p v hp done
    obtain ⟨b, hb⟩ := parsed_at hpar hp
    rcases (pattern_attempt hinst hfit.modules.list ht (by omega) hf c done hb).1 with h | ⟨_, _, h, _⟩ <;> exact ⟨_, h⟩
  have hnone : (treeFind c n m).2 = none := by
    unfold treeFind
    refine findLoop_quiet (tree := c.tree) (fun p v hp done => hat p v hp done) _ _ (fun v hv => ⟨[], ?_⟩)
    rw [List.mem_singleton] at hv; rw [hv]; rfl
  obtain ⟨rs, h1, h2⟩ := C45_reports_outermost c n m hnone
  obtain ⟨hits, hhits, hrel⟩ := pattern_hits hinst hfit.modules.list ht (by omega) hf (fun q v hq => parsed_at hpar hq) h2
  have hroot : str "__root" ∉ m.bindVars c.rxGroups := fun hx => (hom.unreserved _ hx).1 rfl
  have hdec := findLoop_decorated (fun d v => attempt_fromMatcher c n hom.noTemplates hroot (wf_map_self hw) d v) [c.tree] c.done
  have hdec1 : Forall2 (Decorated (ts.map fun e => (e.1, e.1))) (treeFind c n m).1 (treeFind c (n + 2) (fromMatcher m (ts.map fun e => (e.1, e.1)))).1 := hdec.1
  have hdec2 : (treeFind c (n + 2) (fromMatcher m (ts.map fun e => (e.1, e.1)))).2 = none := hdec.2.symm.trans hnone
  have hkey : ∀ l, ts.get? l = none ∨ l = str "__root" ∨ ∀ s, l ≠ '_' :: '_' :: s := by
    intro l
    cases hg : ts.get? l with
    | none => exact .inl rfl
    | some t => exact .inr (hlab l t hg)
  have := pyReports_outcome (c := c) (tk := py.tokInfo content) (env := py.templates c ts) (mis := (treeFind c (n + 2) (fromMatcher m (ts.map fun e => (e.1, e.1)))).1) (r := {})
    (Q := fun e => ∃ h ∈ hits, SearchRaises py c ts h e) (by
    intro mi' hmi' r
    obtain ⟨mi, hmi, hd⟩ := forall2_mem_right hdec1 hmi'
    rw [h1] at hmi
    obtain ⟨rp, hrp, rfl⟩ := List.mem_map.1 hmi
    obtain ⟨h, hh, hpath, hst⟩ := forall2_partner hrel rp hrp
    obtain ⟨hs1, hs2, _⟩ := hhits.sound h hh
    obtain ⟨sp, hsp⟩ := hloc hits hhits h hh
    have hobj : rp.mi.obj = .lexical h.node sp := by
      have := hst (str "__root")
      rw [LabelOf, if_pos rfl, PatternHit.label, if_pos rfl, hsp] at this
      exact Option.some.inj this
    have hnd : ∀ l, ¬ Deletes ts (h.label c) l := by
      rintro l ⟨⟨t, h3, h4⟩, _⟩
      exact (hts l t h3).1 h4
    have hnr : ∀ l, ¬ RemovesStmt (py.templates c ts) (ts.map fun e => (e.1, e.1)) rp.mi l := fun l hr => hnd l ((deletes_iff hst l).1 hr)
    have hin : h.node.isInner := lexical_inner hsp
    rcases pyReport_outcome (tk := py.tokInfo content) hd (wf_map_self hw) hobj (simple_ends_below hun (file_hasBody hfit hc) hs1 hin) hnr (by
        intro t ms m s hg
        obtain ⟨rfl, t', ht', _⟩ := (templates_at py c ts _ _).1 hg
        rcases hlab _ _ ht' with h | h
        · exact absurd h (by decide)
        · exact absurd rfl (h (str "category"))) (by
        intro l t hg
        obtain ⟨rfl, t', ht', _⟩ := (templates_at py c ts _ _).1 hg
        exact .inr (hlab _ _ ht')) r with ho | ⟨e, l, t', ms, m', he, hne, hg, ho, ha, hsub⟩
    · exact .inl ho
    · right
      obtain ⟨rfl, ct, hct, _, hsem⟩ := (templates_at py c ts _ _).1 hg
      have ho' := offeredTo hst ho
      rw [hsem] at hsub
      have hl : ms.get? (.name t') = some m' ∧ m'.span ≠ none := by
        rcases ha with h' | ⟨h3, _, s, h4⟩
        · exact h'
        · exfalso
          rcases hlab _ _ hct with rfl | hx
          · rw [ho'.names _ (hnd _), PatternHit.label, if_pos rfl] at h3
            cases h3
          · exact hx s h4
      exact ⟨e, he, h, hh, template_raises hfit hword hun hpar hs1 hs2 hct (hts _ _ hct) ho' hnd hl.1 hl.2 hsub hne⟩)
  unfold Python.searcher
  simp only [hc]
  rw [hn]
  unfold pySearch
  rcases this with ⟨found, hfound⟩ | ⟨e, he, h, hh, hr⟩
  · left
    rw [hfound, hdec2]
    exact ⟨_, rfl⟩
  · right
    rw [he]
    exact ⟨hits, h, e, hhits, hh, rfl, hr⟩

end Refex
