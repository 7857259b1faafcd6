import Verif.Spec.SuiteTree
import Verif.Props.Sanitize
import Verif.Props.PySearch
import Verif.Props.Nav
/-
C31 for a search of a Python file, from the tree to the edits.
-/
namespace Refex
set_option autoImplicit false

/-- The matches of `_sanitize_removed_stmt`. -/
def lexDict (tk : TokInfo) (mi : MatchInfo) : Dict Str LexMatch :=
  mi.bindings.filterMap fun e => (lexOf tk e.2.value).map fun m => (e.1, m)

/-- Its templates. -/
def textDict (env : Templates) (mi : MatchInfo) : Dict Str Str := mi.replacements.map fun e => (e.1, env.text e.2)

/-- What happens to each match. -/
theorem pyReports_trace {c : Ctx} {tk : TokInfo} {env : Templates} (mis : List MatchInfo) (r : Removed) (fs : List Found)
    (h : pyReports c tk env mis r = .ok fs) :
    ∃ L : List (MatchInfo × (Dict Str LexMatch × Dict Str Str) × Option Found),
      L.map (·.1) = mis ∧ fs = L.filterMap (·.2.2) ∧
      findDicts (navOfTree c tk) (mis.map fun mi => (lexDict tk mi, textDict env mi)) r = .ok (L.map (·.2.1)) ∧
      ∀ x ∈ L, ∃ r r', sanitizeLoop (navOfTree c tk) (textDict env x.1) (lexDict tk x.1) (textDict env x.1) r =
          .ok (x.2.1.1, x.2.1.2, r') ∧ pyReport c tk env x.1 r = .ok (x.2.2, r') := by
  induction mis generalizing r fs with
  | nil => cases h; exact ⟨[], rfl, rfl, rfl, by simp⟩
  | cons mi mis ih =>
    unfold pyReports at h
    split at h
    · cases h
    · rename_i o r' ho
      cases hr : pyReports c tk env mis r' with
      | error e => rw [hr] at h; cases h
      | ok fs' =>
        rw [hr] at h
        cases h
        obtain ⟨L, h1, h2, h3, h4⟩ := ih r' fs' hr
        have hs : ∃ d t, sanitizeLoop (navOfTree c tk) (textDict env mi) (lexDict tk mi) (textDict env mi) r = .ok (d, t, r') := by
          have ho' := ho
          unfold pyReport at ho'
          simp only at ho'
          split at ho'
          · cases ho'
          · rename_i d t r1 hs
            have : r1 = r' := by
              split at ho'
              · cases ho'; rfl
              · cases ho'
              · split at ho'
                · cases ho'
                · split at ho'
                  · cases ho'
                  · cases ho'; rfl
            subst this
            exact ⟨d, t, hs⟩
        obtain ⟨d, t, hs⟩ := hs
        refine ⟨(mi, (d, t), o) :: L, by simp [h1], ?_, ?_, ?_⟩
        · cases o <;> simp [h2]
        · simp only [List.map_cons, findDicts, hs, h3]
        · intro x hx
          rcases List.mem_cons.1 hx with rfl | hx
          · exact ⟨r, r', hs, ho⟩
          · exact h4 x hx

/-- The statement that a match is. -/
def stmtOf (mi : MatchInfo) : Option Val :=
  match mi.obj with
  | .lexical v _ => if v.ty ∈ stmtTypes then some v else none
  | _ => none

section one
variable {c : Ctx} {tk : TokInfo} {env : Templates} {t : Str} {mi mi' : MatchInfo}

theorem lexDict_root (hd : Decorated [(str "__root", t)] mi mi') : (lexDict tk mi').get? (str "__root") = lexOf tk mi.obj := by
  unfold lexDict
  rw [get?_filterMap_val hd.2.2.1 (fun b : BoundValue => lexOf tk b.value), hd.2.2.2, if_pos rfl]
  rfl

theorem textDict_root (hd : Decorated [(str "__root", t)] mi mi') (ht : env.text t = []) : textDict env mi' = [(str "__root", [])] := by
  unfold textDict
  rw [hd.2.1]
  simp [ht]

theorem removals_root (hd : Decorated [(str "__root", t)] mi mi') (ht : env.text t = []) :
    removals (lexDict tk mi', textDict env mi') = ((stmtOf mi).map Val.ident).toList := by
  unfold removals
  rw [textDict_root hd ht]
  simp only [List.filterMap_cons, List.filterMap_nil, ne_eq, not_true_eq_false, if_false, lexDict_root hd]
  unfold stmtOf
  cases mi.obj with
  | lexical v sp =>
    by_cases hv : v.ty ∈ stmtTypes
    · simp [lexOf, hv]
    · simp [lexOf, hv]
  | _ => simp [lexOf]

/-- The edit of a removed statement. -/
theorem pyReport_root (hd : Decorated [(str "__root", t)] mi mi') (ht : Removing env t) {v : Val} (hs : stmtOf mi = some v)
    {r r' : Removed} {d : Dict Str LexMatch} {ts : Dict Str Str} {o : Option Found}
    (hsan : sanitizeLoop (navOfTree c tk) (textDict env mi') (lexDict tk mi') (textDict env mi') r = .ok (d, ts, r'))
    (h : pyReport c tk env mi' r = .ok (o, r')) :
    ∃ f out text, o = some f ∧ EditOf f out text ∧
      removalEdits (lexDict tk mi', textDict env mi') (d, ts) = [(v.ident, out, text)] := by
  have hobj : ∃ sp, mi.obj = .lexical v sp ∧ v.ty ∈ stmtTypes := by
    unfold stmtOf at hs
    split at hs
    · rename_i w sp he
      split at hs
      · rename_i hw; cases hs; exact ⟨sp, he, hw⟩
      · cases hs
    · cases hs
  obtain ⟨sp, hobj, hty⟩ := hobj
  have hlex : (lexDict tk mi').get? (str "__root") = some { stmt := some v.ident, first := (sp.1, tk.firstEnd v.ident), last := (tk.lastStart v.ident, sp.2) } := by
    rw [lexDict_root hd, hobj]; simp [lexOf, hty]
  have htd := textDict_root hd ht.empty
  have hsan' := hsan
  rw [htd] at hsan'
  unfold sanitizeLoop at hsan'
  rw [hlex] at hsan'
  simp only [ne_eq, not_true_eq_false, if_false] at hsan'
  split at hsan'
  · cases hsan'
  · rename_i m' tt r1 hrem
    simp only [sanitizeLoop, Except.ok.injEq, Prod.mk.injEq] at hsan'
    obtain ⟨hd1, ht1, rfl⟩ := hsan'
    have hgd : d.get? (str "__root") = some m' := by rw [← hd1, Dict.get?_set, if_pos rfl]
    have hgt : ts.get? (str "__root") = some tt := by rw [← ht1, Dict.get?_set, if_pos rfl]
    have htt : tt = [] ∨ tt = passTemplate := by
      unfold removeStmt at hrem
      simp only at hrem
      split at hrem
      · cases hrem
      · split at hrem
        · simp only [Except.ok.injEq, Prod.mk.injEq] at hrem
          rw [← hrem.2.1]; split
          · exact .inl rfl
          · exact .inr rfl
        · simp only [Except.ok.injEq, Prod.mk.injEq] at hrem
          exact .inl hrem.2.1.symm
        · simp only [Except.ok.injEq, Prod.mk.injEq] at hrem
          rw [← hrem.2.1]; split
          · split
            · exact .inl rfl
            · exact .inr rfl
          · exact .inl rfl
    have hedits : removalEdits (lexDict tk mi', textDict env mi') (d, ts) = [(v.ident, m'.span, tt)] := by
      unfold removalEdits
      rw [htd]
      simp only [List.filterMap_cons, List.filterMap_nil, ne_eq, not_true_eq_false, if_false, hlex, Option.bind_some, hgd, hgt]
    -- the finding
    unfold pyReport at h
    simp only at h
    have hsan2 := hsan
    unfold textDict lexDict at hsan2
    rw [hsan2] at h
    simp only at h
    have hw : Dict.WF [(str "__root", t)] := by simp [Dict.WF, Dict.keys]
    have hwm : (matchDict c.text mi'.bindings d).WF := by
      unfold matchDict
      exact wf_map_name (fun k (bv : BoundValue) => match Dict.get? d k with
        | some m => lexMatchV c.text bv.value m
        | none => matchVOf c.text bv.value) hd.2.2.1
    have hmroot : (matchDict c.text mi'.bindings d).get? (.name (str "__root")) = some (lexMatchV c.text mi.obj m') := by
      unfold matchDict
      refine (get?_map_name mi'.bindings (fun k (bv : BoundValue) => match d.get? k with
        | some m => lexMatchV c.text bv.value m
        | none => matchVOf c.text bv.value) (str "__root")).trans ?_
      rw [hd.2.2.2, if_pos rfl]
      simp [hgd]
    have htpl : templateDict env mi'.replacements ts =
        [(MatchKey.name (str "__root"), if tt = passTemplate then env.pass else env.sem t)] := by
      unfold templateDict
      rw [hd.2.1]
      simp [ht.empty, hgt]
    have hsub : ∀ m ms, (if tt = passTemplate then env.pass else env.sem t).substitute m ms = .ok tt := by
      intro m ms
      rcases htt with e | e
      · rw [e, if_neg (by decide)]; exact ht.writes m ms
      · rw [e, if_pos rfl]; exact ht.pass m ms
    obtain ⟨repl, hrepl⟩ := rewriteTemplates_ok (matchDict c.text mi'.bindings d) (templateDict env mi'.replacements ts) (by
      intro e he
      rw [htpl, List.mem_singleton] at he
      subst he
      exact ⟨⟨_, hmroot⟩, fun m => ⟨tt, hsub m _⟩⟩)
    have hwt : (templateDict env mi'.replacements ts).WF := templateDict_wf env (by rw [hd.2.1]; exact hw) ts
    rw [hrepl] at h
    simp only at h
    obtain ⟨hlab, _⟩ := C19_right_labels _ _ hwt repl hrepl
    have hreplroot : repl.get? (.name (str "__root")) = some tt := by
      rw [hlab]
      refine ⟨_, lexMatchV c.text mi.obj m', by rw [htpl]; simp [Dict.get?], .inl ⟨hmroot, by simp [lexMatchV]⟩, hsub _ _⟩
    have hreplother : ∀ k, k ≠ .name (str "__root") → repl.get? k = none := by
      intro k hk
      cases hg : repl.get? k with
      | none => rfl
      | some s =>
        obtain ⟨t', m, h1, _⟩ := (hlab k s).1 hg
        rw [htpl] at h1
        simp [Dict.get?, Ne.symm hk] at h1
    split at h
    · cases h
    · rename_i ks hks
      split at h
      · cases h
      · rename_i f hf
        simp only [Except.ok.injEq, Prod.mk.injEq] at h
        obtain ⟨hrep, _⟩ := (buildFound_eq _ hwm repl ks).1 f hf
        refine ⟨f, m'.span, tt, h.1.symm, ⟨?_, ?_, ?_⟩, hedits⟩
        · rw [hrep.spans]; exact ⟨_, hmroot, rfl⟩
        · rw [hrep.edits]
          refine ⟨hreplroot, ?_⟩
          unfold IsMetadataLabel; decide
        · intro k hk
          cases hg : f.replacements.get? k with
          | none => rfl
          | some s => rw [hrep.edits, hreplother k hk] at hg; cases hg.1

end one

/-! ### Suites of the tree -/

/-- The suite as `_sanitize_removed_stmt` sees it. -/
def suiteOf (c : Ctx) (tk : TokInfo) (isModule : Bool) (vs : List Val) : Suite where
  isModule := isModule
  stmts := vs.map fun v => ⟨v.ident, (((c.tok v.ident).getD (0, 0)).1, tk.firstEnd v.ident),
    (tk.lastStart v.ident, ((c.tok v.ident).getD (0, 0)).2), tk.semi v.ident⟩

theorem Val.IsStmt.inner {v : Val} (h : v.IsStmt) : v.isInner := by
  obtain ⟨i, t, ns, vs, rfl, _⟩ := h
  intro j c; simp

theorem at?_item {tree : Val} {q : Path} {j : Nat} {vs : List Val} (h : tree.at? q = some (.list j vs)) (i : Nat) :
    tree.at? (q ++ [i]) = vs[i]? := by
  rw [at?_append, h]
  simp only [Option.bind_some, at?_cons, Val.children]
  cases vs[i]? <;> rfl

theorem suiteOf_valid {c : Ctx} {tk : TokInfo} (hu : Unshared c.tree) (hl : LaidOut c tk) {q : Path} {vs : List Val}
    (h : SuiteAt c.tree q vs) (b : Bool) : (suiteOf c tk b vs).Valid := by
  obtain ⟨⟨j, hq⟩, hst⟩ := h
  have hat : ∀ i (hi : i < vs.length), c.tree.at? (q ++ [i]) = some vs[i] := fun i hi => by rw [at?_item hq]; simp [hi]
  have hpos : ∀ v ∈ vs, ∃ p, c.tree.at? p = some v := by
    intro v hv
    obtain ⟨i, hi, rfl⟩ := List.getElem_of_mem hv
    exact ⟨_, hat i hi⟩
  constructor
  · simp only [suiteOf, List.map_map]
    rw [List.nodup_iff_pairwise_ne, List.pairwise_map, List.pairwise_iff_getElem]
    intro i k hi hk hik he
    have := hu.distinct _ _ _ _ (hat i hi) (hat k hk) he (hst _ (List.getElem_mem hi)).inner
    have := List.append_cancel_left this
    simp at this
    omega
  · intro x hx
    obtain ⟨v, hv, rfl⟩ := List.mem_map.1 hx
    obtain ⟨p, hp⟩ := hpos v hv
    obtain ⟨sp, h1, h2⟩ := hl.tokens p v hp (hst v hv)
    simp [h1, h2]
  · intro x hx s hs
    obtain ⟨v, hv, rfl⟩ := List.mem_map.1 hx
    obtain ⟨p, hp⟩ := hpos v hv
    obtain ⟨sp, h1, h2⟩ := hl.tokens p v hp (hst v hv)
    have := hl.semi p v sp s hp (hst v hv) h1 hs
    simpa [h1] using this
  · simp only [suiteOf]
    rw [List.pairwise_map, List.pairwise_iff_getElem]
    intro i k hi hk hik
    obtain ⟨s1, h1, _⟩ := hl.tokens _ _ (hat i hi) (hst _ (List.getElem_mem hi))
    obtain ⟨s2, h2, _⟩ := hl.tokens _ _ (hat k hk) (hst _ (List.getElem_mem hk))
    have hb : before (q ++ [i]) (q ++ [k]) = true := by
      clear hq hat hpos h1 h2
      induction q with
      | nil => simp [before, hik]
      | cons a q ih => simp [before, ih]
    have := hl.order _ _ _ _ s1 s2 (hat i hi) (hat k hk) (hst _ (List.getElem_mem hi)) (hst _ (List.getElem_mem hk)) hb h1 h2
    simpa [h1, h2] using this

theorem getParent_ident {tree v w : Val} (h : v.ident = w.ident) : getParent tree v = getParent tree w := by
  unfold getParent; rw [h]

theorem getNext_ident {tree v w : Val} (h : v.ident = w.ident) : getNextSibling tree v = getNextSibling tree w := by
  unfold getNextSibling; rw [h]

theorem getPrev_ident {tree v w : Val} (h : v.ident = w.ident) : getPrevSibling tree v = getPrevSibling tree w := by
  unfold getPrevSibling; rw [h]

theorem suiteOf_in {c : Ctx} (tk : TokInfo) (hu : Unshared c.tree) {q : Path} {vs : List Val}
    (h : SuiteAt c.tree q vs) (b : Bool) (hb : b = true ↔ ModuleSuite c.tree q) : (suiteOf c tk b vs).In (navOfTree c tk) := by
  obtain ⟨⟨j, hq⟩, hst⟩ := h
  intro pre x post hs
  simp only [suiteOf, List.map_eq_append_iff, List.map_eq_cons_iff] at hs
  obtain ⟨vpre, l2, hvs, rfl, v, vpost, rfl, rfl, rfl⟩ := hs
  have hat : c.tree.at? (q ++ [vpre.length]) = some v := by rw [at?_item hq, hvs]; simp
  have hv : v.isInner := (hst v (by rw [hvs]; simp)).inner
  have hpar : getParent c.tree (.list v.ident []) = some (.list j vs) := by
    rw [getParent_ident (v := .list v.ident []) (w := v) rfl, C50_parent_exact hu hat hv, hq]
  have hsib := (C50_siblings hu hat hv hq).1 rfl
  have hnext : getNextSibling c.tree (.list v.ident []) = vpost.head? := by
    rw [getNext_ident (v := .list v.ident []) (w := v) rfl, hsib.1, at?_item hq, hvs]
    simp [List.getElem?_append, List.head?_eq_getElem?]
    intro h; omega
  have hprev : getPrevSibling c.tree (.list v.ident []) = vpre.getLast? := by
    rw [getPrev_ident (v := .list v.ident []) (w := v) rfl, hsib.2]
    split
    · rename_i h0
      rw [List.length_eq_zero_iff.1 h0]; rfl
    · rename_i h0
      rw [at?_item hq, hvs, List.getElem?_append_left (by omega), List.getLast?_eq_getElem?]
  have hmod : decide (((some (Val.list j vs)).bind (getParent c.tree)).map Val.ty = some (str "Module")) = b := by
    simp only [Option.bind_some]
    rw [Bool.eq_iff_iff, hb, decide_eq_true_eq]
    have hin : (Val.list j vs).isInner := fun _ _ => by simp
    constructor
    · intro he
      rcases List.eq_nil_or_concat q with rfl | ⟨p, k, rfl⟩
      · have hr := C50_root hu (by rw [show c.tree = .list j vs from Option.some.inj hq]; exact hin)
        rw [show c.tree = .list j vs from Option.some.inj hq] at hr he
        rw [hr] at he; cases he
      · rw [List.concat_eq_append] at *
        rw [C50_parent_exact hu hq hin] at he
        cases hp : c.tree.at? p with
        | none => rw [hp] at he; cases he
        | some b => rw [hp] at he; exact ⟨p, k, b, rfl, hp, Option.some.inj he⟩
    · rintro ⟨p, k, b, rfl, hp, hty⟩
      rw [C50_parent_exact hu hq hin, hp]
      simp [hty]
  unfold navOfTree
  simp only [hpar, hnext, hprev, hmod]
  simp [suiteOf, Val.isList, Option.map_map, Function.comp_def]

/-- The removed statements of a suite, in its order. -/
theorem suiteOrder_of_paths {tree : Val} (hu : Unshared tree) {q : Path} {vs : List Val} (h : SuiteAt tree q vs)
    (L : List (Path × Val)) (hat : ∀ e ∈ L, tree.at? e.1 = some e.2) (hp : L.Pairwise fun a b => before a.1 b.1 = true) :
    ((L.map fun e => e.2.ident).filter fun i => decide (i ∈ vs.map Val.ident)).Sublist (vs.map Val.ident) := by
  obtain ⟨⟨j, hq⟩, hst⟩ := h
  have hidx : ∀ e ∈ L, e.2.ident ∈ vs.map Val.ident → ∃ i : Fin (vs.map Val.ident).length, e.1 = q ++ [i.1] ∧ (vs.map Val.ident)[i] = e.2.ident := by
    intro e he hm
    obtain ⟨v, hv, hve⟩ := List.mem_map.1 hm
    obtain ⟨i, hi, rfl⟩ := List.getElem_of_mem hv
    have h1 : tree.at? (q ++ [i]) = some vs[i] := by rw [at?_item hq]; simp [hi]
    refine ⟨⟨i, by simpa using hi⟩, ?_, by simpa using hve⟩
    exact (hu.distinct _ _ _ _ h1 (hat e he) hve (hst _ hv).inner).symm
  have : ∃ is : List (Fin (vs.map Val.ident).length), is.Pairwise (· < ·) ∧
      (is.map ((vs.map Val.ident)[·])) = (L.map fun e => e.2.ident).filter (fun i => decide (i ∈ vs.map Val.ident)) ∧
      ∀ i ∈ is, ∃ e ∈ L, e.1 = q ++ [i.1] := by
    clear hst
    induction L with
    | nil => exact ⟨[], .nil, rfl, by simp⟩
    | cons e L ih =>
      obtain ⟨h1, h2⟩ := List.pairwise_cons.1 hp
      obtain ⟨is, i1, i2, i3⟩ := ih (fun e he => hat e (by simp [he])) h2 (fun e he => hidx e (by simp [he]))
      by_cases hm : e.2.ident ∈ vs.map Val.ident
      · obtain ⟨i, hi1, hi2⟩ := hidx e (by simp) hm
        refine ⟨i :: is, List.pairwise_cons.2 ⟨fun k hk => ?_, i1⟩, ?_, ?_⟩
        · obtain ⟨e', he', hk'⟩ := i3 k hk
          have := h1 e' he'
          rw [hi1, hk'] at this
          have hb : ∀ (q : Path) (a b : Nat), before (q ++ [a]) (q ++ [b]) = true → a < b := by
            intro q a b hx
            induction q with
            | nil => simpa [before] using hx
            | cons y q ih => exact ih (by simpa [before] using hx)
          exact hb _ _ _ this
        · simp only [List.map_cons, List.filter_cons, hm, decide_true, if_true, hi2, i2]
        · intro k hk
          rcases List.mem_cons.1 hk with rfl | hk
          · exact ⟨e, by simp, hi1⟩
          · obtain ⟨e', he', h⟩ := i3 k hk
            exact ⟨e', by simp [he'], h⟩
      · refine ⟨is, i1, ?_, ?_⟩
        · simp only [List.map_cons, List.filter_cons, hm, decide_false, i2]
          rfl
        · intro k hk
          obtain ⟨e', he', h⟩ := i3 k hk
          exact ⟨e', by simp [he'], h⟩
  obtain ⟨is, i1, i2, _⟩ := this
  rw [← i2]
  exact List.map_getElem_sublist i1

theorem findDicts_run' (nav : Nav) (results outs : List (Dict Str LexMatch × Dict Str Str)) (r : Removed)
    (hwf : ∀ m ∈ results, m.2.WF)
    (hplain : ∀ m ∈ results, ∀ kt ∈ m.2, ∀ x id, m.1.get? kt.1 = some x → x.stmt = some id → x = stmtMatch nav id)
    (h : findDicts nav results r = .ok outs) :
    ∃ r', runRemovals nav (results.flatMap removals) r = .ok (allRemovalEdits results outs, r') := by
  induction results generalizing r outs with
  | nil =>
    simp only [findDicts, Except.ok.injEq] at h
    subst h
    exact ⟨r, rfl⟩
  | cons m rest ih =>
    obtain ⟨dict, templates⟩ := m
    simp only [findDicts] at h
    cases hs : sanitizeLoop nav templates dict templates r with
    | error e => rw [hs] at h; cases h
    | ok v =>
      obtain ⟨d, t, r1⟩ := v
      rw [hs] at h
      simp only at h
      cases hf : findDicts nav rest r1 with
      | error e => rw [hf] at h; cases h
      | ok out =>
        rw [hf] at h
        simp only [Except.ok.injEq] at h
        subst h
        obtain ⟨r2, h2⟩ := ih out r1 (fun m hm => hwf m (by simp [hm])) (fun m hm => hplain m (by simp [hm])) hf
        obtain ⟨_, edits, h3, h4⟩ := sanitizeLoop_run nav templates dict templates r d t r1 (hwf (dict, templates) (by simp))
          (hplain (dict, templates) (by simp)) hs
        refine ⟨r2, ?_⟩
        rw [List.flatMap_cons, runRemovals_append]
        have e : removals (dict, templates) =
          templates.filterMap fun kt => if kt.2 ≠ [] then none else (dict.get? kt.1).bind LexMatch.stmt := rfl
        rw [e, h3]
        simp only [h2, allRemovalEdits]
        rw [h4]
        rfl

theorem allRemovalEdits_map {α : Type} (L : List α) (f g : α → Dict Str LexMatch × Dict Str Str) :
    allRemovalEdits (L.map f) (L.map g) = L.flatMap fun x => removalEdits (f x) (g x) := by
  induction L with
  | nil => rfl
  | cons x L ih => simp [allRemovalEdits, ih]

theorem forall2_mem_right {α β : Type} {R : α → β → Prop} {as : List α} {bs : List β} (h : Forall2 R as bs) {b : β} (hb : b ∈ bs) :
    ∃ a ∈ as, R a b := by
  induction h with
  | nil => cases hb
  | @cons a b' as bs hab _ ih =>
    rcases List.mem_cons.1 hb with rfl | hb
    · exact ⟨a, by simp, hab⟩
    · obtain ⟨a', h1, h2⟩ := ih hb
      exact ⟨a', by simp [h1], h2⟩

theorem forall2_map_right {α β γ : Type} {R : α → β → Prop} {f : γ → β} {as : List α} {bs : List γ}
    (h : Forall2 R as (bs.map f)) : Forall2 (fun a b => R a (f b)) as bs := by
  generalize hx : bs.map f = xs at h
  induction h generalizing bs with
  | nil => cases bs with
    | nil => exact .nil
    | cons a as => cases hx
  | cons hab _ ih =>
    cases bs with
    | nil => cases hx
    | cons a as =>
      simp only [List.map_cons, List.cons.injEq] at hx
      obtain ⟨rfl, h2⟩ := hx
      exact .cons hab (ih h2)

theorem forall2_to_map {α β γ : Type} {R : α → β → Prop} {f : β → γ} {S : α → γ → Prop} {as : List α} {bs : List β}
    (h : Forall2 R as bs) (hR : ∀ a ∈ as, ∀ b ∈ bs, R a b → S a (f b)) : Forall2 S as (bs.map f) := by
  induction h with
  | nil => exact .nil
  | cons hab _ ih => exact .cons (hR _ (by simp) _ (by simp) hab) (ih fun a ha b hb => hR a (by simp [ha]) b (by simp [hb]))

/-- What a report of a matcher that reports itself is about. -/
theorem stmtOf_iff {c : Ctx} {tk : TokInfo} (hl : LaidOut c tk) {p : Path} {v : Val} (hp : c.tree.at? p = some v) {mi : MatchInfo}
    (ho : mi.obj = createMatch c v) : (v.IsStmt → stmtOf mi = some v) ∧ ∀ w, stmtOf mi = some w → w = v ∧ v.IsStmt ∧
      ∃ sp, c.tok v.ident = some sp ∧ mi.obj = .lexical v sp := by
  have hlex : v.IsStmt → ∃ sp, c.tok v.ident = some sp ∧ mi.obj = .lexical v sp := by
    intro hv
    obtain ⟨sp, h1, _⟩ := hl.tokens p v hp hv
    refine ⟨sp, h1, ?_⟩
    obtain ⟨i, t, ns, vs, rfl, ht⟩ := hv
    rw [ho]
    have h1' : c.tok i = some sp := h1
    have n1 : t ≠ str "arguments" := fun e => by subst e; revert ht; decide
    have n2 : t ≠ str "alias" := fun e => by subst e; revert ht; decide
    simp only [createMatch, h1', n1, n2, if_false]
  constructor
  · intro hv
    obtain ⟨sp, _, h2⟩ := hlex hv
    obtain ⟨i, t, ns, vs, rfl, ht⟩ := hv
    unfold stmtOf; rw [h2]; exact if_pos ht
  · intro w hw
    unfold stmtOf at hw
    split at hw
    · rename_i u sp he
      split at hw
      · rename_i hu
        cases hw
        have : w = v ∧ ∃ i t ns vs, v = .node i t ns vs := by
          rw [ho] at he
          unfold createMatch at he
          split at he
          · cases he
          · rename_i i t ns vs
            refine ⟨?_, i, t, ns, vs, rfl⟩
            split at he
            · cases he
            · split at he
              · split at he
                · cases he; rfl
                · cases he
              · split at he
                · cases he
                · cases he; rfl
          · cases he
        obtain ⟨rfl, i, t, ns, vs, rfl⟩ := this
        have hst : (Val.node i t ns vs).IsStmt := ⟨i, t, ns, vs, rfl, hu⟩
        exact ⟨rfl, hst, hlex hst⟩
      · cases hw
    · cases hw

/-- **C31**, a search of a file whose only template is an empty one for the whole match: every match that is a statement of a
suite becomes an edit that deletes the statement, with the bounds and the text that `StmtRemoval` says. Ranges over all trees
(free of sharing, laid out as Python is) and matchers. -/
theorem C31_edits (c : Ctx) (tk : TokInfo) (env : Templates) (n : Nat) (m : Matcher) (t : Str) (hm : Ordinary c m)
    (hself : ReportsItself c n m) (hu : Unshared c.tree) (hl : LaidOut c tk) (ht : Removing env t) (fs : List Found)
    (h : pySearch c tk env (n + 2) (fromMatcher m [(str "__root", t)]) = .ok fs) :
    ∃ (rs : List Report) (os : List (Option Found)), Outermost (attempt c n m) c.tree c.done rs ∧ fs = os.filterMap id ∧
      Forall2 (fun r o => ∀ q vs i v, SuiteAt c.tree q vs → r.path = q ++ [i] → vs[i]? = some v →
        ∃ f out text, o = some f ∧ EditOf f out text ∧
          StmtRemoval (fun v => (c.tok v.ident).getD (0, 0)) (fun v => tk.semi v.ident) (ModuleSuite c.tree q) vs
            (fun k => ∃ r' ∈ rs, r'.path = q ++ [k]) i v out text) rs os := by
  have hroot : str "__root" ∉ m.bindVars c.rxGroups := fun hx => (hm.unreserved _ hx).1 rfl
  have hw : Dict.WF [(str "__root", t)] := by simp [Dict.WF, Dict.keys]
  have hdec := findLoop_decorated (fun d v => attempt_fromMatcher c n hm.noTemplates hroot hw d v) [c.tree] c.done
  unfold pySearch at h
  split at h
  · cases h
  · rename_i fs' hp hnone
    cases h
    have hnone' : (treeFind c n m).2 = none := hdec.2.trans hnone
    obtain ⟨rs, h1, h2⟩ := C45_reports_outermost c n m hnone'
    unfold treeFind at h1 hp
    obtain ⟨L, hL1, hL2, hL3, hL4⟩ := pyReports_trace _ _ _ hp
    have hd0 := hdec.1
    rw [h1, ← hL1] at hd0
    have hd := forall2_map_right (forall2_map_left hd0)
    rw [← hL1, List.map_map] at hL3
    -- what the reports are about
    have hrep : ∀ r ∈ rs, ∃ v, c.tree.at? r.path = some v ∧ (v.IsStmt → stmtOf r.mi = some v) ∧
        ∀ w, stmtOf r.mi = some w → w = v ∧ v.IsStmt ∧ ∃ sp, c.tok v.ident = some sp ∧ r.mi.obj = .lexical v sp := by
      intro r hr
      obtain ⟨⟨v, hv, ha⟩, _⟩ := (h2.2 r).1 hr
      exact ⟨v, hv, stmtOf_iff hl hv (hself _ _ _ _ ha)⟩
    -- the removals
    have hrem : (L.map ((fun mi => (lexDict tk mi, textDict env mi)) ∘ fun x => x.1)).flatMap removals =
        (rs.filterMap fun r => (stmtOf r.mi).map fun v => (r.path, v)).map fun e => e.2.ident := by
      clear hL1 hL2 hL3 hL4 hp h1 h2 hrep hd0
      induction hd with
      | nil => rfl
      | @cons r x rs L hab _ ih =>
        have e := removals_root (tk := tk) hab ht.empty
        simp only [List.map_cons, List.flatMap_cons, List.filterMap_cons, Function.comp_apply] at *
        rw [e, ih]
        cases stmtOf r.mi <;> simp
    obtain ⟨r', hrun⟩ := findDicts_run' _ _ _ _ (by
        intro x hx
        obtain ⟨y, hy, rfl⟩ := List.mem_map.1 hx
        obtain ⟨r, hr, hdr⟩ := forall2_mem_right hd hy
        simp only [Function.comp_apply, textDict_root hdr ht.empty]
        simp [Dict.WF, Dict.keys]) (by
        intro x hx kt hkt lm id hg hid
        obtain ⟨y, hy, rfl⟩ := List.mem_map.1 hx
        obtain ⟨r, hr, hdr⟩ := forall2_mem_right hd hy
        simp only [Function.comp_apply, textDict_root hdr ht.empty, List.mem_singleton] at hkt hg
        subst hkt
        rw [lexDict_root hdr] at hg
        obtain ⟨v, hv, _, hst⟩ := hrep r hr
        have hs : ∃ w, stmtOf r.mi = some w := by
          unfold stmtOf
          cases ho : r.mi.obj with
          | lexical w sp =>
            rw [ho] at hg
            simp only [lexOf, Option.some.injEq] at hg
            subst hg
            simp only at hid
            split at hid
            · rename_i hw; exact ⟨w, if_pos hw⟩
            · cases hid
          | _ => rw [ho] at hg; cases hg
        obtain ⟨w, hs⟩ := hs
        obtain ⟨rfl, hst, sp, h3, h4⟩ := hst w hs
        rw [h4] at hg
        obtain ⟨i, ty, ns, vs, rfl, hty⟩ := hst
        have hty' : (Val.node i ty ns vs).ty ∈ stmtTypes := hty
        rw [lexOf, if_pos hty', Option.some.injEq] at hg
        subst hg
        simp only [Option.some.injEq] at hid
        subst hid
        simp only [stmtMatch, navOfTree, h3, Option.getD_some]) hL3
    rw [hrem, allRemovalEdits_map] at hrun
    have hpw : (rs.filterMap fun r => (stmtOf r.mi).map fun v => (r.path, v)).Pairwise fun a b => before a.1 b.1 = true := by
      refine List.pairwise_filterMap.2 (h2.1.imp ?_)
      intro a b hab x hx y hy
      simp only [Option.mem_def, Option.map_eq_some_iff] at hx hy
      obtain ⟨v, _, rfl⟩ := hx
      obtain ⟨w, _, rfl⟩ := hy
      exact hab
    have hats : ∀ e ∈ (rs.filterMap fun r => (stmtOf r.mi).map fun v => (r.path, v)), c.tree.at? e.1 = some e.2 := by
      intro e he
      obtain ⟨r, hr, hx⟩ := List.mem_filterMap.1 he
      obtain ⟨v, hv, rfl⟩ := Option.map_eq_some_iff.1 hx
      obtain ⟨w, hw, _, h3⟩ := hrep r hr
      rw [(h3 v hv).1]; exact hw
    refine ⟨rs, L.map (·.2.2), h2, by rw [hL2, List.filterMap_map]; rfl, forall2_to_map hd ?_⟩
    intro r hr x hx hdr q vs i v hq hri hvi
    obtain ⟨⟨j, hqj⟩, hst⟩ := hq
    have hvst := hst v (List.mem_of_getElem? hvi)
    have hatv : c.tree.at? r.path = some v := by rw [hri, at?_item hqj, hvi]
    have hsv : stmtOf r.mi = some v := by
      obtain ⟨w, hw, h3, _⟩ := hrep r hr
      rw [hatv] at hw; cases hw
      exact h3 hvst
    obtain ⟨ra, rb, hsan, hpy⟩ := hL4 x hx
    obtain ⟨f, out, text, ho, hed, hre⟩ := pyReport_root hdr ht hsv hsan hpy
    refine ⟨f, out, text, ho, hed, ?_⟩
    -- the suite
    classical
    have hval := suiteOf_valid hu hl ⟨⟨j, hqj⟩, hst⟩ (decide (ModuleSuite c.tree q))
    have hin := suiteOf_in tk hu ⟨⟨j, hqj⟩, hst⟩ (decide (ModuleSuite c.tree q)) (by simp)
    have hids : (suiteOf c tk (decide (ModuleSuite c.tree q)) vs).stmts.map Stmt.id = vs.map Val.ident := by
      simp [suiteOf, Function.comp_def]
    have hord : SuiteOrder (suiteOf c tk (decide (ModuleSuite c.tree q)) vs)
        ([] ++ (rs.filterMap fun r => (stmtOf r.mi).map fun v => (r.path, v)).map fun e => e.2.ident) := by
      unfold SuiteOrder
      rw [hids, List.nil_append]
      exact suiteOrder_of_paths hu ⟨⟨j, hqj⟩, hst⟩ _ hats hpw
    have hinv : RemInv (suiteOf c tk (decide (ModuleSuite c.tree q)) vs) [] {} := ⟨by simp, fun pre x post _ => by
      simp only [List.not_mem_nil, false_iff, not_and]
      exact fun _ h => (h x (by simp))⟩
    obtain ⟨_, hspec⟩ := run_suite hval hin _ [] {} r' _ hinv hord hrun
    have hmem : (v.ident, out, text) ∈ L.flatMap fun x =>
        removalEdits (((fun mi => (lexDict tk mi, textDict env mi)) ∘ fun x => x.1) x) x.2.1 :=
      List.mem_flatMap.2 ⟨x, hx, by simp only [Function.comp_apply]; rw [hre]; simp⟩
    obtain ⟨pre, post, hvs, hlen⟩ : ∃ pre post, vs = pre ++ v :: post ∧ pre.length = i := by
      have hi := (List.getElem?_eq_some_iff.1 hvi)
      obtain ⟨hi, he⟩ := hi
      refine ⟨vs.take i, vs.drop (i + 1), ?_, by simp; omega⟩
      rw [← he, List.getElem_cons_drop, List.take_append_drop]
    have hgone : ∀ k w, vs[k]? = some w → (w.ident ∈ [] ++ (rs.filterMap fun r => (stmtOf r.mi).map fun v => (r.path, v)).map (fun e => e.2.ident) ↔
        ∃ r' ∈ rs, r'.path = q ++ [k]) := by
      intro k w hk
      have hwst := hst w (List.mem_of_getElem? hk)
      have hatw : c.tree.at? (q ++ [k]) = some w := by rw [at?_item hqj, hk]
      rw [List.nil_append, List.mem_map]
      constructor
      · rintro ⟨e, he, hi⟩
        obtain ⟨r0, hr0, hx0⟩ := List.mem_filterMap.1 he
        obtain ⟨v0, hv0, rfl⟩ := Option.map_eq_some_iff.1 hx0
        exact ⟨r0, hr0, (hu.distinct _ _ _ _ hatw (hats _ he) hi.symm hwst.inner).symm⟩
      · rintro ⟨r0, hr0, hp0⟩
        obtain ⟨u, hu0, h3, _⟩ := hrep r0 hr0
        rw [hp0, hatw] at hu0; cases hu0
        exact ⟨(r0.path, w), List.mem_filterMap.2 ⟨r0, hr0, by rw [h3 hwst]; rfl⟩, rfl⟩
    have key := hspec _ hmem (pre.map fun v => ⟨v.ident, (((c.tok v.ident).getD (0, 0)).1, tk.firstEnd v.ident),
        (tk.lastStart v.ident, ((c.tok v.ident).getD (0, 0)).2), tk.semi v.ident⟩) ⟨v.ident, (((c.tok v.ident).getD (0, 0)).1, tk.firstEnd v.ident),
        (tk.lastStart v.ident, ((c.tok v.ident).getD (0, 0)).2), tk.semi v.ident⟩ (post.map fun v => ⟨v.ident, (((c.tok v.ident).getD (0, 0)).1, tk.firstEnd v.ident),
        (tk.lastStart v.ident, ((c.tok v.ident).getD (0, 0)).2), tk.semi v.ident⟩) (by simp [suiteOf, hvs]) rfl
    generalize [] ++ (rs.filterMap fun r => (stmtOf r.mi).map fun v => (r.path, v)).map (fun e => e.2.ident) = R at key hgone
    clear hspec hmem hrun hord hinv hval hin
    simp only at key
    refine ⟨?_, ?_, ?_⟩
    · intro w hw
      rw [hvs, List.getElem?_append_right (by omega), hlen] at hw
      cases post with
      | nil => simp at hw
      | cons y post =>
        simp at hw; subst hw
        simp only [specEdit, List.map_cons, Prod.mk.injEq] at key
        exact ⟨Prod.ext (congrArg Prod.fst key.1) (congrArg Prod.snd key.1), key.2⟩
    · intro hlen1
      rw [hvs] at hlen1
      simp at hlen1
      have e1 : pre = [] := List.length_eq_zero_iff.1 (by omega)
      have e2 : post = [] := List.length_eq_zero_iff.1 (by omega)
      subst e1 e2
      simp only [specEdit, List.map_nil, List.getLast?_nil, suiteOf, decide_eq_true_eq, Prod.mk.injEq] at key
      refine ⟨key.1, ?_⟩
      by_cases hmod : ModuleSuite c.tree q
      · right; exact ⟨by rw [key.2, if_pos hmod], hmod⟩
      · left; exact ⟨by rw [key.2, if_neg hmod]; rfl, hmod⟩
    · intro p hlast hp hpos
      have e2 : post = [] := by
        rw [hvs] at hlast; simp at hlast
        exact List.length_eq_zero_iff.1 (by omega)
      subst e2
      obtain ⟨pre', y, rfl⟩ : ∃ pre' y, pre = pre' ++ [y] := by
        rcases List.eq_nil_or_concat pre with rfl | ⟨a, b, rfl⟩
        · simp at hlen; omega
        · exact ⟨a, b, by simp⟩
      simp at hlen
      have hpy' : y = p := by
        rw [hvs] at hp
        rw [← hlen] at hp
        simp at hp
        exact hp
      subst hpy'
      simp only [specEdit, List.map_nil, List.map_append, List.map_cons, List.getLast?_append, List.getLast?_singleton, Option.some_or,
        suiteOf, Prod.mk.injEq] at key
      have hg := hgone (i - 1) y hp
      obtain ⟨k1, k2⟩ := key
      have k1a := congrArg Prod.fst k1
      have k1b := congrArg Prod.snd k1
      simp only at k1a k1b
      refine ⟨fun h => ?_, fun h => ?_, fun s hs => ?_, fun hs => ?_, ?_⟩
      · rw [k1a, if_pos (hg.2 h)]
      · rw [k1a, if_neg (fun hh => h (hg.1 hh))]
      · have hs' : tk.semi v.ident = some s := hs
        rw [k1b, hs']
      · have hs' : tk.semi v.ident = none := hs
        rw [k1b, hs']
      · have hall : (∀ y_1 ∈ (pre'.map fun v => (⟨v.ident, (((c.tok v.ident).getD (0, 0)).1, tk.firstEnd v.ident),
            (tk.lastStart v.ident, ((c.tok v.ident).getD (0, 0)).2), tk.semi v.ident⟩ : Stmt)) ++ [⟨y.ident, (((c.tok y.ident).getD (0, 0)).1, tk.firstEnd y.ident),
            (tk.lastStart y.ident, ((c.tok y.ident).getD (0, 0)).2), tk.semi y.ident⟩], y_1.id ∈ R) ↔ ∀ k, k < vs.length → ∃ r' ∈ rs, r'.path = q ++ [k] := by
          constructor
          · intro hh k hk
            by_cases hki : k = i
            · exact ⟨r, hr, by rw [hri, hki]⟩
            · have hk2 : k < (pre' ++ [y]).length := by simp; omega
              have hget : vs[k]? = some ((pre' ++ [y])[k]) := by
                rw [hvs, List.getElem?_append_left hk2]; simp [hk2]
              refine (hgone k _ hget).1 ?_
              have := hh ⟨((pre' ++ [y])[k]).ident, (((c.tok ((pre' ++ [y])[k]).ident).getD (0, 0)).1, tk.firstEnd ((pre' ++ [y])[k]).ident),
                (tk.lastStart ((pre' ++ [y])[k]).ident, ((c.tok ((pre' ++ [y])[k]).ident).getD (0, 0)).2), tk.semi ((pre' ++ [y])[k]).ident⟩ (by
                  have := List.getElem_mem hk2
                  rcases List.mem_append.1 this with h | h
                  · exact List.mem_append.2 (.inl (List.mem_map.2 ⟨_, h, rfl⟩))
                  · rw [List.mem_singleton.1 h]; simp)
              exact this
          · intro hh s hs
            have : ∃ w ∈ pre' ++ [y], s.id = w.ident := by
              rcases List.mem_append.1 hs with h | h
              · obtain ⟨w, hw, rfl⟩ := List.mem_map.1 h
                exact ⟨w, by simp [hw], rfl⟩
              · rw [List.mem_singleton.1 h]; exact ⟨y, by simp, rfl⟩
            obtain ⟨w, hw, he⟩ := this
            obtain ⟨k, hk, rfl⟩ := List.getElem_of_mem hw
            have hget : vs[k]? = some ((pre' ++ [y])[k]) := by
              rw [hvs, List.getElem?_append_left hk]; simp [hk]
            rw [he]
            exact (hgone k _ hget).2 (hh k (by rw [hvs]; simp at hk ⊢; omega))
        by_cases hA : ∀ k, k < vs.length → ∃ r' ∈ rs, r'.path = q ++ [k]
        · by_cases hM : ModuleSuite c.tree q
          · right
            exact ⟨by rw [k2, if_neg (fun hh => by simp [hM] at hh)], .inr hM⟩
          · left
            exact ⟨by rw [k2, if_pos ⟨hall.2 hA, by simp [hM]⟩]; rfl, hA, hM⟩
        · right
          refine ⟨by rw [k2, if_neg (fun hh => hA (hall.1 hh.1))], .inl ?_⟩
          exact Classical.byContradiction fun hno => hA fun k hk => Classical.byContradiction fun hno2 => hno ⟨k, hk, hno2⟩
  · cases h

theorem before_last {q p : Path} {i : Nat} (h : before (q ++ [i]) p = true) :
    (q ++ [i + 1]) <+: p ∨ before (q ++ [i + 1]) p = true := by
  induction q generalizing p with
  | nil =>
    cases p with
    | nil => simp [before] at h
    | cons j p =>
      simp only [List.nil_append, before, Bool.or_eq_true, decide_eq_true_eq, Bool.and_eq_true] at h ⊢
      rcases h with h | ⟨_, h⟩
      · by_cases e : i + 1 = j
        · subst e; left; exact ⟨p, rfl⟩
        · right; left; omega
      · simp at h
  | cons a q ih =>
    cases p with
    | nil => simp [before] at h
    | cons j p =>
      simp only [List.cons_append, before, Bool.or_eq_true, decide_eq_true_eq, Bool.and_eq_true] at h ⊢
      rcases h with h | ⟨rfl, h⟩
      · right; left; exact h
      · rcases ih h with h | h
        · left; exact List.cons_prefix_cons.2 ⟨rfl, h⟩
        · right; right; exact ⟨rfl, h⟩

/-- A path before the sibling `i + 1`: before sibling `i`, or that, or inside it. -/
theorem before_sibling {p q : Path} {i : Nat} (h : before p (q ++ [i + 1]) = true) :
    before p (q ++ [i]) = true ∨ (q ++ [i]) <+: p := by
  induction q generalizing p with
  | nil =>
    cases p with
    | nil => simp [before] at h
    | cons j p =>
      simp only [List.nil_append, before, Bool.or_eq_true, decide_eq_true_eq, Bool.and_eq_true] at h ⊢
      rcases h with h | ⟨_, h⟩
      · by_cases e : j = i
        · subst e; right; exact ⟨p, rfl⟩
        · left; left; omega
      · cases p <;> simp [before] at h
  | cons a q ih =>
    cases p with
    | nil => simp [before] at h
    | cons j p =>
      simp only [List.cons_append, before, Bool.or_eq_true, decide_eq_true_eq, Bool.and_eq_true] at h ⊢
      rcases h with h | ⟨rfl, h⟩
      · left; left; exact h
      · rcases ih h with h | h
        · left; right; exact ⟨rfl, h⟩
        · right; exact List.cons_prefix_cons.2 ⟨rfl, h⟩

theorem before_snoc {q : Path} {i k : Nat} : before (q ++ [i]) (q ++ [k]) = true ↔ i < k := by
  induction q with
  | nil => simp [before]
  | cons a q ih => simp [before, ih]

section removal
variable {c : Ctx} {tk : TokInfo} (hl : LaidOut c tk) {q : Path} {vs : List Val} (hs : SuiteAt c.tree q vs)
  {gone : Nat → Prop} {i : Nat} {v : Val} (hi : vs[i]? = some v) {out : Span} {text : Str}
  (h : StmtRemoval (fun v => (c.tok v.ident).getD (0, 0)) (fun v => tk.semi v.ident) (ModuleSuite c.tree q) vs gone i v out text)
include hl hs hi h

/-- The three cases of a removal. -/
theorem removal_cases : ∃ sv, c.tok v.ident = some sv ∧ sv.1 < sv.2 ∧
    ((∃ w sw, vs[i + 1]? = some w ∧ c.tok w.ident = some sw ∧ out = (sv.1, sw.1) ∧ sv.2 ≤ sw.1 ∧ text = []) ∨
     (vs[i + 1]? = none ∧ i = 0 ∧ out = sv ∧ (text = str "pass" ∧ ¬ ModuleSuite c.tree q ∨ text = [] ∧ ModuleSuite c.tree q)) ∨
     (∃ k p sp, i = k + 1 ∧ vs[i + 1]? = none ∧ vs[k]? = some p ∧ c.tok p.ident = some sp ∧ sp.2 ≤ sv.1 ∧
       (gone k → out.1 = sv.1) ∧ (¬ gone k → out.1 = sp.2) ∧
       (∀ s, tk.semi v.ident = some s → out.2 = s.2 ∧ sv.2 ≤ s.2) ∧ (tk.semi v.ident = none → out.2 = sv.2) ∧
       (text = str "pass" ∧ (∀ k, k < vs.length → gone k) ∧ ¬ ModuleSuite c.tree q ∨
         text = [] ∧ ((∃ k, k < vs.length ∧ ¬ gone k) ∨ ModuleSuite c.tree q)))) := by
  obtain ⟨⟨j, hq⟩, hst⟩ := hs
  have hat : ∀ k w, vs[k]? = some w → c.tree.at? (q ++ [k]) = some w := fun k w hk => by rw [at?_item hq, hk]
  have hvst := hst v (List.mem_of_getElem? hi)
  obtain ⟨sv, h1, h2⟩ := hl.tokens _ v (hat i v hi) hvst
  obtain ⟨r1, r2, r3⟩ := h
  have hsv : (c.tok v.ident).getD (0, 0) = sv := by rw [h1]; rfl
  refine ⟨sv, h1, h2, ?_⟩
  cases hn : vs[i + 1]? with
  | some w =>
    left
    have hwst := hst w (List.mem_of_getElem? hn)
    obtain ⟨sw, h3, _⟩ := hl.tokens _ w (hat _ w hn) hwst
    obtain ⟨r1a, r1b⟩ := r1 w hn
    refine ⟨w, sw, rfl, h3, ?_, hl.order _ _ _ _ sv sw (hat i v hi) (hat _ w hn) hvst hwst (before_snoc.2 (by omega)) h1 h3, r1b⟩
    rw [r1a]; simp [h1, h3]
  | none =>
    right
    have hlen : i + 1 = vs.length := by
      have := List.getElem?_eq_none_iff.1 hn
      have := (List.getElem?_eq_some_iff.1 hi).1
      omega
    cases i with
    | zero =>
      left
      obtain ⟨r2a, r2b⟩ := r2 (by omega)
      exact ⟨rfl, rfl, r2a.trans hsv, r2b⟩
    | succ k =>
      right
      have hk : k < vs.length := by omega
      have hp : vs[k]? = some vs[k] := by simp [hk]
      have hpst := hst vs[k] (List.getElem_mem hk)
      obtain ⟨sp, h3, _⟩ := hl.tokens _ _ (hat _ _ hp) hpst
      obtain ⟨a, b, d, e, f⟩ := r3 vs[k] hlen (by simpa using hp) (by omega)
      have hsp : (c.tok (vs[k]).ident).getD (0, 0) = sp := by rw [h3]; rfl
      simp only [Nat.add_sub_cancel, hsp, hsv] at a b d e f
      refine ⟨k, vs[k], sp, rfl, rfl, hp, h3,
        hl.order _ _ _ _ sp sv (hat _ _ hp) (hat _ v hi) hpst hvst (before_snoc.2 (by omega)) h3 h1, a, b, ?_, e, f⟩
      intro s hsem
      have := hl.semi _ v sv s (hat _ v hi) hvst h1 hsem
      exact ⟨d s hsem, by omega⟩

/-- The edit covers the statement. -/
theorem removal_covers : ∃ sv, c.tok v.ident = some sv ∧ out.1 ≤ sv.1 ∧ sv.2 ≤ out.2 := by
  obtain ⟨sv, h1, h2, h3⟩ := removal_cases hl hs hi h
  refine ⟨sv, h1, ?_⟩
  rcases h3 with ⟨w, sw, _, _, rfl, h, _⟩ | ⟨_, _, rfl, _⟩ | ⟨k, p, sp, _, _, _, _, h, a, b, d, e, _⟩
  · exact ⟨Nat.le_refl _, h⟩
  · exact ⟨Nat.le_refl _, Nat.le_refl _⟩
  · constructor
    · by_cases hg : gone k
      · rw [a hg]; exact Nat.le_refl _
      · rw [b hg]; exact h
    · cases hsem : tk.semi v.ident with
      | none => rw [e hsem]; exact Nat.le_refl _
      | some s => rw [(d s hsem).1]; exact (d s hsem).2

/-- The edit ends before any later statement. -/
theorem removal_end {p : Path} {u : Val} {su : Span} (hp : c.tree.at? p = some u) (hu : u.IsStmt) (hsu : c.tok u.ident = some su)
    (hb : before (q ++ [i]) p = true) : out.2 ≤ su.1 := by
  obtain ⟨sv, h1, h2, h3⟩ := removal_cases hl hs hi h
  obtain ⟨⟨j, hq⟩, hst⟩ := hs
  have hat : ∀ k w, vs[k]? = some w → c.tree.at? (q ++ [k]) = some w := fun k w hk => by rw [at?_item hq, hk]
  have hvst := hst v (List.mem_of_getElem? hi)
  have hlt := hl.order _ _ _ _ sv su (hat i v hi) hp hvst hu hb h1 hsu
  rcases h3 with ⟨w, sw, hw, hsw, rfl, _, _⟩ | ⟨_, _, rfl, _⟩ | ⟨k, p', sp, _, _, _, _, _, a, b, d, e, _⟩
  · have hwst := hst w (List.mem_of_getElem? hw)
    rcases before_last hb with hb | hb
    · exact (hl.nested _ _ _ _ sw su (hat _ w hw) hp hwst hu hb hsw hsu).1
    · have := hl.order _ _ _ _ sw su (hat _ w hw) hp hwst hu hb hsw hsu
      obtain ⟨s', h4, h5⟩ := hl.tokens _ w (hat _ w hw) hwst
      rw [hsw] at h4; cases h4
      exact Nat.le_trans (Nat.le_of_lt h5) this
  · exact hlt
  · cases hsem : tk.semi v.ident with
    | none => rw [e hsem]; exact hlt
    | some s =>
      rw [(d s hsem).1]
      exact hl.semiOrder _ _ _ _ su s (hat i v hi) hp hvst hu hb hsem hsu

/-- Within a statement whose suites have no ';' at the end, the edit stays within. -/
theorem removal_within (hns : NoTrailingSemicolon c tk) {p : Path} {u : Val} {su : Span} (hp : c.tree.at? p = some u) (hu : u.IsStmt)
    (hsu : c.tok u.ident = some su) (hb : p <+: q) : out.2 ≤ su.2 := by
  obtain ⟨sv, h1, h2, h3⟩ := removal_cases hl hs hi h
  have hsq := hs
  obtain ⟨⟨j, hq⟩, hst⟩ := hs
  have hat : ∀ k w, vs[k]? = some w → c.tree.at? (q ++ [k]) = some w := fun k w hk => by rw [at?_item hq, hk]
  have hvst := hst v (List.mem_of_getElem? hi)
  have hin : ∀ k, p <+: q ++ [k] := fun k => hb.trans (List.prefix_append _ _)
  have hv2 := (hl.nested _ _ _ _ su sv hp (hat i v hi) hu hvst (hin i) hsu h1).2
  rcases h3 with ⟨w, sw, hw, hsw, rfl, _, _⟩ | ⟨_, _, rfl, _⟩ | ⟨k, p', sp, _, hn, _, _, _, a, b, d, e, _⟩
  · have hwst := hst w (List.mem_of_getElem? hw)
    have := (hl.nested _ _ _ _ su sw hp (hat _ w hw) hu hwst (hin _) hsu hsw).2
    obtain ⟨s', h4, h5⟩ := hl.tokens _ w (hat _ w hw) hwst
    rw [hsw] at h4; cases h4
    exact Nat.le_trans (Nat.le_of_lt h5) this
  · exact hv2
  · have hlast : vs.getLast? = some v := by
      rw [List.getLast?_eq_getElem?]
      have := List.getElem?_eq_none_iff.1 hn
      have := (List.getElem?_eq_some_iff.1 hi).1
      rw [show vs.length - 1 = i by omega, hi]
    rw [e (hns p u q vs v hp hu hb hsq hlast)]
    exact hv2

end removal

/-- Edits of statements at different places do not overlap. -/
theorem removals_apart {c : Ctx} {tk : TokInfo} (hl : LaidOut c tk) {q₁ q₂ : Path} {vs₁ vs₂ : List Val} (hs₁ : SuiteAt c.tree q₁ vs₁)
    (hs₂ : SuiteAt c.tree q₂ vs₂) {G : Path → Prop} {i₁ i₂ : Nat} {v₁ v₂ : Val} (hi₁ : vs₁[i₁]? = some v₁) (hi₂ : vs₂[i₂]? = some v₂)
    {out₁ out₂ : Span} {t₁ t₂ : Str}
    (h₁ : StmtRemoval (fun v => (c.tok v.ident).getD (0, 0)) (fun v => tk.semi v.ident) (ModuleSuite c.tree q₁) vs₁ (fun k => G (q₁ ++ [k])) i₁ v₁ out₁ t₁)
    (h₂ : StmtRemoval (fun v => (c.tok v.ident).getD (0, 0)) (fun v => tk.semi v.ident) (ModuleSuite c.tree q₂) vs₂ (fun k => G (q₂ ++ [k])) i₂ v₂ out₂ t₂)
    (hb : before (q₁ ++ [i₁]) (q₂ ++ [i₂]) = true) (hg : G (q₁ ++ [i₁])) (hns : q₁ = q₂ ∨ NoTrailingSemicolon c tk) : out₁.2 ≤ out₂.1 := by
  obtain ⟨sv, h1, h2, h3⟩ := removal_cases hl hs₂ hi₂ h₂
  have hs₂' := hs₂
  obtain ⟨⟨j, hq⟩, hst⟩ := hs₂'
  have hat : ∀ k w, vs₂[k]? = some w → c.tree.at? (q₂ ++ [k]) = some w := fun k w hk => by rw [at?_item hq, hk]
  have hstart := removal_end hl hs₁ hi₁ h₁ (hat _ _ hi₂) (hst _ (List.mem_of_getElem? hi₂)) h1 hb
  rcases h3 with ⟨w, sw, hw, hsw, rfl, _, _⟩ | ⟨_, _, rfl, _⟩ | ⟨k, p, sp, rfl, hn, hp, hsp, _, a, b, d, e, _⟩
  · exact hstart
  · exact hstart
  · by_cases hgk : G (q₂ ++ [k])
    · rw [a hgk]; exact hstart
    · rw [b hgk]
      have hpst := hst p (List.mem_of_getElem? hp)
      obtain ⟨s', h4, h5⟩ := hl.tokens _ p (hat _ p hp) hpst
      rw [hsp] at h4; cases h4
      rcases before_sibling hb with hb | hb
      · exact Nat.le_trans (removal_end hl hs₁ hi₁ h₁ (hat _ p hp) hpst hsp hb) (Nat.le_of_lt h5)
      · have hne : q₁ ++ [i₁] ≠ q₂ ++ [k] := fun e => hgk (e ▸ hg)
        obtain ⟨s, hx⟩ := hb
        rcases List.eq_nil_or_concat s with rfl | ⟨s, y, rfl⟩
        · rw [List.append_nil] at hx; exact absurd hx.symm hne
        · rw [List.concat_eq_append, ← List.append_assoc] at hx
          have hq1 := (List.append_inj' hx rfl).1
          rcases hns with rfl | hns
          · exfalso
            have := congrArg List.length hq1
            simp at this
            
          · exact removal_within hl hs₁ hi₁ h₁ hns (hat _ p hp) hpst hsp ⟨s, hq1⟩

theorem forall2_zip {α β : Type} {R : α → β → Prop} {as : List α} {bs : List β} (h : Forall2 R as bs) :
    ∃ L : List (α × β), L.map Prod.fst = as ∧ L.map Prod.snd = bs ∧ ∀ e ∈ L, R e.1 e.2 := by
  induction h with
  | nil => exact ⟨[], rfl, rfl, by simp⟩
  | @cons a b as bs hab _ ih =>
    obtain ⟨L, h1, h2, h3⟩ := ih
    refine ⟨(a, b) :: L, by simp [h1], by simp [h2], ?_⟩
    intro e he
    rcases List.mem_cons.1 he with rfl | he
    · exact hab
    · exact h3 e he

theorem EditOf.unique {f : Found} {a b : Span} {s t : Str} (h : EditOf f a s) (h' : EditOf f b t) : a = b ∧ s = t :=
  ⟨Option.some.inj (h.1.symm.trans h'.1), Option.some.inj (h.2.1.symm.trans h'.2.1)⟩

/-- **C31** for the statements of a suite that a search removes: each edit deletes its statement; edits of the same suite come
one after the other and touch no statement that stays; if all statements of a suite that is not the module body are removed,
the last edit puts in `pass`, and no other edit puts in anything. Edits of different suites do not overlap either, provided no
suite inside a statement ends in ';' (see `C31_nested_semicolon_false`). -/
theorem C31_search (c : Ctx) (tk : TokInfo) (env : Templates) (n : Nat) (m : Matcher) (t : Str) (hm : Ordinary c m)
    (hself : ReportsItself c n m) (hu : Unshared c.tree) (hl : LaidOut c tk) (ht : Removing env t) (fs : List Found)
    (h : pySearch c tk env (n + 2) (fromMatcher m [(str "__root", t)]) = .ok fs) :
    ∃ L : List (Report × Option Found), Outermost (attempt c n m) c.tree c.done (L.map Prod.fst) ∧ fs = L.filterMap Prod.snd ∧
      ∀ e ∈ L, ∀ q vs i v, SuiteAt c.tree q vs → e.1.path = q ++ [i] → vs[i]? = some v → ∃ f out text,
        e.2 = some f ∧ EditOf f out text ∧
        -- the statement goes
        (∃ sv, c.tok v.ident = some sv ∧ out.1 ≤ sv.1 ∧ sv.2 ≤ out.2) ∧
        -- the statements that stay are spared
        (∀ k w sw, vs[k]? = some w → (∀ e' ∈ L, e'.1.path ≠ q ++ [k]) → c.tok w.ident = some sw → SpanApart out sw) ∧
        -- what is put in
        (text = str "pass" ∨ text = []) ∧
        (text = str "pass" ↔ i + 1 = vs.length ∧ (∀ k, k < vs.length → ∃ e' ∈ L, e'.1.path = q ++ [k]) ∧ ¬ ModuleSuite c.tree q) ∧
        -- no overlap with later edits
        (∀ e' ∈ L, ∀ q' vs' i' v' f' out' text', SuiteAt c.tree q' vs' → e'.1.path = q' ++ [i'] → vs'[i']? = some v' → e'.2 = some f' →
          EditOf f' out' text' → before e.1.path e'.1.path = true → q = q' ∨ NoTrailingSemicolon c tk → out.2 ≤ out'.1) := by
  obtain ⟨rs, os, h1, h2, h3⟩ := C31_edits c tk env n m t hm hself hu hl ht fs h
  obtain ⟨L, rfl, rfl, hL⟩ := forall2_zip h3
  refine ⟨L, h1, by rw [h2, List.filterMap_map]; rfl, ?_⟩
  have hmem : ∀ p : Path, (∃ r' ∈ L.map Prod.fst, r'.path = p) ↔ ∃ e' ∈ L, e'.1.path = p := by
    intro p
    constructor
    · rintro ⟨r, hr, e⟩
      obtain ⟨x, hx, rfl⟩ := List.mem_map.1 hr
      exact ⟨x, hx, e⟩
    · rintro ⟨x, hx, e⟩
      exact ⟨x.1, List.mem_map.2 ⟨x, hx, rfl⟩, e⟩
  simp only [hmem] at hL
  intro e he q vs i v hs hp hi
  obtain ⟨f, out, text, g1, g2, g3⟩ := hL e he q vs i v hs hp hi
  refine ⟨f, out, text, g1, g2, removal_covers hl hs hi g3, ?_, ?_, ?_, ?_⟩
  · intro k w sw hk hno hsw
    have hs' := hs
    obtain ⟨⟨j, hq⟩, hst⟩ := hs'
    have hat : ∀ k w, vs[k]? = some w → c.tree.at? (q ++ [k]) = some w := fun k w hk => by rw [at?_item hq, hk]
    have hwst := hst w (List.mem_of_getElem? hk)
    rcases Nat.lt_trichotomy i k with hik | hik | hik
    · left
      exact removal_end hl hs hi g3 (hat k w hk) hwst hsw (before_snoc.2 hik)
    · subst hik; exact absurd hp (hno e he)
    · right
      obtain ⟨sv, s1, s2, s3⟩ := removal_cases hl hs hi g3
      have hord := hl.order _ _ _ _ sw sv (hat k w hk) (hat i v hi) hwst (hst v (List.mem_of_getElem? hi)) (before_snoc.2 hik) hsw s1
      rcases s3 with ⟨w', sw', _, _, rfl, _⟩ | ⟨_, _, rfl, _⟩ | ⟨k', p, sp, rfl, hn, hp', hsp, _, a, b, _⟩
      · exact hord
      · exact hord
      · by_cases hg : ∃ e' ∈ L, e'.1.path = q ++ [k']
        · rw [a hg]; exact hord
        · rw [b hg]
          by_cases hkk : k = k'
          · subst hkk; rw [hk] at hp'; cases hp'; rw [hsw] at hsp; cases hsp; exact Nat.le_refl _
          · have hpst := hst p (List.mem_of_getElem? hp')
            have := hl.order _ _ _ _ sw sp (hat k w hk) (hat k' p hp') hwst hpst (before_snoc.2 (by omega)) hsw hsp
            obtain ⟨s', h4, h5⟩ := hl.tokens _ p (hat _ p hp') hpst
            rw [hsp] at h4; cases h4
            exact Nat.le_trans this (Nat.le_of_lt h5)
  · obtain ⟨sv, s1, s2, s3⟩ := removal_cases hl hs hi g3
    rcases s3 with ⟨w', sw', _, _, _, _, h⟩ | ⟨_, _, _, h | h⟩ | ⟨k', p, sp, _, _, _, _, _, _, _, _, _, h | h⟩
    · exact .inr h
    · exact .inl h.1
    · exact .inr h.1
    · exact .inl h.1
    · exact .inr h.1
  · have hne : ([] : Str) ≠ str "pass" := by decide
    have hlt := (List.getElem?_eq_some_iff.1 hi).1
    have hend : vs[i + 1]? = none → i + 1 = vs.length := fun hn => by have := List.getElem?_eq_none_iff.1 hn; omega
    obtain ⟨sv, s1, s2, s3⟩ := removal_cases hl hs hi g3
    rcases s3 with ⟨w', sw', hw', _, _, _, h⟩ | ⟨hn, h0, _, h | h⟩ | ⟨k', p, sp, _, hn, _, _, _, _, _, _, _, h | h⟩
    · rw [h]
      have := (List.getElem?_eq_some_iff.1 hw').1
      exact ⟨fun e => absurd e hne, fun e => absurd e.1 (by omega)⟩
    · refine ⟨fun _ => ⟨hend hn, fun k hk => ⟨e, he, ?_⟩, h.2⟩, fun _ => h.1⟩
      have := hend hn
      rw [hp, show i = k by omega]
    · rw [h.1]; exact ⟨fun e => absurd e hne, fun e => absurd h.2 e.2.2⟩
    · exact ⟨fun _ => ⟨hend hn, h.2.1, h.2.2⟩, fun _ => h.1⟩
    · rw [h.1]
      refine ⟨fun e => absurd e hne, fun e => ?_⟩
      rcases h.2 with ⟨k, hk, hno⟩ | h2
      · exact absurd (e.2.1 k hk) hno
      · exact absurd h2 e.2.2
  · intro e' he' q' vs' i' v' f' out' text' hs' hp' hi' hf' hed' hb hns
    obtain ⟨f2, out2, text2, k1, k2, k3⟩ := hL e' he' q' vs' i' v' hs' hp' hi'
    rw [hf'] at k1; cases k1
    obtain ⟨rfl, rfl⟩ := hed'.unique k2
    rw [hp, hp'] at hb
    exact removals_apart (G := fun p => ∃ e' ∈ L, e'.1.path = p) hl hs hs' hi hi' g3 k3 hb ⟨e, he, hp⟩ hns

end Refex
