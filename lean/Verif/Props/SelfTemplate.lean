import Verif.Spec.SelfTemplate
import Verif.Props.ModesTemplateMore
/- C112: a pattern that is its own template. -/
namespace Refex
set_option autoImplicit false

/-! ### Two instances of the same tree -/

theorem instances_twice {hole : Val → Hole} {al al' : Label → Val → Prop} (ts : List Val)
    (h : ∀ t ∈ ts, ∀ v w occ occ', Instance hole al t v occ → Instance hole al' t w occ' →
      occ.map Prod.fst = occ'.map Prod.fst ∧ ((∀ p ∈ occ, ∀ q ∈ occ', p.1 = q.1 → SameTree p.2 q.2) → SameTree v w)) :
    ∀ {vs ws : List Val} {occ occ' : Occs}, Instances hole al ts vs occ → Instances hole al' ts ws occ' →
      occ.map Prod.fst = occ'.map Prod.fst ∧ vs.length = ws.length ∧ ((∀ p ∈ occ, ∀ q ∈ occ', p.1 = q.1 → SameTree p.2 q.2) →
        ∀ (k : Nat) v w, vs[k]? = some v → ws[k]? = some w → SameTree v w) := by
  induction ts with
  | nil =>
    intro vs ws occ occ' h1 h2
    cases h1; cases h2
    exact ⟨rfl, rfl, fun _ k v w hv => by simp at hv⟩
  | cons t ts ih =>
    intro vs ws occ occ' h1 h2
    cases h1 with
    | cons a1 b1 =>
      cases h2 with
      | cons a2 b2 =>
        obtain ⟨n1, s1⟩ := h t (List.mem_cons_self ..) _ _ _ _ a1 a2
        obtain ⟨n2, l2, s2⟩ := ih (fun t ht => h t (List.mem_cons_of_mem _ ht)) b1 b2
        refine ⟨by rw [List.map_append, List.map_append, n1, n2], by simp [l2], fun hall k v w hv hw => ?_⟩
        cases k with
        | zero =>
          simp at hv hw; subst hv hw
          exact s1 fun p hp q hq => hall p (List.mem_append_left _ hp) q (List.mem_append_left _ hq)
        | succ k => exact s2 (fun p hp q hq => hall p (List.mem_append_right _ hp) q (List.mem_append_right _ hq)) k v w hv hw

theorem fieldInstances_twice {hole : Val → Hole} {al al' : Label → Val → Prop} {ty : Str} (ts : List Val)
    (h : ∀ t ∈ ts, ∀ v w occ occ', Instance hole al t v occ → Instance hole al' t w occ' →
      occ.map Prod.fst = occ'.map Prod.fst ∧ ((∀ p ∈ occ, ∀ q ∈ occ', p.1 = q.1 → SameTree p.2 q.2) → SameTree v w)) :
    ∀ {ns : List Str} {vs ws : List Val} {occ occ' : Occs}, FieldInstances hole al ty ns ts vs occ → FieldInstances hole al' ty ns ts ws occ' →
      occ.map Prod.fst = occ'.map Prod.fst ∧ vs.length = ws.length ∧ ((∀ p ∈ occ, ∀ q ∈ occ', p.1 = q.1 → SameTree p.2 q.2) →
        ∀ (k : Nat) n v w, ns[k]? = some n → vs[k]? = some v → ws[k]? = some w → ¬ (ty = str "Name" ∧ n = str "ctx") → SameTree v w) := by
  induction ts with
  | nil =>
    intro ns vs ws occ occ' h1 h2
    cases h1; cases h2
    exact ⟨rfl, rfl, fun _ k n v w hn => by simp at hn⟩
  | cons t ts ih =>
    intro ns vs ws occ occ' h1 h2
    have ih := @ih (fun t ht => h t (List.mem_cons_of_mem _ ht))
    cases h1 with
    | ctx b1 =>
      cases h2 with
      | ctx b2 =>
        obtain ⟨n2, l2, s2⟩ := ih b1 b2
        refine ⟨n2, by simp [l2], fun hall k n v w hn hv hw hc => ?_⟩
        cases k with
        | zero => simp at hn; exact absurd ⟨rfl, hn.symm⟩ hc
        | succ k => exact s2 hall k n v w hn hv hw hc
      | cons hc _ _ => exact absurd ⟨rfl, rfl⟩ hc
    | cons hc a1 b1 =>
      cases h2 with
      | ctx _ => exact absurd ⟨rfl, rfl⟩ hc
      | cons _ a2 b2 =>
        obtain ⟨n1, s1⟩ := h t (List.mem_cons_self ..) _ _ _ _ a1 a2
        obtain ⟨n2, l2, s2⟩ := ih b1 b2
        refine ⟨by rw [List.map_append, List.map_append, n1, n2], by simp [l2], fun hall k n v w hn hv hw hc => ?_⟩
        cases k with
        | zero =>
          simp at hv hw; subst hv hw
          exact s1 fun p hp q hq => hall p (List.mem_append_left _ hp) q (List.mem_append_left _ hq)
        | succ k => exact s2 (fun p hp q hq => hall p (List.mem_append_right _ hp) q (List.mem_append_right _ hq)) k n v w hn hv hw hc

/-- Two instances of a tree without anonymous metavariables are the same tree, if the same code stands for the metavariables. -/
theorem instance_twice {hole : Val → Hole} {al al' : Label → Val → Prop} (hna : ∀ t, hole t ≠ .anonymous) {t v w : Val} {occ occ' : Occs}
    (h1 : Instance hole al t v occ) (h2 : Instance hole al' t w occ') :
    occ.map Prod.fst = occ'.map Prod.fst ∧ ((∀ p ∈ occ, ∀ q ∈ occ', p.1 = q.1 → SameTree p.2 q.2) → SameTree v w) := by
  suffices H : ∀ k (t : Val), t.size ≤ k → ∀ v w occ occ', Instance hole al t v occ → Instance hole al' t w occ' →
      occ.map Prod.fst = occ'.map Prod.fst ∧ ((∀ p ∈ occ, ∀ q ∈ occ', p.1 = q.1 → SameTree p.2 q.2) → SameTree v w) from
    H _ t (Nat.le_refl _) v w occ occ' h1 h2
  intro k
  induction k with
  | zero => intro t ht; have := t.size_pos; omega
  | succ k ih =>
    intro t ht v w occ occ' h1 h2
    cases h1 with
    | named e a =>
      cases h2 with
      | named e' a' =>
        rw [e] at e'; cases e'
        exact ⟨rfl, fun h => h _ (List.mem_singleton.2 rfl) _ (List.mem_singleton.2 rfl) rfl⟩
      | anonymous e' => rw [e] at e'; cases e'
      | const e' => rw [e] at e'; cases e'
      | list e' => rw [e] at e'; cases e'
      | node e' => rw [e] at e'; cases e'
    | anonymous e => exact absurd e (hna _)
    | const e a =>
      cases h2 with
      | named e' => rw [e] at e'; cases e'
      | anonymous e' => rw [e] at e'; cases e'
      | const e' a' => exact ⟨rfl, fun _ => .const (Const.pyEq_trans a' (Const.pyEq_symm a))⟩
    | list e a =>
      cases h2 with
      | named e' => rw [e] at e'; cases e'
      | anonymous e' => rw [e] at e'; cases e'
      | list e' a' =>
        obtain ⟨n, l, s⟩ := instances_twice _ (fun t ht' => ih t (by
          have := size_mem ht'; simp only [Val.size] at ht; omega)) a a'
        exact ⟨n, fun h => .list l (s h)⟩
    | node e a =>
      cases h2 with
      | named e' => rw [e] at e'; cases e'
      | anonymous e' => rw [e] at e'; cases e'
      | node e' a' =>
        obtain ⟨n, l, s⟩ := fieldInstances_twice _ (fun t ht' => ih t (by
          have := size_mem ht'; simp only [Val.size] at ht; omega)) a a'
        exact ⟨n, fun h => .node l (s h)⟩

theorem occs_last_nodup {occ : Occs} (h : (occ.map Prod.fst).Nodup) {p : Label × Val} (hp : p ∈ occ) : (occ.of p.1).getLast? = some p.2 := by
  have : occ.of p.1 = [p.2] := by
    unfold Occs.of
    induction occ with
    | nil => cases hp
    | cons q occ ih =>
      obtain ⟨h1, h2⟩ := List.nodup_cons.1 h
      rcases List.mem_cons.1 hp with rfl | hp
      · rw [List.filter_cons_of_pos (by simp), List.filter_eq_nil_iff.2 (fun r hr hd => h1 (List.mem_map.2 ⟨r, hr, of_decide_eq_true hd⟩))]
        rfl
      · rw [List.filter_cons_of_neg (by
          intro hd
          exact h1 (List.mem_map.2 ⟨p, hp, (of_decide_eq_true hd).symm⟩))]
        exact ih h2 hp
  rw [this]; rfl

section
variable {g : Grammar} {py : Python} (hfit : PythonFits g py)
include hfit

/-- What a pattern and a template with the same text are. -/
theorem pattern_and_template {kind : PatternKind} {text : Str} {toks : List PTok} {ps : List (Str × Str)}
    (htok : py.tokens (withNewline text) = some toks) (hplain : PlainTokens toks ps) {m : Matcher} (hm : py.pattern kind text = .ok m)
    {t : PyTemplate} (h : py.pyTemplate kind text = .ok t) :
    ∃ an vs tr what, PatternMeans py kind text what tr ∧ metaNames an vs = what ∧ MatchesInstances m what [] tr ∧ Parsed g false tr ∧
      TemplateOf g t kind.whole an vs tr ∧ ∀ (c : Ctx) (n : Nat), Ordinary c m ∧ ∃ f, typeFilter (n + 4) [] m = .ok f := by
  obtain ⟨toks', mt, htok', htp, hpat, hb, htext, ha⟩ := pyTemplate_parts h
  have hord := fun (c : Ctx) (n : Nat) => pattern_ordinary hb c n
  rw [htok] at htok'; cases htok'
  rw [hm] at hpat; cases hpat
  have hres := hplain
  obtain ⟨⟨body, em, rfl, hem, hes, hz⟩, hlay⟩ := hplain
  rcases buildPattern_outcome hem hes hz hlay py.parse hfit.parse py.iter hfit.iter kind (addsNewline text) [] with ⟨_, hno⟩ | ⟨_, l, s, hread, _, hmade⟩
  · rw [hb] at hno; cases hno
  obtain ⟨an, vs, tree, tr, rfl, hnd, hmean, hnone, hps, hfound, hint⟩ := hmade m hb
  have htr := hfit.grammar _ _ _ _ hps hint
  refine ⟨an, vs, tr, _, ⟨_, ps, l, s, tree, htok, hres, hread, hnone, hps, hfound, hint, rfl⟩, hmean, ?_, htr, ⟨by rw [ha, factory_whole], hnd, htr⟩, hord⟩
  rw [← hmean]
  intro c env N allowed hr g' hg' ht' b v hv n hn ks
  exact ⟨C59_match_is_instance hnd hr g' hg' tr ht' b v hv n hn ks, fun occ hi hal => C59_instance_matches hnd hr g' hg' tr ht' b v hv n hn ks occ hi hal⟩

omit hfit in
mutual
theorem instance_labels {hole : Val → Hole} {al : Label → Val → Prop} : ∀ {t v : Val} {occ : Occs}, Instance hole al t v occ →
    ∀ p ∈ occ, ∃ t, hole t = .named p.1
  | t, _, _, .named e _, p, hp => by rw [List.mem_singleton.1 hp]; exact ⟨t, e⟩
  | _, _, _, .anonymous _, p, hp => by cases hp
  | _, _, _, .const _ _, p, hp => by cases hp
  | _, _, _, .list _ h, p, hp => instances_labels h p hp
  | _, _, _, .node _ h, p, hp => fieldInstances_labels h p hp
theorem instances_labels {hole : Val → Hole} {al : Label → Val → Prop} : ∀ {ts vs : List Val} {occ : Occs}, Instances hole al ts vs occ →
    ∀ p ∈ occ, ∃ t, hole t = .named p.1
  | _, _, _, .nil, p, hp => by cases hp
  | _, _, _, .cons h hs, p, hp => (List.mem_append.1 hp).elim (instance_labels h p) (instances_labels hs p)
theorem fieldInstances_labels {hole : Val → Hole} {al : Label → Val → Prop} : ∀ {ty : Str} {ns : List Str} {ts vs : List Val} {occ : Occs},
    FieldInstances hole al ty ns ts vs occ → ∀ p ∈ occ, ∃ t, hole t = .named p.1
  | _, _, _, _, _, .nil, p, hp => by cases hp
  | _, _, _, _, _, .ctx hs, p, hp => fieldInstances_labels hs p hp
  | _, _, _, _, _, .cons _ h hs, p, hp => (List.mem_append.1 hp).elim (instance_labels h p) (fieldInstances_labels hs p)
end

omit hfit in
theorem holeAt_what {what : Str → Hole} {t : Val} {x : Hole} (h : holeAt what t = x) (hx : x ≠ .none) : ∃ s, what s = x := by
  unfold holeAt at h
  split at h
  · split at h
    · split at h
      · exact ⟨_, h⟩
      · exact absurd h.symm hx
    · exact absurd h.symm hx
  · exact absurd h.symm hx

omit hfit in
theorem no_reserved {kind : PatternKind} {text : Str} {what : Str → Hole} {t : Val} (h : PatternMeans py kind text what t) {s x : Str}
    (hs : what s = .named x) : ¬ str "__" <+: x := by
  obtain ⟨_, _, l, _, _, _, _, _, hnone, _, _, _, rfl⟩ := h
  unfold meaningOf at hs
  split at hs
  · cases hs
  · rename_i p hp
    split at hs
    · cases hs
    · cases hs
      exact hnone _ _ (List.mem_of_find?_eq_some hp)

/-- **C112**: with a pattern as its own template, what is put in the place of an instance is the same code: the text that is written there, read as Python, is the
tree that was matched. -/
theorem C112_keeps {kind : PatternKind} {text : Str} {toks : List PTok} {ps : List (Str × Str)} (hne : text ≠ [])
    (htok : py.tokens (withNewline text) = some toks) (hplain : PlainTokens toks ps) {m : Matcher} (hm : py.pattern kind text = .ok m)
    {t : PyTemplate} (h : py.pyTemplate kind text = .ok t) :
    ∃ what pat, PatternMeans py kind text what pat ∧ ((∀ s, what s ≠ .anonymous) → 2 * pat.size + 7 ≤ py.depth →
      ∀ content path p subs, (py.searcher m [(str "__root", t.code py)]).parse content path = .ok p →
        (py.searcher m [(str "__root", t.code py)]).find p = .ok subs →
        ∃ c hits os, py.file content = some c ∧ PatternHits what pat c.tree hits ∧ subs = os.filterMap id ∧
          Forall2 (fun hit o => ∀ s, o = some s → SimpleHit py c hit → ∃ rs, s.replacements = some rs ∧
            ∀ r, rs.get? (str "__root") = some r → KeptAs py kind r hit.node) hits os) := by
  obtain ⟨an, vs, pat, what, hmean, hnames, hinst, hparsed, hto, hord⟩ := pattern_and_template hfit htok hplain hm h
  refine ⟨what, pat, hmean, fun hna hdepth content path p subs hp hs => ?_⟩
  have htext : t.template = text := by
    obtain ⟨_, _, _, _, _, _, htext, _⟩ := pyTemplate_parts h
    exact htext
  obtain ⟨c, hits, os, hc, hhits, rfl, hall⟩ := search_of hfit hinst hparsed hord (by simp [Dict.WF, Dict.keys]) hdepth hp hs
  refine ⟨c, hits, os, hc, hhits, rfl, ?_⟩
  have hdel : ∀ stands x, ¬ Deletes [(str "__root", t.code py)] stands x := by
    rintro stands x ⟨⟨u, hu, he⟩, _⟩
    simp only [Dict.get?] at hu
    split at hu
    · cases hu; exact hne (htext.symm.trans he)
    · cases hu
  have hsound := hhits.sound
  clear hhits hp hs
  induction hall with
  | nil => exact .nil
  | @cons hit o hits os h1 h2 ih =>
    refine .cons (fun s ho hsimple => ?_) (ih fun h hh => hsound h (List.mem_cons_of_mem _ hh))
    subst ho
    obtain ⟨_, ⟨ms, rs, hoff, _, hrs, hrep, _⟩, _⟩ := h1
    refine ⟨rs, hrs, fun r hr => ?_⟩
    obtain ⟨_, u, mv, hu, _, hsub⟩ := (hrep _ r (hdel _ _)).1 hr
    cases hu
    have hsub : (match t.substituteMatch py.depth py.env (some c) mv.obj (namedMatches ms) with
      | .error e => Except.error e.toExc
      | .ok s => .ok s) = .ok r := hsub
    split at hsub
    · cases hsub
    rename_i r' hsub'
    cases hsub
    obtain ⟨replacement, map, c', occ', hcase, _, _, hc', ⟨w, hpart, hinst'⟩, hlast⟩ :=
      C53_substitute_structure hfit.modules (C93_env_fits hfit) hto (namedMatches_wf hoff.wf) hsub'
    refine ⟨replacement, c', w, hcase, hc', hpart, ?_⟩
    obtain ⟨hat, hi, _⟩ := hsound hit (List.mem_cons_self ..)
    rw [hnames] at hinst'
    obtain ⟨hn, hsame⟩ := instance_twice (fun t ht => by
      obtain ⟨s, hs⟩ := holeAt_what ht (by simp); exact hna s hs) hi hinst'
    refine hsame fun p hp q hq hpq => ?_
    have hq' := occs_last_nodup (hn ▸ hsimple.once) hq
    obtain ⟨hx, sp, hsp⟩ := hsimple.expressions p hp
    obtain ⟨pm, hpm, hfin⟩ := hlast q.1 q.2 hq'
    have hroot : q.1 ≠ str "__root" := by
      intro e
      obtain ⟨t', ht'⟩ := instance_labels hi p hp
      obtain ⟨s', hs'⟩ := holeAt_what ht' (by simp)
      exact no_reserved hmean hs' ⟨str "root", by rw [hpq, e]; rfl⟩
    rw [namedMatches_get, hoff.names _ (hdel _ _)] at hpm
    unfold PatternHit.label at hpm
    rw [if_neg hroot, ← hpq, occs_last_nodup hsimple.once hp] at hpm
    simp only [Option.map_some, Option.some.injEq] at hpm
    refine hfin p.2 sp ?_ hx ?_
    · rw [← hpm, hsp]; rfl
    · obtain ⟨b, hb⟩ := parsed_at (hfit.file _ _ hc).2.1 hat
      obtain ⟨b', hb'⟩ := instance_parsed _ _ _ hi b hb p hp
      exact parsed_node hb' (hfit.expr _ hx)

end

end Refex
