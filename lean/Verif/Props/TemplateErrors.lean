import Verif.Props.ModesTemplateMore
import Verif.Props.Surroundings
import Verif.Spec.TemplateErrors
/- C99: which exceptions a Python template raises. -/
namespace Refex
set_option autoImplicit false

/-! ### The matchers of templates raise nothing, but for the depth of the recursion -/

theorem accumLoop_cons_err {c : Ctx} {v : Val} {f : List Key → MOut} {fs : List (List Key → MOut)} {b : Bindings} {r : Replacements}
    {ks : List Key} {e : MExc} (h : accumLoop c v (f :: fs) b r ks = .error e) :
    f ks = .error e ∨ ∃ mi1 ks1, f ks = .ok (some mi1, ks1) ∧ (mergeBindings b mi1.bindings = .error e ∨ ∃ b1, mergeBindings b mi1.bindings = .ok (some b1) ∧
      (mergeReplacements r mi1.replacements = .error e ∨ ∃ r1, mergeReplacements r mi1.replacements = .ok r1 ∧ accumLoop c v fs b1 r1 ks1 = .error e)) := by
  rw [accumLoop] at h
  split at h
  · rename_i e' hf
    cases h; exact .inl hf
  · cases h
  · rename_i mi1 ks1 hf
    refine .inr ⟨mi1, ks1, hf, ?_⟩
    split at h
    · rename_i e' hb
      cases h; exact .inl hb
    · cases h
    · rename_i b1 hb
      refine .inr ⟨b1, hb, ?_⟩
      split at h
      · rename_i e' hr
        cases h; exact .inl hr
      · rename_i r1 hr
        exact .inr ⟨r1, hr, h⟩

theorem mergeReplacements_nil_left (r : Replacements) : ∃ r', mergeReplacements [] r = .ok r' := ⟨_, rfl⟩

theorem mergeReplacements_nil_right (r : Replacements) : ∃ r', mergeReplacements r [] = .ok r' := by
  unfold mergeReplacements
  rw [if_neg]
  · exact ⟨_, rfl⟩
  · simp [Dict.has, Dict.get?]

theorem moduleWith_err {g : Grammar} (hg : HasModules g) {c : Ctx} {n : Nat} {m : Matcher} {v : Val} (hv : Parsed g false v) {ks : List Key}
    {e : MExc} (h : run c n [] (moduleWith m) v ks = .error e) (he : e ≠ .recursionError) :
    ∃ j items n', (∀ w ∈ items, Parsed g false w) ∧ run c n' [] m (.list j items) ks = .error e := by
  cases n with
  | zero => cases h; exact absurd rfl he
  | succ n =>
    rw [moduleWith, run] at h
    split at h
    · cases h
    · rename_i hty
      have hty : v.ty = str "Module" := Classical.not_not.1 hty
      obtain ⟨i, vs, rfl, hlen, hp⟩ := parsed_same hg.list hv hg.module hty
      rw [hg.moduleFields] at hlen hp
      match vs, hlen with
      | [body, ti], _ =>
        have hb : Parsed g true body := hp 0 _ body rfl rfl
        cases hb with
        | @list j items hi =>
          rcases accumLoop_cons_err h with h | ⟨mi1, ks1, _, h⟩
          · have : (Val.node i (str "Module") ((g.fields (str "Module")).map Prod.fst) [.list j items, ti]).getattr (str "body") = .list j items := by
              rw [hg.moduleFields]; rfl
            exact ⟨j, items, n, hi, by rw [← this]; exact h⟩
          · exfalso
            rcases h with h | ⟨b1, hb1, h⟩
            · obtain ⟨b', h1, _⟩ := mergeBindings_nil mi1.bindings
              rw [h] at h1; cases h1
            · rcases h with h | ⟨r1, _, h⟩
              · obtain ⟨r', hr⟩ := mergeReplacements_nil_left mi1.replacements
                rw [hr] at h; cases h
              · have hany : ∀ w ks o, run c n [] .anything w ks = o → o = .error .recursionError ∨ ∃ mi ks', o = .ok (some mi, ks') ∧ mi.bindings = [] ∧ mi.replacements = [] := by
                  intro w ks o ho
                  subst ho
                  cases n with
                  | zero => exact .inl rfl
                  | succ n => exact .inr ⟨_, _, rfl, rfl, rfl⟩
                rcases accumLoop_cons_err h with h | ⟨mi2, ks2, hf, h⟩
                · rcases hany _ _ _ h with h' | ⟨_, _, h', _⟩
                  · cases h'; exact he rfl
                  · cases h'
                · rcases hany _ _ _ hf with h' | ⟨mi, ks', h', hn1, hn2⟩
                  · cases h'
                  · cases h'
                    obtain ⟨d, h3, _⟩ := (C37_empty (mergeBindings_wf hb1)).2
                    rw [hn1, hn2] at h
                    rcases h with h | ⟨_, _, h⟩
                    · rw [h] at h3; cases h3
                    · rcases h with h | ⟨_, _, h⟩
                      · obtain ⟨r', hr⟩ := mergeReplacements_nil_right r1
                        rw [hr] at h; cases h
                      · cases h

theorem itemsAre_one_err {c : Ctx} {n : Nat} {m : Matcher} {j : Nat} {items : List Val} {ks : List Key} {e : MExc}
    (h : run c n [] (.itemsAre [m]) (.list j items) ks = .error e) (he : e ≠ .recursionError) :
    ∃ w ∈ items, ∃ n' ks1, run c n' [] m w ks1 = .error e := by
  cases n with
  | zero => cases h; exact absurd rfl he
  | succ n =>
    rw [run] at h
    have hun : ∀ ks o, run c n [] (.unlessM (.hasItem 1 .anything)) (.list j items) ks = o → o = .error .recursionError ∨ (∃ ks', o = .ok (none, ks')) ∨
        ∃ mi ks', o = .ok (some mi, ks') ∧ mi.bindings = [] ∧ mi.replacements = [] := by
      intro ks o ho
      subst ho
      cases n with
      | zero => exact .inl rfl
      | succ n =>
        rw [run]
        cases n with
        | zero => exact .inl rfl
        | succ n =>
          rw [run]
          cases hi : getItem (.list j items) 1 with
          | none => exact .inr (.inr ⟨_, _, rfl, rfl, rfl⟩)
          | some w =>
            cases n with
            | zero => exact .inl rfl
            | succ n => exact .inr (.inl ⟨_, rfl⟩)
    rcases accumLoop_cons_err h with h | ⟨mi1, ks1, hf, h⟩
    · rcases hun _ _ h with h' | ⟨_, h'⟩ | ⟨_, _, h', _⟩
      · cases h'; exact absurd rfl he
      · cases h'
      · cases h'
    · rcases hun _ _ hf with h' | ⟨_, h'⟩ | ⟨mi, ks', h', hn1, hn2⟩
      · cases h'
      · cases h'
      cases h'
      rw [hn1, hn2] at h
      rcases h with h | ⟨b1, hb1, h⟩
      · cases h
      · cases hb1
        rcases h with h | ⟨r1, hr1, h⟩
        · cases h
        · cases hr1
          rcases accumLoop_cons_err h with h | ⟨mi2, ks2, _, h⟩
          · cases n with
            | zero => cases h; exact absurd rfl he
            | succ n =>
              have h : run c (n + 1) [] (.hasItem ((0 : Nat) : Int) m) (.list j items) ks1 = .error e := h
              rw [run, show getItem (.list j items) ((0 : Nat) : Int) = items[0]? from getItem_nat rfl 0] at h
              match items with
              | [] => cases h
              | w :: ws =>
                simp only [List.getElem?_cons_zero] at h
                refine ⟨w, List.mem_cons_self, n, ks1, ?_⟩
                cases hr : run c n [] m w ks1 with
                | error e' => rw [hr] at h; cases h; rfl
                | ok p =>
                  obtain ⟨o, ks3⟩ := p
                  cases o <;> (rw [hr] at h; cases h)
          · exfalso
            rcases h with h | ⟨b1, _, h⟩
            · obtain ⟨b', h1, _⟩ := mergeBindings_nil mi2.bindings
              rw [show mergeBindings [] mi2.bindings = _ from h] at h1; cases h1
            · rcases h with h | ⟨r1, _, h⟩
              · obtain ⟨r', hr⟩ := mergeReplacements_nil_left mi2.replacements
                rw [show mergeReplacements [] mi2.replacements = _ from h] at hr; cases hr
              · cases h

theorem exprStmt_err {g : Grammar} (hg : HasModules g) {c : Ctx} {n : Nat} {m : Matcher} {v : Val} (hv : Parsed g false v) {ks : List Key}
    {e : MExc} (h : run c n [] (.node (str "Expr") [str "value"] [m]) v ks = .error e) (he : e ≠ .recursionError) :
    ∃ w n', Parsed g false w ∧ run c n' [] m w ks = .error e := by
  cases n with
  | zero => cases h; exact absurd rfl he
  | succ n =>
    rw [run] at h
    split at h
    · cases h
    · rename_i hty
      have hty : v.ty = str "Expr" := Classical.not_not.1 hty
      obtain ⟨i, vs, rfl, hlen, hp⟩ := parsed_same hg.list hv hg.expr hty
      rw [hg.exprFields] at hlen hp
      match vs, hlen with
      | [w], _ =>
        have hb : Parsed g false w := hp 0 _ w rfl rfl
        rcases accumLoop_cons_err h with h | ⟨mi1, ks1, _, h⟩
        · refine ⟨w, n, hb, ?_⟩
          have : (Val.node i (str "Expr") ((g.fields (str "Expr")).map Prod.fst) [w]).getattr (str "value") = w := by
            rw [hg.exprFields]; rfl
          rw [← this]; exact h
        · exfalso
          rcases h with h | ⟨b1, _, h⟩
          · obtain ⟨b', h1, _⟩ := mergeBindings_nil mi1.bindings
            rw [show mergeBindings [] mi1.bindings = _ from h] at h1; cases h1
          · rcases h with h | ⟨r1, _, h⟩
            · obtain ⟨r', hr⟩ := mergeReplacements_nil_left mi1.replacements
              rw [show mergeReplacements [] mi1.replacements = _ from h] at hr; cases hr
            · cases h

theorem pattern_err {g : Grammar} (hg : HasModules g) {anonymous : List Str} {variables : List (Label × Str)} (hn : (variables.map Prod.snd).Nodup)
    {tree : Val} (ht : Parsed g false tree) {c : Ctx} {n : Nat} {v : Val} (hv : Parsed g false v) {ks : List Key} {e : MExc}
    (h : run c n [] (patternMatcher (submatchers anonymous variables []) tree) v ks = .error e) : e = .recursionError := by
  refine Classical.byContradiction fun he => ?_
  have hne : run c n [] (patternMatcher (submatchers anonymous variables []) tree) v ks ≠ .error .recursionError := by
    rw [h]; intro e'; cases e'; exact he rfl
  have hup := C62_more_depth c [] _ v ks n (n + (2 * tree.size + 1 + 4)) (by omega) hne
  rw [h] at hup
  have hr : RestrictionsAllow c [] 1 [] (fun _ _ => True) := ⟨fun x m h => (by simp [Dict.get?] at h), Nat.le_refl _, fun _ _ _ => trivial⟩
  obtain ⟨r, h1, _⟩ := pattern_outcome (anonymous := anonymous) hn hr g hg.list tree ht false v hv (n + (2 * tree.size + 1 + 4)) (by omega) ks
  rw [hup] at h1; cases h1

/-- The matcher of a template raises nothing but RecursionError. -/
theorem template_err {g : Grammar} (hg : HasModules g) (kind : TemplateKind) {anonymous : List Str} {variables : List (Label × Str)}
    (hn : (variables.map Prod.snd).Nodup) {tree : Val} (ht : Parsed g false tree) {c : Ctx} {n : Nat} {v : Val} (hv : Parsed g false v)
    {ks : List Key} {e : MExc} (h : run c n [] (kind.matcher (patternMatcher (submatchers anonymous variables []) tree)) v ks = .error e) :
    e = .recursionError := by
  refine Classical.byContradiction fun he => he ?_
  cases kind with
  | module => exact pattern_err hg hn ht hv h
  | stmt =>
    obtain ⟨j, items, n', hi, h⟩ := moduleWith_err hg hv h he
    obtain ⟨w, hw, n', ks1, h⟩ := itemsAre_one_err h he
    exact pattern_err hg hn ht (hi w hw) h
  | expr =>
    obtain ⟨j, items, n', hi, h⟩ := moduleWith_err hg hv h he
    obtain ⟨w, hw, n', ks1, h⟩ := itemsAre_one_err h he
    obtain ⟨w, n', hw, h⟩ := exprStmt_err hg (hi w hw) h he
    exact pattern_err hg hn ht hw h

theorem exact_err {g : Grammar} (hg : HasModules g) {t : Val} (ht : Parsed g false t) {c : Ctx} {n : Nat} {b : Bool} {v : Val} (hv : Parsed g b v)
    {ks : List Key} {e : MExc} (h : run c n [] (exactMatcher t) v ks = .error e) : e = .recursionError := by
  refine Classical.byContradiction fun he => ?_
  have hne : run c n [] (exactMatcher t) v ks ≠ .error .recursionError := by rw [h]; intro e'; cases e'; exact he rfl
  have hup := C62_more_depth c [] (exactMatcher t) v ks n (n + (2 * t.size + 2)) (by omega) hne
  rw [h] at hup
  rcases C47_literal c [] g hg.list t ht b v hv (n + (2 * t.size + 2)) (by omega) ks with ⟨_, mi', h', _⟩ | ⟨_, h'⟩
  · rw [hup] at h'; cases h'
  · rw [hup] at h'; cases h'

/-! ### Templates that could be made -/

theorem instance_named {hole : Val → Hole} {al : Label → Val → Prop} (t v : Val) (occ : Occs) (h : Instance hole al t v occ) :
    ∀ p ∈ occ, ∃ u, hole u = .named p.1 := by
  suffices H : ∀ k (t : Val), t.size ≤ k → ∀ v occ, Instance hole al t v occ → ∀ p ∈ occ, ∃ u, hole u = .named p.1 from
    H _ t (Nat.le_refl _) v occ h
  intro k
  induction k with
  | zero => intro t ht; have := t.size_pos; omega
  | succ k ih =>
    intro t ht v occ h
    cases h with
    | named e a => intro p hp; simp at hp; subst hp; exact ⟨_, e⟩
    | anonymous e => simp
    | const e a => simp
    | @list i j ts vs _ e a =>
      have ih' : ∀ t ∈ ts, ∀ v occ, Instance hole al t v occ → ∀ p ∈ occ, ∃ u, hole u = .named p.1 := fun t ht' =>
        ih t (by have := size_mem ht'; simp only [Val.size] at ht; omega)
      clear ht ih e
      induction ts generalizing vs occ with
      | nil => cases a; simp
      | cons t ts iht =>
        cases a with
        | @cons _ _ w ws o os a1 a2 =>
          intro p hp
          rcases List.mem_append.1 hp with hp | hp
          · exact ih' t (by simp) w o a1 p hp
          · exact iht os a2 (fun t ht => ih' t (by simp [ht])) p hp
    | @node i j ty ns ts vs _ e a =>
      have ih' : ∀ t ∈ ts, ∀ v occ, Instance hole al t v occ → ∀ p ∈ occ, ∃ u, hole u = .named p.1 := fun t ht' =>
        ih t (by have := size_mem ht'; simp only [Val.size] at ht; omega)
      clear ht ih e
      induction ts generalizing ns vs occ with
      | nil => cases a; simp
      | cons t ts iht =>
        cases a with
        | @ctx _ ns _ w ws os a2 => exact iht _ a2 (fun t ht => ih' t (by simp [ht]))
        | @cons _ n _ ns _ w ws o os _ a1 a2 =>
          intro p hp
          rcases List.mem_append.1 hp with hp | hp
          · exact ih' t (by simp) w o a1 p hp
          · exact iht os a2 (fun t ht => ih' t (by simp [ht])) p hp

theorem holeAt_named {anonymous : List Str} {variables : List (Label × Str)} {u : Val} {x : Label} (h : holeAt (metaNames anonymous variables) u = .named x) :
    ∃ s, (x, s) ∈ variables := by
  have key : ∀ s, metaNames anonymous variables s = .named x → ∃ s, (x, s) ∈ variables := by
    intro s h
    unfold metaNames at h
    split at h
    · rename_i e he
      cases h
      exact ⟨e.2, List.mem_of_find?_eq_some he⟩
    · split at h <;> cases h
  unfold holeAt at h
  split at h
  · split at h
    · split at h
      · exact key _ h
      · cases h
    · cases h
  · cases h

/-- What is known of a template that could be made. -/
structure MadeOf (g : Grammar) (t : PyTemplate) (kind : TemplateKind) (anonymous : List Str) (variables : List (Label × Str)) (tree : Val) : Prop where
  template : TemplateOf g t kind anonymous variables tree
  names : ∀ x s, (x, s) ∈ variables → x ∈ t.variables
  fills : ∀ map : Dict Label Str, map.WF → (∃ s, t.fill map = .ok s ∧ ∀ x ∈ t.variables, map.get? x ≠ none) ∨
    (t.fill map = .error .keyError ∧ ∃ x ∈ t.variables, map.get? x = none)

theorem mem_variables {t : PyTemplate} {x : Label} : x ∈ t.variables ↔ ∃ i ∈ t.metas, StringAt t.toks i x := by
  unfold PyTemplate.variables
  rw [mem_dedup, List.mem_filterMap]
  constructor
  · rintro ⟨i, hi, hx⟩
    obtain ⟨u, hu, rfl⟩ := Option.map_eq_some_iff.1 hx
    exact ⟨i, hi, u, hu, rfl⟩
  · rintro ⟨i, hi, u, hu, rfl⟩
    exact ⟨i, hi, by rw [hu]; rfl⟩

theorem marked_word {toks : List PTok} {m : List (PTok × Bool)} (h : Marked toks m) (hw : ∀ u ∈ toks, isVariable u.string = true → u.kind = .other) :
    ∀ u, (u, true) ∈ m → u.kind = .other := by
  induction h with
  | nil => intro u hu; cases hu
  | plain _ _ ih =>
    intro u hu
    rcases List.mem_cons.1 hu with e | hu
    · cases e
    · exact ih (fun u hu => hw u (List.mem_cons_of_mem _ hu)) u hu
  | @metavar d t ts out h1 h2 h3 _ ih =>
    intro u hu
    rcases List.mem_cons.1 hu with e | hu
    · cases e
      exact hw t (by simp) h2
    · exact ih (fun u hu => hw u (by simp [hu])) u hu

theorem pyTemplate_made {g : Grammar} {py : Python} (hfit : PythonFits g py) (hword : WordTokens py) {kind : PatternKind} {text : Str} {t : PyTemplate}
    (h : py.pyTemplate kind text = .ok t) (hne : text ≠ []) : ∃ anonymous variables tree, MadeOf g t kind.whole anonymous variables tree := by
  obtain ⟨toks, mm, htoks, htp, _, hb, htext, ha⟩ := pyTemplate_parts h
  have hwd := hword _ _ htoks
  obtain ⟨body, em, rfl, hes⟩ := hfit.tokens _ _ htoks
  obtain ⟨body', mk, hm, ho, hi, hbody⟩ := tokenPattern_read hes htp
  have hspec := (markedAt_spec mk 0).1
  simp only [Nat.zero_le, true_and, Nat.sub_zero] at hspec
  have hp := hfit.iter t.metas
  have hlt0 : ∀ i ∈ t.metas, i < t.toks.length := by
    intro i hio
    obtain ⟨t', ht'⟩ := (hspec i).1 (hi ▸ hio)
    have := (List.getElem?_eq_some_iff.1 ht').1
    rw [ho]; simp; omega
  have hlt : ∀ i ∈ py.iter t.metas, i < t.toks.length := fun i hi => hlt0 i (hp.mem_iff.1 hi)
  have hnd : (py.iter t.metas).Nodup := by
    rw [hp.nodup_iff, hi]
    exact (markedAt_spec mk 0).2.imp (fun h => by omega)
  have hkind : ∀ i ∈ t.metas, ∀ u, t.toks[i]? = some u → u.kind = .other := by
    intro i hio u hu
    obtain ⟨t', ht'⟩ := (hspec i).1 (hi ▸ hio)
    have hl := (List.getElem?_eq_some_iff.1 ht').1
    rw [ho, List.getElem?_append_left (by simpa using hl)] at hu
    simp [ht'] at hu
    subst hu
    refine marked_word hm (fun u hu => hwd u ?_) _ (List.mem_of_getElem? ht')
    rcases hbody with rfl | ⟨_, nl, _, rfl⟩
    · simp [hu]
    · simp [hu]
  unfold buildPattern at hb
  rw [htp] at hb
  simp only at hb
  obtain ⟨st, hst⟩ := C48_terminates hlt hnd
  rw [hst] at hb
  simp only at hb
  cases hun : untokenize st.toks with
  | none => rw [hun] at hb; cases hb
  | some txt =>
    have hlay : untokenize t.toks ≠ none := by
      obtain ⟨h1, h2, h3⟩ := C48_rest_preserved hlt hnd hst
      have hsame : SameLayout st.toks t.toks := by
        refine ⟨h1, fun i a b ha hb' => ?_⟩
        by_cases hii : i ∈ py.iter t.metas
        · obtain ⟨t', nm, e1, e2⟩ := h3 i hii
          rw [hb'] at e1; cases e1
          rw [ha] at e2; cases e2
          refine ⟨rfl, rfl, rfl, fun hk => ?_⟩
          have := hkind i (hp.mem_iff.1 hii) _ hb'
          rw [show b.kind = .indent from hk] at this
          cases this
        · rw [h2 i hii, hb'] at ha
          cases ha
          exact ⟨rfl, rfl, rfl, fun _ => rfl⟩
      have hpc := untokPieces_layout _ _ {} hsame
      unfold untokenize at hun ⊢
      intro hcon
      rw [Option.map_eq_none_iff] at hcon
      rw [hcon] at hpc
      cases hq : untokPieces {} st.toks with
      | none => rw [hq] at hun; cases hun
      | some ps => rw [hq] at hpc; cases hpc
    refine ⟨st.anonymous, st.variables, ?_⟩
    rw [hun] at hb
    simp only at hb
    split at hb
    · cases hb
    split at hb
    · cases hb
    split at hb
    · cases hb
    rename_i tree hps
    split at hb
    · cases hb
    split at hb
    · cases hb
    rename_i tr hpl
    cases hb
    have hw := remapVariables_WF hst
    refine ⟨tr, ⟨by rw [ha, factory_whole], nodup_snd hw fun x y a hx hy => ?_, hfit.grammar _ _ _ _ hps ((pull_iff (hfit.parse _ _ hps) kind tr).1 hpl)⟩,
      fun x s hx => ?_, fun map hmap => ?_⟩
    · obtain ⟨_, i, hii, e1, e2⟩ := (C48_tables hlt hnd hst x a).1.1 (Dict.get?_of_mem hw hx)
      obtain ⟨_, j, hjj, e3, e4⟩ := (C48_tables hlt hnd hst y a).1.1 (Dict.get?_of_mem hw hy)
      by_cases hij : i = j
      · subst hij
        obtain ⟨u, hu, rfl⟩ := e1
        obtain ⟨u', hu', rfl⟩ := e3
        rw [hu] at hu'; cases hu'; rfl
      · exact ((C48_consistent hlt hnd hst hii hjj hij e1 e3 e2 e4).1 rfl).1
    · obtain ⟨_, i, hii, e1, _⟩ := (C48_tables hlt hnd hst x s).1.1 (Dict.get?_of_mem hw hx)
      exact mem_variables.2 ⟨i, hp.mem_iff.1 hii, e1⟩
    · have hsl := C53_slots t hlt0 hkind (by rw [htext]; exact hne) map hmap
      cases hf : t.fill map with
      | ok s =>
        rw [hf] at hsl
        refine .inl ⟨s, rfl, fun x hx hnone => ?_⟩
        obtain ⟨us, hus, _⟩ := hsl
        obtain ⟨i, hi, u, hu, rfl⟩ := mem_variables.1 hx
        obtain ⟨s', hs', _⟩ := hus.2.2 i hi u hu
        rw [hnone] at hs'; cases hs'
      | error e =>
        rw [hf] at hsl
        rcases hsl with ⟨rfl, i, hi, x, hx, hnone⟩ | ⟨_, hnone⟩
        · exact .inr ⟨rfl, x, mem_variables.2 ⟨i, hi, hx⟩, hnone⟩
        · exact absurd hnone hlay

theorem accumLoop_wf {c : Ctx} {v : Val} : ∀ (fs : List (List Key → MOut)) (b : Bindings) (r : Replacements) (ks ks' : List Key) (mi : MatchInfo), b.WF →
    accumLoop c v fs b r ks = .ok (some mi, ks') → mi.bindings.WF
  | [], b, r, ks, ks', mi, hb, h => by cases h; exact hb
  | f :: fs, b, r, ks, ks', mi, hb, h => by
    obtain ⟨mi1, ks1, b1, r1, _, e2, h⟩ := accumLoop_cons_inv h
    exact accumLoop_wf fs b1 r1 ks1 ks' mi (mergeBindings_wf e2) h

theorem moduleWith_wf {c : Ctx} {n : Nat} {m : Matcher} {v : Val} {ks ks' : List Key} {mi : MatchInfo} (h : run c n [] (moduleWith m) v ks = .ok (some mi, ks')) :
    mi.bindings.WF := by
  cases n with
  | zero => cases h
  | succ n =>
    rw [moduleWith, run] at h
    split at h
    · cases h
    · exact accumLoop_wf _ _ _ _ _ _ (show Dict.WF ([] : Bindings) from List.nodup_nil) h

theorem template_wf {g : Grammar} (hg : HasModules g) (kind : TemplateKind) {anonymous : List Str} {variables : List (Label × Str)}
    (hn : (variables.map Prod.snd).Nodup) {tree : Val} (ht : Parsed g false tree) {c : Ctx} {n : Nat} {v : Val} (hv : Parsed g false v)
    {ks ks' : List Key} {mi : MatchInfo}
    (h : run c n [] (kind.matcher (patternMatcher (submatchers anonymous variables []) tree)) v ks = .ok (some mi, ks')) : mi.bindings.WF := by
  cases kind with
  | module =>
    have h : run c n [] (patternMatcher (submatchers anonymous variables []) tree) v ks = .ok (some mi, ks') := h
    have hne : run c n [] (patternMatcher (submatchers anonymous variables []) tree) v ks ≠ .error .recursionError := by rw [h]; intro e; cases e
    have hup := C62_more_depth c [] _ v ks n (n + (2 * tree.size + 1 + 4)) (by omega) hne
    rw [h] at hup
    have hr : RestrictionsAllow c [] 1 [] (fun _ _ => True) := ⟨fun x m h => (by simp [Dict.get?] at h), Nat.le_refl _, fun _ _ _ => trivial⟩
    obtain ⟨r, h1, h2, _⟩ := pattern_outcome (anonymous := anonymous) hn hr g hg.list tree ht false v hv (n + (2 * tree.size + 1 + 4)) (by omega) ks
    rw [hup] at h1; cases h1
    exact (h2 mi rfl).2.1
  | stmt => exact moduleWith_wf h
  | expr => exact moduleWith_wf h

/-! ### Which exceptions -/

section
variable {g : Grammar} (hg : HasModules g) {n : Nat} {parse : Str → Option Ctx} (hparse : ∀ s c, parse s = some c → Parsed g false c.tree)
  {t : PyTemplate} {kind : TemplateKind} {anonymous : List Str} {variables : List (Label × Str)} {tree : Val}
  (hm : MadeOf g t kind anonymous variables tree) {matchers : Dict Label Matcher} {strings : Dict Label Str}
  (hmats : ∀ x ∈ t.variables, ∀ m, matchers.get? x = some m → m = .anything ∨ ∃ e, m = exactMatcher e ∧ Parsed g false e)
include hg hparse hm hmats

theorem checkBindings_err {c : Ctx} (bs : Bindings) (hbs : ∀ k b, (k, b) ∈ bs → k ∈ t.variables ∧ matchers.has k = true ∧ ∃ w b', b.value = createMatch c w ∧ Parsed g b' w)
    {e : TExc} (h : checkBindings n c matchers bs = .error e) :
    e = .rewriteError ∨ e = .matcher .recursionError ∨ e = .matcher .attributeError ∧ ∃ k b i s, (k, b) ∈ bs ∧ b.value = createMatch c (.const i (.str s)) := by
  induction bs with
  | nil => cases h
  | cons kb bs ih =>
    obtain ⟨k, b⟩ := kb
    obtain ⟨hkv, hk, w, b', hbv, hpw⟩ := hbs k b (by simp)
    rw [checkBindings] at h
    cases hg' : matchers.get? k with
    | none => simp [Dict.has, hg'] at hk
    | some m =>
      rw [hg', hbv] at h
      simp only at h
      rw [createMatch_matched] at h
      split at h
      · rename_i hmatch
        cases h
        split at hmatch
        · rename_i i s
          exact .inr (.inr ⟨rfl, k, b, i, s, by simp, hbv⟩)
        · cases hmatch
      · rename_i w' hmatch
        split at hmatch
        · cases hmatch
        cases hmatch
        split at h
        · rename_i e' hr
          cases h
          refine .inr (.inl ?_)
          rcases hmats k hkv m hg' with rfl | ⟨e0, rfl, hpe⟩
          · cases n with
            | zero => cases hr; rfl
            | succ n => cases hr
          · rw [exact_err hg hpe hpw hr]
        · cases h; exact .inl rfl
        · rcases ih (fun k b h => hbs k b (by simp [h])) h with h | h | ⟨h, k', b', i, s, h', h''⟩
          · exact .inl h
          · exact .inr (.inl h)
          · exact .inr (.inr ⟨h, k', b', i, s, by simp [h'], h''⟩)

theorem dropParens_err {c0 : Ctx} (hc0 : Parsed g false c0.tree) : ∀ (rest : List (Label × Str)) (text : Str) (safe : Dict Label Str), safe.WF →
    (∀ x ∈ t.variables, safe.get? x ≠ none) → ∀ e, t.dropParens n parse (exactMatcher c0.tree) rest text safe = .error e → e = .matcher .recursionError := by
  intro rest
  induction rest with
  | nil => intro text safe _ _ e h; cases h
  | cons kr rest ih =>
    obtain ⟨k, raw⟩ := kr
    intro text safe hw hall e h
    have hall' : ∀ x ∈ t.variables, (safe.set k raw).get? x ≠ none := by
      intro x hx
      rw [Dict.get?_set]
      split
      · simp
      · exact hall x hx
    rw [PyTemplate.dropParens] at h
    rcases hm.fills _ (wf_set hw k raw) with ⟨alt, halt, _⟩ | ⟨_, x, hx, hno⟩
    · rw [halt] at h
      simp only at h
      split at h
      · exact ih _ _ hw hall e h
      · rename_i c hpc
        split at h
        · rename_i e' hr
          cases h
          rw [exact_err hg hc0 (hparse _ _ hpc) hr]
        · exact ih _ _ hw hall e h
        · exact ih _ _ (wf_set hw k raw) hall' e h
    · exact absurd hno (hall' x hx)

theorem parenthesized_err (hw : strings.WF) (hmk : ∀ x, strings.get? x ≠ none → matchers.has x = true) {e : TExc}
    (h : t.parenthesized n parse matchers strings = .error e) :
    e = .rewriteError ∨ e = .matcher .recursionError ∨ (e = .keyError ∧ ∃ x ∈ t.variables, strings.get? x = none) ∨
    (e = .matcher .attributeError ∧ ∃ map s c occ x i r, t.fill map = .ok s ∧ parse s = some c ∧ kind.Instance (metaNames anonymous variables) tree c.tree occ ∧
      (x, Val.const i (.str r)) ∈ occ) := by
  unfold PyTemplate.parenthesized at h
  have hsafe : ∀ x, (safeMapping matchers strings).get? x = none → strings.get? x = none := by
    intro x hx
    have hc := chosen_safe matchers strings x
    cases hs : strings.get? x with
    | none => rfl
    | some s =>
      rw [hs] at hc
      rcases hc with hc | ⟨_, hc⟩ <;> (rw [hx] at hc; cases hc)
  rcases hm.fills _ (wf_safe (matchers := matchers) hw) with ⟨s0, hs0, hall⟩ | ⟨hk, x, hx, hno⟩
  · rw [hs0] at h
    simp only at h
    have hbound : ∀ x ∈ t.variables, matchers.has x = true := by
      intro x hx
      refine hmk x fun hno => hall x hx ?_
      have hc := chosen_safe matchers strings x
      rw [hno] at hc
      exact hc
    split at h
    · cases h; exact .inl rfl
    · rename_i c hpc
      split at h
      · rename_i e' hr
        cases h
        rw [hm.template.matcher] at hr
        rw [template_err hg kind hm.template.names hm.template.parsed (hparse _ _ hpc) hr]
        exact .inr (.inl rfl)
      · cases h; exact .inl rfl
      · rename_i mi ks hr
        rw [hm.template.matcher] at hr
        obtain ⟨w, occ, hR⟩ := template_read hg kind hm.template.names hm.template.parsed (hparse _ _ hpc) hr
        split at h
        · rename_i e' hcb
          cases h
          have hwf : mi.bindings.WF := template_wf hg kind hm.template.names hm.template.parsed (hparse _ _ hpc) hr
          have hocc : ∀ k b, (k, b) ∈ (mi.bindings : List (Label × BoundValue)) → ∃ w, (k, w) ∈ occ ∧ b.value = createMatch c w := by
            intro k b hkb
            have hbd := hR.bound k
            rw [Dict.get?_of_mem hwf hkb] at hbd
            cases hl : (occ.of k).getLast? with
            | none => rw [hl] at hbd; cases hbd
            | some w =>
              rw [hl] at hbd; cases hbd
              exact ⟨w, Occs.mem_of.1 (List.mem_of_getLast? hl), rfl⟩
          rcases checkBindings_err hg hparse hm hmats (bs := mi.bindings) (fun k b hkb => by
            obtain ⟨w, hwo, hbv⟩ := hocc k b hkb
            obtain ⟨b', hpw⟩ := instance_parsed _ _ _ hR.inst false hR.parsed (k, w) hwo
            obtain ⟨u, hu⟩ := instance_named _ _ _ hR.inst (k, w) hwo
            obtain ⟨s, hs⟩ := holeAt_named hu
            exact ⟨hm.names k s hs, hbound k (hm.names k s hs), w, b', hbv, hpw⟩) hcb with h | h | ⟨h, k, b, i, r, hkb, hbv⟩
          · exact .inl h
          · exact .inr (.inl h)
          · obtain ⟨w', hwo, hbv'⟩ := hocc k b hkb
            rw [hbv] at hbv'
            have h1 := createMatch_matched c (.const i (.str r))
            rw [hbv', createMatch_matched] at h1
            have hw' : ∃ i', w' = .const i' (.str r) := by
              cases w' with
              | const i' k' =>
                cases k' with
                | str r' =>
                  have hbv' : MObj.string r = .string r' := hbv'
                  cases hbv'
                  exact ⟨i', rfl⟩
                | _ => cases h1
              | _ => cases h1
            obtain ⟨i', rfl⟩ := hw'
            exact .inr (.inr (.inr ⟨h, _, s0, c, occ, k, i', r, hs0, hpc, ⟨w, hR.part, hR.inst⟩, hwo⟩))
        · exact .inr (.inl (dropParens_err hg hparse hm hmats (hparse _ _ hpc) _ _ _ (wf_safe hw) hall e h))
  · rw [hk] at h
    cases h
    exact .inr (.inr (.inl ⟨rfl, x, hx, hsafe x hno⟩))

end

section
variable {g : Grammar} {py : Python} (hfit : PythonFits g py) (hword : WordTokens py)
include hfit hword

omit hfit hword in
theorem current_ne (pre post : Str) : pre ++ str "$current_expr" ++ post ≠ [] := by
  intro h
  have := congrArg List.length h
  simp only [List.length_append, List.length_nil] at this
  have h2 : (str "$current_expr").length = 13 := by decide
  omega

omit hword in
theorem matchersFor_exact {ms : Dict Label PyMatch} {x : Label} (hms : ∀ m w sp, ms.get? x = some m → m.obj = .lexical w sp → ∃ b, Parsed g b w) {m : Matcher}
    (h : (matchersFor py.isExpr ms).get? x = some m) : m = .anything ∨ ∃ e, m = exactMatcher e ∧ Parsed g false e := by
  rw [matchersFor_get] at h
  cases hx : ms.get? x with
  | none => rw [hx] at h; cases h
  | some pm =>
    rw [hx] at h
    simp only [Option.map_some, Option.some.injEq] at h
    subst h
    split
    · rename_i w sp ho
      split
      · rename_i hw
        obtain ⟨b, hb⟩ := hms pm w sp hx ho
        exact .inr ⟨w, rfl, parsed_node hb (hfit.expr w hw)⟩
      · exact .inl rfl
    · exact .inl rfl

/-- **C99**: filling a Python template raises nothing but RewriteError (the match is skipped), except for: a KeyError for a variable without a text;
a ValueError or KeyError if the text around the match, in the nearest expression or statement, cannot be made a template; an AttributeError if a mere
string stands in the place of a variable; and a RecursionError. -/
theorem C99_raises {kind : PatternKind} {text : Str} {t : PyTemplate} (h : py.pyTemplate kind text = .ok t) (hne : text ≠ []) {parsed : Option Ctx} {m : MObj}
    {p : Path} (hpos : ∀ c w sp, parsed = some c → m = .lexical w sp → Unshared c.tree ∧ c.tree.at? p = some w ∧ w.isInner) {ms : Dict Label PyMatch} (hw : ms.WF)
    (hms : ∀ x ∈ t.variables, ∀ m w sp, ms.get? x = some m → m.obj = .lexical w sp → ∃ b, Parsed g b w) {e : TExc}
    (he : t.substituteMatch py.depth py.env parsed m ms = .error e) : Raises py t parsed p m ms e := by
  obtain ⟨an, vs, tr, hmade⟩ := pyTemplate_made hfit hword h hne
  have hparse : ∀ s c, py.env.parse s = some c → Parsed g false c.tree := fun s c h => (hfit.file s c h).2.1
  have hsw := stringified_wf hw
  cases hpar : t.parenthesized py.depth py.env.parse (matchersFor py.env.isExpr ms) (stringified ms) with
  | error e' =>
    unfold PyTemplate.substituteMatch at he
    rw [hpar] at he
    cases he
    rcases parenthesized_err hfit.modules hparse hmade (fun x hx m h => matchersFor_exact hfit (hms x hx) h) hsw (fun x hx => by
      unfold Dict.has
      have hx : (stringified ms).get? x ≠ none := hx
      rw [stringified_get hw] at hx
      have : (matchersFor py.env.isExpr ms).get? x ≠ none := by
        rw [matchersFor_get]
        cases hg : ms.get? x with
        | none => rw [hg] at hx; exact absurd rfl hx
        | some _ => simp
      cases hmf : (matchersFor py.env.isExpr ms).get? x with
      | none => exact absurd hmf this
      | some _ => exact congrArg Option.isSome hmf) hpar with rfl | rfl | ⟨rfl, x, hx, hno⟩ | ⟨rfl, map, s, c, occ, x, i, r, h1, h2, h3, h4⟩
    · exact .refused
    · exact .deep
    · refine .unbound hx fun o s ho hs => ?_
      rw [stringified_get hw, ho] at hno
      simp only [Option.bind_some] at hno
      rw [hno] at hs; cases hs
    · exact .string (.inl rfl) ⟨map, s, c, kind.whole, an, vs, tr, occ, x, i, r, h1, h2, hmade.template.matcher, h3, h4⟩
  | ok r =>
    obtain ⟨replacement, map⟩ := r
    cases parsed with
    | none =>
      unfold PyTemplate.substituteMatch at he
      rw [hpar] at he
      cases he
    | some c =>
      cases hobj : m with
      | lexical w sp =>
        subst hobj
        obtain ⟨hu, hat, hin⟩ := hpos c w sp rfl rfl
        by_cases hx : py.env.isExpr w = true
        · by_cases hv : WholeStatement c p ∨ OnlyCompoundAround py.env c p
          · rw [C80_verbatim hu hat hin hpar (.inr hv)] at he
            cases he
          · rcases around_cases py.env hat with ⟨parent, ps, hf⟩ | hc | hn
            · rw [C80_checked hu hat hin hpar hx (fun hh => hv (.inl hh)) hf] at he
              have hsur : ∀ e', e' = .valueError ∨ e' = .keyError → ¬ SurroundingsFit py c parent ps sp → Raises py t (some c) p (.lexical w sp) ms e' :=
                fun e' h1 h2 => .surroundings rfl rfl hx hf h2 h1
              have har := aroundMatch_spec py.env c parent ps sp
              unfold inParent at he
              simp only at he
              split at he
              · rename_i hno
                cases he
                refine hsur _ (.inl rfl) fun hfits => ?_
                obtain ⟨t', ht', _⟩ := hfits _ _ har
                have hno : (match py.pyTemplate .module _ with
                  | .ok t => some t
                  | .error _ => none) = none := hno
                rw [ht'] at hno
                cases hno
              · rename_i pseudo hps
                have hps' : py.pyTemplate .module ((aroundMatch py.env c parent ps sp).1 ++ str "$current_expr" ++ (aroundMatch py.env c parent ps sp).2) = .ok pseudo := by
                  have hps : (match py.pyTemplate .module _ with
                    | .ok t => some t
                    | .error _ => none) = some pseudo := hps
                  split at hps
                  · cases hps; assumption
                  · cases hps
                split at he
                · rename_i hno
                  obtain ⟨_, _, c', _, hc', _⟩ := C53_structure hfit.modules hparse hmade.template hsw hpar
                  rw [hno] at hc'; cases hc'
                · rename_i rc hrc
                  split at he
                  · cases he; exact .refused
                  · rename_i ex hse
                    obtain ⟨_, hpe⟩ := soleExpr_spec hfit.modules (hparse _ _ hrc) (hfit.file _ _ hrc).2.2 hse
                    obtain ⟨an', vs', tr', hmade'⟩ := pyTemplate_made hfit hword hps' (current_ne _ _)
                    split at he
                    · rename_i e' hpp
                      cases he
                      rcases parenthesized_err hfit.modules hparse hmade' (matchers := [(str "current_expr", exactMatcher ex)])
                        (strings := [(str "current_expr", replacement)]) (fun x _ m h => by
                          simp only [Dict.get?] at h
                          split at h
                          · cases h; exact .inr ⟨ex, rfl, hpe⟩
                          · cases h) (by simp [Dict.WF, Dict.keys]) (fun x hx => by
                          simp only [Dict.get?] at hx
                          split at hx
                          · rename_i hx'
                            simp [Dict.has, Dict.get?, hx']
                          · exact absurd rfl hx) hpp with rfl | rfl | ⟨rfl, x, hx', hno⟩ | ⟨rfl, map', s, c', occ, x, i, r, h1, h2, h3, h4⟩
                      · exact .refused
                      · exact .deep
                      · refine hsur _ (.inr rfl) fun hfits => ?_
                        obtain ⟨t', ht', hall⟩ := hfits _ _ har
                        rw [hps'] at ht'
                        cases ht'
                        rw [hall x hx'] at hno
                        simp [Dict.get?] at hno
                      · exact .string (.inr ⟨_, hps'⟩) ⟨map', s, c', _, an', vs', tr', occ, x, i, r, h1, h2, hmade'.template.matcher, h3, h4⟩
                    · rename_i s0 safe hpp
                      obtain ⟨_, hch, _⟩ := C53_structure hfit.modules hparse hmade'.template (by simp [Dict.WF, Dict.keys]) hpp
                      have := hch (str "current_expr")
                      rw [show Dict.get? [(str "current_expr", replacement)] (str "current_expr") = some replacement from rfl] at this
                      simp only at this
                      split at he
                      · cases he
                      · rename_i hnone
                        rw [hnone] at this
                        rcases this with h | ⟨_, h⟩ <;> cases h
            · exact absurd (.inr hc) hv
            · unfold PyTemplate.substituteMatch at he
              simp only [hpar, hx, if_true] at he
              by_cases hp : p = []
              · subst hp
                have : w = c.tree := by simpa [Val.at?] using hat.symm
                subst this
                rw [C50_root hu hin] at he
                cases he; exact .deep
              · obtain ⟨q, hq, hq'⟩ := first_parent hu hat hin hp
                have hl := List.length_pos_iff.2 hp
                simp only [hq] at he
                rw [if_neg (fun hh => hv (.inl ⟨q, hp, by rw [List.dropLast_eq_take]; exact hq', hh⟩)),
                  if_neg (fun hh => (hn (p.length - 1) (by omega) q hq').2 ((hasBody_iff ..).1 hh)),
                  climb_nowhere hu hat hin hn (p.length - 1) q _ (by omega) hq'] at he
                cases he; exact .deep
        · unfold PyTemplate.substituteMatch at he
          rw [hpar] at he
          simp only at he
          rw [if_neg hx] at he
          cases he
      | _ =>
        subst hobj
        unfold PyTemplate.substituteMatch at he
        rw [hpar] at he
        cases he

omit hfit hword in
/-- **C99** (a finding): if the text around an expression, in the nearest expression or statement that has a place in the text, with `$current_expr` in the
place of the expression cannot be made a template, then every template that is fit to replace the expression raises a ValueError. So it is for the
expression `a` in `f(*a)`: the nearest expression around it is `*a`, and `(*$current_expr)` is no Python. -/
theorem C99_surroundings {t : PyTemplate} {c : Ctx} {p : Path} {w : Val} {sp : Span} (hu : Unshared c.tree) (hat : c.tree.at? p = some w) (hin : w.isInner)
    (hx : py.isExpr w = true) {ms : Dict Label PyMatch} (hs : ¬ WholeStatement c p) {parent : Val} {parentSpan : Span} (hf : FitsInto py.env c p parent parentSpan)
    (hno : ∀ pre post, Around py.env c.text parent parentSpan sp pre post → ∀ t, py.pyTemplate .module (pre ++ str "$current_expr" ++ post) ≠ .ok t) :
    (∀ r, t.substituteMatch py.depth py.env (some c) (.lexical w sp) ms ≠ .ok r) ∧
    (∀ r, t.substituteMatch py.depth py.env none (.lexical w sp) ms = .ok r → t.substituteMatch py.depth py.env (some c) (.lexical w sp) ms = .error .valueError) := by
  have key : ∀ replacement map, t.parenthesized py.depth py.env.parse (matchersFor py.env.isExpr ms) (stringified ms) = .ok (replacement, map) →
      t.substituteMatch py.depth py.env (some c) (.lexical w sp) ms = .error .valueError := by
    intro replacement map hpar
    rw [C80_checked hu hat hin hpar hx hs hf]
    have har := aroundMatch_spec py.env c parent parentSpan sp
    unfold inParent
    simp only
    have : py.env.template ((aroundMatch py.env c parent parentSpan sp).1 ++ str "$current_expr" ++ (aroundMatch py.env c parent parentSpan sp).2) = none := by
      show (match py.pyTemplate .module _ with
        | .ok t => some t
        | .error _ => none) = none
      split
      · rename_i t' ht'
        exact absurd ht' (hno _ _ har t')
      · rfl
    rw [this]
  constructor
  · intro r hr
    cases hpar : t.parenthesized py.depth py.env.parse (matchersFor py.env.isExpr ms) (stringified ms) with
    | error e => unfold PyTemplate.substituteMatch at hr; rw [hpar] at hr; cases hr
    | ok q => rw [key q.1 q.2 hpar] at hr; cases hr
  · intro r hr
    cases hpar : t.parenthesized py.depth py.env.parse (matchersFor py.env.isExpr ms) (stringified ms) with
    | error e => unfold PyTemplate.substituteMatch at hr; rw [hpar] at hr; cases hr
    | ok q => exact key q.1 q.2 hpar

/-- **C99**: in particular, where the variables have texts, the text around the match can be made a template and nothing but syntax trees stand in the
places of variables, a template raises nothing but RewriteError, as long as the recursion is not too deep. -/
theorem C99_only_rewrite_errors {kind : PatternKind} {text : Str} {t : PyTemplate} (h : py.pyTemplate kind text = .ok t) (hne : text ≠ []) {parsed : Option Ctx} {m : MObj}
    {p : Path} (hpos : ∀ c w sp, parsed = some c → m = .lexical w sp → Unshared c.tree ∧ c.tree.at? p = some w ∧ w.isInner) {ms : Dict Label PyMatch} (hw : ms.WF)
    (hms : ∀ x ∈ t.variables, ∀ m w sp, ms.get? x = some m → m.obj = .lexical w sp → ∃ b, Parsed g b w) (hvars : ∀ x ∈ t.variables, ∃ o s, ms.get? x = some o ∧ o.string = some s)
    (hsur : ∀ c w sp parent parentSpan, parsed = some c → m = .lexical w sp → FitsInto py.env c p parent parentSpan → SurroundingsFit py c parent parentSpan sp)
    (hstr : ∀ kind text t, py.pyTemplate kind text = .ok t → ¬ StringForVariable py t) {e : TExc}
    (he : t.substituteMatch py.depth py.env parsed m ms = .error e) (hdeep : e ≠ .matcher .recursionError) : e = .rewriteError := by
  cases C99_raises hfit hword h hne hpos hw hms he with
  | refused => rfl
  | unbound hx hno =>
    obtain ⟨o, s, ho, hs⟩ := hvars _ hx
    exact absurd hs (hno o s ho)
  | surroundings h1 h2 _ h4 h5 _ => exact absurd (hsur _ _ _ _ _ h1 h2 h4) h5
  | string ht hs =>
    rcases ht with rfl | ⟨text', ht'⟩
    · exact absurd hs (hstr _ _ _ h)
    · exact absurd hs (hstr _ _ _ ht')
  | deep => exact absurd rfl hdeep

end

end Refex
