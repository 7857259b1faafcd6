import Verif.Spec.PatternBuild
import Verif.Props.Layout
import Verif.Props.PatternNames
import Verif.Props.Patterns
/- C72: which patterns are accepted, and what a pattern made from a text matches. -/
namespace Refex
set_option autoImplicit false

/-! ### The part that is matched -/

theorem FieldIs.getattr {v : Val} {f : Str} {w : Val} (h : FieldIs v f w) : v.getattr f = w := by
  obtain ⟨i, ty, ns, vs, rfl, h⟩ := h
  simp [Val.getattr, h]

theorem pullStmt_iff {tree : Val} (h : ParserTree tree) (s : Val) : pullStmt tree = some s ↔ Intended .stmt tree s := by
  obtain ⟨i, ss, hb, _⟩ := h.body
  unfold pullStmt
  rw [if_neg (by simpa using h.isModule), hb.getattr]
  simp only [Val.children]
  constructor
  · intro e
    split at e
    · rename_i s' hs
      cases e
      exact .stmt h.isModule hb
    · cases e
  · intro hi
    cases hi with
    | stmt h1 h2 =>
      have e := h2.getattr.symm.trans hb.getattr
      cases e
      rfl

theorem pullExpr_iff {tree : Val} (h : ParserTree tree) (e : Val) : pullExpr tree = some e ↔ Intended .expr tree e := by
  obtain ⟨i, ss, hb, hv⟩ := h.body
  unfold pullExpr
  constructor
  · intro he
    cases hp : pullStmt tree with
    | none => rw [hp] at he; cases he
    | some s =>
      rw [hp] at he
      simp only at he
      split at he
      · cases he
      · rename_i hty
        cases he
        have hi := (pullStmt_iff h s).1 hp
        cases hi with
        | stmt h1 h2 =>
          have e := h2.getattr.symm.trans hb.getattr
          cases e
          obtain ⟨e, he⟩ := (hv s (by simp)).2 (by simpa using hty)
          rw [he.getattr]
          exact .expr h1 h2 (by simpa using hty) he
  · intro hi
    cases hi with
    | expr h1 h2 h3 h4 =>
      rw [(pullStmt_iff h _).2 (.stmt h1 h2)]
      simp only
      rw [if_neg (by simpa using h3), h4.getattr]

theorem pull_iff {tree : Val} (h : ParserTree tree) (kind : PatternKind) (t : Val) : kind.pull tree = some t ↔ Intended kind tree t := by
  cases kind with
  | expr => exact pullExpr_iff h t
  | stmt => exact pullStmt_iff h t
  | module =>
    constructor
    · intro e; cases e; exact .module
    · intro hi; cases hi; rfl

/-! ### The table of variables -/

theorem remapStep_WF {st st' : RemapState} {i : Nat} (h : remapStep st i = some st') (hw : st.variables.WF) : st'.variables.WF := by
  unfold remapStep at h
  split at h
  · cases h
  · split at h
    · cases h; exact hw
    · split at h
      · cases h
      · cases h
        split
        · exact hw
        · exact Dict.WF_set hw _ _

theorem remapVariables_WF {toks : List PTok} {order : List Nat} {st : RemapState} (h : remapVariables toks order = some st) :
    st.variables.WF := by
  unfold remapVariables at h
  have H : ∀ (order : List Nat) (st st' : RemapState), order.foldlM remapStep st = some st' → st.variables.WF → st'.variables.WF := by
    intro order
    induction order with
    | nil => intro st st' h hw; cases h; exact hw
    | cons i order ih =>
      intro st st' h hw
      rw [List.foldlM_cons] at h
      cases hs : remapStep st i with
      | none => rw [hs] at h; cases h
      | some s => rw [hs] at h; exact ih s st' h (remapStep_WF hs hw)
  exact H _ _ _ h (by simp [Dict.WF, Dict.keys])

theorem nodup_snd : ∀ {d : List (Str × Str)}, (d.map Prod.fst).Nodup → (∀ x y s, (x, s) ∈ d → (y, s) ∈ d → x = y) → (d.map Prod.snd).Nodup
  | [], _, _ => List.nodup_nil
  | (x, s) :: d, hk, hi => by
    simp only [List.map_cons, List.nodup_cons] at hk ⊢
    refine ⟨fun hm => ?_, nodup_snd hk.2 (fun a b s ha hb => hi a b s (by simp [ha]) (by simp [hb]))⟩
    obtain ⟨⟨y, s'⟩, hy, rfl⟩ := List.mem_map.1 hm
    have := hi x y s' (by simp) (by simp [hy])
    exact hk.1 (List.mem_map.2 ⟨(y, s'), hy, this.symm⟩)

/-- Two pairs with the same new name are the same. -/
theorem reading_inj {l : List (Str × Str)}
    (hc : ∀ (j k : Nat) x y a b, j ≠ k → l[j]? = some (x, a) → l[k]? = some (y, b) → (a = b ↔ x = y ∧ x ≠ str "_")) {x y s : Str}
    (hx : (x, s) ∈ l) (hy : (y, s) ∈ l) : x = y := by
  obtain ⟨j, hj⟩ := List.mem_iff_getElem?.1 hx
  obtain ⟨k, hk⟩ := List.mem_iff_getElem?.1 hy
  by_cases e : j = k
  · subst e; rw [hj] at hk; cases hk; rfl
  · exact ((hc j k x y s s e hj hk).1 rfl).1

theorem metaNames_meaning {l : List (Str × Str)} {anonymous : List Str} {variables : Dict Label Str} (hw : variables.WF)
    (hc : ∀ (j k : Nat) x y a b, j ≠ k → l[j]? = some (x, a) → l[k]? = some (y, b) → (a = b ↔ x = y ∧ x ≠ str "_"))
    (hv : ∀ x s, variables.get? x = some s ↔ x ≠ str "_" ∧ (x, s) ∈ l) (ha : ∀ s, s ∈ anonymous ↔ (str "_", s) ∈ l) :
    metaNames anonymous variables = meaningOf l := by
  funext s
  unfold metaNames meaningOf
  cases hl : l.find? (fun p => decide (p.2 = s)) with
  | none =>
    have hn : ∀ x, (x, s) ∉ l := by
      intro x hx
      have := List.find?_eq_none.1 hl _ hx
      simp at this
    have h1 : variables.find? (fun e => decide (e.2 = s)) = none := by
      rw [List.find?_eq_none]
      rintro ⟨x, s'⟩ he
      simp only [decide_eq_true_eq]
      rintro rfl
      exact hn x ((hv x _).1 (Dict.get?_of_mem hw he)).2
    rw [h1]
    simp only
    rw [if_neg (fun h => hn _ ((ha s).1 h))]
  | some p =>
    obtain ⟨x, s'⟩ := p
    have hm := List.mem_of_find?_eq_some hl
    have hs : s' = s := by simpa using List.find?_some hl
    subst hs
    simp only
    by_cases hx : x = str "_"
    · subst hx
      have h1 : variables.find? (fun e => decide (e.2 = s')) = none := by
        rw [List.find?_eq_none]
        rintro ⟨y, s⟩ he
        simp only [decide_eq_true_eq]
        rintro rfl
        obtain ⟨g1, g2⟩ := (hv y _).1 (Dict.get?_of_mem hw he)
        exact g1 (reading_inj hc g2 hm)
      rw [h1, if_pos rfl]
      simp only
      rw [if_pos ((ha _).2 hm)]
    · rw [if_neg hx]
      have hg := Dict.get?_some_mem ((hv x s').2 ⟨hx, hm⟩)
      cases hf : variables.find? (fun e => decide (e.2 = s')) with
      | none =>
        have := List.find?_eq_none.1 hf _ hg
        simp at this
      | some e =>
        obtain ⟨y, s⟩ := e
        have hm' := List.mem_of_find?_eq_some hf
        have hs : s = s' := by simpa using List.find?_some hf
        subst hs
        rw [reading_inj hc hm ((hv y _).1 (Dict.get?_of_mem hw hm')).2]

theorem bindNameOk_iff {word : Char → Bool} {x : Str} : bindNameOk word x = true ↔ BindName word x := by
  unfold bindNameOk
  cases x with
  | nil => exact ⟨fun h => (by cases h), fun h => (by obtain ⟨a, s, e, _⟩ := h.shape; cases e)⟩
  | cons a s =>
    simp only [Bool.and_eq_true, Bool.or_eq_true, decide_eq_true_eq, Bool.not_eq_true', Bool.and_eq_false_iff, decide_eq_false_iff_not, List.all_eq_true]
    have hp : (str "__") <+: a :: s ↔ a = '_' ∧ s.head? = some '_' := by
      constructor
      · rintro ⟨t, e⟩
        cases e
        exact ⟨rfl, rfl⟩
      · rintro ⟨rfl, h⟩
        cases s with
        | nil => cases h
        | cons b s => cases h; exact ⟨s, rfl⟩
    constructor
    · rintro ⟨⟨h1, h2⟩, h3⟩
      refine ⟨⟨a, s, rfl, h1, h2⟩, ?_⟩
      rw [hp]
      rintro ⟨e1, e2⟩
      rcases h3 with h3 | h3
      · exact h3 e1
      · exact h3 e2
    · rintro ⟨⟨a', s', e, h1, h2⟩, h3⟩
      cases e
      rw [hp] at h3
      refine ⟨⟨h1, h2⟩, ?_⟩
      by_cases e1 : a = '_'
      · exact .inr fun e2 => h3 ⟨e1, e2⟩
      · exact .inl e1

/-! ### Making a pattern -/

theorem tokenPattern_none {body : List PTok} {em : PTok} (hes : em.string = []) {added : Bool} :
    tokenPattern (body ++ [em]) added = none ↔ ¬ ∃ m, Marked body m := by
  constructor
  · rintro h ⟨m, hm⟩
    have hme : Marked (body ++ [em]) (m ++ [(em, false)]) := marked_append hm (.plain (by rw [hes]; decide) .nil)
    unfold tokenPattern at h
    rw [tokenLoop_marked hme] at h
    simp only at h
    split at h <;> cases h
  · intro h
    cases ht : tokenPattern (body ++ [em]) added with
    | none => rfl
    | some r =>
      obtain ⟨out, idx⟩ := r
      obtain ⟨body', m, hm, _, _, hb⟩ := tokenPattern_read hes ht
      refine absurd ?_ h
      rcases hb with rfl | ⟨_, nl, hnl, rfl⟩
      · exact ⟨m, hm⟩
      · exact ⟨_, marked_append hm (.plain (by rw [hnl]; decide) .nil)⟩

/-- What comes of a pattern, and what its matcher is made from. -/
theorem buildPattern_outcome {body : List PTok} {em : PTok} (hem : em.kind = .endmarker) (hes : em.string = []) (hz : Sized body)
    {ps : List (Str × Str)} (hlay : Layout (1, 0) [] (body ++ [em]) ps) (parse : Str → Option Val)
    (hparse : ∀ s tree, parse s = some tree → ParserTree tree) (iter : List Nat → List Nat) (hiter : ∀ l, (iter l).Perm l) (kind : PatternKind)
    (added : Bool) (restrictions : Dict Label Matcher) :
    ((¬ ∃ m, Marked body m) ∧ buildPattern parse iter kind (body ++ [em]) added restrictions = .error .valueError) ∨
    ((∃ m, Marked body m) ∧ ∃ l s, Reading ps added l s ∧
      BuildResult parse kind restrictions l s (buildPattern parse iter kind (body ++ [em]) added restrictions) ∧
      ∀ m, buildPattern parse iter kind (body ++ [em]) added restrictions = .ok m → ∃ anonymous variables tree t,
        m = patternMatcher (submatchers anonymous variables restrictions) t ∧ (variables.map Prod.snd).Nodup ∧ metaNames anonymous variables = meaningOf l ∧
        NoneReserved l ∧ parse s = some tree ∧ AllFound tree l ∧ Intended kind tree t) := by
  cases h : tokenPattern (body ++ [em]) added with
  | none => exact .inl ⟨(tokenPattern_none hes).1 h, by unfold buildPattern; rw [h]⟩
  | some r =>
    obtain ⟨out, idx⟩ := r
    right
    refine ⟨Classical.byContradiction fun hn => ?_, ?_⟩
    · rw [(tokenPattern_none hes).2 hn] at h; cases h
    have hp := hiter idx
    obtain ⟨body', m, hm, ho, hi, hb⟩ := tokenPattern_read hes h
    have hspec := (markedAt_spec m 0).1
    simp only [Nat.zero_le, true_and, Nat.sub_zero] at hspec
    have hlt : ∀ i ∈ iter idx, i < out.length := by
      intro i hio
      obtain ⟨t, ht⟩ := (hspec i).1 (hi ▸ hp.mem_iff.1 hio)
      have := (List.getElem?_eq_some_iff.1 ht).1
      rw [ho]; simp; omega
    have hnd : (iter idx).Nodup := by
      rw [hp.nodup_iff, hi]
      exact (markedAt_spec m 0).2.imp (fun h => by omega)
    obtain ⟨st, hr⟩ := C48_terminates hlt hnd
    obtain ⟨h1, h2, h3⟩ := C48_rest_preserved hlt hnd hr
    obtain ⟨qs, l, kept, s, g1, g2, g3, g4, g5, g6⟩ := read_text hem hes hz hlay h (us := st.toks) h1
      (fun i hn => h2 i (fun hc => hn (hp.mem_iff.1 hc)))
      (fun i hc t ht => by
        obtain ⟨t', nm, e1, e2⟩ := h3 i (hp.mem_iff.2 hc)
        rw [ht] at e1; cases e1; exact ⟨nm, e2⟩)
    have hread : ∀ p ∈ l, isVariable p.2 = true ∧ p.2 ∉ kept := by
      rintro ⟨x, a⟩ hpl
      obtain ⟨k, hk⟩ := List.mem_iff_getElem?.1 hpl
      obtain ⟨i, hii, e1, e2, _⟩ := g5 k x a hk
      refine ⟨C48_identifiers hlt hnd hr (hp.mem_iff.2 hii) e1 ?_ e2, fun hc => ?_⟩
      · exact g2.variables _ hpl
      · obtain ⟨j, hj, e3⟩ := g4 a hc
        exact C48_fresh hlt hnd hr (hp.mem_iff.2 hii) (fun h => hj (hp.mem_iff.1 h)) e2 e3 rfl
    have hcons : ∀ (j k : Nat) x y a b, j ≠ k → l[j]? = some (x, a) → l[k]? = some (y, b) → (a = b ↔ x = y ∧ x ≠ str "_") := by
      intro j k x y a b hjk hj hk
      obtain ⟨i, hii, e1, e2, e3⟩ := g5 j x a hj
      obtain ⟨i', hii', e1', e2', e3'⟩ := g5 k y b hk
      refine C48_consistent hlt hnd hr (hp.mem_iff.2 hii) (hp.mem_iff.2 hii') ?_ e1 e1' e2 e2'
      rintro rfl
      exact hjk (e3.symm.trans e3')
    have hmem : ∀ x a, (x, a) ∈ l ↔ ∃ i ∈ iter idx, StringAt out i x ∧ StringAt st.toks i a := by
      intro x a
      constructor
      · intro hl
        obtain ⟨k, hk⟩ := List.mem_iff_getElem?.1 hl
        obtain ⟨i, hii, e1, e2, _⟩ := g5 k x a hk
        exact ⟨i, hp.mem_iff.2 hii, e1, e2⟩
      · rintro ⟨i, hii, e1, e2⟩
        exact g6 i (hp.mem_iff.1 hii) x a e1 e2
    have hvars : ∀ x a, st.variables.get? x = some a ↔ x ≠ str "_" ∧ (x, a) ∈ l := by
      intro x a; rw [(C48_tables hlt hnd hr x a).1, hmem]
    have hanon : ∀ a, a ∈ st.anonymous ↔ (str "_", a) ∈ l := by
      intro a; rw [(C48_tables hlt hnd hr [] a).2, hmem]
    have hw := remapVariables_WF hr
    have hvn : (st.variables.map Prod.snd).Nodup := by
      refine nodup_snd hw fun x y s' hx hy => ?_
      exact reading_inj hcons ((hvars x s').1 (Dict.get?_of_mem hw hx)).2 ((hvars y s').1 (Dict.get?_of_mem hw hy)).2
    refine ⟨l, s, ⟨qs, kept, g1, g2, hread, hcons⟩, ?_⟩
    suffices hmain : BuildResult parse kind restrictions l s (buildPattern parse iter kind (body ++ [em]) added restrictions) by
      refine ⟨hmain, fun m hm => ?_⟩
      rw [hm] at hmain
      cases hmain with
      | @made tree t m' hkn hnone hps hfound hint hinst =>
        unfold buildPattern at hm
        simp only [h, hr, g3, hps] at hm
        split at hm
        · cases hm
        · split at hm
          · cases hm
          · split at hm
            · cases hm
            · rw [(pull_iff (hparse s tree hps) kind t).2 hint] at hm
              cases hm
              exact ⟨_, _, tree, t, rfl, hvn, metaNames_meaning hw hcons hvars hanon, hnone, hps, hfound, hint⟩
    have hknown : checkRestrictions st.variables restrictions = true ↔ RestrictionsKnown restrictions l := by
      rw [C59_restrictions_checked]
      constructor
      · intro hk k m hm
        obtain ⟨y, hy⟩ := hk k m hm
        obtain ⟨e1, e2⟩ := (hvars k y).1 (Dict.get?_of_mem hw hy)
        exact ⟨e1, y, e2⟩
      · intro hk k m hm
        obtain ⟨e1, y, e2⟩ := hk k m hm
        exact ⟨y, Dict.get?_some_mem ((hvars k y).2 ⟨e1, e2⟩)⟩
    unfold buildPattern
    simp only [h, hr, g3]
    by_cases hk : checkRestrictions st.variables restrictions = true
    · simp only [hk, Bool.not_true, Bool.false_eq_true, if_false]
      have hres : (st.variables.any fun e => (str "__").isPrefixOf e.1) = false ↔ NoneReserved l := by
        rw [List.any_eq_false]
        constructor
        · intro hn x a hxa hpre
          have hx : x ≠ str "_" := by rintro rfl; exact absurd hpre (by decide)
          exact hn _ (Dict.get?_some_mem ((hvars x a).2 ⟨hx, hxa⟩)) (List.isPrefixOf_iff_prefix.2 hpre)
        · rintro hn ⟨x, a⟩ he hpre
          exact hn x a ((hvars x a).1 (Dict.get?_of_mem hw he)).2 (List.isPrefixOf_iff_prefix.1 hpre)
      cases hrv : (st.variables.any fun e => (str "__").isPrefixOf e.1) with
      | true =>
        simp only [if_true]
        exact .reserved (hknown.1 hk) (fun hn => by rw [hres.2 hn] at hrv; cases hrv)
      | false =>
      have hrv := hres.1 hrv
      simp only [Bool.false_eq_true, if_false]
      cases hps : parse s with
      | none => exact .syntaxError (hknown.1 hk) hrv hps
      | some tree =>
        have htree := hparse s tree hps
        have hfound : verifyVariables tree st.variables = true ↔ AllFound tree l := by
          rw [C49_accepts_iff htree.syntactic ?_ hw hvn]
          · constructor
            · intro ha x n hxn hx; exact ha x n ((hvars x n).2 ⟨hx, hxn⟩)
            · intro ha x n hg; exact ha x n ((hvars x n).1 hg).2 ((hvars x n).1 hg).1
          · obtain ⟨i, ss, ⟨j, ty, ns, vs, rfl, _⟩, _⟩ := htree.body; rfl
        simp only
        by_cases hf : verifyVariables tree st.variables = true
        · simp only [hf, Bool.not_true, Bool.false_eq_true, if_false]
          cases hpl : kind.pull tree with
          | none =>
            refine .shape (hknown.1 hk) hrv hps (hfound.1 hf) fun t ht => ?_
            rw [(pull_iff htree kind t).2 ht] at hpl; cases hpl
          | some t =>
            refine .made (hknown.1 hk) hrv hps (hfound.1 hf) ((pull_iff htree kind t).1 hpl) ?_
            intro c env N allowed hal g hg ht b v hv n hn ks
            rw [← metaNames_meaning hw hcons hvars hanon]
            exact ⟨C59_match_is_instance hvn hal g hg t ht b v hv n hn ks,
              fun occ hi ha => C59_instance_matches hvn hal g hg t ht b v hv n hn ks occ hi ha⟩
        · simp only [Bool.not_eq_true] at hf
          simp only [hf, Bool.not_false, if_true]
          exact .lost (hknown.1 hk) hrv hps (fun ha => by rw [hfound.2 ha] at hf; cases hf)
    · simp only [Bool.not_eq_true] at hk
      simp only [hk, Bool.not_false, if_true]
      exact .unknown (fun ha => by rw [hknown.2 ha] at hk; cases hk)

/-- **C72**: from the tokens of a text made of the pieces `ps`. If the `$`s do not all stand right before an identifier, ValueError.
Otherwise the pattern has a reading (`l`, `s`) and: KeyError if a restriction is for no named variable; ValueError if a variable begins with two underscores, if `s` does not parse,
if a named variable is no variable reference in the tree, or if the tree does not have the one expression or statement asked for; otherwise
a matcher that finds the instances of that part of the tree. Whatever the order in which a set of indices is iterated. -/
theorem C72_outcome {body : List PTok} {em : PTok} (hem : em.kind = .endmarker) (hes : em.string = []) (hz : Sized body)
    {ps : List (Str × Str)} (hlay : Layout (1, 0) [] (body ++ [em]) ps) (parse : Str → Option Val)
    (hparse : ∀ s tree, parse s = some tree → ParserTree tree) (iter : List Nat → List Nat) (hiter : ∀ l, (iter l).Perm l) (kind : PatternKind)
    (added : Bool) (restrictions : Dict Label Matcher) :
    ((¬ ∃ m, Marked body m) ∧ buildPattern parse iter kind (body ++ [em]) added restrictions = .error .valueError) ∨
    ((∃ m, Marked body m) ∧ ∃ l s, Reading ps added l s ∧
      BuildResult parse kind restrictions l s (buildPattern parse iter kind (body ++ [em]) added restrictions)) := by
  rcases buildPattern_outcome hem hes hz hlay parse hparse iter hiter kind added restrictions with h | ⟨h, l, s, h1, h2, _⟩
  · exact .inl h
  · exact .inr ⟨h, l, s, h1, h2⟩

/-! ### What a match binds -/

theorem Instances.parts {hole : Val → Hole} {allowed : Label → Val → Prop} : ∀ {ts vs : List Val} {occ : Occs},
    Instances hole allowed ts vs occ →
    (∀ t ∈ ts, ∃ v o, Instance hole allowed t v o ∧ ∀ p ∈ o, p ∈ occ) ∧
    (∀ p ∈ occ, ∃ t ∈ ts, ∃ v o, Instance hole allowed t v o ∧ p ∈ o)
  | _, _, _, .nil => by simp
  | _, _, _, .cons (t := t) (v := v) (o := o) h hs => by
    obtain ⟨h1, h2⟩ := Instances.parts hs
    constructor
    · intro u hu
      rcases List.mem_cons.1 hu with rfl | hu
      · exact ⟨v, o, h, fun p hp => List.mem_append_left _ hp⟩
      · obtain ⟨w, o', g1, g2⟩ := h1 u hu
        exact ⟨w, o', g1, fun p hp => List.mem_append_right _ (g2 p hp)⟩
    · intro p hp
      rcases List.mem_append.1 hp with hp | hp
      · exact ⟨t, by simp, v, o, h, hp⟩
      · obtain ⟨u, hu, w, o', g1, g2⟩ := h2 p hp
        exact ⟨u, by simp [hu], w, o', g1, g2⟩

theorem FieldInstances.parts {hole : Val → Hole} {allowed : Label → Val → Prop} : ∀ {ty : Str} {ns : List Str} {ts vs : List Val} {occ : Occs},
    FieldInstances hole allowed ty ns ts vs occ →
    (∀ t ∈ ts, ty = str "Name" ∨ ∃ v o, Instance hole allowed t v o ∧ ∀ p ∈ o, p ∈ occ) ∧
    (∀ p ∈ occ, ∃ t ∈ ts, ∃ v o, Instance hole allowed t v o ∧ p ∈ o)
  | _, _, _, _, _, .nil => by simp
  | _, _, _, _, _, .ctx hs => by
    obtain ⟨h1, h2⟩ := FieldInstances.parts hs
    refine ⟨fun u _ => .inl rfl, fun p hp => ?_⟩
    obtain ⟨u, hu, w, o', g1, g2⟩ := h2 p hp
    exact ⟨u, by simp [hu], w, o', g1, g2⟩
  | _, _, _, _, _, .cons (t := t) (v := v) (o := o) _ h hs => by
    obtain ⟨h1, h2⟩ := FieldInstances.parts hs
    constructor
    · intro u hu
      rcases List.mem_cons.1 hu with rfl | hu
      · exact .inr ⟨v, o, h, fun p hp => List.mem_append_left _ hp⟩
      · rcases h1 u hu with e | ⟨w, o', g1, g2⟩
        · exact .inl e
        · exact .inr ⟨w, o', g1, fun p hp => List.mem_append_right _ (g2 p hp)⟩
    · intro p hp
      rcases List.mem_append.1 hp with hp | hp
      · exact ⟨t, by simp, v, o, h, hp⟩
      · obtain ⟨u, hu, w, o', g1, g2⟩ := h2 p hp
        exact ⟨u, by simp [hu], w, o', g1, g2⟩

theorem holeAt_name {what : Str → Hole} {t : Val} {s : Str} (h1 : t.ty = str "Name") (h2 : strField t (str "id") = some s) :
    holeAt what t = what s := by
  cases t with
  | const i c => simp [strField, Val.getattr, Val.pyNone] at h2
  | list i vs => simp [strField, Val.getattr, Val.pyNone] at h2
  | node i ty ns vs =>
    have hty : ty = str "Name" := h1
    unfold strField at h2
    unfold holeAt
    simp only
    rw [if_pos hty]
    split at h2
    · rename_i j s' e; cases h2; rw [e]
    · cases h2

theorem holeAt_some {what : Str → Hole} {t : Val} (h : holeAt what t ≠ .none) :
    t.isNode = true ∧ t.ty = str "Name" ∧ ∃ s, strField t (str "id") = some s ∧ holeAt what t = what s := by
  cases t with
  | const i c => simp [holeAt] at h
  | list i vs => simp [holeAt] at h
  | node i ty ns vs =>
    by_cases hty : ty = str "Name"
    · refine ⟨rfl, hty, ?_⟩
      unfold holeAt at h ⊢
      unfold strField
      simp only at h ⊢
      rw [if_pos hty] at h ⊢
      split at h
      · rename_i j s e; exact ⟨s, by rw [e], rfl⟩
      · exact absurd rfl h
    · simp [holeAt, hty] at h

theorem instance_occurs {what : Str → Hole} {allowed : Label → Val → Prop} {x n : Str} (hw : what n = .named x) : ∀ (k : Nat) (t v : Val) (occ : Occs),
    t.size ≤ k → Syntactic t → Instance (holeAt what) allowed t v occ → NameIn t n → ∃ w, (x, w) ∈ occ := by
  intro k
  induction k with
  | zero => intro t v occ hk; cases t <;> simp [Val.size] at hk <;> omega
  | succ k ih =>
    intro t v occ hk hs hi hn
    have hsz : ∀ w ∈ t.children, w.size ≤ k := by
      intro w hw
      have h1 := Val.size_children t
      have h2 : ∀ (vs : List Val), w ∈ vs → w.size ≤ Val.sizes vs := by
        intro vs
        induction vs with
        | nil => simp
        | cons u us ih =>
          intro h
          rcases List.mem_cons.1 h with rfl | h
          · simp [Val.sizes]
          · have := ih h; simp [Val.sizes]; omega
      have := h2 _ hw; omega
    -- names inside of names
    have hno : ∀ u ∈ t.children, t.isNode = true → t.ty = str "Name" → ¬ NameIn u n := by
      rintro u hu h1 h2 ⟨p, w, g1, g2, _⟩
      obtain ⟨j, hj⟩ := List.mem_iff_getElem?.1 hu
      exact hs.names [] t rfl h1 h2 j p w (by rw [at?_cons, hj]; exact g1) g2
    rw [nameIn_cases] at hn
    rcases hn with ⟨h1, h2⟩ | ⟨u, hu, hn⟩
    · have hh := holeAt_name (what := what) h1 h2
      rw [hw] at hh
      cases hi with
      | named e _ => rw [hh] at e; cases e; exact ⟨v, by simp⟩
      | anonymous e => rw [hh] at e; cases e
      | const e => rw [hh] at e; cases e
      | list e => rw [hh] at e; cases e
      | node e => rw [hh] at e; cases e
    · cases hi with
      | named e _ =>
        obtain ⟨g1, g2, _⟩ := holeAt_some (what := what) (t := t) (by rw [e]; simp)
        exact absurd hn (hno u hu g1 g2)
      | anonymous e =>
        obtain ⟨g1, g2, _⟩ := holeAt_some (what := what) (t := t) (by rw [e]; simp)
        exact absurd hn (hno u hu g1 g2)
      | const e => simp [Val.children] at hu
      | list e his =>
        obtain ⟨w, o, g1, g2⟩ := his.parts.1 u hu
        obtain ⟨y, hy⟩ := ih u w o (hsz u hu) (hs.child hu) g1 hn
        exact ⟨y, g2 _ hy⟩
      | node e his =>
        rcases his.parts.1 u hu with ety | ⟨w, o, g1, g2⟩
        · exact absurd hn (hno u hu rfl ety)
        · obtain ⟨y, hy⟩ := ih u w o (hsz u hu) (hs.child hu) g1 hn
          exact ⟨y, g2 _ hy⟩

theorem occurs_named {what : Str → Hole} {allowed : Label → Val → Prop} {x : Str} : ∀ (k : Nat) (t v : Val) (occ : Occs),
    t.size ≤ k → Instance (holeAt what) allowed t v occ → ∀ w, (x, w) ∈ occ → ∃ s, what s = .named x := by
  intro k
  induction k with
  | zero => intro t v occ hk; cases t <;> simp [Val.size] at hk <;> omega
  | succ k ih =>
    intro t v occ hk hi w hw
    have hsz : ∀ w ∈ t.children, w.size ≤ k := by
      intro w hw
      have h1 := Val.size_children t
      have h2 : ∀ (vs : List Val), w ∈ vs → w.size ≤ Val.sizes vs := by
        intro vs
        induction vs with
        | nil => simp
        | cons u us ih =>
          intro h
          rcases List.mem_cons.1 h with rfl | h
          · simp [Val.sizes]
          · have := ih h; simp [Val.sizes]; omega
      have := h2 _ hw; omega
    cases hi with
    | named e _ =>
      have : x = _ := (Prod.mk.inj (List.mem_singleton.1 hw)).1
      subst this
      obtain ⟨_, _, s, _, g⟩ := holeAt_some (what := what) (t := t) (by rw [e]; simp)
      exact ⟨s, by rw [← g, e]⟩
    | anonymous e => simp at hw
    | const e => simp at hw
    | list e his =>
      obtain ⟨u, hu, y, o, g1, g2⟩ := his.parts.2 _ hw
      exact ih u y o (hsz u hu) g1 w g2
    | node e his =>
      obtain ⟨u, hu, y, o, g1, g2⟩ := his.parts.2 _ hw
      exact ih u y o (hsz u hu) g1 w g2

theorem FieldIs.mem {v : Val} {f : Str} {w : Val} (h : FieldIs v f w) : w ∈ v.children := by
  obtain ⟨i, ty, ns, vs, rfl, h⟩ := h
  simp only [Val.children]
  induction ns generalizing vs with
  | nil => simp [Val.lookup] at h
  | cons n ns ih =>
    cases vs with
    | nil => simp [Val.lookup] at h
    | cons u us =>
      rw [Val.lookup] at h
      split at h
      · cases h; simp
      · exact List.mem_cons_of_mem _ (ih us h)

theorem intended_names {kind : PatternKind} {tree t : Val} (h : ParserTree tree) (hi : Intended kind tree t) :
    Syntactic t ∧ ∀ n, NameIn tree n → NameIn t n := by
  cases hi with
  | module => exact ⟨h.syntactic, fun _ h => h⟩
  | stmt h1 h2 =>
    refine ⟨(h.syntactic.child h2.mem).child (by simp [Val.children]), fun n hn => ?_⟩
    obtain ⟨i, ss, s, g1, g2, g3, _⟩ := h.names n hn
    have e := h2.getattr.symm.trans g1.getattr
    cases e
    rw [List.mem_singleton.1 g2] at g3; exact g3
  | expr h1 h2 h3 h4 =>
    refine ⟨((h.syntactic.child h2.mem).child (by simp [Val.children])).child h4.mem, fun n hn => ?_⟩
    obtain ⟨i, ss, s, g1, g2, g3, g4⟩ := h.names n hn
    have e := h2.getattr.symm.trans g1.getattr
    cases e
    rw [List.mem_singleton.1 g2] at g4
    exact g4 _ h3 h4

theorem meaningOf_named {l : List (Str × Str)} {s : Str} {x : Label} (h : meaningOf l s = .named x) : x ≠ str "_" ∧ (x, s) ∈ l := by
  unfold meaningOf at h
  split at h
  · cases h
  · rename_i p hp
    split at h
    · cases h
    · rename_i hx
      cases h
      refine ⟨hx, ?_⟩
      have h1 := List.mem_of_find?_eq_some hp
      have h2 : p.2 = s := by simpa using List.find?_some hp
      rw [← h2]; exact h1

theorem meaningOf_mem {l : List (Str × Str)} (hc : ∀ (j k : Nat) x y a b, j ≠ k → l[j]? = some (x, a) → l[k]? = some (y, b) →
    (a = b ↔ x = y ∧ x ≠ str "_")) {x s : Str} (hx : x ≠ str "_") (hm : (x, s) ∈ l) : meaningOf l s = .named x := by
  unfold meaningOf
  cases hl : l.find? (fun p => decide (p.2 = s)) with
  | none =>
    have := List.find?_eq_none.1 hl _ hm
    simp at this
  | some p =>
    obtain ⟨y, s'⟩ := p
    have h1 := List.mem_of_find?_eq_some hl
    have h2 : s' = s := by simpa using List.find?_some hl
    subst h2
    have := reading_inj hc hm h1
    subst this
    simp [hx]

/-- **C72**: a match of an accepted pattern binds exactly the named variables of the pattern. -/
theorem C72_binds {parse : Str → Option Val} (hparse : ∀ s tree, parse s = some tree → ParserTree tree) {kind : PatternKind}
    {restrictions : Dict Label Matcher} {ps l : List (Str × Str)} {added : Bool} {s : Str} {m : Matcher} (hr : Reading ps added l s)
    (hb : BuildResult parse kind restrictions l s (.ok m)) : ∃ tree t, parse s = some tree ∧ Intended kind tree t ∧
    ∀ (c : Ctx) (env : Env) (N : Nat) (allowed : Label → Val → Prop), RestrictionsAllow c env N restrictions allowed →
    ∀ (g : Grammar), ¬ g.nodeType (str "list") → Parsed g false t → ∀ (b : Bool) (v : Val), Parsed g b v →
    ∀ (n : Nat), 2 * t.size + N + 4 ≤ n → ∀ (ks : List Key) mi ks', run c n env m v ks = .ok (some mi, ks') →
      ∀ x, (∃ bd, mi.bindings.get? x = some bd) ↔ x ≠ str "_" ∧ ∃ nm, (x, nm) ∈ l := by
  obtain ⟨qs, kept, _, _, _, hc⟩ := hr
  cases hb with
  | made h1 h0 h2 h3 h4 h5 =>
    rename_i tree t
    refine ⟨tree, t, h2, h4, ?_⟩
    intro c env N allowed hal g hg ht b v hv n hn ks mi ks' hrun x
    obtain ⟨hs, hnames⟩ := intended_names (hparse _ _ h2) h4
    rcases (h5 c env N allowed hal g hg ht b v hv n hn ks).1 with e | ⟨mi', occ, e, hi, _, _, hbd⟩
    · rw [hrun] at e; cases e
    · rw [hrun] at e; cases e
      rw [hbd x]
      have hof : (∃ bd, (occ.of x).getLast?.map (fun w => (⟨createMatch c w, .merge, .keepLast⟩ : BoundValue)) = some bd) ↔ ∃ w, (x, w) ∈ occ := by
        constructor
        · rintro ⟨bd, hbd⟩
          cases hg : (occ.of x).getLast? with
          | none => rw [hg] at hbd; cases hbd
          | some w =>
            have := List.mem_of_getLast? hg
            unfold Occs.of at this
            obtain ⟨⟨y, w'⟩, hm, rfl⟩ := List.mem_map.1 this
            rw [List.mem_filter] at hm
            have e : y = x := by simpa using hm.2
            subst e
            exact ⟨w', hm.1⟩
        · rintro ⟨w, hw⟩
          cases hg : (occ.of x).getLast? with
          | none =>
            rw [List.getLast?_eq_none_iff] at hg
            have : w ∈ occ.of x := List.mem_map.2 ⟨(x, w), List.mem_filter.2 ⟨hw, by simp⟩, rfl⟩
            rw [hg] at this; simp at this
          | some u => exact ⟨_, rfl⟩
      rw [hof]
      constructor
      · rintro ⟨w, hw⟩
        obtain ⟨s', hs'⟩ := occurs_named (what := meaningOf l) _ t v occ (Nat.le_refl _) hi w hw
        obtain ⟨e1, e2⟩ := meaningOf_named hs'
        exact ⟨e1, s', e2⟩
      · rintro ⟨hx, nm, hm⟩
        exact instance_occurs (meaningOf_mem hc hx hm) _ t v occ (Nat.le_refl _) hs hi (hnames nm (h3 x nm hm hx))

/-! ### An example: the expression pattern `$x + $x` -/

theorem syntactic_of {v : Val} (hc : ∀ w ∈ v.children, Syntactic w) (hl : ∀ i vs, v = .list i vs → ∀ w ∈ vs, w.isList = false)
    (hn : v.isNode = true → v.ty = str "Name" → ∀ w ∈ v.children, ∀ p u, w.at? p = some u → u.ty ≠ str "Name") : Syntactic v := by
  have step : ∀ i p u, v.at? (i :: p) = some u → ∃ w ∈ v.children, w.at? p = some u := by
    intro i p u h
    rw [at?_cons] at h
    cases hw : v.children[i]? with
    | none => rw [hw] at h; cases h
    | some w => rw [hw] at h; exact ⟨w, List.mem_of_getElem? hw, h⟩
  refine ⟨fun p i vs h => ?_, fun p u h h1 h2 i q w h3 => ?_⟩
  · cases p with
    | nil => cases h; exact hl i vs rfl
    | cons j p =>
      obtain ⟨w, hw, h⟩ := step j p _ h
      exact (hc w hw).flat p i vs h
  · cases p with
    | nil =>
      cases h
      obtain ⟨x, hx, h3⟩ := step i q w h3
      exact hn h1 h2 x hx q w h3
    | cons j p =>
      obtain ⟨x, hx, h⟩ := step j p _ h
      exact (hc x hx).names p u h h1 h2 i q w h3

theorem syntactic_leaf {v : Val} (h : v.children = []) (hl : v.isList = false) : Syntactic v := by
  refine syntactic_of (by simp [h]) (fun i vs e => ?_) (by simp [h])
  subst e; simp [Val.isList] at hl

theorem at?_leaf {v : Val} (h : v.children = []) {p : Path} {u : Val} (hp : v.at? p = some u) : u = v := by
  cases p with
  | nil => cases hp; rfl
  | cons i p => rw [at?_cons, h] at hp; simp at hp

theorem exName_syntactic (i : Nat) (s ctx : String) (hc : str ctx ≠ str "Name") : Syntactic (exName i s ctx) := by
  refine syntactic_of (fun w hw => ?_) (by intro i vs e; cases e) (fun _ _ w hw p u hu => ?_)
  · simp only [exName, Val.children, List.mem_cons, List.not_mem_nil, or_false] at hw
    rcases hw with rfl | rfl <;> exact syntactic_leaf rfl rfl
  · simp only [exName, Val.children, List.mem_cons, List.not_mem_nil, or_false] at hw
    rcases hw with rfl | rfl
    · rw [at?_leaf rfl hu]; exact (by decide : str "str" ≠ str "Name")
    · rw [at?_leaf rfl hu]; exact hc

/-- The tree of `gensym_x + gensym_x`. -/
def exPatternTree : Val :=
  .node 1 (str "Module") [str "body"] [.list 2 [.node 3 (str "Expr") [str "value"] [exPlus 5 (exMeta 10) (exMeta 20)]]]

theorem exPatternTree_parser : ParserTree exPatternTree := by
  have hplus : Syntactic (exPlus 5 (exMeta 10) (exMeta 20)) := by
    refine syntactic_of (fun w hw => ?_) (by intro i vs e; cases e) (fun _ h => absurd h (by decide))
    simp only [exPlus, Val.children, List.mem_cons, List.not_mem_nil, or_false] at hw
    rcases hw with rfl | rfl <;> exact exName_syntactic _ _ _ (by decide)
  refine ⟨?_, rfl, ⟨2, _, ⟨1, _, _, _, rfl, rfl⟩, fun s hs => ?_⟩, fun n hn => ?_⟩
  · refine syntactic_of (fun w hw => ?_) (by intro i vs e; cases e) (fun _ h => absurd h (by decide))
    rw [List.mem_singleton.1 hw]
    refine syntactic_of (fun w hw => ?_) (fun i vs e w hw => ?_) (by intro h; cases h)
    · rw [List.mem_singleton.1 hw]
      refine syntactic_of (fun w hw => ?_) (by intro i vs e; cases e) (fun _ h => absurd h (by decide))
      rw [List.mem_singleton.1 hw]
      exact hplus
    · cases e
      rw [List.mem_singleton.1 hw]; rfl
  · rw [List.mem_singleton.1 hs]
    exact ⟨rfl, fun _ => ⟨_, 3, _, _, _, rfl, rfl⟩⟩
  · have hsub : ∀ {v w : Val}, v.children = [w] → v.ty ≠ str "Name" → NameIn v n → NameIn w n := by
      intro v w h1 h2 h3
      rw [nameIn_cases, h1] at h3
      rcases h3 with ⟨h, _⟩ | ⟨u, hu, h⟩
      · exact absurd h h2
      · rw [List.mem_singleton.1 hu] at h; exact h
    have h1 := hsub (w := .list 2 _) rfl (by decide) hn
    have h2 := hsub (w := .node 3 _ _ _) rfl (by decide) h1
    refine ⟨2, _, _, ⟨1, _, _, _, rfl, rfl⟩, List.mem_singleton.2 rfl, h2, fun e _ he => ?_⟩
    have h3 := hsub (w := exPlus 5 (exMeta 10) (exMeta 20)) rfl (by decide) h2
    have := he.getattr
    subst this
    exact h3

def exSumTokens : List PTok :=
  [⟨.other, str "$", (1, 0), (1, 1)⟩, ⟨.other, str "x", (1, 1), (1, 2)⟩, ⟨.other, str "+", (1, 3), (1, 4)⟩, ⟨.other, str "$", (1, 5), (1, 6)⟩,
   ⟨.other, str "x", (1, 6), (1, 7)⟩, ⟨.newline, str "\n", (1, 7), (1, 8)⟩]
def exSumEnd : PTok := ⟨.endmarker, [], (2, 0), (2, 0)⟩
def exSumParse (s : Str) : Option Val := if s = str "gensym_x + gensym_x" then some exPatternTree else none

/-- The hypotheses of the theorems can be met, and the pattern is accepted; as a statement pattern too. A restriction for `$y` is not. -/
example : (∃ ps, Layout (1, 0) [] (exSumTokens ++ [exSumEnd]) ps) ∧ Sized exSumTokens ∧
    (∀ s tree, exSumParse s = some tree → ParserTree tree) ∧
    (∃ m, buildPattern exSumParse id .expr (exSumTokens ++ [exSumEnd]) true [(str "x", .anything)] = .ok m) ∧
    (∃ m, buildPattern exSumParse id .stmt (exSumTokens ++ [exSumEnd]) true [] = .ok m) ∧
    buildPattern exSumParse id .expr (exSumTokens ++ [exSumEnd]) true [(str "y", .anything)] = .error .keyError ∧
    buildPattern exSumParse id .expr (exSumTokens.take 5 ++ exSumTokens ++ [exSumEnd]) true [] = .error .valueError := by
  refine ⟨⟨_, .token 0 rfl rfl (by decide) (by decide) (.token 0 rfl rfl (by decide) (by decide) (.token 1 rfl rfl (by decide) (by decide)
    (.token 1 rfl rfl (by decide) (by decide) (.token 0 rfl rfl (by decide) (by decide)
    (.line 0 (.inl rfl) (by decide) rfl rfl (.stop rfl rfl))))))⟩, ?_, ?_, ⟨_, rfl⟩, ⟨_, rfl⟩, rfl, rfl⟩
  · unfold Sized exSumTokens; decide
  · intro s tree h
    unfold exSumParse at h
    split at h
    · cases h; exact exPatternTree_parser
    · cases h

/-- `$__x` is refused, although it would be read and parsed. -/
theorem C72_dunder_refused {parse : Str → Option Val} {kind : PatternKind} {l : List (Str × Str)} {s : Str} {r : Except Exc Matcher}
    {restrictions : Dict Label Matcher} (hk : RestrictionsKnown restrictions l) {x n : Str} (hx : (x, n) ∈ l) (hp : (str "__") <+: x)
    (h : BuildResult parse kind restrictions l s r) : r = .error .valueError := by
  cases h with
  | unknown h => exact absurd hk h
  | reserved => rfl
  | syntaxError => rfl
  | lost => rfl
  | shape => rfl
  | made _ h => exact absurd hp (h x n hx)

/-- A pattern with such a variable, and one without. -/
example : buildPattern (fun _ => some exPatternTree) id .expr [⟨.other, str "$", (1, 0), (1, 1)⟩, ⟨.other, str "__x", (1, 1), (1, 4)⟩, exSumEnd] false [] =
      .error .valueError ∧
    ∃ m, buildPattern (fun _ => some exPatternTree) id .expr [⟨.other, str "x", (1, 0), (1, 1)⟩, ⟨.newline, [], (1, 1), (1, 2)⟩, exSumEnd] false [] = .ok m :=
  ⟨rfl, _, rfl⟩

end Refex
