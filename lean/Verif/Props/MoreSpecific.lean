import Verif.Spec.MoreSpecific
import Verif.Props.Modes
import Verif.Props.SelfTemplate
import Verif.Props.Places
/- C113: a more specific pattern finds nothing that the more general one misses. -/
namespace Refex
set_option autoImplicit false

/-- The field of a pattern and of its instance. -/
theorem fieldInstances_lookup {hole : Val → Hole} {al : Label → Val → Prop} {ty a : Str} (ha : ¬ (ty = str "Name" ∧ a = str "ctx")) :
    ∀ {ns : List Str} {ts vs : List Val} {occ : Occs}, FieldInstances hole al ty ns ts vs occ → ∀ v, Val.lookup ns vs a = some v →
      ∃ t o, Val.lookup ns ts a = some t ∧ t ∈ ts ∧ Instance hole al t v o
  | _, _, _, _, .nil, v, h => by simp [Val.lookup] at h
  | _, _, _, _, .ctx hs, v, h => by
    unfold Val.lookup at h ⊢
    have hne : ¬ str "ctx" = a := fun e => ha ⟨rfl, e.symm⟩
    rw [if_neg hne] at h ⊢
    obtain ⟨t, o, h1, h2, h3⟩ := fieldInstances_lookup ha hs v h
    exact ⟨t, o, h1, List.mem_cons_of_mem _ h2, h3⟩
  | _, _, _, _, .cons (n := n) _ hi hs, v, h => by
    unfold Val.lookup at h ⊢
    split at h
    · rename_i e
      cases h
      rw [if_pos e]
      exact ⟨_, _, rfl, List.mem_cons_self .., hi⟩
    · rename_i e
      rw [if_neg e]
      obtain ⟨t, o, h1, h2, h3⟩ := fieldInstances_lookup ha hs v h
      exact ⟨t, o, h1, List.mem_cons_of_mem _ h2, h3⟩

/-- A hole is a variable with an identifier. -/
theorem holeAt_inv {what : Str → Hole} {t : Val} (h : holeAt what t ≠ .none) :
    ∃ i ns vs j s, t = .node i (str "Name") ns vs ∧ Val.lookup ns vs (str "id") = some (.const j (.str s)) ∧ what s = holeAt what t := by
  cases t with
  | const i c => exact absurd rfl h
  | list i vs => exact absurd rfl h
  | node i ty ns vs =>
    unfold holeAt at h ⊢
    simp only at h ⊢
    split at h
    · rename_i hty
      subst hty
      rw [if_pos rfl]
      split at h
      · rename_i j s e
        refine ⟨i, ns, vs, j, s, rfl, ?_, ?_⟩
        · replace e : (Val.lookup ns vs (str "id")).getD Val.pyNone = Val.const j (Const.str s) := e
          cases hl : Val.lookup ns vs (str "id") with
          | none => rw [hl] at e; simp [Val.pyNone] at e
          | some v => rw [hl] at e; exact congrArg some e
        · rfl
      · exact absurd rfl h
    · exact absurd rfl h

theorem str_pyEq {a b : Str} (h : (Const.str a).pyEq (.str b) = true) : a = b := by
  simpa [Const.pyEq, Const.whole?] using h

/-- Where the more general pattern has no metavariable, the more specific one has none. -/
theorem specific_no_hole {whatP whatQ : Str → Hole} {i j : Nat} {ty : Str} {ns : List Str} {ts us : List Val} {occ : Occs}
    (hsyn : Syntactic (.node i ty ns ts)) (hown : ∀ s, whatQ s ≠ .none → NameIn (.node i ty ns ts) s → whatP s ≠ .none)
    (hp : holeAt whatP (.node i ty ns ts) = .none)
    (h : FieldInstances (holeAt whatP) (fun _ _ => True) ty ns ts us occ) : holeAt whatQ (.node j ty ns us) = .none := by
  by_cases hq : holeAt whatQ (.node j ty ns us) = .none
  · exact hq
  obtain ⟨_, _, _, k, s, e, hl, hs⟩ := holeAt_inv hq
  cases e
  obtain ⟨t, o, h1, h2, h3⟩ := fieldInstances_lookup (a := str "id") (by decide) h _ hl
  have hstr : strField (.node i (str "Name") ns ts) (str "id") = some s := by
    cases h3 with
    | named e =>
      exfalso
      obtain ⟨k', h4⟩ := List.mem_iff_getElem?.1 h2
      obtain ⟨_, _, _, _, _, e', _⟩ := holeAt_inv (by rw [e]; simp : holeAt whatP t ≠ .none)
      subst e'
      exact hsyn.names [] _ rfl rfl rfl k' [] _ (by simp [Val.at?, Val.children, h4]; rfl) rfl
    | anonymous e =>
      exfalso
      obtain ⟨k', h4⟩ := List.mem_iff_getElem?.1 h2
      obtain ⟨_, _, _, _, _, e', _⟩ := holeAt_inv (by rw [e]; simp : holeAt whatP t ≠ .none)
      subst e'
      exact hsyn.names [] _ rfl rfl rfl k' [] _ (by simp [Val.at?, Val.children, h4]; rfl) rfl
    | @const _ _ c _ _ e =>
      have : c = .str s := by
        cases c <;> simp [Const.pyEq, Const.whole?] at e
        all_goals try (exact absurd e (by simp))
        · rw [e]
      subst this
      have hg : (Val.node i (str "Name") ns ts).getattr (str "id") = (Val.lookup ns ts (str "id")).getD Val.pyNone := rfl
      unfold strField
      rw [hg, h1]
      rfl
  have := hown s (by rw [hs]; exact hq) ((nameIn_cases _ _).2 (.inl ⟨rfl, hstr⟩))
  rw [holeAt_name rfl hstr] at hp
  exact absurd hp this

mutual
/-- An instance of the more specific tree is one of the more general tree, with the same metavariables. -/
theorem specific_instance {whatP whatQ : Str → Hole} : ∀ {p q : Val} {occ : Occs}, Instance (holeAt whatP) (fun _ _ => True) p q occ → Syntactic p →
    (∀ s, whatQ s ≠ .none → NameIn p s → whatP s ≠ .none) → ∀ {v : Val} {o : Occs}, Instance (holeAt whatQ) (fun _ _ => True) q v o →
      ∃ o', Instance (holeAt whatP) (fun _ _ => True) p v o' ∧ o'.map Prod.fst = occ.map Prod.fst
  | _, _, _, .named e _, _, _, v, _, _ => ⟨[(_, v)], .named e trivial, rfl⟩
  | _, _, _, .anonymous e, _, _, _, _, _ => ⟨[], .anonymous e, rfl⟩
  | _, _, _, .const e a, _, _, v, o, h => by
    cases h with
    | named e' => cases e'
    | anonymous e' => cases e'
    | const e' a' => exact ⟨[], .const e (Const.pyEq_trans a' a), rfl⟩
  | _, _, _, .list e a, hsyn, hown, v, o, h => by
    cases h with
    | named e' => cases e'
    | anonymous e' => cases e'
    | list e' a' =>
      obtain ⟨o', h1, h2⟩ := specific_instances a (fun t ht => hsyn.child ht) (fun t ht s hs hn => hown s hs ((nameIn_cases _ _).2 (.inr ⟨t, ht, hn⟩))) a'
      exact ⟨o', .list e h1, h2⟩
  | _, _, _, .node (j := j) e a, hsyn, hown, v, o, h => by
    have hno := specific_no_hole (j := j) hsyn hown e a
    cases h with
    | named e' => rw [hno] at e'; cases e'
    | anonymous e' => rw [hno] at e'; cases e'
    | node e' a' =>
      obtain ⟨o', h1, h2⟩ := specific_fields a (fun t ht => hsyn.child ht) (fun t ht s hs hn => hown s hs ((nameIn_cases _ _).2 (.inr ⟨t, ht, hn⟩))) a'
      exact ⟨o', .node e h1, h2⟩
theorem specific_instances {whatP whatQ : Str → Hole} : ∀ {ps qs : List Val} {occ : Occs}, Instances (holeAt whatP) (fun _ _ => True) ps qs occ →
    (∀ p ∈ ps, Syntactic p) → (∀ p ∈ ps, ∀ s, whatQ s ≠ .none → NameIn p s → whatP s ≠ .none) →
    ∀ {vs : List Val} {o : Occs}, Instances (holeAt whatQ) (fun _ _ => True) qs vs o →
      ∃ o', Instances (holeAt whatP) (fun _ _ => True) ps vs o' ∧ o'.map Prod.fst = occ.map Prod.fst
  | _, _, _, .nil, _, _, _, _, h => by cases h; exact ⟨[], .nil, rfl⟩
  | _, _, _, .cons a b, hsyn, hown, _, _, h => by
    cases h with
    | cons a' b' =>
      obtain ⟨o1, h1, e1⟩ := specific_instance a (hsyn _ (List.mem_cons_self ..)) (hown _ (List.mem_cons_self ..)) a'
      obtain ⟨o2, h2, e2⟩ := specific_instances b (fun p hp => hsyn p (List.mem_cons_of_mem _ hp)) (fun p hp => hown p (List.mem_cons_of_mem _ hp)) b'
      exact ⟨o1 ++ o2, .cons h1 h2, by rw [List.map_append, List.map_append, e1, e2]⟩
theorem specific_fields {whatP whatQ : Str → Hole} : ∀ {ty : Str} {ns : List Str} {ps qs : List Val} {occ : Occs},
    FieldInstances (holeAt whatP) (fun _ _ => True) ty ns ps qs occ →
    (∀ p ∈ ps, Syntactic p) → (∀ p ∈ ps, ∀ s, whatQ s ≠ .none → NameIn p s → whatP s ≠ .none) →
    ∀ {vs : List Val} {o : Occs}, FieldInstances (holeAt whatQ) (fun _ _ => True) ty ns qs vs o →
      ∃ o', FieldInstances (holeAt whatP) (fun _ _ => True) ty ns ps vs o' ∧ o'.map Prod.fst = occ.map Prod.fst
  | _, _, _, _, _, .nil, _, _, _, _, h => by cases h; exact ⟨[], .nil, rfl⟩
  | _, _, _, _, _, .ctx b, hsyn, hown, _, _, h => by
    cases h with
    | ctx b' =>
      obtain ⟨o2, h2, e2⟩ := specific_fields b (fun p hp => hsyn p (List.mem_cons_of_mem _ hp)) (fun p hp => hown p (List.mem_cons_of_mem _ hp)) b'
      exact ⟨o2, .ctx h2, e2⟩
    | cons hc _ _ => exact absurd ⟨rfl, rfl⟩ hc
  | _, _, _, _, _, .cons hc a b, hsyn, hown, _, _, h => by
    cases h with
    | ctx _ => exact absurd ⟨rfl, rfl⟩ hc
    | cons _ a' b' =>
      obtain ⟨o1, h1, e1⟩ := specific_instance a (hsyn _ (List.mem_cons_self ..)) (hown _ (List.mem_cons_self ..)) a'
      obtain ⟨o2, h2, e2⟩ := specific_fields b (fun p hp => hsyn p (List.mem_cons_of_mem _ hp)) (fun p hp => hown p (List.mem_cons_of_mem _ hp)) b'
      exact ⟨o1 ++ o2, .cons hc h1 h2, by rw [List.map_append, List.map_append, e1, e2]⟩
end

theorem occs_alike_nodup {occ : Occs} (h : (occ.map Prod.fst).Nodup) (x : Label) : AllAlike (occ.of x) := by
  have hlen : (occ.of x).length ≤ 1 := by
    unfold Occs.of
    induction occ with
    | nil => simp
    | cons q occ ih =>
      obtain ⟨h1, h2⟩ := List.nodup_cons.1 h
      by_cases hq : q.1 = x
      · rw [List.filter_cons_of_pos (by simp [hq]), List.filter_eq_nil_iff.2 (fun r hr hd =>
          h1 (List.mem_map.2 ⟨r, hr, (of_decide_eq_true hd).trans hq.symm⟩))]
        simp
      · rw [List.filter_cons_of_neg (by simp [hq])]
        exact ih h2
  intro i j a b hij _ hb
  obtain ⟨hj, _⟩ := List.getElem?_eq_some_iff.1 hb
  omega

/-- **C113** (instances): an instance of the more specific pattern is an instance of the more general one, with each metavariable occurring once. -/
theorem C113_instance {whatP whatQ : Str → Hole} {p q : Val} (hsyn : Syntactic p) (h : MoreSpecific whatP p whatQ q) {v : Val} {o : Occs}
    (hi : Instance (holeAt whatQ) (fun _ _ => True) q v o) :
    ∃ o', Instance (holeAt whatP) (fun _ _ => True) p v o' ∧ ∀ x, AllAlike (o'.of x) := by
  obtain ⟨occ, ho, hn⟩ := h.filled
  obtain ⟨o', h1, h2⟩ := specific_instance ho hsyn h.own hi
  exact ⟨o', h1, occs_alike_nodup (h2 ▸ hn)⟩

/-- **C113** (matches): what the more specific pattern finds in a tree is found by the more general one, or is inside of something that it finds. -/
theorem C113_hits {whatP whatQ : Str → Hole} {p q tree : Val} (hsyn : Syntactic p) (h : MoreSpecific whatP p whatQ q) {hitsP hitsQ : List PatternHit}
    (hp : PatternHits whatP p tree hitsP) (hq : PatternHits whatQ q tree hitsQ) :
    ∀ b ∈ hitsQ, ∃ a ∈ hitsP, a.path <+: b.path := by
  intro b hb
  obtain ⟨h1, h2, _⟩ := hq.sound b hb
  obtain ⟨o', h3, h4⟩ := C113_instance hsyn h h2
  exact hp.complete _ _ _ h1 h3 h4

theorem patternMeans_syntactic {g : Grammar} {py : Python} (hfit : PythonFits g py) {kind : PatternKind} {text : Str} {what : Str → Hole} {t : Val}
    (h : PatternMeans py kind text what t) : Syntactic t := by
  obtain ⟨_, _, _, _, tree, _, _, _, _, hp, _, hi, _⟩ := h
  have hsyn := (hfit.parse _ _ hp).syntactic
  have field : ∀ {v w : Val} {n : Str}, Syntactic v → FieldIs v n w → Syntactic w := by
    rintro v w n hv ⟨_, _, _, _, rfl, hl⟩
    exact hv.child (lookup_mem _ _ _ _ hl)
  cases hi with
  | module => exact hsyn
  | expr _ hb _ hv => exact field ((field hsyn hb).child (List.mem_singleton.2 rfl)) hv
  | stmt _ hb => exact (field hsyn hb).child (List.mem_singleton.2 rfl)

theorem search_means {g : Grammar} {py : Python} (hfit : PythonFits g py) {kind : PatternKind} {text : Str} {m : Matcher} {ts : Dict Str CodeTemplate}
    (h : PatternSearch py kind text m ts) :
    ∃ what t, PatternMeans py kind text what t ∧ (2 * t.size + 7 ≤ py.depth → ∀ content subs, SearchGives py m ts content subs → SearchResult py what t ts content subs) := by
  obtain ⟨toks, ps, htok, hplain⟩ := h.tokens
  obtain ⟨what, t, h1, h2⟩ := C93_search hfit htok hplain h.pattern h.templates
  exact ⟨what, t, h1, fun hd content subs ⟨path, p, hp, hs⟩ => h2 hd content path p subs hp hs⟩

/-- **C113** (searches): so it is for two searches of a file, of which the reports are for what they find. -/
theorem C113_search {g : Grammar} {py : Python} (hfit : PythonFits g py) {kindP kindQ : PatternKind} {textP textQ : Str} {mP mQ : Matcher}
    {tsP tsQ : Dict Str CodeTemplate} (hP : PatternSearch py kindP textP mP tsP) (hQ : PatternSearch py kindQ textQ mQ tsQ) :
    ∃ whatP p whatQ q, PatternMeans py kindP textP whatP p ∧ PatternMeans py kindQ textQ whatQ q ∧
      (MoreSpecific whatP p whatQ q → 2 * p.size + 7 ≤ py.depth → 2 * q.size + 7 ≤ py.depth →
        ∀ content subsP subsQ, SearchGives py mP tsP content subsP → SearchGives py mQ tsQ content subsQ →
          ∃ (c : Ctx) (hitsP hitsQ : List PatternHit) (osP osQ : List (Option Substitution)), py.file content = some c ∧
            subsP = osP.filterMap id ∧ subsQ = osQ.filterMap id ∧ PatternHits whatP p c.tree hitsP ∧ PatternHits whatQ q c.tree hitsQ ∧
            Forall2 (fun (h : PatternHit) o => ReportIn py c tsP (h.label c) o) hitsP osP ∧
            Forall2 (fun (h : PatternHit) o => ReportIn py c tsQ (h.label c) o) hitsQ osQ ∧
            ∀ b ∈ hitsQ, ∃ a ∈ hitsP, a.path <+: b.path) := by
  obtain ⟨whatP, p, h1, h2⟩ := search_means hfit hP
  obtain ⟨whatQ, q, h3, h4⟩ := search_means hfit hQ
  refine ⟨whatP, p, whatQ, q, h1, h3, fun h hdP hdQ content subsP subsQ hfP hfQ => ?_⟩
  obtain ⟨c, hitsP, osP, hc, a1, a2, a3⟩ := h2 hdP _ _ hfP
  obtain ⟨c', hitsQ, osQ, hc', b1, b2, b3⟩ := h4 hdQ _ _ hfQ
  rw [hc] at hc'; cases hc'
  exact ⟨c, hitsP, hitsQ, osP, osQ, hc, a2, b2, a1, b1, a3, b3, C113_hits (patternMeans_syntactic hfit h1) h a1 b1⟩

theorem before_irrefl (p : Path) : before p p = false := by
  have h := (before_prefix p []).1
  rwa [List.append_nil] at h

/-- In order, and the same: the same list. -/
theorem ordered_eq {xs ys : List Path} (hx : xs.Pairwise fun a b => before a b = true) (hy : ys.Pairwise fun a b => before a b = true)
    (h : ∀ p, p ∈ xs ↔ p ∈ ys) : xs = ys := by
  induction xs generalizing ys with
  | nil =>
    cases ys with
    | nil => rfl
    | cons y ys => exact absurd ((h y).2 (List.mem_cons_self ..)) (by simp)
  | cons x xs ih =>
    cases ys with
    | nil => exact absurd ((h x).1 (List.mem_cons_self ..)) (by simp)
    | cons y ys =>
      obtain ⟨hx1, hx2⟩ := List.pairwise_cons.1 hx
      obtain ⟨hy1, hy2⟩ := List.pairwise_cons.1 hy
      have e : x = y := by
        rcases List.mem_cons.1 ((h x).1 (List.mem_cons_self ..)) with e | hm
        · exact e
        rcases List.mem_cons.1 ((h y).2 (List.mem_cons_self ..)) with e | hm'
        · exact e.symm
        · have h1 := hy1 x hm
          have h2 := before_asymm (hx1 y hm')
          rw [h1] at h2; cases h2
      subst e
      refine congrArg _ (ih hx2 hy2 fun p => ⟨fun hp => ?_, fun hp => ?_⟩)
      · rcases List.mem_cons.1 ((h p).1 (List.mem_cons_of_mem _ hp)) with e | h'
        · subst e; have := hx1 _ hp; rw [before_irrefl] at this; cases this
        · exact h'
      · rcases List.mem_cons.1 ((h p).2 (List.mem_cons_of_mem _ hp)) with e | h'
        · subst e; have := hy1 _ hp; rw [before_irrefl] at this; cases this
        · exact h'

/-- Of paths in order, none is inside of another. -/
theorem ordered_outermost {xs : List Path} (hx : xs.Pairwise fun a b => before a b = true) {p q : Path} (hp : p ∈ xs) (hq : q ∈ xs) (h : p <+: q) : p = q := by
  obtain ⟨s, rfl⟩ := h
  induction xs with
  | nil => cases hp
  | cons x xs ih =>
    obtain ⟨h1, h2⟩ := List.pairwise_cons.1 hx
    rcases List.mem_cons.1 hp with rfl | hp
    · rcases List.mem_cons.1 hq with e | hq
      · exact e.symm
      · have := h1 _ hq
        rw [(before_prefix p s).1] at this; cases this
    · rcases List.mem_cons.1 hq with e | hq
      · have := h1 _ hp
        rw [← e, (before_prefix p s).2] at this; cases this
      · exact ih h2 hp hq

/-- Matches in order, each at or inside of one of the others, both ways: the same places. -/
theorem same_paths {hitsP hitsQ : List PatternHit} (oP : hitsP.Pairwise fun a b => before a.path b.path = true)
    (oQ : hitsQ.Pairwise fun a b => before a.path b.path = true) (k1 : ∀ b ∈ hitsQ, ∃ a ∈ hitsP, a.path <+: b.path)
    (k2 : ∀ a ∈ hitsP, ∃ b ∈ hitsQ, b.path <+: a.path) : hitsP.map PatternHit.path = hitsQ.map PatternHit.path := by
  have oP : (hitsP.map PatternHit.path).Pairwise fun a b => before a b = true := List.pairwise_map.2 oP
  have oQ : (hitsQ.map PatternHit.path).Pairwise fun a b => before a b = true := List.pairwise_map.2 oQ
  have half : ∀ {as bs : List PatternHit}, (bs.map PatternHit.path).Pairwise (fun a b => before a b = true) → (∀ b ∈ bs, ∃ a ∈ as, a.path <+: b.path) →
      (∀ a ∈ as, ∃ b ∈ bs, b.path <+: a.path) → ∀ x, x ∈ bs.map PatternHit.path → x ∈ as.map PatternHit.path := by
    intro as bs ob h1 h2 x hx
    obtain ⟨b, hb, rfl⟩ := List.mem_map.1 hx
    obtain ⟨a, ha, hab⟩ := h1 b hb
    obtain ⟨b', hb', hba⟩ := h2 a ha
    have e : b'.path = b.path := ordered_outermost ob (List.mem_map.2 ⟨b', hb', rfl⟩) (List.mem_map.2 ⟨b, hb, rfl⟩) (hba.trans hab)
    have hl := hab.length_le
    have hl' := hba.length_le
    rw [e] at hl'
    rw [← hab.eq_of_length (Nat.le_antisymm hl hl')]
    exact List.mem_map.2 ⟨a, ha, rfl⟩
  exact ordered_eq oP oQ fun x => ⟨half oP k2 k1 x, half oQ k1 k2 x⟩

/-- **C113** (the same pattern): of two patterns that are each more specific than the other (the same pattern, with other names for the metavariables), a search
finds the same. -/
theorem C113_same {whatP whatQ : Str → Hole} {p q tree : Val} (hp : Syntactic p) (hq : Syntactic q) (h : MoreSpecific whatP p whatQ q)
    (h' : MoreSpecific whatQ q whatP p) {hitsP hitsQ : List PatternHit} (hP : PatternHits whatP p tree hitsP) (hQ : PatternHits whatQ q tree hitsQ) :
    hitsP.map PatternHit.path = hitsQ.map PatternHit.path := by
  exact same_paths hP.ordered hQ.ordered (C113_hits hp h hP hQ) (C113_hits hq h' hQ hP)

end Refex
