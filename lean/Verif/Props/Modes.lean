import Verif.Spec.Modes
import Verif.Props.PatternBuild
import Verif.Props.PySearch
import Verif.Props.TypeFilters
import Verif.Props.Fixers
import Verif.Props.SanitizeTree
import Verif.Props.PyTemplate
import Verif.Props.CompileText
import Verif.Props.BuiltinSearch
/- C93: from a Python pattern on the command line to the edits of a file. -/
namespace Refex
set_option autoImplicit false

/-! ### The matcher of a pattern -/

theorem buildPattern_shape {parse : Str → Option Val} {iter : List Nat → List Nat} {kind : PatternKind} {toks : List PTok} {added : Bool}
    {restrictions : Dict Label Matcher} {m : Matcher} (h : buildPattern parse iter kind toks added restrictions = .ok m) :
    ∃ anonymous variables t, m = patternMatcher (submatchers anonymous variables restrictions) t ∧
      ∀ x a, (x, a) ∈ variables → ¬ (str "__") <+: x := by
  unfold buildPattern at h
  split at h
  · cases h
  · split at h
    · cases h
    · rename_i st _
      split at h
      · cases h
      · split at h
        · cases h
        · split at h
          · cases h
          · rename_i hr
            split at h
            · cases h
            · split at h
              · cases h
              · split at h
                · cases h
                · cases h
                  refine ⟨_, _, _, rfl, fun x a hx hp => hr ?_⟩
                  exact List.any_eq_true.2 ⟨_, hx, List.isPrefixOf_iff_prefix.2 hp⟩

/-- What the submatchers of a pattern without restrictions are. -/
def Simple (names : List Label) (m : Matcher) : Prop := m = .anything ∨ ∃ x ∈ names, m = metaBind x .anything

theorem Dict.mem_set {κ α : Type} [DecidableEq κ] {d : Dict κ α} {k : κ} {v : α} {e : κ × α} (h : e ∈ (d.set k v : List (κ × α))) :
    e ∈ (d : List (κ × α)) ∨ e.2 = v := by
  induction d with
  | nil => simp [Dict.set] at h; exact .inr (by rw [h])
  | cons e' d ih =>
    obtain ⟨k', v'⟩ := e'
    unfold Dict.set at h
    split at h
    · rcases List.mem_cons.1 h with h | h
      · exact .inr (by rw [h])
      · exact .inl (List.mem_cons_of_mem _ h)
    · rcases List.mem_cons.1 h with h | h
      · exact .inl (by rw [h]; exact List.mem_cons_self ..)
      · rcases ih h with h | h
        · exact .inl (List.mem_cons_of_mem _ h)
        · exact .inr h

theorem submatchers_simple (anonymous : List Str) (variables : List (Label × Str)) : ∀ e ∈ (submatchers anonymous variables [] : List (Str × Matcher)),
    Simple (variables.map Prod.fst) e.2 := by
  have h1 : ∀ (as : List Str) (d : Dict Str Matcher), (∀ e ∈ (d : List (Str × Matcher)), e.2 = .anything) →
      ∀ e ∈ (as.foldl (fun (d : Dict Str Matcher) a => d.set a .anything) d : Dict Str Matcher), e.2 = .anything := by
    intro as
    induction as with
    | nil => intro d h; exact h
    | cons a as ih =>
      intro d h
      refine ih _ fun e he => ?_
      rcases Dict.mem_set he with h' | h'
      · exact h e h'
      · exact h'
  have h2 : ∀ (vs : List (Label × Str)) (names : List Label) (d : Dict Str Matcher), (∀ e ∈ vs, e.1 ∈ names) →
      (∀ e ∈ (d : List (Str × Matcher)), Simple names e.2) →
      ∀ e ∈ (vs.foldl (fun (d : Dict Str Matcher) e => d.set e.2 (metaBind e.1 ((Dict.get? ([] : Dict Label Matcher) e.1).getD .anything))) d : Dict Str Matcher), Simple names e.2 := by
    intro vs names
    induction vs with
    | nil => intro d _ h; exact h
    | cons a vs ih =>
      intro d hn h
      refine ih _ (fun e he => hn e (by simp [he])) fun e he => ?_
      rcases Dict.mem_set he with h' | h'
      · exact h e h'
      · exact .inr ⟨a.1, hn a (by simp), h'⟩
  refine h2 variables _ _ (fun e he => List.mem_map.2 ⟨e, he, rfl⟩) fun e he => .inl ?_
  exact h1 anonymous [] (by simp) e he

section
variable {names : List Label} {vars : Dict Str Matcher} (hv : ∀ e ∈ (vars : List (Str × Matcher)), Simple names e.2)
include hv

mutual
theorem astPattern_plain (g : Str → List Label) : ∀ (t : Val), (astPattern vars t).noTemplates = true ∧ ∀ x ∈ (astPattern vars t).bindVars g, x ∈ names
  | .list _ vs => by
    rw [astPattern]
    exact astPatterns_plain g vs
  | .const i c => by
    rw [astPattern]
    exact ⟨rfl, fun x hx => by cases hx⟩
  | .node i t ns vs => by
    rw [astPattern]
    split
    · rename_i m hm
      obtain ⟨a, _, ha⟩ := Option.bind_eq_some_iff.1 hm
      rcases hv _ (Dict.get?_mem ha) with h | ⟨x, hx, h⟩
      · have h : m = .anything := h
        subst h; exact ⟨rfl, fun x hx => by cases hx⟩
      · have h : m = metaBind x .anything := h
        subst h
        refine ⟨rfl, fun y hy => ?_⟩
        have hy : y ∈ [x] := hy
        rw [List.mem_singleton.1 hy]; exact hx
    · exact fieldPatterns_plain g _ ns vs
theorem astPatterns_plain (g : Str → List Label) : ∀ (ts : List Val), Matcher.noTemplatesList (astPatterns vars ts) = true ∧
    ∀ x ∈ Matcher.bindVarsList g (astPatterns vars ts), x ∈ names
  | [] => by rw [astPatterns]; exact ⟨rfl, fun x hx => by cases hx⟩
  | v :: vs => by
    rw [astPatterns]
    obtain ⟨h1, h2⟩ := astPattern_plain g v
    obtain ⟨h3, h4⟩ := astPatterns_plain g vs
    refine ⟨by rw [Matcher.noTemplatesList, h1, h3]; rfl, fun x hx => ?_⟩
    rw [Matcher.bindVarsList, List.mem_append] at hx
    rcases hx with hx | hx
    · exact h2 x hx
    · exact h4 x hx
theorem fieldPatterns_plain (g : Str → List Label) (b : Bool) : ∀ (ns : List Str) (ts : List Val), Matcher.noTemplatesList (fieldPatterns vars b ns ts) = true ∧
    ∀ x ∈ Matcher.bindVarsList g (fieldPatterns vars b ns ts), x ∈ names
  | [], _ => by rw [fieldPatterns] <;> first | exact ⟨rfl, fun x hx => by cases hx⟩ | (intros; first | (rename_i h; cases h; done) | (rename_i h _; cases h))
  | _ :: _, [] => by rw [fieldPatterns] <;> first | exact ⟨rfl, fun x hx => by cases hx⟩ | (intros; first | (rename_i h; cases h; done) | (rename_i h _; cases h))
  | n :: ns, v :: vs => by
    rw [fieldPatterns]
    obtain ⟨h1, h2⟩ := astPattern_plain g v
    obtain ⟨h3, h4⟩ := fieldPatterns_plain g b ns vs
    split
    · refine ⟨by rw [Matcher.noTemplatesList, h3]; rfl, fun x hx => ?_⟩
      rw [Matcher.bindVarsList, List.mem_append] at hx
      rcases hx with hx | hx
      · cases hx
      · exact h4 x hx
    · refine ⟨by rw [Matcher.noTemplatesList, h1, h3]; rfl, fun x hx => ?_⟩
      rw [Matcher.bindVarsList, List.mem_append] at hx
      rcases hx with hx | hx
      · exact h2 x hx
      · exact h4 x hx
end

theorem astPattern_filter (n : Nat) (env : Env) : ∀ (t : Val), ∃ f, typeFilter (n + 2) env (astPattern vars t) = .ok f
  | .list _ vs => by rw [astPattern]; exact ⟨_, rfl⟩
  | .const i c => by rw [astPattern]; exact ⟨_, rfl⟩
  | .node i t ns vs => by
    rw [astPattern]
    split
    · rename_i m hm
      obtain ⟨a, _, ha⟩ := Option.bind_eq_some_iff.1 hm
      rcases hv _ (Dict.get?_mem ha) with h | ⟨x, hx, h⟩
      · have h : m = .anything := h
        subst h; exact ⟨_, rfl⟩
      · have h : m = metaBind x .anything := h
        subst h
        exact ⟨none, rfl⟩
    · exact ⟨_, rfl⟩

end

/-- A pattern is an ordinary matcher with a type filter. -/
theorem pattern_ordinary {parse : Str → Option Val} {iter : List Nat → List Nat} {kind : PatternKind} {toks : List PTok} {added : Bool} {m : Matcher}
    (h : buildPattern parse iter kind toks added [] = .ok m) (c : Ctx) (n : Nat) : Ordinary c m ∧ ∃ f, typeFilter (n + 4) [] m = .ok f := by
  obtain ⟨an, vs, t, rfl, hres⟩ := buildPattern_shape h
  have hs := submatchers_simple an vs
  refine ⟨⟨(astPattern_plain hs c.rxGroups t).1, fun l hl => ?_⟩, ?_⟩
  · have hm := (astPattern_plain hs c.rxGroups t).2 l hl
    obtain ⟨⟨x, a⟩, he, hx⟩ := List.mem_map.1 hm
    have hx : x = l := hx
    subst hx
    have := hres x a he
    constructor
    · rintro rfl; exact this (by decide)
    · intro hmm
      unfold metadataLabels at hmm
      simp only [List.mem_cons, List.not_mem_nil, or_false] at hmm
      rcases hmm with rfl | rfl | rfl | rfl <;> exact this (by decide)
  · obtain ⟨f, hf⟩ := astPattern_filter hs n [] t
    exact ⟨f, hf⟩

/-! ### What is reported -/

theorem at?_prefix {tree : Val} {p q : Path} {v : Val} (hp : p <+: q) (h : tree.at? q = some v) : ∃ w, tree.at? p = some w := by
  obtain ⟨s, rfl⟩ := hp
  rw [at?_append] at h
  obtain ⟨w, hw, _⟩ := Option.bind_eq_some_iff.1 h
  exact ⟨w, hw⟩

/-- Where no attempt raises, every match is reported or inside of a report. -/
theorem outermost_covers {att : List Key → Val → MOut} {tree : Val} {done : List Key} {rs : List Report} (ho : Outermost att tree done rs)
    (hok : ∀ ks p v, tree.at? p = some v → ∃ r ks', att ks v = .ok (r, ks')) (k : Nat) : ∀ (q : Path) (v : Val) (mi : MatchInfo) (ks : List Key), q.length ≤ k →
      tree.at? q = some v → att (done ++ keysBefore rs q) v = .ok (some mi, ks) → ∃ r ∈ rs, r.path <+: q := by
  induction k with
  | zero =>
    intro q v mi ks hq hv h
    have : q = [] := List.length_eq_zero_iff.1 (by omega)
    subst this
    refine ⟨⟨[], mi, ks⟩, (ho.2 _).2 ⟨⟨v, hv, h⟩, ?_⟩, List.prefix_rfl⟩
    intro q s hqs hs
    exact absurd (List.append_eq_nil_iff.1 hqs.symm).2 hs
  | succ k ih =>
    intro q v mi ks hq hv h
    by_cases hex : ∃ q' s, q = q' ++ s ∧ s ≠ [] ∧ ∃ w mi' ks', tree.at? q' = some w ∧ att (done ++ keysBefore rs q') w = .ok (some mi', ks')
    · obtain ⟨q', s, rfl, hs, w, mi', ks', hw, hm⟩ := hex
      have hl : 0 < s.length := List.length_pos_iff.2 hs
      obtain ⟨r, hr, hpre⟩ := ih q' w mi' ks' (by rw [List.length_append] at hq; omega) hw hm
      exact ⟨r, hr, hpre.trans (List.prefix_append ..)⟩
    · refine ⟨⟨q, mi, ks⟩, (ho.2 _).2 ⟨⟨v, hv, h⟩, ?_⟩, List.prefix_rfl⟩
      intro q' s hqs hs
      have hqs : q = q' ++ s := hqs
      obtain ⟨w, hw⟩ := at?_prefix ⟨s, hqs.symm⟩ hv
      obtain ⟨r, ks', hr⟩ := hok (done ++ keysBefore rs q') q' w hw
      cases r with
      | none => exact ⟨ks', w, hw, hr⟩
      | some mi' => exact absurd ⟨q', s, hqs, hs, w, mi', ks', hw, hr⟩ hex

/-- The outcome of an attempt to match a pattern. -/
theorem pattern_attempt {m : Matcher} {what : Str → Hole} {t : Val} (hm : MatchesInstances m what [] t) {g : Grammar} (hg : ¬ g.nodeType (str "list"))
    (ht : Parsed g false t) {n : Nat} (hn : 2 * t.size + 5 ≤ n) {f : TypeFilter} (hf : typeFilter n [] m = .ok f) (c : Ctx) (done : List Key)
    {b : Bool} {v : Val} (hv : Parsed g b v) :
    (attempt c n m done v = .ok (none, []) ∨
      ∃ mi occ, attempt c n m done v = .ok (some mi, []) ∧ Instance (holeAt what) (fun _ _ => True) t v occ ∧ (∀ x, Linked (occ.of x)) ∧
        mi.obj = createMatch c v ∧ ∀ x, mi.bindings.get? x = (occ.of x).getLast?.map fun w => ⟨createMatch c w, .merge, .keepLast⟩) ∧
    ∀ occ, Instance (holeAt what) (fun _ _ => True) t v occ → (∀ x, AllAlike (occ.of x)) → ∃ mi, attempt c n m done v = .ok (some mi, []) := by
  have hall : RestrictionsAllow { c with done := done } [] 1 [] (fun _ _ => True) := ⟨fun x m h => (by cases h), Nat.le_refl _, fun _ _ _ => trivial⟩
  obtain ⟨h1, h2⟩ := hm { c with done := done } [] 1 _ hall g hg ht b v hv n (by omega) []
  unfold attempt
  rw [hf]
  simp only
  split
  · exact ⟨h1, fun occ hi ha => (h2 occ hi ha).imp fun mi h => h.1⟩
  · rename_i hp
    refine ⟨.inl rfl, fun occ hi ha => ?_⟩
    obtain ⟨mi, hr, _⟩ := h2 occ hi ha
    have hadm : admits f v.ty = false := by
      cases f with
      | none => exact absurd rfl hp
      | some s => simpa [passesFilter, admits] using hp
    exact absurd hr (C39_type_filter_sound { c with done := done } n n [] m f v hf hadm [] mi [])

/-- The instances that the reports are of. -/
theorem pattern_hits {c : Ctx} {m : Matcher} {what : Str → Hole} {t : Val} (hm : MatchesInstances m what [] t) {g : Grammar} (hg : ¬ g.nodeType (str "list"))
    (ht : Parsed g false t) {n : Nat} (hn : 2 * t.size + 5 ≤ n) {f : TypeFilter} (hf : typeFilter n [] m = .ok f)
    (htree : ∀ q v, c.tree.at? q = some v → ∃ b, Parsed g b v) {rs : List Report} (ho : Outermost (attempt c n m) c.tree c.done rs) :
    ∃ hits, PatternHits what t c.tree hits ∧ Forall2 (fun (h : PatternHit) (r : Report) => h.path = r.path ∧ ∀ l, LabelOf r.mi l = h.label c l) hits rs := by
  have hone : ∀ r ∈ rs, ∃ h : PatternHit, (h.path = r.path ∧ ∀ l, LabelOf r.mi l = h.label c l) ∧
      c.tree.at? h.path = some h.node ∧ Instance (holeAt what) (fun _ _ => True) t h.node h.occ ∧ ∀ x, Linked (h.occ.of x) := by
    intro r hr
    obtain ⟨⟨v, hv, ha⟩, _⟩ := (ho.2 r).1 hr
    obtain ⟨b, hb⟩ := htree _ _ hv
    obtain ⟨h1, _⟩ := pattern_attempt hm hg ht hn hf c (c.done ++ keysBefore rs r.path) hb
    rcases h1 with h1 | ⟨mi, occ, h1, hi, hl, hobj, hbind⟩
    · rw [h1] at ha; cases ha
    · rw [h1] at ha
      have hmi : mi = r.mi := by injection ha with ha; injection ha with ha _; injection ha
      refine ⟨⟨r.path, v, occ⟩, ⟨rfl, fun l => ?_⟩, hv, hi, hl⟩
      unfold LabelOf PatternHit.label
      rw [← hmi, hobj, hbind]
      split
      · rfl
      · rw [Option.map_map]; rfl
  have hlist : ∀ (rs' : List Report), (∀ r ∈ rs', r ∈ rs) → ∃ hits, Forall2 (fun (h : PatternHit) (r : Report) => (h.path = r.path ∧ ∀ l, LabelOf r.mi l = h.label c l) ∧
      c.tree.at? h.path = some h.node ∧ Instance (holeAt what) (fun _ _ => True) t h.node h.occ ∧ ∀ x, Linked (h.occ.of x)) hits rs' := by
    intro rs'
    induction rs' with
    | nil => intro _; exact ⟨[], .nil⟩
    | cons r rs' ih =>
      intro hmem
      obtain ⟨h, hh⟩ := hone r (hmem r (by simp))
      obtain ⟨hits, hhs⟩ := ih fun r hr => hmem r (by simp [hr])
      exact ⟨h :: hits, .cons hh hhs⟩
  obtain ⟨hits, hh⟩ := hlist rs fun _ h => h
  refine ⟨hits, ⟨?_, ?_, ?_⟩, forall2_imp hh fun _ _ _ h => h.1⟩
  · have hp := ho.1
    clear ho hone hlist
    induction hh with
    | nil => exact .nil
    | cons h1 h2 ih =>
      rename_i h r hs rs'
      rw [List.pairwise_cons] at hp
      refine List.Pairwise.cons ?_ (ih hp.2)
      intro h' hh'
      obtain ⟨r', hr', hrel⟩ := forall2_partner_left h2 _ hh'
      rw [h1.1.1, hrel.1.1]
      exact hp.1 r' hr'
  · intro h hh'
    obtain ⟨r, _, hrel⟩ := forall2_partner_left hh _ hh'
    exact hrel.2
  · intro q v occ hv hi ha
    obtain ⟨b, hb⟩ := htree _ _ hv
    obtain ⟨_, h2⟩ := pattern_attempt hm hg ht hn hf c (c.done ++ keysBefore rs q) hb
    obtain ⟨mi, hmi⟩ := h2 occ hi ha
    obtain ⟨r, hr, hpre⟩ := outermost_covers ho (fun ks p w hw => by
      obtain ⟨b', hb'⟩ := htree _ _ hw
      rcases (pattern_attempt hm hg ht hn hf c ks hb').1 with h | ⟨mi, _, h, _⟩
      · exact ⟨_, _, h⟩
      · exact ⟨_, _, h⟩) q.length q v mi [] (Nat.le_refl _) hv hmi
    obtain ⟨h, hmem, hrel⟩ := forall2_partner hh r hr
    exact ⟨h, hmem, hrel.1.1 ▸ hpre⟩

/-! ### From findings to substitutions -/

theorem get?_map_label {α : Type} (d : Dict MatchKey α) (hn : ∀ n, d.get? (.num n) = none) (l : Str) :
    Dict.get? (d.map fun e => (e.1.label, e.2)) l = d.get? (.name l) := by
  induction d with
  | nil => rfl
  | cons e d ih =>
    obtain ⟨k, v⟩ := e
    have hd : ∀ n, Dict.get? (d : List (MatchKey × α)) (.num n) = none ∧ k ≠ .num n := by
      intro n
      have := hn n
      rw [Dict.get?] at this
      split at this
      · cases this
      · rename_i h; exact ⟨this, h⟩
    cases k with
    | num n => exact absurd rfl (hd n).2
    | name s =>
      rw [List.map_cons, Dict.get?, Dict.get?]
      show (if s = l then some v else _) = _
      by_cases h : s = l
      · rw [if_pos h, if_pos (by rw [h])]
      · rw [if_neg h, if_neg (fun e => h (by injection e))]
        exact ih fun n => (hd n).1

theorem wf_map_label {α : Type} {d : Dict MatchKey α} (hn : ∀ n, d.get? (.num n) = none) (hw : d.WF) :
    Dict.WF (d.map fun e => (e.1.label, e.2)) := by
  induction d with
  | nil => exact List.nodup_nil
  | cons e d ih =>
    obtain ⟨k, v⟩ := e
    have hd : ∀ n, Dict.get? (d : List (MatchKey × α)) (.num n) = none ∧ k ≠ .num n := by
      intro n
      have := hn n
      rw [Dict.get?] at this
      split at this
      · cases this
      · rename_i h; exact ⟨this, h⟩
    have hw' := List.nodup_cons.1 hw
    refine List.nodup_cons.2 ⟨fun hm => ?_, ih (fun n => (hd n).1) hw'.2⟩
    cases k with
    | num n => exact (hd n).2 rfl
    | name s =>
      have hm : s ∈ (d.map fun e => (e.1.label, e.2)).map Prod.fst := hm
      rw [List.map_map] at hm
      obtain ⟨⟨k', v'⟩, he, hk⟩ := List.mem_map.1 hm
      cases k' with
      | num n =>
        have h0 := (hd n).1
        exact (Dict.get?_none_iff.1 h0) v' he
      | name s' =>
        have hk : s' = s := hk
        subst hk
        exact hw'.1 (List.mem_map.2 ⟨_, he, rfl⟩)

theorem get?_map_self {α : Type} (ts : Dict Str α) (l : Str) : Dict.get? (ts.map fun e => (e.1, e.1)) l = (ts.get? l).map fun _ => l := by
  induction ts with
  | nil => rfl
  | cons e ts ih =>
    obtain ⟨k, v⟩ := e
    rw [List.map_cons, Dict.get?, Dict.get?]
    split
    · rename_i h; exact congrArg some h
    · exact ih

theorem wf_map_self {α : Type} {ts : Dict Str α} (h : ts.WF) : Dict.WF (ts.map fun e => (e.1, e.1)) := by
  unfold Dict.WF Dict.keys at *
  rw [List.map_map]
  exact h

theorem templates_at (py : Python) (c : Ctx) (ts : Dict Str CodeTemplate) (l k : Str) :
    Dict.get? (ts.map fun e => (e.1, e.1)) l = some k ↔ k = l ∧ ∃ t, ts.get? l = some t ∧ (py.templates c ts).text k = t.text ∧
      (py.templates c ts).sem k = t.on (some c) := by
  rw [get?_map_self]
  cases h : ts.get? l with
  | none => simp
  | some t =>
    constructor
    · intro hk
      have hk : l = k := by injection hk
      subst hk
      refine ⟨rfl, t, rfl, ?_, ?_⟩
      · show ((ts.get? l).map (·.text)).getD [] = _; rw [h]; rfl
      · show ((ts.get? l).map fun t => t.on (some c)).getD _ = _; rw [h]; rfl
    · rintro ⟨rfl, _⟩; rfl

section
variable {py : Python} {c : Ctx} {ts : Dict Str CodeTemplate} {mi : MatchInfo} {stands : Label → Option MObj} (hst : ∀ l, LabelOf mi l = stands l)
include hst

theorem deletes_iff (l : Label) : RemovesStmt (py.templates c ts) (ts.map fun e => (e.1, e.1)) mi l ↔ Deletes ts stands l := by
  unfold RemovesStmt Deletes
  rw [hst]
  refine and_congr ⟨?_, ?_⟩ Iff.rfl
  · rintro ⟨k, hk, he⟩
    obtain ⟨rfl, t, ht, htext, _⟩ := (templates_at py c ts l k).1 hk
    exact ⟨t, ht, htext ▸ he⟩
  · rintro ⟨t, ht, he⟩
    have h : Dict.get? (ts.map fun e => (e.1, e.1)) l = some l := by rw [get?_map_self, ht]; rfl
    obtain ⟨_, t', ht', htext, _⟩ := (templates_at py c ts l l).1 h
    rw [ht] at ht'; cases ht'
    exact ⟨l, h, htext.trans he⟩

theorem offeredTo {ms : Dict MatchKey MatchV} (h : Offered c (py.templates c ts) (ts.map fun e => (e.1, e.1)) mi ms) : OfferedTo c ts stands ms where
  wf := h.wf
  names := fun l hl => by rw [← hst]; exact h.names l fun hr => hl ((deletes_iff hst l).1 hr)
  removed := fun l hl => by rw [← hst]; exact h.removed l ((deletes_iff hst l).2 hl)
  only := h.only

theorem writes_iff {ms : Dict MatchKey MatchV} (l : Label) (s : Str) :
    Gives (py.templates c ts) (ts.map fun e => (e.1, e.1)) ms l s ↔ Writes c ts ms l s := by
  constructor
  · rintro ⟨k, m, hk, ha, hs⟩
    obtain ⟨rfl, t, ht, _, hsem⟩ := (templates_at py c ts l k).1 hk
    exact ⟨t, m, ht, ha, hsem ▸ hs⟩
  · rintro ⟨t, m, ht, ha, hs⟩
    have h : Dict.get? (ts.map fun e => (e.1, e.1)) l = some l := by rw [get?_map_self, ht]; rfl
    obtain ⟨_, t', ht', _, hsem⟩ := (templates_at py c ts l l).1 h
    rw [ht] at ht'; cases ht'
    exact ⟨l, m, h, ha, by rw [hsem]; exact hs⟩

theorem reports_of {f : Found} (h : Finding c (py.templates c ts) (ts.map fun e => (e.1, e.1)) mi f)
    (hloc : ∀ sp, f.keySpan = some sp → ∃ i, c.tok i = some sp) (hpart : Unshared c.tree → PartOfFile c mi.obj f.keySpan) : Reports c ts stands f.substitution := by
  obtain ⟨hp, ⟨ms, ho, h1, h2, h3, h4, h5, h6, h7, h8⟩, h9⟩ := h
  refine ⟨?_, ⟨ms, f.replacements.map fun e => (e.1.label, e.2), offeredTo hst ho, ?_, rfl, ?_, ?_, ?_, ?_, ?_⟩, wf_map_label h2 h9, hloc, fun hun o ho => ?_⟩
  · show f.primaryLabel.label = _; rw [hp]; rfl
  · intro l
    rw [← h1 l]
    exact get?_map_label _ h2 l
  · intro l new hl
    rw [get?_map_label _ h4, h3 l new fun hr => hl ((deletes_iff hst l).1 hr), writes_iff hst]
  · intro x; exact (h5 x).trans (writes_iff hst _ _)
  · intro x; exact (h6 x).trans (writes_iff hst _ _)
  · intro x; exact (h7 x).trans (writes_iff hst _ _)
  · refine h8.trans ⟨?_, ?_⟩
    · rintro ⟨s, hs, hg⟩; exact ⟨s, hs, (writes_iff hst _ _).1 hg⟩
    · rintro ⟨s, hs, hg⟩; exact ⟨s, hs, (writes_iff hst _ _).2 hg⟩
  · rw [← hst] at ho
    unfold LabelOf at ho
    rw [if_pos rfl] at ho
    cases ho
    exact hpart hun

theorem refusedBy (h : Refused c (py.templates c ts) (ts.map fun e => (e.1, e.1)) mi) : RefusedBy py c ts stands := by
  obtain ⟨ms, l, k, m, ho, hk, ha, hs⟩ := h
  obtain ⟨rfl, t, ht, _, hsem⟩ := (templates_at py c ts l k).1 hk
  refine ⟨ms, k, t, m, offeredTo hst ho, ht, ha, ?_⟩
  rcases hs with hs | ⟨hr, hs⟩
  · exact .inl (hsem ▸ hs)
  · exact .inr ⟨(deletes_iff hst k).1 hr, hs⟩

end

theorem filterMap_map_found (os : List (Option Found)) :
    (os.filterMap id).map Found.substitution = (os.map (Option.map Found.substitution)).filterMap id := by
  induction os with
  | nil => rfl
  | cons o os ih => cases o <;> simp [ih]

/-- What a pattern is, once accepted. -/
theorem pattern_means {g : Grammar} {py : Python} (hfit : PythonFits g py) {kind : PatternKind} {text : Str} {toks : List PTok} {ps : List (Str × Str)}
    (htok : py.tokens (withNewline text) = some toks) (hplain : PlainTokens toks ps) {m : Matcher} (hm : py.pattern kind text = .ok m) :
    ∃ what t, PatternMeans py kind text what t ∧ MatchesInstances m what [] t ∧ Parsed g false t ∧
      ∀ (c : Ctx) (n : Nat), Ordinary c m ∧ ∃ f, typeFilter (n + 4) [] m = .ok f := by
  unfold Python.pattern at hm
  rw [htok] at hm
  simp only at hm
  have hord := fun (c : Ctx) (n : Nat) => pattern_ordinary hm c n
  obtain ⟨⟨body, em, rfl, hem, hes, hz⟩, hlay⟩ := hplain
  rcases C72_outcome hem hes hz hlay py.parse hfit.parse py.iter hfit.iter kind (addsNewline text) [] with ⟨_, h⟩ | ⟨_, l, s, hread, hres⟩
  · rw [h] at hm; cases hm
  · rw [hm] at hres
    cases hres with
    | made _ hnone hparse hfound hint hinst =>
      exact ⟨_, _, ⟨_, ps, l, s, _, htok, ⟨⟨body, em, rfl, hem, hes, hz⟩, hlay⟩, hread, hnone, hparse, hfound, hint, rfl⟩, hinst,
        hfit.grammar _ _ _ kind hparse hint, hord⟩

/-- The search with a matcher that finds the instances of `t`. -/
theorem search_of {g : Grammar} {py : Python} (hfit : PythonFits g py) {m : Matcher} {what : Str → Hole} {t : Val}
    (hinst : MatchesInstances m what [] t) (ht : Parsed g false t) (hord : ∀ (c : Ctx) (n : Nat), Ordinary c m ∧ ∃ f, typeFilter (n + 4) [] m = .ok f)
    {ts : Dict Str CodeTemplate} (hw : ts.WF) (hdepth : 2 * t.size + 7 ≤ py.depth) {content path : Str} {p : ParsedFile} {subs : List Substitution}
    (hp : (py.searcher m ts).parse content path = .ok p) (hs : (py.searcher m ts).find p = .ok subs) : SearchResult py what t ts content subs := by
  have hpt : p.text = content := by
    unfold Python.searcher at hp
    simp only at hp
    unfold Python.parseAst at hp
    cases hf : py.file content with
    | none => rw [hf] at hp; cases hp
    | some c => rw [hf] at hp; cases hp; rfl
  unfold Python.searcher at hs
  simp only at hs
  rw [hpt] at hs
  cases hc : py.file content with
  | none => rw [hc] at hs; cases hs
  | some c =>
    rw [hc] at hs
    simp only at hs
    obtain ⟨n, hn⟩ : ∃ n, py.depth = n + 2 := ⟨py.depth - 2, by omega⟩
    rw [hn] at hs hdepth
    split at hs
    · cases hs
    · rename_i fs hfs
      cases hs
      obtain ⟨k, hk⟩ : ∃ k, n = k + 4 := ⟨n - 4, by omega⟩
      obtain ⟨ho, f, hf⟩ := hord c k
      rw [← hk] at hf
      obtain ⟨rs, os, hout, rfl, hrel⟩ := C64_reports_parts c _ _ n m _ ho (wf_map_self hw) fs hfs
      obtain ⟨hits, hhits, hlab⟩ := pattern_hits hinst hfit.modules.list ht (by omega) hf (fun q v hq => parsed_at (hfit.file _ _ hc).2.1 hq) hout
      refine ⟨c, hits, os.map (Option.map Found.substitution), hc, hhits, filterMap_map_found os, ?_⟩
      clear hfs hhits hout
      induction hlab generalizing os with
      | nil => cases hrel; exact .nil
      | cons h1 h2 ih =>
        cases hrel with
        | cons h3 h4 =>
          refine .cons ?_ (ih _ h4)
          rename_i o _
          cases o with
          | none => exact refusedBy h1.2 h3
          | some f => exact reports_of h1.2 h3.1 h3.2.1 h3.2.2

/-- **C93.** Searching a Python file for a pattern given on the command line (`--mode=py.expr`, `--mode=py.stmt`), with these templates: if the
searcher gives a result, the file is one that Python parses, and the result has, in document order, one report for each of the outermost instances of the pattern in the file,
except those that a template refuses. The pattern means what its text says. -/
theorem C93_search {g : Grammar} {py : Python} (hfit : PythonFits g py) {kind : PatternKind} {text : Str} {toks : List PTok} {ps : List (Str × Str)}
    (htok : py.tokens (withNewline text) = some toks) (hplain : PlainTokens toks ps) {m : Matcher} (hm : py.pattern kind text = .ok m)
    {ts : Dict Str CodeTemplate} (hw : ts.WF) :
    ∃ what t, PatternMeans py kind text what t ∧ (2 * t.size + 7 ≤ py.depth →
      ∀ content path p subs, (py.searcher m ts).parse content path = .ok p → (py.searcher m ts).find p = .ok subs →
        SearchResult py what t ts content subs) := by
  obtain ⟨what, t, hmean, hinst, ht, hord⟩ := pattern_means hfit htok hplain hm
  exact ⟨what, t, hmean, fun hdepth content path p subs hp hs => search_of hfit hinst ht hord hw hdepth hp hs⟩

end Refex
