import Verif.Props.Filling
import Verif.Props.SameTrees
import Verif.Props.Depth
import Verif.Props.Items
import Verif.Props.Once
/- C53: syntax-aware templates. -/
namespace Refex
set_option autoImplicit false

theorem accumLoop_cons_inv {c : Ctx} {v : Val} {f : List Key → MOut} {fs : List (List Key → MOut)} {b : Bindings} {r : Replacements}
    {ks ks' : List Key} {mi : MatchInfo} (h : accumLoop c v (f :: fs) b r ks = .ok (some mi, ks')) :
    ∃ mi1 ks1 b1 r1, f ks = .ok (some mi1, ks1) ∧ mergeBindings b mi1.bindings = .ok (some b1) ∧
      accumLoop c v fs b1 r1 ks1 = .ok (some mi, ks') := by
  rw [accumLoop] at h
  split at h
  · cases h
  · cases h
  · rename_i mi1 ks1 hf
    split at h
    · cases h
    · cases h
    · rename_i b1 hb
      split at h
      · cases h
      · rename_i r1 hr
        exact ⟨mi1, ks1, b1, r1, hf, hb, h⟩

theorem getAttr_module {i : Nat} {a b : Val} : (Val.node i (str "Module") [str "body", str "type_ignores"] [a, b]).getattr (str "body") = a := rfl

/-- A match of `Module(body=m)`. -/
theorem moduleWith_inv {g : Grammar} (hg : HasModules g) {c : Ctx} {n : Nat} {m : Matcher} {v : Val} (hv : Parsed g false v) {ks ks' : List Key}
    {mi : MatchInfo} (h : run c n [] (moduleWith m) v ks = .ok (some mi, ks')) :
    ∃ i j items ti mi1 ks1, v = .node i (str "Module") [str "body", str "type_ignores"] [.list j items, ti] ∧
      (∀ w ∈ items, Parsed g false w) ∧ run c (n - 1) [] m (.list j items) ks = .ok (some mi1, ks1) ∧
      ∀ x, mi.bindings.get? x = mi1.bindings.get? x := by
  cases n with
  | zero => cases h
  | succ n =>
    rw [moduleWith, run] at h
    split at h
    · cases h
    · rename_i hty
      have hty : v.ty = str "Module" := Classical.not_not.1 hty
      obtain ⟨i, vs, rfl, hlen, hp⟩ := parsed_same hg.list hv hg.module hty
      rw [hg.moduleFields] at hlen hp
      match vs, hlen with
      | [body, ti], _ =>
        have hb : Parsed g true body := hp 0 _ body rfl rfl
        cases hb with
        | @list j items hi =>
          obtain ⟨mi1, ks1, b1, r1, e1, e2, h⟩ := accumLoop_cons_inv h
          obtain ⟨mi2, ks2, b2, r2, e3, e4, h⟩ := accumLoop_cons_inv h
          cases h
          refine ⟨i, j, items, ti, mi1, ks1, by rw [hg.moduleFields]; rfl, hi, ?_, ?_⟩
          · have : (Val.node i (str "Module") ((g.fields (str "Module")).map Prod.fst) [.list j items, ti]).getattr (str "body") = .list j items := by
              rw [hg.moduleFields]; rfl
            rw [← this]; exact e1
          · obtain ⟨b', h1, h2⟩ := mergeBindings_nil mi1.bindings
            rw [e2] at h1; cases h1
            have hbs : mi2.bindings = [] := by
              cases n with
              | zero => cases e3
              | succ n => cases e3; rfl
            rw [hbs] at e4
            obtain ⟨d, h3, h4⟩ := (C37_empty (mergeBindings_wf e2)).2
            rw [e4] at h3; cases h3
            intro x; show Dict.get? b2 x = _
            rw [h4 x, h2 x]

/-- A match of `ItemsAre([m])`. -/
theorem itemsAre_one_inv {c : Ctx} {n : Nat} {m : Matcher} {j : Nat} {items : List Val} {ks ks' : List Key} {mi : MatchInfo}
    (h : run c n [] (.itemsAre [m]) (.list j items) ks = .ok (some mi, ks')) :
    ∃ w ks1 mi1, items = [w] ∧ run c (n - 2) [] m w ks1 = .ok (some mi1, ks') ∧ ∀ x, mi.bindings.get? x = mi1.bindings.get? x := by
  cases n with
  | zero => cases h
  | succ n =>
    rw [run] at h
    obtain ⟨mi1, ks1, b1, r1, e1, e2, h⟩ := accumLoop_cons_inv h
    obtain ⟨mi2, ks2, b2, r2, e3, e4, h⟩ := accumLoop_cons_inv h
    cases h
    cases n with
    | zero => cases e1
    | succ n =>
      cases n with
      | zero => cases e1
      | succ n =>
        -- no second item
        have hone : items[1]? = none := by
          cases hi : items[1]? with
          | none => rfl
          | some w =>
            have hg : getItem (.list j items) ((1 : Nat) : Int) = some w := by rw [getItem_nat rfl]; exact hi
            have hr : run c (n + 1) [] (.hasItem 1 .anything) (.list j items) ks = rewrap c (.list j items) (run c n [] .anything w ks) := by
              rw [run]
              have hg' : getItem (.list j items) 1 = some w := hg
              rw [hg']
            have e1 : run c (n + 2) [] (.unlessM (.hasItem 1 .anything)) (.list j items) ks = .ok (some mi1, ks1) := e1
            rw [run, hr] at e1
            cases n with
            | zero => cases e1
            | succ n => cases e1
        have hb1 : b1 = [] := by
          have : mi1.bindings = [] := by
            rw [run] at e1
            revert e1
            split
            · intro e; cases e
            · intro e; cases e; rfl
            · intro e; cases e
          rw [this] at e2; cases e2; rfl
        subst hb1
        have hzero : getItem (.list j items) ((0 : Nat) : Int) = items[0]? := getItem_nat rfl 0
        have e3 : run c (n + 2) [] (.hasItem ((0 : Nat) : Int) m) (.list j items) ks1 = .ok (some mi2, ks') := e3
        rw [run, hzero] at e3
        match items, hone with
        | [], _ => cases e3
        | [w], _ =>
          simp only [List.getElem?_cons_zero] at e3
          cases hr : run c (n + 1) [] m w ks1 with
          | error e => rw [hr] at e3; cases e3
          | ok p =>
            obtain ⟨o, ks3⟩ := p
            cases o with
            | none => rw [hr] at e3; cases e3
            | some mi3 =>
              rw [hr] at e3; cases e3
              obtain ⟨b', h1, h2⟩ := mergeBindings_nil mi3.bindings
              rw [show mergeBindings [] mi3.bindings = _ from e4] at h1; cases h1
              exact ⟨w, ks1, mi3, rfl, hr, h2⟩
        | a :: b :: _, h => simp at h

/-- A match of `Expr(value=m)`. -/
theorem exprStmt_inv {g : Grammar} (hg : HasModules g) {c : Ctx} {n : Nat} {m : Matcher} {v : Val} (hv : Parsed g false v) {ks ks' : List Key}
    {mi : MatchInfo} (h : run c n [] (.node (str "Expr") [str "value"] [m]) v ks = .ok (some mi, ks')) :
    ∃ i w mi1 ks1, v = .node i (str "Expr") [str "value"] [w] ∧ Parsed g false w ∧ run c (n - 1) [] m w ks = .ok (some mi1, ks1) ∧
      ∀ x, mi.bindings.get? x = mi1.bindings.get? x := by
  cases n with
  | zero => cases h
  | succ n =>
    rw [run] at h
    split at h
    · cases h
    · rename_i hty
      have hty : v.ty = str "Expr" := Classical.not_not.1 hty
      obtain ⟨i, vs, rfl, hlen, hp⟩ := parsed_same hg.list hv hg.expr hty
      rw [hg.exprFields] at hlen hp
      match vs, hlen with
      | [w], _ =>
        have hb : Parsed g false w := hp 0 _ w rfl rfl
        obtain ⟨mi1, ks1, b1, r1, e1, e2, h⟩ := accumLoop_cons_inv h
        cases h
        refine ⟨i, w, mi1, ks', by rw [hg.exprFields]; rfl, hb, ?_, ?_⟩
        · have : (Val.node i (str "Expr") ((g.fields (str "Expr")).map Prod.fst) [w]).getattr (str "value") = w := by
            rw [hg.exprFields]; rfl
          rw [← this]; exact e1
        · obtain ⟨b', h1, h2⟩ := mergeBindings_nil mi1.bindings
          rw [show mergeBindings [] mi1.bindings = _ from e2] at h1; cases h1
          exact h2

/-- What a match of a template's matcher says. -/
structure Read (c : Ctx) (g : Grammar) (kind : TemplateKind) (what : Str → Hole) (tree v : Val) (mi : MatchInfo) (w : Val) (occ : Occs) : Prop where
  part : kind.Part v w
  parsed : Parsed g false w
  inst : Instance (holeAt what) (fun _ _ => True) tree w occ
  linked : ∀ x, Linked (occ.of x)
  bound : ∀ x, mi.bindings.get? x = (occ.of x).getLast?.map fun w => ⟨createMatch c w, .merge, .keepLast⟩

theorem pattern_read {g : Grammar} (hg : HasModules g) {anonymous : List Str} {variables : List (Label × Str)} (hn : (variables.map Prod.snd).Nodup)
    {tree : Val} (ht : Parsed g false tree) {c : Ctx} {n : Nat} {v : Val} (hv : Parsed g false v) {ks ks' : List Key} {mi : MatchInfo}
    (h : run c n [] (patternMatcher (submatchers anonymous variables []) tree) v ks = .ok (some mi, ks')) :
    ∃ occ, Instance (holeAt (metaNames anonymous variables)) (fun _ _ => True) tree v occ ∧ (∀ x, Linked (occ.of x)) ∧
      ∀ x, mi.bindings.get? x = (occ.of x).getLast?.map fun w => ⟨createMatch c w, .merge, .keepLast⟩ := by
  have hne : run c n [] (patternMatcher (submatchers anonymous variables []) tree) v ks ≠ .error .recursionError := by rw [h]; intro e; cases e
  have hup := C62_more_depth c [] _ v ks n (n + (2 * tree.size + 1 + 4)) (by omega) hne
  rw [h] at hup
  have hr : RestrictionsAllow c [] 1 [] (fun _ _ => True) := ⟨fun x m h => (by simp [Dict.get?] at h), Nat.le_refl _, fun _ _ _ => trivial⟩
  rcases C59_match_is_instance (anonymous := anonymous) hn hr g hg.list tree ht false v hv (n + (2 * tree.size + 1 + 4)) (by omega) ks with
    h1 | ⟨mi', occ, h1, h2, h3, _, h4⟩
  · rw [hup] at h1; cases h1
  · rw [hup] at h1; cases h1
    exact ⟨occ, h2, h3, h4⟩

/-- Whatever the kind of the template. -/
theorem template_read {g : Grammar} (hg : HasModules g) (kind : TemplateKind) {anonymous : List Str} {variables : List (Label × Str)}
    (hn : (variables.map Prod.snd).Nodup) {tree : Val} (ht : Parsed g false tree) {c : Ctx} {n : Nat} {v : Val} (hv : Parsed g false v)
    {ks ks' : List Key} {mi : MatchInfo}
    (h : run c n [] (kind.matcher (patternMatcher (submatchers anonymous variables []) tree)) v ks = .ok (some mi, ks')) :
    ∃ w occ, Read c g kind (metaNames anonymous variables) tree v mi w occ := by
  cases kind with
  | module =>
    obtain ⟨occ, h1, h2, h3⟩ := pattern_read hg hn ht hv h
    exact ⟨v, occ, rfl, hv, h1, h2, h3⟩
  | stmt =>
    obtain ⟨i, j, items, ti, mi1, ks1, rfl, hi, h, e1⟩ := moduleWith_inv hg hv h
    obtain ⟨w, ks2, mi2, rfl, h, e2⟩ := itemsAre_one_inv h
    obtain ⟨occ, h1, h2, h3⟩ := pattern_read hg hn ht (hi w (by simp)) h
    exact ⟨w, occ, ⟨j, rfl, rfl⟩, hi w (by simp), h1, h2, fun x => by rw [e1, e2, h3]⟩
  | expr =>
    obtain ⟨i, j, items, ti, mi1, ks1, rfl, hi, h, e1⟩ := moduleWith_inv hg hv h
    obtain ⟨s, ks2, mi2, rfl, h, e2⟩ := itemsAre_one_inv h
    obtain ⟨k, w, mi3, ks3, rfl, hw, h, e3⟩ := exprStmt_inv hg (hi s (by simp)) h
    obtain ⟨occ, h1, h2, h3⟩ := pattern_read hg hn ht hw h
    exact ⟨w, occ, ⟨j, _, rfl, rfl, rfl, rfl⟩, hw, h1, h2, fun x => by rw [e1, e2, e3, h3]⟩

/-- The part moves along with the same tree. -/
theorem part_moved {g : Grammar} (hg : HasModules g) (kind : TemplateKind) {v v' w : Val} (hv : Parsed g false v) (hs : SameTree v v')
    (hp : kind.Part v w) : ∃ w', kind.Part v' w' ∧ SameTree w w' := by
  have body : v.ty = str "Module" → ∃ i i' b b' ti ti', v = .node i (str "Module") [str "body", str "type_ignores"] [b, ti] ∧
      v' = .node i' (str "Module") [str "body", str "type_ignores"] [b', ti'] ∧ SameTree b b' := by
    intro hty
    obtain ⟨i, vs, rfl, hlen, _⟩ := parsed_same hg.list hv hg.module hty
    rw [hg.moduleFields] at hlen
    match vs, hlen with
    | [b, ti], _ =>
      cases hs with
      | @node _ j _ _ _ vs' hl h =>
        match vs', hl with
        | [b', ti'], _ =>
          refine ⟨i, j, b, b', ti, ti', by rw [hg.moduleFields]; rfl, by rw [hg.moduleFields]; rfl, ?_⟩
          exact h 0 (str "body") b b' (by rw [hg.moduleFields]; rfl) rfl rfl (by decide)
  cases kind with
  | module => cases hp; exact ⟨v', rfl, hs⟩
  | stmt =>
    obtain ⟨j, hty, hb⟩ := hp
    obtain ⟨i, i', b, b', ti, ti', rfl, rfl, hbb⟩ := body hty
    rw [getAttr_module] at hb; subst hb
    cases hbb with
    | @list _ j' _ ws hl h =>
      match ws, hl with
      | [w'], _ => exact ⟨w', ⟨j', rfl, rfl⟩, h 0 w w' rfl rfl⟩
  | expr =>
    obtain ⟨j, s, hty, hb, hst, hsv⟩ := hp
    obtain ⟨i, i', b, b', ti, ti', rfl, rfl, hbb⟩ := body hty
    rw [getAttr_module] at hb; subst hb
    have hps : Parsed g false s := by
      cases hv with
      | node _ _ _ _ h5 =>
        have : Parsed g true (.list j [s]) := h5 0 (str "body", true) _ (by rw [hg.moduleFields]; rfl) rfl
        cases this with
        | list h => exact h s (by simp)
    cases hbb with
    | @list _ j' _ ws hl h =>
      match ws, hl with
      | [s'], _ =>
        have hss : SameTree s s' := h 0 s s' rfl rfl
        obtain ⟨k, vs, rfl, hlen, _⟩ := parsed_same hg.list hps hg.expr hst
        rw [hg.exprFields] at hlen
        match vs, hlen with
        | [w0], _ =>
          have hw : w0 = w := by rw [← hsv, hg.exprFields]; rfl
          subst hw
          cases hss with
          | @node _ k' _ _ _ vs' hl' h' =>
            match vs', hl' with
            | [w'], _ =>
              refine ⟨w', ⟨j', _, rfl, rfl, rfl, by rw [hg.exprFields]; rfl⟩, ?_⟩
              exact h' 0 (str "value") w0 w' (by rw [hg.exprFields]; rfl) rfl rfl (by decide)

/-! ### The checks and the loop -/

theorem checkBindings_ok {n : Nat} {c : Ctx} {matchers : Dict Label Matcher} {bs : Bindings} (h : checkBindings n c matchers bs = .ok ()) :
    ∀ k b, (k, b) ∈ bs → ∃ m w mi ks, matchers.get? k = some m ∧ b.value.matched? = some w ∧ run c n [] m w [] = .ok (some mi, ks) := by
  induction bs with
  | nil => intro k b h; simp at h
  | cons e bs ih =>
    obtain ⟨k', b'⟩ := e
    rw [checkBindings] at h
    split at h
    · cases h
    · rename_i m hm
      split at h
      · cases h
      · rename_i w hw
        split at h
        · cases h
        · cases h
        · rename_i mi ks hr
          intro k b hk
          rcases List.mem_cons.1 hk with hk | hk
          · cases hk; exact ⟨m, w, mi, ks, hm, hw, hr⟩
          · exact ih h k b hk

theorem wf_set {κ α : Type} [DecidableEq κ] {d : Dict κ α} (h : d.WF) (k : κ) (v : α) : (d.set k v).WF := by
  induction d with
  | nil => simp [Dict.set, Dict.WF, Dict.keys]
  | cons e d ih =>
    have h := List.nodup_cons.1 h
    simp only [Dict.set]
    split
    · exact List.nodup_cons.2 h
    · rename_i hk
      refine List.nodup_cons.2 ⟨fun hm => ?_, ih h.2⟩
      obtain ⟨w, hw⟩ := Dict.mem_keys_iff.1 hm
      rw [Dict.get?_set, if_neg hk] at hw
      exact h.1 (Dict.mem_keys_iff.2 ⟨w, hw⟩)

theorem Dict.get?_mem {κ α : Type} [DecidableEq κ] {d : Dict κ α} {k : κ} {v : α} (h : d.get? k = some v) : (k, v) ∈ (d : List (κ × α)) := by
  induction d with
  | nil => simp [Dict.get?] at h
  | cons e d ih =>
    obtain ⟨k', v'⟩ := e
    simp only [Dict.get?] at h
    split at h
    · rename_i hk; cases h; subst hk; simp
    · exact List.mem_cons_of_mem _ (ih h)

/-- The text stands for the canonical one. -/
structure FitsCanonical (n : Nat) (parse : Str → Option Ctx) (t : PyTemplate) (canonical : Ctx) (text : Str) (map : Dict Label Str) : Prop where
  fill : t.fill map = .ok text
  same : ∃ c, parse text = some c ∧ (c = canonical ∨ ∃ mi ks, run c n [] (exactMatcher canonical.tree) c.tree [] = .ok (some mi, ks))

theorem dropParens_fits {n : Nat} {parse : Str → Option Ctx} {t : PyTemplate} {canonical : Ctx} {matchers : Dict Label Matcher} {strings : Dict Label Str}
    (rest : List (Label × Str)) (hrest : ∀ k raw, (k, raw) ∈ rest → strings.get? k = some raw ∧ matchers.has k = true) :
    ∀ (text : Str) (safe : Dict Label Str), FitsCanonical n parse t canonical text safe → Chosen matchers strings safe → safe.WF →
    ∀ s map, t.dropParens n parse (exactMatcher canonical.tree) rest text safe = .ok (s, map) →
      FitsCanonical n parse t canonical s map ∧ Chosen matchers strings map ∧ map.WF := by
  induction rest with
  | nil => intro text safe h h' hw s map e; cases e; exact ⟨h, h', hw⟩
  | cons e rest ih =>
    obtain ⟨k, raw⟩ := e
    have ih := ih (fun k' raw' h => hrest k' raw' (by simp [h]))
    intro text safe h h' hw s map he
    rw [PyTemplate.dropParens] at he
    split at he
    · cases he
    · rename_i alt halt
      split at he
      · exact ih text safe h h' hw s map he
      · rename_i c hc
        split at he
        · cases he
        · exact ih text safe h h' hw s map he
        · rename_i mi ks hr
          refine ih alt (safe.set k raw) ⟨halt, c, hc, .inr ⟨mi, ks, hr⟩⟩ ?_ (wf_set hw k raw) s map he
          intro x
          have hx := h' x
          obtain ⟨hk, hm⟩ := hrest k raw (by simp)
          by_cases e : x = k
          · subst e; rw [hk]; exact .inl (by rw [Dict.get?_set, if_pos rfl])
          · rw [Dict.get?_set, if_neg e]; exact hx

theorem chosen_safe (matchers : Dict Label Matcher) (strings : Dict Label Str) : Chosen matchers strings (safeMapping matchers strings) := by
  intro x
  have e : (safeMapping matchers strings).get? x = (strings.get? x).map (fun s => if matchers.has x then inParens s else s) :=
    Dict.get?_map_val strings (fun k s => if matchers.has k then inParens s else s) x
  rw [e]
  cases strings.get? x with
  | none => rfl
  | some s =>
    simp only [Option.map_some]
    cases hm : matchers.has x with
    | true => exact .inr ⟨rfl, by rw [if_pos rfl]⟩
    | false => exact .inl (by simp)

theorem wf_safe {matchers : Dict Label Matcher} {strings : Dict Label Str} (h : strings.WF) : (safeMapping matchers strings).WF := by
  unfold Dict.WF Dict.keys safeMapping at *
  rw [List.map_map]; exact h

/-- The template is of this kind, and its matcher is made from this tree with these metavariables. -/
structure TemplateOf (g : Grammar) (t : PyTemplate) (kind : TemplateKind) (anonymous : List Str) (variables : List (Label × Str)) (tree : Val) : Prop where
  matcher : t.astMatcher = kind.matcher (patternMatcher (submatchers anonymous variables []) tree)
  names : (variables.map Prod.snd).Nodup
  parsed : Parsed g false tree

/-- The file `c` is the template's tree with `occ` for the variables, and what (last) stands for a variable is the tree that
was to stand for it. -/
structure Substituted (g : Grammar) (kind : TemplateKind) (anonymous : List Str) (variables : List (Label × Str)) (tree : Val)
    (matchers : Dict Label Matcher) (c : Ctx) (occ : Occs) : Prop where
  inst : kind.Instance (metaNames anonymous variables) tree c.tree occ
  known : ∀ x w, (occ.of x).getLast? = some w → matchers.has x = true
  right : ∀ x w e, (occ.of x).getLast? = some w → matchers.get? x = some (exactMatcher e) → Parsed g false e → SameTree e w

section C53
variable {g : Grammar} (hg : HasModules g) {n : Nat} {parse : Str → Option Ctx} (hparse : ∀ s c, parse s = some c → Parsed g false c.tree)
  {t : PyTemplate} {kind : TemplateKind} {anonymous : List Str} {variables : List (Label × Str)} {tree : Val}
  (ht : TemplateOf g t kind anonymous variables tree) {matchers : Dict Label Matcher} {strings : Dict Label Str}
include hg hparse ht

theorem substituted_canonical {c : Ctx} {s : Str} (hc : parse s = some c) {mi : MatchInfo} {ks : List Key}
    (hr : run c n [] t.astMatcher c.tree [] = .ok (some mi, ks)) (hb : checkBindings n c matchers mi.bindings = .ok ()) :
    ∃ w occ, Read c g kind (metaNames anonymous variables) tree c.tree mi w occ ∧
      Substituted g kind anonymous variables tree matchers c occ := by
  rw [ht.matcher] at hr
  obtain ⟨w, occ, hR⟩ := template_read hg kind ht.names ht.parsed (hparse s c hc) hr
  refine ⟨w, occ, hR, ⟨⟨w, hR.part, hR.inst⟩, fun x v hx => ?_, fun x v e hx hm he => ?_⟩⟩
  · have hbd := hR.bound x
    rw [hx] at hbd
    obtain ⟨m, _, _, _, h1, _⟩ := checkBindings_ok hb x _ (Dict.get?_mem hbd)
    simp [Dict.has, h1]
  · have hbd := hR.bound x
    rw [hx] at hbd
    obtain ⟨m, v', mi', ks', h1, h2, h3⟩ := checkBindings_ok hb x _ (Dict.get?_mem hbd)
    rw [hm] at h1; cases h1
    have hv' : v' = v := by
      have h2 : (createMatch c v).matched? = some v' := h2
      rw [createMatch_matched] at h2
      split at h2
      · cases h2
      · cases h2; rfl
    subst hv'
    obtain ⟨b, hpv⟩ := instance_parsed _ _ _ hR.inst false hR.parsed (x, v') (Occs.mem_of.1 (List.mem_of_getLast? hx))
    have hne : run c n [] (exactMatcher e) v' [] ≠ .error .recursionError := by rw [h3]; intro e; cases e
    have hup := C62_more_depth c [] (exactMatcher e) v' [] n (n + (2 * e.size + 2)) (by omega) hne
    rcases C47_literal c [] g hg.list e he b v' hpv (n + (2 * e.size + 2)) (by omega) [] with ⟨h, _⟩ | ⟨_, h⟩
    · exact h
    · rw [hup, h3] at h; cases h

/-- **C53**: if a substitution returns a text, the text is the template filled with the strings (some of them in
parentheses), it parses, and its tree is the template's tree with, for every variable, the tree that was matched (for
a variable that occurs more than once, its last occurrence; the others are `ast_equivalent` to one another before
parentheses are dropped). -/
theorem C53_structure (hw : strings.WF) {s : Str} {map : Dict Label Str} (h : t.parenthesized n parse matchers strings = .ok (s, map)) :
    t.fill map = .ok s ∧ Chosen matchers strings map ∧
    ∃ c occ, parse s = some c ∧ Substituted g kind anonymous variables tree matchers c occ ∧
      ∃ occ0, SameOccs occ0 occ ∧ ∀ x, Linked (occ0.of x) := by
  unfold PyTemplate.parenthesized at h
  split at h
  · cases h
  · rename_i canonical hcan
    split at h
    · cases h
    · rename_i c hc
      split at h
      · cases h
      · cases h
      · rename_i mi ks hr
        split at h
        · cases h
        · rename_i hb
          obtain ⟨w, occ, hR, hS⟩ := substituted_canonical hg hparse ht hc hr hb
          have hrest : ∀ k raw, (k, raw) ∈ unparenthesized matchers strings → strings.get? k = some raw ∧ matchers.has k = true := by
            intro k raw hk
            obtain ⟨h1, h2⟩ := List.mem_filter.1 hk
            exact ⟨Dict.get?_of_mem hw h1, h2⟩
          obtain ⟨⟨hf, c', hc', hsame⟩, hch, _⟩ := dropParens_fits (canonical := c) _ hrest canonical _
            ⟨hcan, c, hc, .inl rfl⟩ (chosen_safe matchers strings) (wf_safe hw) s map h
          refine ⟨hf, hch, c', ?_⟩
          have hst : SameTree c.tree c'.tree := by
            rcases hsame with rfl | ⟨mi', ks', hr'⟩
            · exact SameTree.refl _
            · have hne : run c' n [] (exactMatcher c.tree) c'.tree [] ≠ .error .recursionError := by rw [hr']; intro e; cases e
              have hup := C62_more_depth c' [] (exactMatcher c.tree) c'.tree [] n (n + (2 * c.tree.size + 2)) (by omega) hne
              rcases C47_literal c' [] g hg.list c.tree (hparse _ _ hc) false c'.tree (hparse _ _ hc') (n + (2 * c.tree.size + 2))
                (by omega) [] with ⟨h, _⟩ | ⟨_, h⟩
              · exact h
              · rw [hup, hr'] at h; cases h
          obtain ⟨w', hp', hww⟩ := part_moved hg kind (hparse _ _ hc) hst hR.part
          obtain ⟨occ', hi', ho'⟩ := instance_moved (al' := fun _ _ => True) (fun _ _ _ _ _ => trivial) tree w w' occ hR.inst hww
          refine ⟨occ', hc', ⟨⟨w', hp', hi'⟩, fun x v hx => ?_, fun x v e hx hm he => ?_⟩, occ, ho', hR.linked⟩
          · obtain ⟨v0, hv0, _⟩ := (sameOccs_of ho' x).getLast? hx
            exact hS.known x v0 hv0
          · obtain ⟨v0, hv0, hvv⟩ := (sameOccs_of ho' x).getLast? hx
            exact (hS.right x v0 e hv0 hm he).trans hvv

omit hg hparse ht in
/-- **C53**: a text that does not parse, even with everything in parentheses, is refused with RewriteError. -/
theorem C53_refuses_unparsable {s0 : Str} (hf : t.fill (safeMapping matchers strings) = .ok s0) (hp : parse s0 = none) :
    t.parenthesized n parse matchers strings = .error .rewriteError := by
  simp [PyTemplate.parenthesized, hf, hp]

/-- **C53**: if the text with everything in parentheses is not the template's tree with the right trees in the places of
the variables, nothing is returned. -/
theorem C53_refuses_other {s0 : Str} {c0 : Ctx} (hf : t.fill (safeMapping matchers strings) = .ok s0) (hp : parse s0 = some c0)
    (hno : ∀ occ, ¬ Substituted g kind anonymous variables tree matchers c0 occ) :
    ∃ e, t.parenthesized n parse matchers strings = .error e := by
  unfold PyTemplate.parenthesized
  simp only [hf, hp]
  split
  · exact ⟨_, rfl⟩
  · exact ⟨_, rfl⟩
  · rename_i mi ks hr
    split
    · exact ⟨_, rfl⟩
    · rename_i hb
      obtain ⟨_, occ, _, hS⟩ := substituted_canonical hg hparse ht hp hr hb
      exact absurd hS (hno occ)

omit ht in
/-- **C53**: conversely, given enough recursion depth, a module template is filled if the text with everything in
parentheses is an instance of it, with alike trees for the occurrences of a variable, and the right tree (or anything, if
it was not an expression) for every variable. -/
theorem C53_accepts (ht : TemplateOf g t .module anonymous variables tree) (hw : strings.WF) (hr : ∀ i ∈ t.metas, i < t.toks.length)
    (ho : ∀ i ∈ t.metas, ∀ u, t.toks[i]? = some u → u.kind = .other) (he : t.template ≠ [])
    {s0 : Str} {c0 : Ctx} (hf : t.fill (safeMapping matchers strings) = .ok s0) (hp : parse s0 = some c0) {occ : Occs}
    (hi : Instance (holeAt (metaNames anonymous variables)) (fun _ _ => True) tree c0.tree occ) (ha : ∀ x, AllAlike (occ.of x))
    (hv : ∀ x w, (occ.of x).getLast? = some w → (∀ i s, w ≠ .const i (.str s)) ∧
      (matchers.get? x = some .anything ∨ ∃ e, matchers.get? x = some (exactMatcher e) ∧ Parsed g false e ∧ 2 * e.size + 2 ≤ n ∧ SameTree e w))
    (hd : 2 * tree.size + 5 ≤ n) (hd0 : 2 * c0.tree.size + 2 ≤ n) :
    ∃ s map, t.parenthesized n parse matchers strings = .ok (s, map) := by
  have hra : RestrictionsAllow c0 [] 1 [] (fun _ _ => True) := ⟨fun x m h => (by simp [Dict.get?] at h), Nat.le_refl _, fun _ _ _ => trivial⟩
  obtain ⟨r, h1, h2, h3⟩ := pattern_outcome (anonymous := anonymous) ht.names hra g hg.list tree ht.parsed false c0.tree (hparse _ _ hp) n (by omega) []
  cases r with
  | none => exact absurd ha (h3 rfl occ hi)
  | some mi =>
    obtain ⟨_, hwf, occ', hi', _, hbd⟩ := h2 mi rfl
    obtain rfl := instance_det tree c0.tree _ _ hi hi'
    have hb : ∀ (bs : Bindings), (∀ k b, (k, b) ∈ bs → mi.bindings.get? k = some b) → checkBindings n c0 matchers bs = .ok () := by
      intro bs
      induction bs with
      | nil => intro _; rfl
      | cons e bs ih =>
        obtain ⟨k, b⟩ := e
        intro hbs
        have hk := hbs k b (by simp)
        rw [hbd k] at hk
        cases hl : (occ.of k).getLast? with
        | none => rw [hl] at hk; cases hk
        | some w =>
          rw [hl] at hk; cases hk
          obtain ⟨hns, hm⟩ := hv k w hl
          have hmat : (createMatch c0 w).matched? = some w := by
            rw [createMatch_matched]
            split
            · exact absurd rfl (hns _ _)
            · rfl
          rw [checkBindings]
          rcases hm with hm | ⟨e, hm, hpe, hde, hs⟩
          · simp only [hm, hmat]
            obtain ⟨m, rfl⟩ : ∃ m, n = m + 1 := ⟨n - 1, by omega⟩
            exact ih fun k b h => hbs k b (by simp [h])
          · simp only [hm, hmat]
            obtain ⟨b', hpv⟩ := instance_parsed _ _ _ hi false (hparse _ _ hp) (k, w) (Occs.mem_of.1 (List.mem_of_getLast? hl))
            rcases C47_literal c0 [] g hg.list e hpe b' w hpv n hde [] with ⟨_, mi', h, _⟩ | ⟨h, _⟩
            · rw [h]; exact ih fun k b h => hbs k b (by simp [h])
            · exact absurd hs h
    have hloop : ∀ (rest : List (Label × Str)), (∀ k raw, (k, raw) ∈ rest → strings.has k = true) → ∀ (text : Str) (safe : Dict Label Str),
        safe.WF → (∀ x, safe.has x = strings.has x) → ∃ s map, t.dropParens n parse (exactMatcher c0.tree) rest text safe = .ok (s, map) := by
      have hfill : ∀ safe : Dict Label Str, safe.WF → (∀ x, safe.has x = strings.has x) → ∃ s, t.fill safe = .ok s := by
        intro safe hws hks
        have h1 := C53_slots t hr ho he safe hws
        have h2 := C53_slots t hr ho he (safeMapping matchers strings) (wf_safe hw)
        rw [hf] at h2
        obtain ⟨us, hus, hut, hlay⟩ := h2
        cases hfs : t.fill safe with
        | ok s => exact ⟨s, rfl⟩
        | error e =>
          rw [hfs] at h1
          exfalso
          rcases h1 with ⟨_, i, hi, x, hx, hn⟩ | ⟨_, hn⟩
          · obtain ⟨u, hu, rfl⟩ := hx
            obtain ⟨s, hs, _⟩ := hus.2.2 i hi u hu
            have hc := chosen_safe matchers strings u.string
            have hh := hks u.string
            cases hst : strings.get? u.string with
            | none => rw [hst] at hc; rw [hc] at hs; cases hs
            | some _ => simp [Dict.has, hn, hst] at hh
          · unfold untokenize at hn hut
            rw [Option.map_eq_none_iff] at hn
            rw [hn] at hlay
            cases hq : untokPieces {} us with
            | none => rw [hq] at hut; cases hut
            | some ps => rw [hq] at hlay; cases hlay
      intro rest
      induction rest with
      | nil => intro _ text safe _ _; exact ⟨text, safe, rfl⟩
      | cons e rest ih =>
        obtain ⟨k, raw⟩ := e
        intro hrest text safe hws hks
        have ih := ih (fun k raw h => hrest k raw (by simp [h]))
        have hks' : ∀ x, (safe.set k raw).has x = strings.has x := by
          intro x
          unfold Dict.has
          rw [Dict.get?_set]
          by_cases hx : x = k
          · subst hx
            have := hrest x raw (by simp)
            rw [if_pos rfl]
            exact this.symm
          · rw [if_neg hx]; exact hks x
        obtain ⟨alt, halt⟩ := hfill _ (wf_set hws k raw) hks'
        rw [PyTemplate.dropParens]
        simp only [halt]
        cases hpa : parse alt with
        | none => exact ih text safe hws hks
        | some c =>
          rcases C47_literal c [] g hg.list c0.tree (hparse _ _ hp) false c.tree (hparse _ _ hpa) n hd0 [] with ⟨_, mi', h, _⟩ | ⟨_, h⟩
          · simp only [h]; exact ih _ _ (wf_set hws k raw) hks'
          · simp only [h]; exact ih text safe hws hks
    unfold PyTemplate.parenthesized
    rw [hf]
    simp only [hp]
    have h1 : run c0 n [] t.astMatcher c0.tree [] = .ok (some mi, []) := by rw [ht.matcher]; exact h1
    simp only [h1]
    rw [hb mi.bindings fun k b h => Dict.get?_of_mem hwf h]
    refine hloop _ ?_ s0 _ (wf_safe hw) ?_
    · intro k raw hk
      have := Dict.get?_of_mem hw (List.mem_filter.1 hk).1
      simp [Dict.has, this]
    · intro x
      have hc := chosen_safe matchers strings x
      unfold Dict.has
      cases hst : strings.get? x with
      | none => rw [hst] at hc; rw [hc]
      | some s =>
        rw [hst] at hc
        rcases hc with hc | ⟨_, hc⟩ <;> rw [hc] <;> rfl

end C53

/-! ### Putting the replacement in its place -/

/-- What is assumed of Python: what is parsed is a module of the grammar, and a `PythonTemplate` that can be made is made
from a tree of the grammar. -/
structure PyEnv.Fits (env : PyEnv) (g : Grammar) : Prop where
  parsed : ∀ s c, env.parse s = some c → Parsed g false c.tree
  module : ∀ s c, env.parse s = some c → c.tree.ty = str "Module"
  template : ∀ s t, env.template s = some t → ∃ anonymous variables tree, TemplateOf g t .module anonymous variables tree

theorem soleExpr_spec {g : Grammar} (hg : HasModules g) {v e : Val} (hv : Parsed g false v) (hm : v.ty = str "Module") (h : soleExpr v = some e) :
    OneExpr v e ∧ Parsed g false e := by
  obtain ⟨i, vs, rfl, hlen, hp⟩ := parsed_same hg.list hv hg.module hm
  rw [hg.moduleFields] at hlen hp
  match vs, hlen with
  | [b, ti], _ =>
    have hb : Parsed g true b := hp 0 _ b rfl rfl
    have eb : (Val.node i (str "Module") ((g.fields (str "Module")).map Prod.fst) [b, ti]).getattr (str "body") = b := by
      rw [hg.moduleFields]; rfl
    unfold soleExpr at h
    rw [eb] at h
    cases hb with
    | @list j items hi =>
      match items with
      | [] => cases h
      | [s] =>
        simp only [Val.children] at h
        by_cases hs : s.ty = str "Expr"
        · rw [if_pos hs] at h
          cases h
          refine ⟨⟨j, s, rfl, eb, hs, rfl⟩, ?_⟩
          obtain ⟨k, ws, rfl, hlen', hp'⟩ := parsed_same hg.list (hi s (by simp)) hg.expr hs
          rw [hg.exprFields] at hlen' hp'
          match ws, hlen' with
          | [w], _ =>
            have : Parsed g false w := hp' 0 _ w rfl rfl
            rw [hg.exprFields]; exact this
        · rw [if_neg hs] at h; cases h
      | _ :: _ :: _ => cases h

/-- The text around the match, in the piece of text that is its parent; in parentheses if that is an expression. -/
inductive Around (env : PyEnv) (text : Str) (parent : Val) : Span → Span → Str → Str → Prop
  | expr {p m : Span} : env.isExpr parent = true →
      Around env text parent p m (str "(" ++ (text.drop p.1).take (m.1 - p.1)) ((text.drop m.2).take (p.2 - m.2) ++ str ")")
  | other {p m : Span} : env.isExpr parent = false → Around env text parent p m ((text.drop p.1).take (m.1 - p.1)) ((text.drop m.2).take (p.2 - m.2))

theorem aroundMatch_spec (env : PyEnv) (c : Ctx) (parent : Val) (p m : Span) :
    Around env c.text parent p m (aroundMatch env c parent p m).1 (aroundMatch env c parent p m).2 := by
  unfold aroundMatch
  simp only
  split
  · rename_i h; exact .expr h
  · rename_i h; exact .other (by simpa using h)

/-- **C53**: where the replacement is put into the text around it, it is put there as it is or in parentheses, and the
piece of text that was looked at then is the tree of that piece with the replacement's expression in the place of the
match. -/
theorem C53_in_parent {g : Grammar} (hg : HasModules g) {n : Nat} {env : PyEnv} (henv : env.Fits g) {c : Ctx} {parent : Val}
    {parentSpan matchSpan : Span} {replacement r : Str}
    (h : inParent n env c parent parentSpan matchSpan replacement = .ok r) :
    (r = replacement ∨ r = inParens replacement) ∧
    ∃ pre post pseudo anonymous variables tree rc e map s c' occ,
      Around env c.text parent parentSpan matchSpan pre post ∧ env.template (pre ++ str "$current_expr" ++ post) = some pseudo ∧
      TemplateOf g pseudo .module anonymous variables tree ∧
      env.parse replacement = some rc ∧ OneExpr rc.tree e ∧
      map.get? (str "current_expr") = some r ∧ pseudo.fill map = .ok s ∧ env.parse s = some c' ∧
      Instance (holeAt (metaNames anonymous variables)) (fun _ _ => True) tree c'.tree occ ∧
      ∀ x w, (occ.of x).getLast? = some w → x = str "current_expr" ∧ SameTree e w := by
  unfold inParent at h
  simp only at h
  split at h
  · cases h
  · rename_i pseudo hps
    split at h
    · cases h
    · rename_i rc hrc
      split at h
      · cases h
      · rename_i e hse
        split at h
        · cases h
        · rename_i s map hpar
          split at h
          · rename_i r' hr'
            cases h
            obtain ⟨an, va, tr, hto⟩ := henv.template _ _ hps
            obtain ⟨ho, hpe⟩ := soleExpr_spec hg (henv.parsed _ _ hrc) (henv.module _ _ hrc) hse
            obtain ⟨hf, hch, c', occ, hc', hS, _⟩ := C53_structure hg henv.parsed hto (by simp [Dict.WF, Dict.keys]) hpar
            obtain ⟨w, hw, hinst⟩ := hS.inst
            have hwe : c'.tree = w := hw
            subst hwe
            refine ⟨?_, _, _, pseudo, an, va, tr, rc, e, map, s, c', occ, aroundMatch_spec env c parent parentSpan matchSpan, hps, hto, hrc, ho, hr', hf, hc', hinst, fun x w hx => ?_⟩
            · have := hch (str "current_expr")
              rw [show Dict.get? [(str "current_expr", replacement)] (str "current_expr") = some replacement from rfl] at this
              simp only [hr'] at this
              rcases this with h | ⟨_, h⟩
              · exact .inl (Option.some.inj h)
              · exact .inr (Option.some.inj h)
            · have hk := hS.known x w hx
              have hxe : x = str "current_expr" := by
                apply Classical.byContradiction
                intro hne
                simp [Dict.has, Dict.get?, Ne.symm hne] at hk
              subst hxe
              exact ⟨rfl, hS.right _ w e hx rfl hpe⟩
          · cases h

/-- **C53**: the whole substitution: what is returned is what `C53_structure` is about, as it is or in parentheses; it is
returned as it is, unless the match is an expression of a parsed file that is not a statement of its own or directly in a
statement with a body; then it was checked in its parent (`C53_in_parent`) or no such parent comes before a statement with a body. -/
theorem C53_substitute {n : Nat} {env : PyEnv} {t : PyTemplate} {parsed : Option Ctx} {m : MObj} {ms : Dict Label PyMatch} {r : Str}
    (h : t.substituteMatch n env parsed m ms = .ok r) :
    ∃ replacement map, t.parenthesized n env.parse (matchersFor env.isExpr ms) (stringified ms) = .ok (replacement, map) ∧
    (r = replacement ∨
     ∃ c w sp q parent parentSpan, parsed = some c ∧ m = .lexical w sp ∧ env.isExpr w = true ∧ getParent c.tree w = some q ∧
      q.ty ≠ str "Expr" ∧ (env.isStmt q && hasBody q) = false ∧
      reparseParent env c (c.tree.size + 1) q = .ok (some (parent, parentSpan)) ∧
      inParent n env c parent parentSpan sp replacement = .ok r) := by
  unfold PyTemplate.substituteMatch at h
  split at h
  · cases h
  · rename_i replacement map hpar
    refine ⟨replacement, map, hpar, ?_⟩
    split at h
    · rename_i c w sp
      split at h
      · rename_i hw
        split at h
        · cases h
        · rename_i q hq
          split at h
          · cases h; exact .inl rfl
          · rename_i hne
            split at h
            · cases h; exact .inl rfl
            · rename_i hb
              split at h
              · cases h
              · cases h; exact .inl rfl
              · rename_i parent parentSpan hre
                exact .inr ⟨c, w, sp, q, parent, parentSpan, rfl, rfl, hw, hq, hne, by simpa using hb, hre, h⟩
      · cases h; exact .inl rfl
    · cases h; exact .inl rfl

/-- **C53**: an expression directly in a statement with a body is replaced by whatever the template makes,
unchecked (an `if` condition by `T1, T2`, which then does not parse). -/
theorem C53_statement_verbatim {n : Nat} {env : PyEnv} {t : PyTemplate} {c : Ctx} {w parent : Val} {sp : Span} {ms : Dict Label PyMatch}
    {replacement : Str} {map : Dict Label Str} (hp : getParent c.tree w = some parent) (hs : (env.isStmt parent && hasBody parent) = true)
    (ht : t.parenthesized n env.parse (matchersFor env.isExpr ms) (stringified ms) = .ok (replacement, map)) :
    t.substituteMatch n env (some c) (.lexical w sp) ms = .ok replacement := by
  unfold PyTemplate.substituteMatch
  simp only [ht, hp]
  split
  · split
    · rfl
    · rfl
  · rfl

theorem stringified_get {ms : Dict Label PyMatch} (hw : ms.WF) (x : Label) : (stringified ms).get? x = (ms.get? x).bind (·.string) := by
  unfold stringified
  induction ms with
  | nil => rfl
  | cons e ms ih =>
    obtain ⟨l, pm⟩ := e
    simp only [Dict.WF, Dict.keys, List.map_cons, List.nodup_cons] at hw
    have ih := ih hw.2
    by_cases hl : l = x
    · subst hl
      cases hs : pm.string with
      | some s => simp [Dict.get?, hs]
      | none =>
        simp only [List.filterMap_cons, hs, Option.map_none, Dict.get?, if_true, Option.bind_some]
        rw [ih]
        cases hg : Dict.get? ms l with
        | none => rfl
        | some y => exact absurd (List.mem_map.2 ⟨_, Dict.get?_mem hg, rfl⟩) hw.1
    · cases hs : pm.string with
      | some s => simp [Dict.get?, hs, hl, ih]
      | none => simp [Dict.get?, hs, hl, ih]

theorem stringified_wf {ms : Dict Label PyMatch} (hw : ms.WF) : (stringified ms).WF := by
  unfold stringified
  induction ms with
  | nil => exact hw
  | cons e ms ih =>
    obtain ⟨l, pm⟩ := e
    simp only [Dict.WF, Dict.keys, List.map_cons, List.nodup_cons] at hw
    have ih := ih hw.2
    cases hs : pm.string with
    | none => simpa [hs] using ih
    | some s =>
      simp only [List.filterMap_cons, hs, Option.map_some]
      simp only [Dict.WF, Dict.keys, List.map_cons, List.nodup_cons]
      refine ⟨fun h => hw.1 ?_, ih⟩
      obtain ⟨y, hy, rfl⟩ := List.mem_map.1 h
      obtain ⟨z, hz, hzy⟩ := List.mem_filterMap.1 hy
      cases hzs : z.2.string with
      | none => rw [hzs] at hzy; cases hzy
      | some s' => rw [hzs] at hzy; cases hzy; exact List.mem_map.2 ⟨z, hz, rfl⟩

/-- **C53**, from end to end: if a substitution returns a text, it is the template filled with the strings of the matches, some of
them in parentheses, perhaps in parentheses itself; filled, it parses, and its tree is that of the template in which (at its
last occurrence) each variable is replaced by a tree equal to the expression that was matched. -/
theorem C53_substitute_structure {g : Grammar} (hg : HasModules g) {n : Nat} {env : PyEnv} (henv : env.Fits g) {t : PyTemplate}
    {kind : TemplateKind} {anonymous : List Str} {variables : List (Label × Str)} {tree : Val}
    (ht : TemplateOf g t kind anonymous variables tree) {parsed : Option Ctx} {m : MObj} {ms : Dict Label PyMatch} (hw : ms.WF) {r : Str}
    (h : t.substituteMatch n env parsed m ms = .ok r) :
    ∃ replacement map c occ, (r = replacement ∨ r = str "(" ++ replacement ++ str ")") ∧ t.fill map = .ok replacement ∧
      (∀ x s, map.get? x = some s → ∃ pm s', ms.get? x = some pm ∧ pm.string = some s' ∧ (s = s' ∨ s = str "(" ++ s' ++ str ")")) ∧
      env.parse replacement = some c ∧ kind.Instance (metaNames anonymous variables) tree c.tree occ ∧
      ∀ x w, (occ.of x).getLast? = some w → ∃ pm, ms.get? x = some pm ∧
        ∀ e sp, pm.obj = .lexical e sp → env.isExpr e = true → Parsed g false e → SameTree e w := by
  obtain ⟨replacement, map, hpar, hr⟩ := C53_substitute h
  obtain ⟨hf, hch, c, occ, hc, hS, _⟩ := C53_structure hg henv.parsed ht (stringified_wf hw) hpar
  refine ⟨replacement, map, c, occ, ?_, hf, fun x s hx => ?_, hc, hS.inst, fun x w hx => ?_⟩
  · rcases hr with h | ⟨c', w, sp, q, parent, ps, _, _, _, _, _, _, _, h⟩
    · exact .inl h
    · exact (C53_in_parent hg henv h).1
  · have := hch x
    rw [stringified_get hw] at this
    cases hm : ms.get? x with
    | none => rw [hm] at this; simp only [Option.bind_none] at this; rw [this] at hx; cases hx
    | some pm =>
      rw [hm] at this
      simp only [Option.bind_some] at this
      cases hs : pm.string with
      | none => rw [hs] at this; simp only at this; rw [this] at hx; cases hx
      | some s' =>
        rw [hs] at this
        simp only at this
        refine ⟨pm, s', rfl, hs, ?_⟩
        rcases this with h | ⟨_, h⟩ <;> rw [h] at hx
        · exact .inl (Option.some.inj hx).symm
        · exact .inr (Option.some.inj hx).symm
  · have hk := hS.known x w hx
    obtain ⟨mm, hmm⟩ := Dict.has_iff.1 hk
    have hget := Dict.get?_map_val ms (fun _ (pm : PyMatch) => match pm.obj with
      | .lexical w _ => if env.isExpr w then exactMatcher w else .anything
      | _ => .anything) x
    have hget : (matchersFor env.isExpr ms).get? x = _ := hget
    cases hm : ms.get? x with
    | none => rw [hget, hm] at hmm; cases hmm
    | some pm =>
      refine ⟨pm, rfl, fun e sp ho he hp => ?_⟩
      refine hS.right x w e hx ?_ hp
      rw [hget, hm]
      simp only [Option.map_some, ho, he, if_true]

end Refex
