import Verif.Spec.FixTexts
import Verif.Props.FixModeMain
/- C101: the patterns of the built-in fixers are made of their texts. -/
namespace Refex
set_option autoImplicit false

/-! ### Trees that read alike -/

theorem astPatterns_alike {d d' : Dict Str Matcher} : ∀ {vs ws : List Val}, vs.length = ws.length →
    (∀ (k : Nat) v w, vs[k]? = some v → ws[k]? = some w → astPattern d v = astPattern d' w) → astPatterns d vs = astPatterns d' ws
  | [], [], _, _ => rfl
  | v :: vs, w :: ws, hl, h => by
    rw [astPatterns, astPatterns, h 0 v w rfl rfl, astPatterns_alike (by simpa using hl) fun k v w hv hw => h (k + 1) v w (by simpa using hv) (by simpa using hw)]
  | [], _ :: _, hl, _ => by simp at hl
  | _ :: _, [], hl, _ => by simp at hl

theorem fieldPatterns_alike {d d' : Dict Str Matcher} {b : Bool} : ∀ {ns : List Str} {vs ws : List Val}, vs.length = ws.length →
    (∀ (k : Nat) v w, vs[k]? = some v → ws[k]? = some w → ¬ (b = true ∧ ns[k]? = some (str "ctx")) → astPattern d v = astPattern d' w) →
    fieldPatterns d b ns vs = fieldPatterns d' b ns ws
  | [], _, _, _, _ => by simp [fieldPatterns]
  | n :: ns, [], [], _, _ => by simp [fieldPatterns]
  | n :: ns, v :: vs, w :: ws, hl, h => by
    rw [fieldPatterns, fieldPatterns, fieldPatterns_alike (by simpa using hl) fun k v w hv hw hc =>
      h (k + 1) v w (by simpa using hv) (by simpa using hw) (by simpa using hc)]
    by_cases hc : n = str "ctx" ∧ b = true
    · rw [if_pos hc, if_pos hc]
    · rw [if_neg hc, if_neg hc, h 0 v w rfl rfl (fun e => hc ⟨by simpa using e.2, e.1⟩)]
  | _ :: _, [], _ :: _, hl, _ => by simp at hl
  | _ :: _, _ :: _, [], hl, _ => by simp at hl

theorem lookup_alike {P : Val → Val → Prop} {f : Str} : ∀ {ns : List Str} {vs ws : List Val}, vs.length = ws.length →
    (∀ (k : Nat) v w, vs[k]? = some v → ws[k]? = some w → ns[k]? = some f → P v w) →
    (Val.lookup ns vs f = none ∧ Val.lookup ns ws f = none) ∨ ∃ v w, Val.lookup ns vs f = some v ∧ Val.lookup ns ws f = some w ∧ P v w
  | [], _, _, _, _ => by simp [Val.lookup]
  | n :: ns, [], [], _, _ => by simp [Val.lookup]
  | n :: ns, v :: vs, w :: ws, hl, h => by
    rw [Val.lookup, Val.lookup]
    by_cases hn : n = f
    · rw [if_pos hn, if_pos hn]; exact .inr ⟨v, w, rfl, rfl, h 0 v w rfl rfl (by simp [hn])⟩
    · rw [if_neg hn, if_neg hn]
      exact lookup_alike (by simpa using hl) fun k v w hv hw hc => h (k + 1) v w (by simpa using hv) (by simpa using hw) (by simpa using hc)
  | _ :: _, [], _ :: _, hl, _ => by simp at hl
  | _ :: _, _ :: _, [], hl, _ => by simp at hl

theorem strField_node (i : Nat) (ty : Str) (ns : List Str) (vs : List Val) (f : Str) :
    strField (.node i ty ns vs) f = match Val.lookup ns vs f with
      | some (.const _ (.str s)) => some s
      | _ => none := by
  unfold strField Val.getattr
  simp only
  cases Val.lookup ns vs f with
  | none => rfl
  | some v => simp only [Option.getD_some]; cases v with
    | const i c => cases c <;> rfl
    | _ => rfl

theorem nameId_alike {i j : Nat} {ty : Str} {ns : List Str} {vs ws : List Val} (hl : vs.length = ws.length)
    (h : ∀ (k : Nat) v w, vs[k]? = some v → ws[k]? = some w → ¬ (ty = str "Name" ∧ ns[k]? = some (str "ctx")) → ReadAlike v w) :
    nameId (.node i ty ns vs) = nameId (.node j ty ns ws) := by
  unfold nameId
  show (if ty = str "Name" then _ else none) = if ty = str "Name" then _ else none
  by_cases ht : ty = str "Name"
  · rw [if_pos ht, if_pos ht, strField_node, strField_node]
    rcases lookup_alike (f := str "id") (P := ReadAlike) (ns := ns) hl (fun k v w hv hw hc => h k v w hv hw (fun e => by rw [hc] at e; exact absurd e.2 (by decide))) with
      ⟨e1, e2⟩ | ⟨v, w, e1, e2, hvw⟩
    · rw [e1, e2]
    · rw [e1, e2]; cases hvw with
      | @const i j c => cases c <;> rfl
      | _ => rfl
  · rw [if_neg ht, if_neg ht]

theorem astPattern_alike {d d' : Dict Str Matcher} (hd : ∀ s, d.get? s = d'.get? s) {t t' : Val} (h : ReadAlike t t') : astPattern d t = astPattern d' t' := by
  induction h with
  | const => rfl
  | list hl _ ih => rw [astPattern, astPattern, astPatterns_alike hl ih]
  | @node i j ty ns vs ws hl h ih =>
    rw [astPattern, astPattern, nameId_alike hl h]
    have e : (nameId (.node j ty ns ws)).bind d.get? = (nameId (.node j ty ns ws)).bind d'.get? := by
      cases nameId (.node j ty ns ws) with
      | none => rfl
      | some s => exact hd s
    rw [e]
    cases (nameId (.node j ty ns ws)).bind d'.get? with
    | some m => rfl
    | none =>
      simp only
      rw [fieldPatterns_alike hl fun k v w hv hw hc => ih k v w hv hw (by simpa using hc)]

theorem visitFields_cons (v : Val) (vs : List Val) : visitFields (v :: vs) = visitFields [v] ++ visitFields vs := by
  cases v <;> simp [visitFields]

theorem visitFields_alike : ∀ {vs ws : List Val}, vs.length = ws.length →
    (∀ (k : Nat) v w, vs[k]? = some v → ws[k]? = some w → visitFields [v] = visitFields [w]) → visitFields vs = visitFields ws
  | [], [], _, _ => rfl
  | v :: vs, w :: ws, hl, h => by
    rw [visitFields_cons, visitFields_cons w, h 0 v w rfl rfl, visitFields_alike (vs := vs) (ws := ws) (by simpa using hl) fun k v w hv hw => h (k + 1) v w (by simpa using hv) (by simpa using hw)]
  | [], _ :: _, hl, _ => by simp at hl
  | _ :: _, [], hl, _ => by simp at hl

theorem visitItems_alike : ∀ {vs ws : List Val}, vs.length = ws.length →
    (∀ (k : Nat) v w, vs[k]? = some v → ws[k]? = some w → visitNames v = visitNames w) → visitItems vs = visitItems ws
  | [], [], _, _ => rfl
  | v :: vs, w :: ws, hl, h => by
    rw [visitItems, visitItems, h 0 v w rfl rfl, visitItems_alike (by simpa using hl) fun k v w hv hw => h (k + 1) v w (by simpa using hv) (by simpa using hw)]
  | [], _ :: _, hl, _ => by simp at hl
  | _ :: _, [], hl, _ => by simp at hl

theorem visit_alike {t t' : Val} (h : ReadAlike t t') : visitNames t = visitNames t' ∧ visitFields [t] = visitFields [t'] := by
  induction h with
  | const => simp [visitNames, visitFields]
  | list hl _ ih =>
    refine ⟨rfl, ?_⟩
    simp only [visitFields, visitItems_alike hl fun k v w hv hw => (ih k v w hv hw).1]
  | @node i j ty ns vs ws hl h ih =>
    have e : visitNames (.node i ty ns vs) = visitNames (.node j ty ns ws) := by
      rw [visitNames, visitNames]
      by_cases ht : ty = str "Name"
      · rw [if_pos ht, if_pos ht]
        have := nameId_alike (i := i) (j := j) hl h
        unfold nameId at this
        have this : (if ty = str "Name" then _ else none) = if ty = str "Name" then _ else none := this
        rw [if_pos ht, if_pos ht] at this
        rw [this]
      · rw [if_neg ht, if_neg ht, visitFields_alike hl fun k v w hv hw => (ih k v w hv hw (fun e => ht e.1)).2]
    exact ⟨e, by simp only [visitFields, e]⟩

theorem intended_names_in {kind : PatternKind} {tree t : Val} (hi : Intended kind tree t) {n : Str} (h : NameIn t n) : NameIn tree n := by
  have child : ∀ {v w : Val} {n : Str}, w ∈ v.children → NameIn w n → NameIn v n := by
    rintro v w n hw ⟨p, u, h1, h2⟩
    obtain ⟨k, hk⟩ := List.mem_iff_getElem?.1 hw
    exact ⟨k :: p, u, by rw [at?_cons, hk]; exact h1, h2⟩
  cases hi with
  | module => exact h
  | stmt h1 h2 => exact child h2.mem (child (by simp [Val.children]) h)
  | expr h1 h2 h3 h4 => exact child h2.mem (child (by simp [Val.children]) (child h4.mem h))

/-! ### Code with names for metavariables -/

mutual
theorem named_val (name f : Label → Str) : ∀ p : Code, (p.named name).val f = p.val name
  | .var x => by simp [Code.named, Code.val]
  | .name s => by simp [Code.named, Code.val]
  | .int i => by simp [Code.named, Code.val]
  | .attr e a => by simp [Code.named, Code.val, named_val name f e]
  | .call g as ks => by simp [Code.named, Code.val, named_val name f g, named_vals name f as, named_vals name f ks]
  | .keyword a v => by simp [Code.named, Code.val, named_val name f v]
  | .compare l op r => by simp [Code.named, Code.val, named_val name f l, named_val name f r]
  | .not e => by simp [Code.named, Code.val, named_val name f e]
  | .mod l r => by simp [Code.named, Code.val, named_val name f l, named_val name f r]
  | .tuple1 e => by simp [Code.named, Code.val, named_val name f e]
  | .emptyList => by simp [Code.named, Code.val]
  | .emptyDict => by simp [Code.named, Code.val]
  | .comp set e t i => by simp [Code.named, Code.val, named_val name f e, named_val name f t, named_val name f i]
  | .assign t v => by simp [Code.named, Code.val, named_val name f t, named_val name f v]
  | .expr e => by simp [Code.named, Code.val, named_val name f e]
theorem named_vals (name f : Label → Str) : ∀ ps : List Code, Code.vals f (Code.nameds name ps) = Code.vals name ps
  | [] => rfl
  | p :: ps => by simp [Code.nameds, Code.vals, named_val name f p, named_vals name f ps]
end

theorem gensym_name : gensym [] = gensymName := by
  funext x
  show str "gensym" ++ [] ++ str "_" ++ x = str "gensym_" ++ x
  rw [List.append_nil]
  exact congrArg (· ++ x) (by decide : str "gensym" ++ str "_" = str "gensym_")

/-! ### What is checked of each text -/

/-- The tokens with the metavariables renamed. -/
def namedTokens (out : List PTok) (idx : List Nat) : List PTok := out.mapIdx fun i t => if i ∈ idx then { t with string := gensymName t.string } else t

/-- The metavariable of a token is as it has to be. -/
def metaCheck (p : Code) (out : List PTok) (idx : List Nat) (i : Nat) : Bool :=
  match out[i]? with
  | none => false
  | some t => decide (t.string ≠ str "_") && !((str "__").isPrefixOf t.string) && decide (gensymName t.string ∉ takenTokens out idx) && decide (t.string ∈ p.vars)

/-- The tokens of the text give the text of the code with names for metavariables. -/
def textCheck (p : Code) (keys : List Label) : Bool :=
  match tokenPattern (lineTokens (p.text ++ str "\n")) true with
  | none => false
  | some (out, idx) =>
    addsNewline p.text && decide idx.Nodup && idx.all (metaCheck p out idx) && p.vars.all (fun x => idx.any fun i => decide ((out[i]?).map (·.string) = some x)) &&
      decide (untokenize (namedTokens out idx) = some (p.named gensymName).text) && keys.all (fun k => decide (k ∈ p.vars)) &&
      p.vars.all (fun x => decide (gensymName x ∈ visitNames (p.val gensymName))) && (p.val gensymName).isNode

theorem rules_check : (builtinRules.all fun r => textCheck r.old (r.restrictions.map Prod.fst)) = true := by decide +kernel

theorem others_check : (otherPatterns.all fun e => textCheck e.2.2 [] && decide (e.2.2.text = e.2.1)) = true := by decide +kernel

/-! ### Patterns made of texts -/

theorem namedTokens_get (out : List PTok) (idx : List Nat) (i : Nat) :
    (namedTokens out idx)[i]? = (out[i]?).map fun t => if i ∈ idx then { t with string := gensymName t.string } else t := by
  unfold namedTokens
  rw [List.getElem?_mapIdx]

theorem pattern_of_text {py : Python} (hiter : ∀ l, (py.iter l).Perm l) {kind : PatternKind} {p : Code} (h : ReadsCode py kind p) {restrictions : Dict Label Matcher}
    (hc : textCheck p (restrictions.map Prod.fst) = true) : py.restricted kind p.text restrictions = .ok (p.pattern gensymName restrictions) := by
  unfold textCheck at hc
  cases htp : tokenPattern (lineTokens (p.text ++ str "\n")) true with
  | none => rw [htp] at hc; cases hc
  | some r =>
    obtain ⟨out, idx⟩ := r
    rw [htp] at hc
    simp only [Bool.and_eq_true, decide_eq_true_eq] at hc
    obtain ⟨⟨⟨⟨⟨⟨⟨hnl, hnodup⟩, hmeta⟩, hvars⟩, huntok⟩, hkeys⟩, hnames⟩, hnode⟩ := hc
    have hmeta : ∀ i ∈ idx, ∃ t, out[i]? = some t ∧ t.string ≠ str "_" ∧ (str "__").isPrefixOf t.string = false ∧ gensymName t.string ∉ takenTokens out idx ∧
        t.string ∈ p.vars := by
      intro i hi
      have := List.all_eq_true.1 hmeta i hi
      unfold metaCheck at this
      cases ht : out[i]? with
      | none => rw [ht] at this; cases this
      | some t =>
        rw [ht] at this
        simp only [Bool.and_eq_true, decide_eq_true_eq, Bool.not_eq_true'] at this
        exact ⟨t, rfl, this.1.1.1, this.1.1.2, this.1.2, this.2⟩
    have hvars : ∀ x ∈ p.vars, ∃ i ∈ idx, StringAt out i x := by
      intro x hx
      obtain ⟨i, hi, h⟩ := List.any_eq_true.1 (List.all_eq_true.1 hvars x hx)
      have h := of_decide_eq_true h
      cases ht : out[i]? with
      | none => rw [ht] at h; cases h
      | some t => rw [ht] at h; exact ⟨i, hi, t, ht, Option.some.inj h⟩
    have hperm := hiter idx
    have hmem : ∀ i, i ∈ py.iter idx ↔ i ∈ idx := fun i => hperm.mem_iff
    have hr : ∀ i ∈ py.iter idx, i < out.length := by
      intro i hi
      obtain ⟨t, ht, _⟩ := hmeta i ((hmem i).1 hi)
      exact (List.getElem?_eq_some_iff.1 ht).1
    have hn : (py.iter idx).Nodup := hperm.nodup_iff.2 hnodup
    obtain ⟨st, hst, hren⟩ := renamed_final hr hn
    have hbase : ∀ s, s ∈ takenTokens out (py.iter idx) ↔ s ∈ takenTokens out idx := by
      intro s; rw [mem_takenTokens, mem_takenTokens]; simp only [hmem]
    have hz : ∀ i ∈ idx, ∃ t, out[i]? = some t ∧ t.string ∈ p.vars ∧ t.string ≠ str "_" ∧ (str "__").isPrefixOf t.string = false ∧
        st.toks[i]? = some { t with string := gensymName t.string } ∧ st.variables.get? t.string = some (gensymName t.string) := by
      intro i hi
      obtain ⟨t, ht, h1, h2, h3, h4⟩ := hmeta i hi
      obtain ⟨t', k, k1, k2, k3, k4⟩ := hren.renamed i (by simpa using (hmem i).2 hi)
      rw [ht] at k1; cases k1
      obtain ⟨k5, k6⟩ := k4 h1
      have hk : k = 0 := by
        cases k with
        | zero => rfl
        | succ k =>
          have := k6.2 0 (by omega)
          rw [hbase] at this
          exact absurd (by rw [← gensym_name]; exact this) h3
      subst hk
      have e : gensym (suffixAt 0) t.string = gensymName t.string := congrFun gensym_name _
      rw [e] at k2 k5
      exact ⟨t, ht, h4, h1, h2, k2, k5⟩
    have htoks : st.toks = namedTokens out idx := by
      apply List.ext_getElem?
      intro i
      rw [namedTokens_get]
      by_cases hi : i ∈ idx
      · obtain ⟨t, ht, _, _, _, h, _⟩ := hz i hi
        rw [ht, h]; simp [hi]
      · rw [hren.other i (by simpa [hmem] using hi)]
        cases out[i]? <;> simp [hi]
    have hget : ∀ x s, st.variables.get? x = some s ↔ x ∈ p.vars ∧ s = gensymName x := by
      intro x s
      constructor
      · intro h
        obtain ⟨_, i, hi, ⟨u, hu, hux⟩, _⟩ := hren.variables x s h
        have hi : i ∈ idx := (hmem i).1 (by simpa using hi)
        obtain ⟨t, ht, h1, _, _, _, h2⟩ := hz i hi
        rw [ht] at hu; cases hu
        rw [hux] at h1 h2
        rw [h2] at h
        exact ⟨h1, (Option.some.inj h).symm⟩
      · rintro ⟨hx, rfl⟩
        obtain ⟨i, hi, u, hu, hux⟩ := hvars x hx
        obtain ⟨t, ht, h1, _, _, _, h2⟩ := hz i hi
        rw [ht] at hu; cases hu
        rw [hux] at h2
        exact h2
    have hwf : st.variables.WF := remapVariables_WF hst
    have hmemv : ∀ x s, (x, s) ∈ st.variables ↔ x ∈ p.vars ∧ s = gensymName x := by
      intro x s
      rw [← hget]
      exact ⟨fun h => Dict.get?_of_mem hwf h, fun h => Dict.get?_some_mem h⟩
    have hgs : ∀ x y, gensymName x = gensymName y → x = y := fun x y h => List.append_cancel_left h
    have hsnd : (st.variables.map Prod.snd).Nodup := nodup_snd hwf (by
      intro x y s hx hy
      rw [hmemv] at hx hy
      exact hgs _ _ (hx.2.symm.trans hy.2))
    have hanon : st.anonymous = [] := by
      rw [List.eq_nil_iff_forall_not_mem]
      intro s hs
      obtain ⟨i, hi, ⟨u, hu, hus⟩, _⟩ := (hren.anonymous s).1 hs
      obtain ⟨t, ht, _, h, _⟩ := hz i ((hmem i).1 (by simpa using hi))
      rw [ht] at hu; cases hu
      exact h hus
    obtain ⟨tree, t, hparse, hpt, hint, halike⟩ := h.tree
    rw [named_val] at halike
    have hlist : t.isList = false := by
      revert hnode
      generalize p.val gensymName = w at halike
      intro hnode
      cases halike with
      | list => cases hnode
      | _ => rfl
    have hver : verifyVariables tree st.variables = true := by
      have htl : tree.isList = false := by
        cases tree with
        | list i vs => exact absurd hpt.isModule (by show str "list" ≠ _; decide)
        | _ => rfl
      refine (C49_accepts_iff hpt.syntactic htl hwf hsnd).2 fun x s hx => ?_
      obtain ⟨hxv, rfl⟩ := (hget x s).1 hx
      have := of_decide_eq_true (List.all_eq_true.1 hnames x hxv)
      rw [← (visit_alike halike).1] at this
      exact intended_names_in hint (((visit_names t.size t (Nat.le_refl _) (intended_names hpt hint).1).1 hlist _).1 this)
    have htok : py.tokens (withNewline p.text) = some (lineTokens (p.text ++ str "\n")) := by
      unfold withNewline; rw [if_pos hnl]; exact h.tokens
    unfold Python.restricted
    rw [htok]
    simp only
    unfold buildPattern
    rw [hnl, htp]
    simp only
    rw [hst]
    simp only
    rw [htoks, huntok]
    simp only
    rw [hparse]
    have hcr : checkRestrictions st.variables restrictions = true := by
      unfold checkRestrictions
      rw [List.all_eq_true]
      intro k hk
      rw [decide_eq_true_eq]
      have := of_decide_eq_true (List.all_eq_true.1 hkeys k hk)
      exact List.mem_map.2 ⟨(k, gensymName k), (hmemv _ _).2 ⟨this, rfl⟩, rfl⟩
    have hdunder : st.variables.any (fun e => (str "__").isPrefixOf e.1) = false := by
      rw [List.any_eq_false]
      rintro ⟨x, s⟩ he
      obtain ⟨hx, _⟩ := (hmemv x s).1 he
      obtain ⟨i, hi, u, hu, hux⟩ := hvars x hx
      obtain ⟨t, ht, _, _, h, _⟩ := hz i hi
      rw [ht] at hu; cases hu
      rw [← hux, h]; decide
    rw [hcr, hdunder]
    simp only [Bool.not_true, Bool.false_eq_true, if_false]
    rw [hver, (pull_iff hpt kind t).2 hint]
    simp only [Bool.not_true, Bool.false_eq_true, if_false]
    unfold Code.pattern patternMatcher
    rw [hanon]
    have hl2 : (((dedup p.vars).map fun x => (x, gensymName x)).map Prod.snd).Nodup := by
      rw [List.map_map]
      exact List.pairwise_map.2 ((nodup_dedup _).imp fun hxy h => hxy (hgs _ _ h))
    rw [astPattern_alike (fun s => ?_) halike]
    rw [submatchers_get_restricted _ _ hsnd, submatchers_get_restricted _ _ hl2]
    have key : ∀ (l : List (Label × Str)), (∀ x s, (x, s) ∈ l ↔ x ∈ p.vars ∧ s = gensymName x) → ∀ e, l.find? (fun q => decide (q.2 = s)) = some e ↔ e.1 ∈ p.vars ∧ e.2 = gensymName e.1 ∧ e.2 = s := by
      intro l hl e
      constructor
      · intro h
        have h1 := List.mem_of_find?_eq_some h
        have h2 := List.find?_some h
        obtain ⟨h3, h4⟩ := (hl e.1 e.2).1 h1
        exact ⟨h3, h4, of_decide_eq_true h2⟩
      · rintro ⟨h1, h2, h3⟩
        cases hf : l.find? (fun q => decide (q.2 = s)) with
        | none =>
          have := List.find?_eq_none.1 hf e ((hl e.1 e.2).2 ⟨h1, h2⟩)
          exact absurd (decide_eq_true h3) this
        | some e' =>
          have h4 := List.mem_of_find?_eq_some hf
          have h5 := List.find?_some hf
          have h5 : e'.2 = s := of_decide_eq_true h5
          obtain ⟨h6, h7⟩ := (hl e'.1 e'.2).1 h4
          have h8 : e'.1 = e.1 := hgs _ _ (by rw [← h7, h5, ← h3, h2])
          have h9 : e'.2 = e.2 := h5.trans h3.symm
          rw [show e' = e from Prod.ext h8 h9]
    have e : st.variables.find? (fun q => decide (q.2 = s)) = ((dedup p.vars).map fun x => (x, gensymName x)).find? (fun q => decide (q.2 = s)) := by
      apply Option.ext
      intro e
      rw [key _ hmemv, key]
      intro x s
      simp only [List.mem_map, mem_dedup, Prod.mk.injEq]
      exact ⟨fun ⟨y, hy, h1, h2⟩ => by subst h1; exact ⟨hy, h2.symm⟩, fun ⟨h1, h2⟩ => ⟨x, h1, rfl, h2.symm⟩⟩
    rw [e]

section
variable {py : Python} (hpy : ReadsPatterns py)
include hpy

/-- **C101**: the pattern made of the text of a rule is the one that its code stands for, in which `gensym_x` is put in the place of `$x`. -/
theorem C101_pattern {r : Rule} (hr : r ∈ builtinRules) :
    py.restricted r.kind.asPattern r.oldText (r.restrictions.map fun e => (e.1, e.2.matcher)) =
      .ok (r.old.pattern gensymName (r.restrictions.map fun e => (e.1, e.2.matcher))) := by
  rw [← (C81_texts r hr).1]
  refine pattern_of_text hpy.iter (hpy.rules r hr) ?_
  have := List.all_eq_true.1 rules_check r hr
  rw [List.map_map]
  exact this

/-- **C101**: the fixer of a rule is made, and is the one that the theorems about rules are about. -/
theorem C101_rule {r : Rule} (hr : r ∈ builtinRules) : py.ruleFixer r = .ok (r.fixer gensymName) := by
  unfold Python.ruleFixer
  have e : r.kind.pattern = r.kind.asPattern := by cases r.kind <;> rfl
  rw [e, C101_pattern hpy hr, gensym_name]
  rfl

theorem rules_made : ∀ {rs : List Rule}, (∀ r ∈ rs, r ∈ builtinRules) → py.ruleFixers rs = .ok (rs.map (Rule.fixer gensymName))
  | [], _ => rfl
  | r :: rs, h => by
    rw [Python.ruleFixers, C101_rule hpy (h r (by simp)), rules_made fun r hr => h r (by simp [hr])]
    rfl

theorem other_made {kind : PatternKind} {text : Str} {p : Code} (he : (kind, text, p) ∈ otherPatterns) : py.restricted kind text [] = .ok (p.pattern gensymName []) := by
  have := List.all_eq_true.1 others_check _ he
  simp only [Bool.and_eq_true, decide_eq_true_eq] at this
  rw [← this.2]
  exact pattern_of_text hpy.iter (hpy.others _ he) this.1

theorem exception_made {m : Matcher} : py.restricted .stmt (str "logging.exception($arg)") [(str "arg", m)] =
    .ok ((Code.expr (.call (loggingAttr "exception") [.var (str "arg")] [])).pattern gensymName [(str "arg", m)]) := by
  have ht : (Code.expr (.call (loggingAttr "exception") [.var (str "arg")] [])).text = str "logging.exception($arg)" := by decide
  have hc : textCheck (Code.expr (.call (loggingAttr "exception") [.var (str "arg")] [])) [str "arg"] = true := by decide +kernel
  rw [← ht]
  exact pattern_of_text hpy.iter (hpy.others (.stmt, str "logging.exception($arg)", _) (by simp [otherPatterns, loggingAttr])) hc

theorem attrib_made (ref : Nat) {text : Str} {p : Code} (he : (PatternKind.expr, text, p) ∈ otherPatterns) : py.attribFixer ref text = .ok (attribFixer gensymName ref p) := by
  unfold Python.attribFixer
  rw [other_made hpy (kind := .expr) (text := str "attr.ib") (p := attrIb) (by simp [otherPatterns, attrIb]), other_made hpy he, gensym_name]
  rfl

/-- **C101**: the three groups of fixers are made, and are the ones that the theorems about groups are about. -/
theorem C101_groups : py.correctnessFixers = .ok (correctnessFixers gensymName) ∧ py.idiomFixers = .ok (idiomFixers gensymName) ∧
    py.unittestFixers = .ok (unittestFixers gensymName) := by
  refine ⟨?_, ?_, rules_made hpy (by unfold builtinRules; simp; intro r h; simp [h])⟩
  · unfold Python.correctnessFixers
    rw [rules_made hpy (by unfold builtinRules; simp; intro r h; rcases h with h | h | h <;> simp [h]),
      attrib_made hpy 0 (text := str "[]") (p := .emptyList) (by simp [otherPatterns]),
      attrib_made hpy 1 (text := str "{}") (p := .emptyDict) (by simp [otherPatterns]),
      attrib_made hpy 2 (text := str "set()") (p := .call (.name (str "set")) [] []) (by simp [otherPatterns]),
      rules_made hpy (rs := datetimeRules) (by unfold builtinRules; simp; intro r h; simp [h])]
    rfl
  · unfold Python.idiomFixers Python.loggingErrorFixer Python.loggingExceptionFixer
    rw [rules_made hpy (rs := idiomRules) (by unfold builtinRules; simp; intro r h; simp [h]),
      rules_made hpy (rs := constantRules) (by unfold builtinRules; simp; intro r h; simp [h]),
      other_made hpy (kind := .expr) (text := str "logging.error") (p := loggingAttr "error") (by simp [otherPatterns, loggingAttr]), exception_made hpy, gensym_name]
    rfl

/-- **C101**: so mode `fix` with all patterns and templates made of their texts is mode `fix` with the fixers that the theorems are about. -/
theorem C101_mode (groups : Str → List Label) (pattern : Option Str) : py.textFixer groups pattern = py.builtinFixer gensymName groups pattern := by
  obtain ⟨h1, h2, h3⟩ := C101_groups hpy
  unfold Python.textFixer
  rw [h1, h2, h3]
  rfl

/-- **C101**: so C97, C98 and C99 hold of mode `fix` with patterns made of their texts: they ask that `py.fixer` is `py.builtinFixer mangle groups`, which it is for the
names `gensym_x`. For instance, exactly the names of groups are accepted. -/
theorem C101_command {groups : Str → List Label} (hfixer : py.fixer = py.textFixer groups) : py.fixer = py.builtinFixer gensymName groups ∧
    (TemplatesMade py gensymName → TokensFit py → 8 ≤ py.depth → ∀ (pattern : Option Str) (ts : Dict Str CodeTemplate),
      ((∃ s, py.factory (str "fix") pattern ts = .ok s) ↔ ts = [] ∧ ∃ name ∈ [str "*", str "correctness", str "idiom", str "unittest"], pattern = some name) ∧
      ∀ e, py.factory (str "fix") pattern ts = .error e → e = .valueError) := by
  have h : py.fixer = py.builtinFixer gensymName groups := by
    rw [hfixer]; funext pattern; exact C101_mode hpy groups pattern
  exact ⟨h, fun h1 h2 h3 pattern ts => C97_accepted h h1 h2 (fun r hr => (exMangle_rules r hr).1) h3 pattern ts⟩

end

/-- **C101**: the names put in the place of metavariables are different from each other and from the names in the patterns and templates, as C81, C83 and C97 ask. -/
theorem C101_names : ∀ r ∈ builtinRules, Mangles gensymName r.old ∧ Mangles gensymName r.new := exMangle_rules

end Refex
