import Verif.Spec.BuiltinSearch
import Verif.Props.SpecialFixers
/-
C86: searching a file with the built-in fixers.
-/
namespace Refex
set_option autoImplicit false

/-! ### Any search with combined fixers that are decided at every position -/

theorem findLoop_quiet {tree : Val} {att : List Key → Val → MOut} (h : ∀ p v, tree.at? p = some v → ∀ done, ∃ r, att done v = .ok r) :
    ∀ stack done, (∀ v ∈ stack, ∃ p, tree.at? p = some v) → (findLoop att stack done).2 = none := by
  intro stack done
  induction stack, done using findLoop.induct att with
  | case1 done => intro _; simp [findLoop]
  | case2 done v rest e ih =>
    intro hs
    obtain ⟨p, hp⟩ := hs v (by simp)
    obtain ⟨r, hr⟩ := h p v hp done
    rw [hr] at e; cases e
  | case3 done v rest e h1 h2 =>
    intro hs
    obtain ⟨p, hp⟩ := hs v (by simp)
    obtain ⟨r, hr⟩ := h p v hp done
    rw [hr] at h2; cases h2
  | case4 done v rest mi ks e ih =>
    intro hs
    rw [findLoop_hit e]
    exact ih fun w hw => hs w (List.mem_cons_of_mem _ hw)
  | case5 done v rest ks e ih =>
    intro hs
    rw [findLoop_miss e]
    refine ih fun w hw => ?_
    rcases List.mem_append.1 hw with hw | hw
    · obtain ⟨p, hp⟩ := hs v (by simp)
      obtain ⟨k, hk⟩ := List.mem_iff_getElem?.1 hw
      refine ⟨p ++ [k], ?_⟩
      rw [at?_append, hp]
      simp only [Option.bind_some, Val.at?, hk]
    · exact hs w (List.mem_cons_of_mem _ hw)

/-- At every position of the tree, whatever was matched before, each fixer's matcher gives an answer, and it is yes where `P` says so. -/
def Decided (c : Ctx) (n : Nat) (fs : List Fixer) (P : Path → Val → Fixer → Prop) : Prop :=
  ∀ F ∈ fs, ∀ p v, c.tree.at? p = some v → ∀ done ks, ∃ o, run { c with done := done } n [] F.matcher v ks = .ok (o, ks) ∧ (o.isSome = true ↔ P p v F)

theorem exists_first {α : Type} (P : α → Prop) : ∀ l : List α, (∀ x ∈ l, ¬ P x) ∨ ∃ pre x post, l = pre ++ x :: post ∧ P x ∧ ∀ y ∈ pre, ¬ P y
  | [] => .inl (by simp)
  | a :: l => by
    by_cases ha : P a
    · exact .inr ⟨[], a, l, rfl, ha, by simp⟩
    · rcases exists_first P l with h | ⟨pre, x, post, rfl, h2, h3⟩
      · refine .inl fun x hx => ?_
        rcases List.mem_cons.1 hx with rfl | hx
        · exact ha
        · exact h x hx
      · refine .inr ⟨a :: pre, x, post, rfl, h2, fun y hy => ?_⟩
        rcases List.mem_cons.1 hy with rfl | hy
        · exact ha
        · exact h3 y hy

theorem mapM_total {α β ε : Type} {f : α → Except ε β} : ∀ {l : List α}, (∀ x ∈ l, ∃ y, f x = .ok y) → ∃ ys, l.mapM f = .ok ys
  | [], _ => ⟨[], rfl⟩
  | a :: l, h => by
    obtain ⟨y, hy⟩ := h a (by simp)
    obtain ⟨ys, hys⟩ := mapM_total (l := l) fun x hx => h x (List.mem_cons_of_mem _ hx)
    exact ⟨y :: ys, by rw [List.mapM_cons, hy, hys]; rfl⟩

section
variable {c : Ctx} {n : Nat} {fs : List Fixer} {P : Path → Val → Fixer → Prop} {heap : MapHeap}

theorem decorated_run (hd : Decided c n fs P) (hord : ∀ F ∈ fs, Ordinary c F.matcher) (hwf : ∀ F ∈ fs, (F.seen heap).WF)
    {F : Fixer} (hF : F ∈ fs) {p : Path} {v : Val} (hp : c.tree.at? p = some v) (done ks : List Key) :
    (P p v F → ∃ mi mi', run { c with done := done } n [] F.matcher v ks = .ok (some mi, ks) ∧
      run { c with done := done } (n + 2) [] (fromMatcher F.matcher (F.seen heap)) v ks = .ok (some mi', ks) ∧ Decorated (F.seen heap) mi mi') ∧
    (¬ P p v F → run { c with done := done } (n + 2) [] (fromMatcher F.matcher (F.seen heap)) v ks = .ok (none, ks)) := by
  obtain ⟨o, h1, h2⟩ := hd F hF p v hp done ks
  have := run_fromMatcher { c with done := done } n (hord F hF).noTemplates (fun hx => ((hord F hF).unreserved _ hx).1 rfl) (hwf F hF) v ks
  rw [h1] at this
  cases o with
  | none => exact ⟨fun h => (by cases h2.2 h), fun _ => this⟩
  | some mi =>
    obtain ⟨mi', h3, h4⟩ := this
    exact ⟨fun _ => ⟨mi, mi', h1, h3, h4⟩, fun h => absurd (h2.1 rfl) h⟩

/-- One attempt of the search. -/
theorem attempt_combined (hd : Decided c n fs P) (hord : ∀ F ∈ fs, Ordinary c F.matcher) (hwf : ∀ F ∈ fs, (F.seen heap).WF)
    (hf : ∀ F ∈ fs, ∃ f, typeFilter n [] F.matcher = .ok f) {p : Path} {v : Val} (hp : c.tree.at? p = some v) (done : List Key) :
    (∀ F ∈ fs, ¬ P p v F) ∧ attempt c (n + 3) (combinedMatcher fs heap) done v = .ok (none, []) ∨
    ∃ pre F post mi mi', fs = pre ++ F :: post ∧ P p v F ∧ (∀ G ∈ pre, ¬ P p v G) ∧
      run { c with done := done } n [] F.matcher v [] = .ok (some mi, []) ∧ Decorated (F.seen heap) mi mi' ∧
      attempt c (n + 3) (combinedMatcher fs heap) done v = .ok (some mi', []) := by
  have hfs : ∃ ts, (fs.map fun F => fromMatcher F.matcher (F.seen heap)).mapM (typeFilter (n + 2) []) = .ok ts := by
    refine mapM_total fun m hm => ?_
    obtain ⟨F, hF, rfl⟩ := List.mem_map.1 hm
    rw [typeFilter_fromMatcher]
    exact hf F hF
  have hq : ∀ m ∈ (fs.map fun F => fromMatcher F.matcher (F.seen heap)), Quiet (run { c with done := done } (n + 2) [] m v) := by
    intro m hm ks
    obtain ⟨F, hF, rfl⟩ := List.mem_map.1 hm
    obtain ⟨h1, h2⟩ := decorated_run hd hord hwf hF hp done ks
    by_cases h : P p v F
    · obtain ⟨_, mi', _, h3, _⟩ := h1 h
      exact ⟨_, h3⟩
    · exact ⟨_, h2 h⟩
  obtain ⟨i1, i2⟩ := C40_anyOf_iff { c with done := done } (n + 2) [] _ v [] hfs hq
  obtain ⟨ts, hts⟩ := hfs
  have htf : typeFilter (n + 3) [] (combinedMatcher fs heap) = .ok (anyOfFilter ts) := by
    unfold combinedMatcher
    rw [typeFilter, hts]
    rfl
  have hout : ∀ o, run { c with done := done } (n + 3) [] (combinedMatcher fs heap) v [] = .ok (o, []) →
      attempt c (n + 3) (combinedMatcher fs heap) done v = .ok (o, []) := by
    intro o ho
    unfold attempt
    rw [htf]
    simp only
    split
    · exact ho
    · rename_i hpf
      have ha : admits (anyOfFilter ts) v.ty = false := by
        unfold passesFilter at hpf
        cases hx : anyOfFilter ts <;> simp_all [admits]
      have := C39_type_filter_sound { c with done := done } (n + 3) (n + 3) [] _ _ v htf ha
      cases o with
      | none => rfl
      | some mi => exact absurd ho (this [] mi [])
  rcases exists_first (P p v) fs with h | ⟨pre, F, post, e, h2, h3⟩
  · refine .inl ⟨h, hout _ (i2.2 fun m hm => ?_)⟩
    obtain ⟨F, hF, rfl⟩ := List.mem_map.1 hm
    exact (decorated_run hd hord hwf hF hp done []).2 (h F hF)
  · have hmem : ∀ G ∈ pre, G ∈ fs := fun G hG => by rw [e]; exact List.mem_append_left _ hG
    have hF : F ∈ fs := by rw [e]; simp
    obtain ⟨mi, mi', r1, r2, r3⟩ := (decorated_run hd hord hwf hF hp done []).1 h2
    refine .inr ⟨pre, F, post, mi, mi', e, h2, h3, r1, r3, hout _ ((i1 mi').2 ⟨pre.map fun F => fromMatcher F.matcher (F.seen heap), _,
      post.map fun F => fromMatcher F.matcher (F.seen heap), ?_, fun m hm => ?_, r2⟩)⟩
    · rw [e, List.map_append, List.map_cons]
    · obtain ⟨G, hG, rfl⟩ := List.mem_map.1 hm
      exact (decorated_run hd hord hwf (hmem G hG) hp done []).2 (h3 G hG)

/-- The whole search: it raises nothing, and reports the outermost positions where some fixer accepts, with the first that does. -/
theorem combined_search (hd : Decided c n fs P) (hord : ∀ F ∈ fs, Ordinary c F.matcher) (hwf : ∀ F ∈ fs, (F.seen heap).WF)
    (hf : ∀ F ∈ fs, ∃ f, typeFilter n [] F.matcher = .ok f) :
    (treeFind c (n + 3) (combinedMatcher fs heap)).2 = none ∧
    ∃ rs : List Report, (treeFind c (n + 3) (combinedMatcher fs heap)).1 = rs.map (·.mi) ∧
      rs.Pairwise (fun a b => before a.path b.path = true) ∧
      (∀ p, (∃ r ∈ rs, r.path = p) ↔ (∃ v, c.tree.at? p = some v ∧ ∃ F ∈ fs, P p v F) ∧
        ∀ q u, q <+: p → q ≠ p → c.tree.at? q = some u → ∀ F ∈ fs, ¬ P q u F) ∧
      ∀ r ∈ rs, ∃ v pre F post done mi, c.tree.at? r.path = some v ∧ fs = pre ++ F :: post ∧ P r.path v F ∧ (∀ G ∈ pre, ¬ P r.path v G) ∧
        run { c with done := done } n [] F.matcher v [] = .ok (some mi, []) ∧ Decorated (F.seen heap) mi r.mi := by
  have hatt := fun (p : Path) (v : Val) (hp : c.tree.at? p = some v) (done : List Key) => attempt_combined hd hord hwf hf hp done
  have hnone : (treeFind c (n + 3) (combinedMatcher fs heap)).2 = none := by
    unfold treeFind
    refine findLoop_quiet (tree := c.tree) (fun p v hp done => ?_) _ _ (fun v hv => ⟨[], ?_⟩)
    · rcases hatt p v hp done with ⟨_, h⟩ | ⟨_, _, _, _, _, _, _, _, _, _, h⟩ <;> exact ⟨_, h⟩
    · rw [List.mem_singleton] at hv; rw [hv]; rfl
  obtain ⟨rs, h1, h2, h3⟩ := C45_reports_outermost c _ _ hnone
  have above : ∀ {p q : Path} {v : Val}, q <+: p → c.tree.at? p = some v → ∃ u, c.tree.at? q = some u := by
    rintro p q v ⟨s, rfl⟩ hp
    rw [at?_append] at hp
    cases hq : c.tree.at? q with
    | none => rw [hq] at hp; cases hp
    | some u => exact ⟨u, rfl⟩
  refine ⟨hnone, rs, h1, h2, fun p => ⟨?_, ?_⟩, ?_⟩
  · rintro ⟨r, hr, rfl⟩
    obtain ⟨⟨v, hv, ha⟩, hb⟩ := (h3 _).1 hr
    refine ⟨⟨v, hv, ?_⟩, ?_⟩
    · rcases hatt _ v hv (c.done ++ keysBefore rs r.path) with ⟨_, h⟩ | ⟨pre, F, post, _, _, e, hP, _⟩
      · rw [h] at ha; cases ha
      · exact ⟨F, by rw [e]; simp, hP⟩
    · rintro q u ⟨s, hs⟩ hne hu
      obtain ⟨ks, w, hw, hb⟩ := hb q s hs.symm (by rintro rfl; exact hne (by simpa using hs))
      rw [hu] at hw; cases hw
      rcases hatt _ u hu (c.done ++ keysBefore rs q) with ⟨h, _⟩ | ⟨_, _, _, _, _, _, _, _, _, _, h⟩
      · exact h
      · rw [h] at hb; cases hb
  · rintro ⟨⟨v, hv, F, hF, hP⟩, hno⟩
    rcases hatt p v hv (c.done ++ keysBefore rs p) with ⟨h, _⟩ | ⟨_, _, _, _, mi', _, _, _, _, _, h⟩
    · exact absurd hP (h F hF)
    · refine ⟨⟨p, mi', []⟩, (h3 _).2 ⟨⟨v, hv, h⟩, fun q s hs hne => ?_⟩, rfl⟩
      have hq : q <+: p := ⟨s, hs.symm⟩
      obtain ⟨u, hu⟩ := above hq hv
      have hqp : q ≠ p := by
        intro e
        have := congrArg List.length hs
        rw [List.length_append, ← e] at this
        exact hne (List.eq_nil_of_length_eq_zero (by simp only at this; omega))
      rcases hatt q u hu (c.done ++ keysBefore rs q) with ⟨_, h⟩ | ⟨pre, G, post, _, _, e, hG, _⟩
      · exact ⟨[], u, hu, h⟩
      · exact absurd hG (hno q u hq hqp hu G (by rw [e]; simp))
  · intro r hr
    obtain ⟨⟨v, hv, ha⟩, _⟩ := (h3 _).1 hr
    rcases hatt _ v hv (c.done ++ keysBefore rs r.path) with ⟨_, h⟩ | ⟨pre, F, post, mi, mi', e, hP, hpre, hrun, hdec, h⟩
    · rw [h] at ha; cases ha
    · rw [h] at ha
      have hmi : mi' = r.mi := (Option.some.inj (Prod.mk.inj (Except.ok.inj ha)).1)
      exact ⟨v, pre, F, post, _, mi, hv, e, hP, hpre, hrun, hmi ▸ hdec⟩

end

/-! ### The built-in fixers -/

theorem parsed_at {g : Grammar} : ∀ {p : Path} {b : Bool} {v w : Val}, Parsed g b v → v.at? p = some w → ∃ b', Parsed g b' w
  | [], b, v, w, h, e => by cases e; exact ⟨b, h⟩
  | i :: p, b, v, w, h, e => by
    rw [Val.at?] at e
    split at e
    · rename_i u hu
      have : ∃ b', Parsed g b' u := by
        cases h with
        | const _ => cases hu
        | list h => exact ⟨false, h u (List.mem_of_getElem? hu)⟩
        | @node i' t ns vs h1 h2 h3 h4 h5 =>
          have hlt : i < vs.length := (List.getElem?_eq_some_iff.1 hu).1
          have hf : i < (g.fields t).length := by rw [h4, h2, List.length_map] at hlt; exact hlt
          exact ⟨_, h5 i _ u (List.getElem?_eq_getElem hf) hu⟩
      obtain ⟨b', hb⟩ := this
      exact parsed_at hb e
    · cases e

mutual
theorem size_val (mangle mangle' : Label → Str) : ∀ p : Code, (p.val mangle).size = (p.val mangle').size
  | .var _ | .name _ | .int _ | .emptyList | .emptyDict => by simp [Code.val, codeNode, nameNode, Val.size, Val.sizes]
  | .attr e _ | .keyword _ e | .not e | .tuple1 e | .expr e => by
    simp [Code.val, codeNode, Val.size, Val.sizes, size_val mangle mangle' e]
  | .call f as ks => by
    simp [Code.val, codeNode, Val.size, Val.sizes, size_val mangle mangle' f, sizes_vals mangle mangle' as, sizes_vals mangle mangle' ks]
  | .compare l _ r | .mod l r | .assign l r => by
    simp [Code.val, codeNode, Val.size, Val.sizes, size_val mangle mangle' l, size_val mangle mangle' r]
  | .comp _ e t i => by
    simp [Code.val, codeNode, Val.size, Val.sizes, size_val mangle mangle' e, size_val mangle mangle' t, size_val mangle mangle' i]
theorem sizes_vals (mangle mangle' : Label → Str) : ∀ ps : List Code, Val.sizes (Code.vals mangle ps) = Val.sizes (Code.vals mangle' ps)
  | [] => rfl
  | p :: ps => by simp [Code.vals, Val.sizes, size_val mangle mangle' p, sizes_vals mangle mangle' ps]
end

theorem builtin_size (mangle : Label → Str) : ∀ r ∈ builtinRules, (r.old.val mangle).size ≤ 23 := by
  intro r hr
  rw [size_val mangle (fun _ => [])]
  revert r
  decide +kernel

section
variable {g : Str → List Label} {P : Label → Prop}

mutual
theorem astPattern_binds {subs : Dict Str Matcher} (h : ∀ k m, subs.get? k = some m → ∀ l ∈ m.bindVars g, P l) :
    ∀ v : Val, ∀ l ∈ (astPattern subs v).bindVars g, P l
  | .const _ _ => by rw [astPattern, Matcher.bindVars]; simp
  | .list _ vs => by rw [astPattern, Matcher.bindVars]; exact astPatterns_binds h vs
  | .node _ t ns vs => by
    rw [astPattern]
    split
    · rename_i m hm
      obtain ⟨k, _, hk⟩ := Option.bind_eq_some_iff.1 hm
      exact h k m hk
    · rw [Matcher.bindVars]
      exact fieldPatterns_binds h _ ns vs
theorem astPatterns_binds {subs : Dict Str Matcher} (h : ∀ k m, subs.get? k = some m → ∀ l ∈ m.bindVars g, P l) :
    ∀ vs : List Val, ∀ l ∈ Matcher.bindVarsList g (astPatterns subs vs), P l
  | [] => by intro l hl; cases hl
  | v :: vs => by
    intro l hl
    rw [astPatterns, Matcher.bindVarsList] at hl
    rcases List.mem_append.1 hl with hl | hl
    · exact astPattern_binds h v l hl
    · exact astPatterns_binds h vs l hl
theorem fieldPatterns_binds {subs : Dict Str Matcher} (h : ∀ k m, subs.get? k = some m → ∀ l ∈ m.bindVars g, P l) (b : Bool) (ns : List Str) :
    ∀ vs : List Val, ∀ l ∈ Matcher.bindVarsList g (fieldPatterns subs b ns vs), P l
  | [] => by cases ns <;> (intro l hl; cases hl)
  | v :: vs => by
    cases ns with
    | nil => intro l hl; cases hl
    | cons a ns =>
      intro l hl
      rw [fieldPatterns, Matcher.bindVarsList] at hl
      rcases List.mem_append.1 hl with hl | hl
      · split at hl
        · cases hl
        · exact astPattern_binds h v l hl
      · exact fieldPatterns_binds h b ns vs l hl
end

theorem submatchers_mem {Q : Matcher → Prop} (l : List (Label × Str)) (rs : Dict Label Matcher)
    (h : ∀ e ∈ l, Q (metaBind e.1 ((rs.get? e.1).getD .anything))) : ∀ k m, (submatchers [] l rs).get? k = some m → Q m := by
  unfold submatchers
  simp only [List.foldl_nil]
  suffices H : ∀ d : Dict Str Matcher, (∀ k m, d.get? k = some m → Q m) →
      ∀ k m, (l.foldl (fun d e => d.set e.2 (metaBind e.1 ((rs.get? e.1).getD .anything))) d).get? k = some m → Q m by
    exact H [] (by intro k m h; cases h)
  induction l with
  | nil => intro d hd; exact hd
  | cons e l ih =>
    intro d hd
    refine ih (fun e' he' => h e' (List.mem_cons_of_mem _ he')) _ fun k m hk => ?_
    rw [Dict.get?_set] at hk
    split at hk
    · cases hk; exact h e (by simp)
    · exact hd k m hk

theorem pattern_binds {mangle : Label → Str} {p : Code} {rs : Dict Label Matcher} (hp : ∀ x ∈ p.vars, P x)
    (h : ∀ x m, rs.get? x = some m → ∀ l ∈ m.bindVars g, P l) : ∀ l ∈ (p.pattern mangle rs).bindVars g, P l := by
  unfold Code.pattern patternMatcher
  rw [Matcher.bindVars, Matcher.bindVars]
  refine astPattern_binds (submatchers_mem _ _ fun e he => ?_) _
  intro l hl
  unfold metaBind at hl
  rw [Matcher.bindVars] at hl
  obtain ⟨x, hx, rfl⟩ := List.mem_map.1 he
  rcases List.mem_cons.1 hl with rfl | hl
  · exact hp _ (by simpa [mem_dedup] using hx)
  · cases hr : rs.get? x with
    | none => simp [hr, Matcher.bindVars] at hl
    | some m => simp only [hr, Option.getD_some] at hl; exact h x m hr l hl

end

theorem restriction_binds {digit : Char → Prop} {c : Ctx} (hx : RegexFits digit c) (k : Restriction) : k.matcher.bindVars c.rxGroups = [] := by
  have h1 : c.rxGroups constantRegex = [] := hx.groups.1
  cases k <;>
    simp [Restriction.matcher, stringLiteralMatcher, anyNode, Matcher.bindVars, Matcher.bindVarsList, h1]

theorem restriction_noTemplates (k : Restriction) : k.matcher.noTemplates = true := by
  cases k <;> rfl

theorem rule_unreserved : ∀ r ∈ builtinRules, ∀ x ∈ r.old.vars, x ≠ str "__root" ∧ x ∉ metadataLabels := by decide +kernel

theorem restrictions_get? {d : Dict Label Restriction} {x : Label} {m : Matcher} (h : Dict.get? (d.map fun e => (e.1, e.2.matcher)) x = some m) :
    ∃ k : Restriction, m = k.matcher := by
  induction d with
  | nil => cases h
  | cons e d ih =>
    obtain ⟨y, k⟩ := e
    simp only [List.map_cons, Dict.get?] at h
    split at h
    · cases h; exact ⟨k, rfl⟩
    · exact ih h

theorem ordinary_rule {mangle : Label → Str} {digit : Char → Prop} {c : Ctx} (hx : RegexFits digit c) {r : Rule} (hr : r ∈ builtinRules) :
    Ordinary c (r.fixer mangle).matcher := by
  have hg : ∀ rx, r.guard = .regex rx → c.rxGroups rx = [] := by
    intro rx e
    have := builtin_guards r hr
    rw [e] at this
    rcases this with h | h | h <;> cases h
    exact hx.groups.2
  have h1 : (r.old.pattern mangle (r.restrictions.map fun e => (e.1, e.2.matcher))).noTemplates = true := by
    refine pattern_noTemplates _ _ _ fun x m h => ?_
    obtain ⟨k, rfl⟩ := restrictions_get? h
    exact restriction_noTemplates k
  have h2 : ∀ l ∈ (r.old.pattern mangle (r.restrictions.map fun e => (e.1, e.2.matcher))).bindVars c.rxGroups, l ≠ str "__root" ∧ l ∉ metadataLabels := by
    refine pattern_binds (rule_unreserved r hr) fun x m h => ?_
    obtain ⟨k, rfl⟩ := restrictions_get? h
    rw [restriction_binds hx]
    simp
  unfold Rule.fixer
  cases e : r.guard with
  | none => exact ⟨h1, h2⟩
  | imported s => exact ⟨h1, h2⟩
  | regex rx =>
    refine ⟨?_, ?_⟩
    · simp only [Guard.matcher]
      rw [Matcher.noTemplates, Matcher.noTemplatesList, h1]; rfl
    · intro l hl
      simp only [Guard.matcher] at hl
      rw [Matcher.bindVars, Matcher.bindVarsList] at hl
      rcases List.mem_append.1 hl with hl | hl
      · exact h2 l hl
      · simp [Matcher.bindVarsList, Matcher.bindVars, hg rx e] at hl

theorem ordinary_attrib {mangle : Label → Str} {c : Ctx} (i : Nat) {d : Code} (hd : d.vars = []) : Ordinary c (attribFixer mangle i d).matcher := by
  have h1 : (attrIb.pattern mangle []).noTemplates = true := pattern_noTemplates _ _ _ (by intro x m h; cases h)
  have h2 : (d.pattern mangle []).noTemplates = true := pattern_noTemplates _ _ _ (by intro x m h; cases h)
  have h3 : ∀ l ∈ (attrIb.pattern mangle []).bindVars c.rxGroups, False := pattern_binds (by intro x h; cases h) (by intro x m h; cases h)
  have h4 : ∀ l ∈ (d.pattern mangle []).bindVars c.rxGroups, False := pattern_binds (by rw [hd]; intro x h; cases h) (by intro x m h; cases h)
  have e : (attribFixer mangle i d).matcher = .node (str "Call") [str "func", str "args", str "keywords"]
    [attrIb.pattern mangle [], .anything, .contains (.bind (str "keyword") (.node (str "keyword") [str "arg", str "value"]
      [equalsStr "default", d.pattern mangle []]) none none)] := rfl
  rw [e]
  refine ⟨?_, fun l hl => ?_⟩
  · simp [Matcher.noTemplates, Matcher.noTemplatesList, h1, h2, equalsStr]
  · simp only [Matcher.bindVars, Matcher.bindVarsList, equalsStr, List.mem_append, List.mem_cons, List.not_mem_nil, or_false, false_or] at hl
    rcases hl with hl | rfl | hl
    · exact (h3 l hl).elim
    · decide
    · exact (h4 l hl).elim

theorem ordinary_loggingError {mangle : Label → Str} {c : Ctx} : Ordinary c (loggingErrorFixer mangle 3).matcher := by
  have h1 : ((loggingAttr "error").pattern mangle []).noTemplates = true := pattern_noTemplates _ _ _ (by intro x m h; cases h)
  have h3 : ∀ l ∈ ((loggingAttr "error").pattern mangle []).bindVars c.rxGroups, False := pattern_binds (by intro x h; cases h) (by intro x m h; cases h)
  refine ⟨?_, fun l hl => ?_⟩
  · simp [loggingErrorFixer, loggingErrorMatcher, callWith, nodeWith, Matcher.noTemplates, Matcher.noTemplatesList, h1, inExceptionHandler, handlerWith,
      nameWith, bindIdentical, keywordWith, equalsStr]
  · simp [loggingErrorFixer, loggingErrorMatcher, callWith, nodeWith, Matcher.bindVars, Matcher.bindVarsList, inExceptionHandler, handlerWith,
      nameWith, bindIdentical] at hl
    rcases hl with rfl | hl | rfl
    · decide
    · exact (h3 l hl).elim
    · decide

theorem ordinary_loggingException {mangle : Label → Str} {c : Ctx} : Ordinary c (loggingExceptionFixer mangle 4).matcher := by
  have h1 : ((Code.expr (.call (loggingAttr "exception") [.var (str "arg")] [])).pattern mangle
      [(str "arg", nameWith (.bind (str "e") .anything none none))]).noTemplates = true := by
    refine pattern_noTemplates _ _ _ fun x m h => ?_
    simp only [Dict.get?] at h
    split at h <;> cases h
    rfl
  have h3 : ∀ l ∈ ((Code.expr (.call (loggingAttr "exception") [.var (str "arg")] [])).pattern mangle
      [(str "arg", nameWith (.bind (str "e") .anything none none))]).bindVars c.rxGroups, l = str "arg" ∨ l = str "e" := by
    refine pattern_binds ?_ fun x m h => ?_
    · intro x hx
      left
      simpa [Code.vars, Code.varss, loggingAttr] using hx
    · simp only [Dict.get?] at h
      split at h <;> cases h
      intro l hl
      simp [nameWith, nodeWith, Matcher.bindVars, Matcher.bindVarsList] at hl
      exact .inr hl
  refine ⟨?_, fun l hl => ?_⟩
  · simp [loggingExceptionFixer, loggingExceptionMatcher, callWith, nodeWith, Matcher.noTemplates, Matcher.noTemplatesList, h1, inExceptionHandler,
      handlerWith, nameWith, bindIdentical, tryWith, triedStatement, callBound]
    exact h1
  · simp [loggingExceptionFixer, loggingExceptionMatcher, callWith, nodeWith, Matcher.bindVars, Matcher.bindVarsList, inExceptionHandler, handlerWith,
      nameWith, bindIdentical, tryWith, triedStatement, callBound] at hl
    rcases hl with rfl | hl | rfl | rfl
    · decide
    · rcases h3 l hl with rfl | rfl <;> decide
    · decide
    · decide

theorem group_kinds {mangle : Label → Str} {F : Fixer} (hF : F ∈ correctnessFixers mangle ++ idiomFixers mangle ++ unittestFixers mangle) :
    (∃ r ∈ builtinRules, F = r.fixer mangle) ∨ (∃ i d text, attribDefaults[i]? = some (d, text) ∧ F = attribFixer mangle i d) ∨
      F = loggingErrorFixer mangle 3 ∨ F = loggingExceptionFixer mangle 4 := by
  by_cases h : F ∈ [attribFixer mangle 0 .emptyList, attribFixer mangle 1 .emptyDict, attribFixer mangle 2 (.call (.name (str "set")) [] [])]
  · right; left
    simp only [List.mem_cons, List.not_mem_nil, or_false] at h
    rcases h with rfl | rfl | rfl
    · exact ⟨0, _, _, rfl, rfl⟩
    · exact ⟨1, _, _, rfl, rfl⟩
    · exact ⟨2, _, _, rfl, rfl⟩
  · rcases group_fixer hF with h' | ⟨ref, hr, d, rfl⟩ | h' | h'
    · exact .inl h'
    · exfalso
      have hnr : ∀ rs : List Rule, attribFixer mangle ref d ∉ rs.map (Rule.fixer mangle) := fun rs hm => rules_own rs _ hm ref rfl
      rcases List.mem_append.1 hF with hF | hF
      · rcases List.mem_append.1 hF with hF | hF
        · unfold correctnessFixers at hF
          rcases List.mem_append.1 hF with hF | hF
          · rcases List.mem_append.1 hF with hF | hF
            · exact hnr _ hF
            · exact h hF
          · exact hnr _ hF
        · have := idiom_refs hF (r := ref) rfl
          omega
      · exact hnr _ hF
    · exact .inr (.inr (.inl h'))
    · exact .inr (.inr (.inr h'))

section
variable {mangle : Label → Str} {digit : Char → Prop} {g : Grammar} {ss : List TopStmt} {c : Ctx} {n : Nat}

/-- What each built-in fixer's matcher answers at each position. -/
theorem builtin_answer (hc : PythonFile mangle digit g ss c) (hn : 55 ≤ n) {F : Fixer}
    (hF : F ∈ correctnessFixers mangle ++ idiomFixers mangle ++ unittestFixers mangle) {p : Path} {v : Val} (hp : c.tree.at? p = some v) (ks : List Key) :
    (FixerApplies mangle digit c ss p v F → ∃ mi, run c n [] F.matcher v ks = .ok (some mi, ks) ∧ FixerMarks mangle digit c ss p v F mi) ∧
    (¬ FixerApplies mangle digit c ss p v F → run c n [] F.matcher v ks = .ok (none, ks)) := by
  obtain ⟨b, hv⟩ := parsed_at hc.parsed hp
  rcases group_kinds hF with ⟨r, hr, rfl⟩ | ⟨i, d, text, hd, rfl⟩ | rfl | rfl
  · have hsz := builtin_size mangle r hr
    obtain ⟨h1, h2⟩ := C81_finds (env := []) hr (hc.mangles r hr) hc.grammar hc.regex hc.file hv (n := n) (by omega) ks
    by_cases ho : ∃ occ, r.Shows digit c ss v occ
    · refine ⟨fun _ => ?_, fun h => ?_⟩
      · obtain ⟨mi, occ, k1, k2, k3, k4⟩ := h1 ho
        refine ⟨mi, k1, .rule hr k2 k3 fun x _ => ?_⟩
        rw [k4]
        cases (occ.of x).getLast? <;> rfl
      · obtain ⟨occ, ho⟩ := ho
        exact absurd (.rule hr ho) h
    · refine ⟨fun h => ?_, fun _ => h2 ho⟩
      exfalso
      have key : ∀ F, FixerApplies mangle digit c ss p v F → F = r.fixer mangle → ∃ mi ks', run c n [] (r.fixer mangle).matcher v ks = .ok (some mi, ks') := by
        intro F h e
        cases h with
        | @rule r' occ' hr' ho' =>
          have hsz := builtin_size mangle r' hr'
          obtain ⟨mi, _, k1, _⟩ := (C81_finds (env := []) hr' (hc.mangles r' hr') hc.grammar hc.regex hc.file hv (n := n) (by omega) ks).1 ⟨occ', ho'⟩
          rw [e] at k1
          exact ⟨mi, ks, k1⟩
        | attrib => exact absurd (congrArg Fixer.replacement e) (by simp [attribFixer, Rule.fixer])
        | loggingError => exact absurd (congrArg Fixer.replacement e) (by simp [loggingErrorFixer, Rule.fixer])
        | loggingException => exact absurd (congrArg Fixer.replacement e) (by simp [loggingExceptionFixer, Rule.fixer])
      obtain ⟨mi, ks', k⟩ := key _ h rfl
      rw [h2 ho] at k
      cases k
  · have hmem : (d, text) ∈ attribDefaults := List.mem_of_getElem? hd
    obtain ⟨h1, h2⟩ := C85_attrib (mangle := mangle) (c := c) (n := n) hc.grammar hmem hv (by omega)
    have inv : ∀ F, FixerApplies mangle digit c ss p v F → F = attribFixer mangle i d → ∃ k, AttribDefault d v k := by
      intro F h e
      cases h with
      | rule => exact absurd (congrArg Fixer.replacement e) (by simp [attribFixer, Rule.fixer])
      | @attrib i' d' text' k hd' hk =>
        have : i' = i := by simpa [attribFixer] using congrArg Fixer.replacement e
        subst this
        rw [hd] at hd'
        cases hd'
        exact ⟨k, hk⟩
      | loggingError =>
        have : i = 3 := by simpa [attribFixer, loggingErrorFixer] using (congrArg Fixer.replacement e).symm
        subst this
        cases hd
      | loggingException =>
        have : i = 4 := by simpa [attribFixer, loggingExceptionFixer] using (congrArg Fixer.replacement e).symm
        subst this
        cases hd
    refine ⟨fun h => ?_, fun h => h2 (fun ⟨k, hk⟩ => h (.attrib hd hk)) ks⟩
    obtain ⟨k, hk⟩ := inv _ h rfl
    exact ⟨_, h1 k hk ks, .attrib hd hk rfl ⟨_, rfl, rfl⟩⟩
  · obtain ⟨h1, h2⟩ := C85_logging_error (mangle := mangle) (n := n) hc.grammar hc.unshared hc.names hp hv (by omega)
    have inv : ∀ F, FixerApplies mangle digit c ss p v F → F = loggingErrorFixer mangle 3 → ∃ f, LoggingError c.tree p v f := by
      intro F h e
      cases h with
      | rule => exact absurd (congrArg Fixer.replacement e) (by simp [loggingErrorFixer, Rule.fixer])
      | @attrib i d text k hd =>
        have : i = 3 := by simpa [attribFixer, loggingErrorFixer] using congrArg Fixer.replacement e
        subst this
        cases hd
      | loggingError hf => exact ⟨_, hf⟩
      | loggingException => exact absurd (congrArg Fixer.replacement e) (by simp [loggingErrorFixer, loggingExceptionFixer])
    refine ⟨fun h => ?_, fun h => h2 (fun ⟨f, hf⟩ => h (.loggingError hf)) ks⟩
    obtain ⟨f, hf⟩ := inv _ h rfl
    obtain ⟨s, hs, _⟩ := h1 f hf
    exact ⟨_, hs ks, .loggingError hf rfl ⟨_, rfl, rfl⟩⟩
  · obtain ⟨h1, h2⟩ := C85_logging_exception (mangle := mangle) (n := n) hc.grammar hc.argument hc.unshared hc.names hp hv (by omega)
    have inv : ∀ F, FixerApplies mangle digit c ss p v F → F = loggingExceptionFixer mangle 4 → ∃ a f s, LoggingException c p v a f s := by
      intro F h e
      cases h with
      | rule => exact absurd (congrArg Fixer.replacement e) (by simp [loggingExceptionFixer, Rule.fixer])
      | @attrib i d text k hd =>
        have : i = 4 := by simpa [attribFixer, loggingExceptionFixer] using congrArg Fixer.replacement e
        subst this
        cases hd
      | loggingError => exact absurd (congrArg Fixer.replacement e) (by simp [loggingErrorFixer, loggingExceptionFixer])
      | loggingException hf => exact ⟨_, _, _, hf⟩
    refine ⟨fun h => ?_, fun h => h2 (fun ⟨a, f, s, hf⟩ => h (.loggingException hf)) ks⟩
    obtain ⟨a, f, s, hf⟩ := inv _ h rfl
    exact ⟨_, h1 a f s hf ks, .loggingException hf rfl ⟨_, rfl, rfl⟩ ⟨_, rfl, rfl⟩⟩

theorem pythonFile_done (hc : PythonFile mangle digit g ss c) (done : List Key) : PythonFile mangle digit g ss { c with done := done } :=
  ⟨hc.grammar, hc.parsed, hc.file, hc.unshared, hc.names, ⟨hc.regex.constant, hc.regex.parens, hc.regex.groups⟩, hc.mangles, hc.argument⟩

theorem applies_done (done : List Key) {p : Path} {v : Val} {F : Fixer} :
    FixerApplies mangle digit { c with done := done } ss p v F ↔ FixerApplies mangle digit c ss p v F := by
  constructor
  · intro h
    cases h with
    | rule hr ho => exact .rule hr ⟨ho.reads, ho.alike, ho.allowed, ho.guarded⟩
    | attrib hd hk => exact .attrib hd hk
    | loggingError hf => exact .loggingError hf
    | loggingException hf => exact .loggingException hf
  · intro h
    cases h with
    | rule hr ho => exact .rule hr ⟨ho.reads, ho.alike, ho.allowed, ho.guarded⟩
    | attrib hd hk => exact .attrib hd hk
    | loggingError hf => exact .loggingError hf
    | loggingException hf => exact .loggingException hf

theorem marks_done {done : List Key} {p : Path} {v : Val} {F : Fixer} {mi : MatchInfo} (h : FixerMarks mangle digit { c with done := done } ss p v F mi) :
    FixerMarks mangle digit c ss p v F mi := by
  cases h with
  | rule hr ho h1 h2 => exact .rule hr ⟨ho.reads, ho.alike, ho.allowed, ho.guarded⟩ h1 h2
  | attrib hd hk h1 h2 => exact .attrib hd hk h1 h2
  | loggingError hf h1 h2 => exact .loggingError hf h1 h2
  | loggingException hf h1 h2 h3 => exact .loggingException hf h1 h2 h3

theorem marks_label {ts : Replacements} {mi mi' : MatchInfo} (hd : Decorated ts mi mi') {x : String} {w : Val} (hx : str x ≠ str "__root")
    (h : Marks c mi x w) : Marks c mi' x w := by
  obtain ⟨b, h1, h2⟩ := h
  exact ⟨b, by rw [hd.2.2.2, if_neg hx, h1], h2⟩

theorem marks_decorated {ts : Replacements} {p : Path} {v : Val} {F : Fixer} {mi mi' : MatchInfo} (h : FixerMarks mangle digit c ss p v F mi)
    (hd : Decorated ts mi mi') : FixerMarks mangle digit c ss p v F mi' := by
  cases h with
  | rule hr ho h1 h2 => exact .rule hr ho (hd.1.trans h1) fun x hx => by rw [hd.2.2.2, if_neg hx, h2 x hx]
  | attrib hk hk' h1 h2 => exact .attrib hk hk' (hd.1.trans h1) (marks_label hd (by decide) h2)
  | loggingError hf h1 h2 => exact .loggingError hf (hd.1.trans h1) (marks_label hd (by decide) h2)
  | loggingException hf h1 h2 h3 => exact .loggingException hf (hd.1.trans h1) (marks_label hd (by decide) h2) (marks_label hd (by decide) h3)

theorem forall2_of_map {α β γ : Type} {R : β → γ → Prop} {f : α → β} {f' : α → γ} :
    ∀ {as : List α}, (∀ a ∈ as, R (f a) (f' a)) → Forall2 R (as.map f) (as.map f')
  | [], _ => .nil
  | _ :: _, h => .cons (h _ (by simp)) (forall2_of_map fun a ha => h a (List.mem_cons_of_mem _ ha))

theorem forall2_from_map {α β γ : Type} {R : β → γ → Prop} {f : α → β} : ∀ {as : List α} {cs : List γ}, Forall2 (fun a => R (f a)) as cs → Forall2 R (as.map f) cs
  | [], _, h => by cases h; exact .nil
  | _ :: _, _, h => by
    cases h with
    | cons h1 h2 => exact .cons h1 (forall2_from_map h2)

theorem builtin_decided (hc : PythonFile mangle digit g ss c) (hn : 55 ≤ n) {fs : List Fixer}
    (hsub : ∀ F ∈ fs, F ∈ correctnessFixers mangle ++ idiomFixers mangle ++ unittestFixers mangle) :
    Decided c n fs (FixerApplies mangle digit c ss) := by
  intro F hF p v hp done ks
  obtain ⟨h1, h2⟩ := builtin_answer (pythonFile_done hc done) hn (hsub F hF) hp ks
  by_cases h : FixerApplies mangle digit c ss p v F
  · obtain ⟨mi, k1, _⟩ := h1 ((applies_done done).2 h)
    exact ⟨_, k1, by simp [h]⟩
  · exact ⟨none, h2 (fun h' => h ((applies_done done).1 h')), by simp [h]⟩

theorem builtin_ordinary (hc : PythonFile mangle digit g ss c) {F : Fixer}
    (hF : F ∈ correctnessFixers mangle ++ idiomFixers mangle ++ unittestFixers mangle) : Ordinary c F.matcher := by
  rcases group_kinds hF with ⟨r, hr, rfl⟩ | ⟨i, d, text, hd, rfl⟩ | rfl | rfl
  · exact ordinary_rule hc.regex hr
  · refine ordinary_attrib i ?_
    have hmem : (d, text) ∈ attribDefaults := List.mem_of_getElem? hd
    simp only [attribDefaults, List.mem_cons, List.not_mem_nil, or_false, Prod.mk.injEq] at hmem
    rcases hmem with ⟨rfl, _⟩ | ⟨rfl, _⟩ | ⟨rfl, _⟩ <;> rfl
  · exact ordinary_loggingError
  · exact ordinary_loggingException

theorem builtin_filter {F : Fixer} (hF : F ∈ correctnessFixers mangle ++ idiomFixers mangle ++ unittestFixers mangle) (n : Nat) :
    ∃ f, typeFilter (n + 6) [] F.matcher = .ok f := by
  rcases group_kinds hF with ⟨r, hr, rfl⟩ | ⟨i, d, text, hd, rfl⟩ | rfl | rfl
  · exact (filter_rule hr (n + 2)).imp' _ fun _ h => h
  · exact (filter_attrib i d (n + 5)).imp' _ fun _ h => h
  · exact (filter_loggingError 3 (n + 4)).imp' _ fun _ h => h
  · exact (filter_loggingException 4 n).imp' _ fun _ h => h

/-- The fixers see their own mappings, with what was added. -/
theorem seen_builtin {env : Templates} {gr : Str → List Label} {k : Nat} {fs : List Fixer} {heap : MapHeap}
    (hsub : fs.Sublist (correctnessFixers mangle ++ idiomFixers mangle ++ unittestFixers mangle))
    (hcomb : combineFixers env gr k fs builtinHeap = .ok heap) : ∀ F ∈ fs, F.seen heap = F.addMeta (F.initial builtinHeap) ∧ (F.seen heap).WF := by
  unfold combineFixers at hcomb
  split at hcomb
  · cases hcomb
  rename_i h1 hb
  split at hcomb
  · cases hcomb
  cases hcomb
  have hheap := buildFixers_heap hb
  intro F hF
  have e : F.seen heap = F.addMeta (F.initial builtinHeap) := hheap ▸ seen_own (own_sub hsub own_all) builtinHeap hF
  refine ⟨e, e ▸ addMeta_wf F ?_⟩
  unfold Fixer.initial
  split
  · simp [Dict.WF, Dict.keys]
  · exact builtinHeap_wf _

theorem registry_groups {registry : Registry Fixer} (h1 : refexRegistry mangle = .ok registry) {name : Str} {fs : List Fixer}
    (h2 : registry.fromPattern name = .ok fs) : fs.Sublist (correctnessFixers mangle ++ idiomFixers mangle ++ unittestFixers mangle) := by
  obtain ⟨r, k1, _, k3⟩ := C66_builtin (correctnessFixers mangle) (idiomFixers mangle) (unittestFixers mangle)
  have : registry = r := by
    have := h1.symm.trans k1
    cases this; rfl
  subst this
  unfold Registry.fromPattern at h2
  rw [k3] at h2
  split at h2
  · rename_i fs' e
    cases h2
    split at e
    · cases e; exact List.Sublist.refl _
    split at e
    · cases e; exact List.Sublist.trans (List.sublist_append_left _ _) (List.sublist_append_left _ _)
    split at e
    · cases e; exact List.Sublist.trans (List.sublist_append_right _ _) (List.sublist_append_left _ _)
    split at e
    · cases e; exact List.sublist_append_right _ _
    · cases e
  · cases h2

theorem builtin_initial (F : Fixer) : (F.initial builtinHeap).WF ∧ ∀ l ∈ metadataLabels, (F.initial builtinHeap).get? l = none := by
  unfold Fixer.initial
  split
  · refine ⟨by simp [Dict.WF, Dict.keys], fun l hm => ?_⟩
    have hne : l ≠ str "__root" := by intro e; subst e; revert hm; decide
    simp [Dict.get?, Ne.symm hne]
  · exact ⟨builtinHeap_wf _, builtinHeap_nometa _⟩

/-- The matches of the search, with what is known of each. -/
theorem builtin_matches (hc : PythonFile mangle digit g ss c) {env : Templates} {registry : Registry Fixer} {fs : List Fixer} {heap : MapHeap}
    {name : Str} {k : Nat} (h1 : refexRegistry mangle = .ok registry) (h2 : registry.fromPattern name = .ok fs)
    (h3 : combineFixers env c.rxGroups k fs builtinHeap = .ok heap) (hn : 58 ≤ n) :
    (treeFind c n (combinedMatcher fs heap)).2 = none ∧
    ∃ rs : List Report, (treeFind c n (combinedMatcher fs heap)).1 = rs.map (·.mi) ∧
      (rs.map (·.path)).Pairwise (fun a b => before a b = true) ∧ (∀ p, p ∈ rs.map (·.path) ↔ Site mangle digit c ss fs p) ∧
      ∀ r ∈ rs, ∃ v F mi, c.tree.at? r.path = some v ∧ FirstApplies mangle digit c ss fs r.path v F ∧ F ∈ fs ∧
        FixerMarks mangle digit c ss r.path v F mi ∧ Unlabelled mi ∧ Decorated (F.addMeta (F.initial builtinHeap)) mi r.mi := by
  obtain ⟨n, rfl⟩ : ∃ m, n = m + 58 := ⟨n - 58, by omega⟩
  have hsub := registry_groups h1 h2
  have hmem : ∀ F ∈ fs, F ∈ correctnessFixers mangle ++ idiomFixers mangle ++ unittestFixers mangle := fun F hF => hsub.subset hF
  have hseen := seen_builtin hsub h3
  obtain ⟨hnone, rs, k1, k2, k3, k4⟩ := combined_search (n := n + 55) (heap := heap) (builtin_decided hc (by omega) hmem) (fun F hF => builtin_ordinary hc (hmem F hF))
    (fun F hF => (hseen F hF).2) (fun F hF => builtin_filter (hmem F hF) (n + 49))
  refine ⟨hnone, rs, k1, ?_, fun p => ?_, fun r hr => ?_⟩
  · rw [List.pairwise_map]; exact k2
  · rw [List.mem_map]; exact k3 p
  · obtain ⟨v, pre, F, post, done, mi, e1, e2, e3, e4, e5, e6⟩ := k4 r hr
    have hF : F ∈ fs := by rw [e2]; simp
    obtain ⟨mi2, m1, m2⟩ := (builtin_answer (pythonFile_done hc done) (n := n + 55) (by omega) (hmem F hF) e1 []).1 ((applies_done done).2 e3)
    rw [e5] at m1
    cases m1
    refine ⟨v, F, mi, e1, ⟨pre, post, e2, e3, e4⟩, hF, marks_done m2, fun l hlm => ?_, (hseen F hF).1 ▸ e6⟩
    have ho := builtin_ordinary hc (hmem F hF)
    cases hg : mi.bindings.get? l with
    | none => rfl
    | some b =>
      have := C38_bound_are_declared _ (n + 55) F.matcher (noTemplates_noExternal _ ho.noTemplates) v [] [] mi e5 l (Dict.mem_keys_iff.2 ⟨b, hg⟩)
      exact absurd hlm (ho.unreserved l this).2

/-- **C86**: a search of a Python file with a built-in group of fixers raises no exception, and reports exactly the outermost places where
some fixer of the group applies, from left to right; each is reported for the first fixer of the group that applies there, with the parts of
the code that this fixer is about, and with this fixer's own templates and metadata. -/
theorem C86_search (hc : PythonFile mangle digit g ss c) {env : Templates} (hv : TemplateVariables env)
    {name : Str} (hname : name ∈ [str "*", str "correctness", str "idiom", str "unittest"]) (hn : 58 ≤ n) :
    ∃ registry fs heap, refexRegistry mangle = .ok registry ∧ registry.fromPattern name = .ok fs ∧
      combineFixers env c.rxGroups n fs builtinHeap = .ok heap ∧
      (treeFind c n (combinedMatcher fs heap)).2 = none ∧
      ∃ ps : List Path, ps.Pairwise (fun a b => before a b = true) ∧ (∀ p, p ∈ ps ↔ Site mangle digit c ss fs p) ∧
        Forall2 (fun p mi => ∃ v F, c.tree.at? p = some v ∧ FirstApplies mangle digit c ss fs p v F ∧ FixerMarks mangle digit c ss p v F mi ∧
          mi.replacements = F.addMeta (F.initial builtinHeap)) ps (treeFind c n (combinedMatcher fs heap)).1 := by
  obtain ⟨n, rfl⟩ : ∃ m, n = m + 8 := ⟨n - 8, by omega⟩
  obtain ⟨registry, fs, heap, h1, h2, _, _, h3⟩ := combine_group (g := c.rxGroups) hv hc.mangles n hname
  obtain ⟨hnone, rs, k1, k2, k3, k4⟩ := builtin_matches hc h1 h2 h3 hn
  refine ⟨registry, fs, heap, h1, h2, h3, hnone, rs.map (·.path), k2, k3, ?_⟩
  rw [k1]
  refine forall2_of_map fun r hr => ?_
  obtain ⟨v, F, mi, e1, e2, _, e4, _, e6⟩ := k4 r hr
  exact ⟨v, F, e1, e2, marks_decorated e4 e6, e6.2.1⟩

/-- **C86**: what `find_iter` of a searcher with a built-in group of fixers reports, if no template raises an exception: one finding for each
outermost place where some fixer of the group applies, left to right, unless the template refuses; made by the first fixer that applies
there, with that fixer's templates, message, url, category and significance. -/
theorem C86_findings (hc : PythonFile mangle digit g ss c) {env : Templates} (hl : LiteralNames env) {registry : Registry Fixer} {fs : List Fixer}
    {heap : MapHeap} {name : Str} {k : Nat} (h1 : refexRegistry mangle = .ok registry) (h2 : registry.fromPattern name = .ok fs)
    (h3 : combineFixers env c.rxGroups k fs builtinHeap = .ok heap) (hn : 58 ≤ n) (tk : TokInfo) {found : List Found}
    (h : pySearch c tk env n (combinedMatcher fs heap) = .ok found) :
    ∃ (ps : List Path) (os : List (Option Found)), ps.Pairwise (fun a b => before a b = true) ∧ (∀ p, p ∈ ps ↔ Site mangle digit c ss fs p) ∧
      found = os.filterMap id ∧
      Forall2 (fun p o => ∃ v F mi, c.tree.at? p = some v ∧ FirstApplies mangle digit c ss fs p v F ∧ FixerMarks mangle digit c ss p v F mi ∧
        match o with
        | none => FixerRefuses c env (F.initial builtinHeap) mi
        | some f => FixerFinding c env F (F.initial builtinHeap) mi f) ps os := by
  obtain ⟨hnone, rs, k1, k2, k3, k4⟩ := builtin_matches hc h1 h2 h3 hn
  unfold pySearch at h
  split at h
  · cases h
  · rename_i fs' hp _
    cases h
    rw [k1] at hp
    obtain ⟨os, ho1, ho2⟩ := pyReports_each hp
    refine ⟨rs.map (·.path), os, k2, k3, ho1, ?_⟩
    refine forall2_from_map (forall2_imp (forall2_map_left ho2) ?_)
    rintro r hr o ⟨r0, r0', hrep⟩
    obtain ⟨v, F, mi, e1, e2, e3, e4, e5, e6⟩ := k4 r hr
    have hspec := pyReport_spec e6 (addMeta_wf F (builtin_initial F).1) e5 hrep
    refine ⟨v, F, mi, e1, e2, e4, ?_⟩
    cases o with
    | none => exact ⟨_, fun l hl' => addMeta_other F _ hl', hspec⟩
    | some f => exact fixerFinding_of hl (builtin_initial F).2 e5 hspec.1
  · cases h

end

end Refex
