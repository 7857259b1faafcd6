import Verif.Spec.Build
import Verif.Props.ConstructMore
/- C92: what a matcher expression makes. -/
namespace Refex
set_option autoImplicit false

theorem except_map_ok {α β : Type} {x : Except EErr α} {f : α → β} {b : β} : x.map f = .ok b ↔ ∃ a, x = .ok a ∧ b = f a := by
  cases x with
  | error e => exact ⟨fun h => (by cases h), fun ⟨_, h, _⟩ => (by cases h)⟩
  | ok a =>
    constructor
    · intro h; cases h; exact ⟨a, rfl, rfl⟩
    · rintro ⟨a', h, rfl⟩; cases h; rfl

theorem buildAll_cons_ok {W : EvalWorld} {e : EExpr} {es : List EExpr} {st st' : List Thing} {vs : List PVal} :
    buildAll W (e :: es) st = .ok (vs, st') ↔ ∃ w st1 ws, build W e st = .ok (w, st1) ∧ buildAll W es st1 = .ok (ws, st') ∧ vs = w :: ws := by
  rw [buildAll]
  constructor
  · intro h
    split at h
    · cases h
    · rename_i w st1 hw
      obtain ⟨r, hr, h⟩ := except_map_ok.1 h
      cases h
      exact ⟨w, st1, r.1, hw, hr, rfl⟩
  · rintro ⟨w, st1, ws, h1, h2, rfl⟩
    rw [h1]
    exact except_map_ok.2 ⟨_, h2, rfl⟩

theorem buildSet_ok (W : EvalWorld) (es : List EExpr) (acc : List PVal) (st st' : List Thing) (v : PVal) :
    buildSet W es acc st = .ok (v, st') ↔
      ∃ vs, buildAll W es st = .ok (vs, st') ∧ (∀ w ∈ vs, w.hashable = true) ∧ v = .set (vs.foldl setPut acc) := by
  induction es generalizing acc st with
  | nil =>
    simp only [buildSet, buildAll, Except.ok.injEq, Prod.mk.injEq]
    constructor
    · rintro ⟨rfl, rfl⟩; exact ⟨[], ⟨rfl, rfl⟩, by simp, rfl⟩
    · rintro ⟨vs, ⟨rfl, rfl⟩, _, rfl⟩; exact ⟨rfl, rfl⟩
  | cons e es ih =>
    rw [buildSet]
    constructor
    · intro h
      split at h
      · cases h
      · rename_i w st1 hw
        split at h
        · rename_i hh
          obtain ⟨vs, h1, h2, h3⟩ := (ih _ _).1 h
          refine ⟨w :: vs, buildAll_cons_ok.2 ⟨w, st1, vs, hw, h1, rfl⟩, fun x hx => ?_, h3⟩
          rcases List.mem_cons.1 hx with rfl | hx
          · exact hh
          · exact h2 x hx
        · cases h
    · rintro ⟨vs, h1, h2, h3⟩
      obtain ⟨w, st1, ws, h4, h5, rfl⟩ := buildAll_cons_ok.1 h1
      rw [h4]
      simp only [h2 w (by simp), if_true]
      exact (ih _ _).2 ⟨ws, h5, fun x hx => h2 x (by simp [hx]), h3⟩

theorem buildDict_ok (W : EvalWorld) : ∀ (es : List EExpr) (acc : List PVal) (st st' : List Thing) (v : PVal), buildDict W es acc st = .ok (v, st') ↔
      ∃ pairs, buildAll W es st = .ok (flatItems pairs, st') ∧ (∀ p ∈ pairs, p.1.hashable = true) ∧
        v = .dict (pairs.foldl (fun d p => dictPut d p.1 p.2) acc)
  | [], acc, st, st', v => by
    simp only [buildDict, buildAll, Except.ok.injEq, Prod.mk.injEq]
    constructor
    · rintro ⟨rfl, rfl⟩; exact ⟨[], ⟨rfl, rfl⟩, by simp, rfl⟩
    · rintro ⟨pairs, ⟨h1, rfl⟩, _, h3⟩
      cases pairs with
      | nil => exact ⟨h3.symm, rfl⟩
      | cons p ps => simp [flatItems] at h1
  | [e], acc, st, st', v => by
    simp only [buildDict]
    constructor
    · intro h; cases h
    · rintro ⟨pairs, h1, _, _⟩
      obtain ⟨w, st1, ws, _, h2, h3⟩ := buildAll_cons_ok.1 h1
      simp only [buildAll, Except.ok.injEq, Prod.mk.injEq] at h2
      obtain ⟨rfl, rfl⟩ := h2
      cases pairs with
      | nil => simp [flatItems] at h3
      | cons p ps => simp [flatItems] at h3
  | k :: e :: es, acc, st, st', v => by
    rw [buildDict]
    constructor
    · intro h
      split at h
      · cases h
      · rename_i a st1 ha
        split at h
        · cases h
        · rename_i b st2 hb
          split at h
          · rename_i hh
            obtain ⟨ps, h1, h2, h3⟩ := (buildDict_ok W es _ _ _ _).1 h
            refine ⟨(a, b) :: ps, buildAll_cons_ok.2 ⟨a, st1, b :: flatItems ps, ha, buildAll_cons_ok.2 ⟨b, st2, flatItems ps, hb, h1, rfl⟩, rfl⟩,
              fun p hp => ?_, h3⟩
            rcases List.mem_cons.1 hp with rfl | hp
            · exact hh
            · exact h2 p hp
          · cases h
    · rintro ⟨pairs, h1, h2, h3⟩
      obtain ⟨a, st1, ws, ha, h4, h5⟩ := buildAll_cons_ok.1 h1
      obtain ⟨b, st2, ws', hb, h6, rfl⟩ := buildAll_cons_ok.1 h4
      cases pairs with
      | nil => simp [flatItems] at h5
      | cons p ps =>
        obtain ⟨x, y⟩ := p
        simp only [flatItems, List.cons.injEq] at h5
        obtain ⟨rfl, rfl, rfl⟩ := h5
        rw [ha]
        simp only [hb, h2 (x, y) (by simp), if_true]
        exact (buildDict_ok W es _ _ _ _).2 ⟨ps, h6, fun p hp => h2 p (by simp [hp]), h3⟩

theorem buildName_ok {W : EvalWorld} {e : EExpr} {v : PVal} {st st' : List Thing} :
    buildName W e st = .ok (v, st') ↔ st' = st ∧ ∃ n, Dotted e n ∧ W.constants.get? n = some v := by
  unfold buildName
  constructor
  · intro h
    split at h
    · cases h
    · cases h
    · rename_i n hn
      split at h
      · rename_i w hw
        cases h
        exact ⟨rfl, n, (dottedName_iff e n).1 hn, hw⟩
      · cases h
  · rintro ⟨rfl, n, h1, h2⟩
    rw [(dottedName_iff e n).2 h1]
    simp only [h2]

theorem call_ok {W : EvalWorld} {n : Str} {as : List PVal} {ks : List (Str × PVal)} {st st' : List Thing} {v : PVal} :
    W.call n as ks st = .ok (v, st') ↔ ∃ o, callClass (W.now st) st.length n as ks = .ok o ∧ v = .obj st.length ∧ st' = st ++ [Thing.ofMade o] := by
  unfold EvalWorld.call
  constructor
  · intro h
    split at h
    · cases h
    · rename_i o ho
      cases h
      exact ⟨o, ho, rfl, rfl⟩
  · rintro ⟨o, h, rfl, rfl⟩
    rw [h]

/-! ### The objects there were stay -/

mutual
theorem build_grows (W : EvalWorld) : ∀ e st v st', build W e st = .ok (v, st') → st <+: st'
  | .const c, st, v, st', h => by simp only [build, Except.ok.injEq, Prod.mk.injEq] at h; rw [h.2]; exact List.prefix_refl _
  | .usub (.const c), st, v, st', h => by
    simp only [build] at h
    split at h
    · cases h; exact List.prefix_refl _
    · cases h
  | .usub (.usub _), st, v, st', h => by simp [build] at h
  | .usub (.tuple _), st, v, st', h => by simp [build] at h
  | .usub (.list _), st, v, st', h => by simp [build] at h
  | .usub (.dict _), st, v, st', h => by simp [build] at h
  | .usub (.set _), st, v, st', h => by simp [build] at h
  | .usub (.call _ _ _ _), st, v, st', h => by simp [build] at h
  | .usub (.starred _), st, v, st', h => by simp [build] at h
  | .usub (.name _), st, v, st', h => by simp [build] at h
  | .usub (.attribute _ _), st, v, st', h => by simp [build] at h
  | .usub .other, st, v, st', h => by simp [build] at h
  | .tuple es, st, v, st', h => by
    simp only [build] at h
    obtain ⟨r, h1, h2⟩ := except_map_ok.1 h
    cases h2
    exact buildAll_grows W es st r.1 r.2 h1
  | .list es, st, v, st', h => by
    simp only [build] at h
    obtain ⟨r, h1, h2⟩ := except_map_ok.1 h
    cases h2
    exact buildAll_grows W es st r.1 r.2 h1
  | .dict es, st, v, st', h => by
    simp only [build] at h
    obtain ⟨pairs, h1, _⟩ := (buildDict_ok W es [] st st' v).1 h
    exact buildAll_grows W es st _ _ h1
  | .set es, st, v, st', h => by
    simp only [build] at h
    obtain ⟨vs, h1, _⟩ := (buildSet_ok W es [] st st' v).1 h
    exact buildAll_grows W es st _ _ h1
  | .call f args kns kvs, st, v, st', h => by
    simp only [build] at h
    split at h
    · cases h
    · split at h
      · cases h
      · cases h
      · split at h
        · split at h
          · cases h
          · rename_i as st1 h1
            split at h
            · cases h
            · rename_i ks st2 h2
              obtain ⟨o, _, _, rfl⟩ := call_ok.1 h
              exact ((buildAll_grows W args st as st1 h1).trans (buildAll_grows W kvs st1 ks st2 h2)).trans (List.prefix_append _ _)
        · cases h
  | .starred _, st, v, st', h => by simp [build] at h
  | .name s, st, v, st', h => by
    simp only [build] at h
    rw [(buildName_ok.1 h).1]; exact List.prefix_refl _
  | .attribute w a, st, v, st', h => by
    simp only [build] at h
    rw [(buildName_ok.1 h).1]; exact List.prefix_refl _
  | .other, st, v, st', h => by simp [build] at h
theorem buildAll_grows (W : EvalWorld) : ∀ es st vs st', buildAll W es st = .ok (vs, st') → st <+: st'
  | [], st, vs, st', h => by simp only [buildAll, Except.ok.injEq, Prod.mk.injEq] at h; rw [h.2]; exact List.prefix_refl _
  | e :: es, st, vs, st', h => by
    obtain ⟨w, st1, ws, h1, h2, rfl⟩ := buildAll_cons_ok.1 h
    exact (build_grows W e st w st1 h1).trans (buildAll_grows W es st1 ws st' h2)
end

theorem noneBroken_prefix {a b : List Thing} (h : a <+: b) (hb : NoneBroken b) : NoneBroken a := fun t ht => hb t (h.subset ht)

mutual
theorem build_builds (W : EvalWorld) (hW : ∀ ty fs, W.fields ty = some fs → fs.Nodup) : ∀ e st v st', build W e st = .ok (v, st') → NoneBroken st' → Builds W st e v st'
  | .const c, st, v, st', h, _ => by simp only [build, Except.ok.injEq, Prod.mk.injEq] at h; obtain ⟨rfl, rfl⟩ := h; exact .const
  | .usub (.const c), st, v, st', h, _ => by
    simp only [build] at h
    split at h
    · rename_i hn
      simp only [Except.ok.injEq, Prod.mk.injEq] at h
      obtain ⟨rfl, rfl⟩ := h
      cases c with
      | int i => simp only [EvalWorld.zeroMinus, Int.zero_sub]; exact .minusInt
      | other t r n => exact .minusOther (of_decide_eq_true hn)
      | _ => simp [Const.isNum] at hn
    · cases h
  | .usub (.usub _), st, v, st', h, _ => by simp [build] at h
  | .usub (.tuple _), st, v, st', h, _ => by simp [build] at h
  | .usub (.list _), st, v, st', h, _ => by simp [build] at h
  | .usub (.dict _), st, v, st', h, _ => by simp [build] at h
  | .usub (.set _), st, v, st', h, _ => by simp [build] at h
  | .usub (.call _ _ _ _), st, v, st', h, _ => by simp [build] at h
  | .usub (.starred _), st, v, st', h, _ => by simp [build] at h
  | .usub (.name _), st, v, st', h, _ => by simp [build] at h
  | .usub (.attribute _ _), st, v, st', h, _ => by simp [build] at h
  | .usub .other, st, v, st', h, _ => by simp [build] at h
  | .tuple es, st, v, st', h, hb => by
    simp only [build] at h
    obtain ⟨r, h1, h2⟩ := except_map_ok.1 h
    cases h2
    exact .tuple (buildAll_builds W hW es st r.1 r.2 h1 hb)
  | .list es, st, v, st', h, hb => by
    simp only [build] at h
    obtain ⟨r, h1, h2⟩ := except_map_ok.1 h
    cases h2
    exact .list (buildAll_builds W hW es st r.1 r.2 h1 hb)
  | .dict es, st, v, st', h, hb => by
    simp only [build] at h
    obtain ⟨pairs, h1, h2, rfl⟩ := (buildDict_ok W es [] st st' v).1 h
    obtain ⟨out, h3, h4⟩ := dictOf_fold pairs [] [] ⟨.nil, by simp⟩ h2
    rw [show ([] : List PVal) = flatItems [] from rfl, h3]
    exact .dict (buildAll_builds W hW es st _ _ h1 hb) h2 (by simpa using h4)
  | .set es, st, v, st', h, hb => by
    simp only [build] at h
    obtain ⟨vs, h1, h2, rfl⟩ := (buildSet_ok W es [] st st' v).1 h
    obtain ⟨out, h3, h4⟩ := setPut_fold vs []
    rw [h3]
    exact .set (buildAll_builds W hW es st _ _ h1 hb) h2 h4
  | .call f args kns kvs, st, v, st', h, hb => by
    simp only [build] at h
    split at h
    · cases h
    · rename_i hs
      obtain ⟨hs1, hs2⟩ := not_starred hs
      split at h
      · cases h
      · cases h
      · rename_i n hn
        split at h
        · rename_i hc
          split at h
          · cases h
          · rename_i as st1 h1
            split at h
            · cases h
            · rename_i ks st2 h2
              obtain ⟨o, ho, rfl, rfl⟩ := call_ok.1 h
              have hb2 : NoneBroken st2 := noneBroken_prefix (List.prefix_append _ _) hb
              have hb1 : NoneBroken st1 := noneBroken_prefix (buildAll_grows W kvs st1 ks st2 h2) hb2
              cases o with
              | none => exact absurd rfl (hb .broken (by simp [Thing.ofMade]))
              | some m =>
                obtain ⟨cls, h3, h4⟩ := (C92_made hW _ _ _ _ _).1 ho
                exact .call ((dottedName_iff f n).1 hn) hc hs1 hs2 (buildAll_builds W hW args st as st1 h1 hb1)
                  (buildAll_builds W hW kvs st1 ks st2 h2 hb2) h3 h4
        · cases h
  | .starred _, st, v, st', h, _ => by simp [build] at h
  | .name s, st, v, st', h, _ => by
    simp only [build] at h
    obtain ⟨rfl, n, h1, h2⟩ := buildName_ok.1 h
    exact .constant h1 h2
  | .attribute w a, st, v, st', h, _ => by
    simp only [build] at h
    obtain ⟨rfl, n, h1, h2⟩ := buildName_ok.1 h
    exact .constant h1 h2
  | .other, st, v, st', h, _ => by simp [build] at h
theorem buildAll_builds (W : EvalWorld) (hW : ∀ ty fs, W.fields ty = some fs → fs.Nodup) : ∀ es st vs st', buildAll W es st = .ok (vs, st') → NoneBroken st' → BuildsAll W st es vs st'
  | [], st, vs, st', h, _ => by simp only [buildAll, Except.ok.injEq, Prod.mk.injEq] at h; obtain ⟨rfl, rfl⟩ := h; exact .nil
  | e :: es, st, vs, st', h, hb => by
    obtain ⟨w, st1, ws, h1, h2, rfl⟩ := buildAll_cons_ok.1 h
    exact .cons (build_builds W hW e st w st1 h1 (noneBroken_prefix (buildAll_grows W es st1 ws st' h2) hb)) (buildAll_builds W hW es st1 ws st' h2 hb)
end

mutual
theorem builds_build (W : EvalWorld) (hW : ∀ ty fs, W.fields ty = some fs → fs.Nodup) : ∀ {st e v st'}, Builds W st e v st' →
    build W e st = .ok (v, st') ∧ (NoneBroken st → NoneBroken st')
  | _, _, _, _, .const => ⟨by simp only [build], id⟩
  | _, _, _, _, .minusInt => ⟨by simp [build, Const.isNum, EvalWorld.zeroMinus], id⟩
  | _, _, _, _, .minusOther h => by
    refine ⟨?_, id⟩
    simp only [build]
    rw [if_pos]
    · rfl
    · exact decide_eq_true h
  | _, _, _, _, .tuple h => ⟨by simp only [build]; exact except_map_ok.2 ⟨_, (buildsAll_build W hW h).1, rfl⟩, (buildsAll_build W hW h).2⟩
  | _, _, _, _, .list h => ⟨by simp only [build]; exact except_map_ok.2 ⟨_, (buildsAll_build W hW h).1, rfl⟩, (buildsAll_build W hW h).2⟩
  | _, _, _, _, .set h h1 h2 => by
    refine ⟨?_, (buildsAll_build W hW h).2⟩
    simp only [build]
    rw [buildSet_ok]
    refine ⟨_, (buildsAll_build W hW h).1, h1, ?_⟩
    obtain ⟨out, h3, h4⟩ := setPut_fold _ []
    rw [h3, firstOfEach_fun h2 h4]; rfl
  | _, _, _, _, .dict h h1 h2 => by
    refine ⟨?_, (buildsAll_build W hW h).2⟩
    simp only [build]
    rw [buildDict_ok]
    refine ⟨_, (buildsAll_build W hW h).1, h1, ?_⟩
    obtain ⟨out, h3, h4⟩ := dictOf_fold _ [] [] ⟨.nil, by simp⟩ h1
    rw [show ([] : List PVal) = flatItems [] from rfl, h3, dictOf_fun h2 (by simpa using h4)]
  | _, _, _, _, .call (f := f) (n := n) (args := args) (kns := kns) hd hc hs1 hs2 h h' hr hm => by
    obtain ⟨g1, g2⟩ := buildsAll_build W hW h
    obtain ⟨g3, g4⟩ := buildsAll_build W hW h'
    constructor
    · simp only [build]
      rw [if_neg, (dottedName_iff f n).2 hd]
      · simp only [if_pos hc, g1, g3]
        exact call_ok.2 ⟨_, (C92_made hW _ _ _ _ _).2 ⟨_, hr, hm⟩, rfl, rfl⟩
      · intro hs
        exact starred_iff.1 hs ⟨hs1, hs2⟩
    · intro hb t ht
      rcases List.mem_append.1 ht with ht | ht
      · exact g4 (g2 hb) t ht
      · simp only [List.mem_singleton] at ht
        subst ht
        intro e; cases e
  | _, _, _, _, .constant hd hv => by
    refine ⟨?_, id⟩
    rcases dotted_not hd with ⟨s, rfl⟩ | ⟨w, a, rfl⟩
    · simp only [build]; exact buildName_ok.2 ⟨rfl, _, hd, hv⟩
    · simp only [build]; exact buildName_ok.2 ⟨rfl, _, hd, hv⟩
theorem buildsAll_build (W : EvalWorld) (hW : ∀ ty fs, W.fields ty = some fs → fs.Nodup) : ∀ {st es vs st'}, BuildsAll W st es vs st' →
    buildAll W es st = .ok (vs, st') ∧ (NoneBroken st → NoneBroken st')
  | _, _, _, _, .nil => ⟨by simp only [buildAll], id⟩
  | _, _, _, _, .cons h hs => ⟨buildAll_cons_ok.2 ⟨_, _, _, (builds_build W hW h).1, (buildsAll_build W hW hs).1, rfl⟩,
      fun hb => (buildsAll_build W hW hs).2 ((builds_build W hW h).2 hb)⟩
end

/-- **C92**, matcher expressions: an expression makes exactly the matchers that its calls stand for, one new object for each call, inner calls first.
(Calls that make a matcher which fails when it is used, like `AllOf(5)`, are left out.) -/
theorem C92_expression (W : EvalWorld) (hW : ∀ ty fs, W.fields ty = some fs → fs.Nodup) (st : List Thing) (hst : NoneBroken st) (e : EExpr) (v : PVal) (st' : List Thing) :
    (build W e st = .ok (v, st') ∧ NoneBroken st') ↔ Builds W st e v st' :=
  ⟨fun h => build_builds W hW e st v st' h.1 h.2, fun h => ⟨(builds_build W hW h).1, (builds_build W hW h).2 hst⟩⟩

/-- **C92**: evaluation changes no object there was. -/
theorem C92_objects_stay (W : EvalWorld) (e : EExpr) (st : List Thing) (v : PVal) (st' : List Thing) (h : build W e st = .ok (v, st')) (i : Nat) (hi : i < st.length) :
    (W.now st').thing i = (W.now st).thing i := by
  obtain ⟨t, rfl⟩ := build_grows W e st v st' h
  simp only [EvalWorld.now]
  rw [List.getElem?_append_left hi]

end Refex
