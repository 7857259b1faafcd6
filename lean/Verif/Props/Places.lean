import Verif.Spec.Places
import Verif.Props.NoTemplates
import Verif.Props.Nav
/- C95: what is matched and bound is in the file. -/
namespace Refex
set_option autoImplicit false

/-! ### Objects -/

theorem ofFile_child {c : Ctx} {v w : Val} (h : OfFile c v) (hw : w ∈ v.children) : OfFile c w := by
  cases h with
  | @part p _ hp =>
    obtain ⟨i, hi⟩ := List.getElem?_of_mem hw
    refine .part (p := p ++ [i]) ?_
    rw [at?_append, hp]
    simp only [Option.bind_some, Val.at?, hi]
  | char => cases hw
  | none => cases hw

theorem lookup_mem : ∀ (ns : List Str) (vs : List Val) (a : Str) (w : Val), Val.lookup ns vs a = some w → w ∈ vs
  | [], _, _, _, h => by simp [Val.lookup] at h
  | _ :: _, [], _, _, h => by simp [Val.lookup] at h
  | n :: ns, v :: vs, a, w, h => by
    unfold Val.lookup at h
    split at h
    · cases h; exact List.mem_cons_self ..
    · exact List.mem_cons_of_mem _ (lookup_mem ns vs a w h)

theorem ofFile_getattr {c : Ctx} {v : Val} (h : OfFile c v) (a : Str) : OfFile c (v.getattr a) := by
  cases v with
  | const => exact .none
  | list => exact .none
  | node i t ns vs =>
    show OfFile c ((Val.lookup ns vs a).getD Val.pyNone)
    cases hl : Val.lookup ns vs a with
    | none => exact .none
    | some w => exact ofFile_child h (lookup_mem ns vs a w hl)

theorem ofFile_items {c : Ctx} {v : Val} (h : OfFile c v) {vs : List Val} (hs : seqItems v = some vs) : ∀ w ∈ vs, OfFile c w := by
  unfold seqItems at hs
  split at hs
  · cases hs; exact fun w hw => ofFile_child h hw
  · cases hs
    intro w hw
    obtain ⟨ch, hch, rfl⟩ := List.mem_map.1 hw
    exact .char h hch
  · cases hs

theorem ofFile_item {c : Ctx} {v w : Val} (h : OfFile c v) {i : Int} (hw : getItem v i = some w) : OfFile c w := by
  unfold getItem at hw
  split at hw
  · cases hw
  · rename_i vs hs
    split at hw
    · exact ofFile_items h hs w (List.mem_of_getElem? hw)
    · split at hw
      · exact ofFile_items h hs w (List.mem_of_getElem? hw)
      · cases hw

theorem ofFile_parent {c : Ctx} {v p : Val} (h : getParent c.tree v = some p) : OfFile c p := by
  obtain ⟨q, _, _, hq, _⟩ := C50_parent_sound h
  exact .part hq

theorem ofFile_prev {c : Ctx} {v w : Val} (h : getPrevSibling c.tree v = some w) : OfFile c w := by
  unfold getPrevSibling at h
  split at h
  · rename_i p k hb
    obtain ⟨q, _, _, hq, _⟩ := breadcrumb_sound hb
    exact ofFile_child (.part hq) (List.mem_of_getElem? h)
  · cases h

theorem ofFile_next {c : Ctx} {v w : Val} (h : getNextSibling c.tree v = some w) : OfFile c w := by
  unfold getNextSibling at h
  split at h
  · rename_i p k hb
    obtain ⟨q, _, _, hq, _⟩ := breadcrumb_sound hb
    exact ofFile_child (.part hq) (List.mem_of_getElem? h)
  · cases h

/-! ### Matches -/

theorem matchOf_create {c : Ctx} (hc : FileFits c) {v : Val} (h : OfFile c v) : MatchOf c (createMatch c v) := by
  unfold createMatch
  split
  · exact .string
  · rename_i i ty ns vs
    split
    · exact .object h
    · rename_i sp hsp
      split
      · split
        · exact .node h hsp (hc.tokens _ _ hsp)
        · exact .object h
      · split
        · exact .object h
        · exact .node h hsp (hc.tokens _ _ hsp)
  · exact .object h

/-- The match and what it binds are of the file. -/
def Places (c : Ctx) (r : MOut) : Prop := ∀ mi ks, r = .ok (some mi, ks) → MatchOf c mi.obj ∧ ∀ e ∈ (mi.bindings : List (Label × BoundValue)), MatchOf c e.2.value

theorem places_none {c : Ctx} {ks : List Key} : Places c (.ok (none, ks)) := by intro mi ks' he; cases he
theorem places_error {c : Ctx} {e : MExc} : Places c (.error e) := by intro mi ks' he; cases he

section
variable {c : Ctx} (hc : FileFits c)
include hc

theorem places_found {v : Val} (h : OfFile c v) {b : Bindings} (hb : ∀ e ∈ (b : List (Label × BoundValue)), MatchOf c e.2.value) {ks : List Key} :
    Places c (found c v b ks) := by
  intro mi ks' he
  simp only [found, Except.ok.injEq, Prod.mk.injEq, Option.some.injEq] at he
  obtain ⟨rfl, rfl⟩ := he
  exact ⟨matchOf_create hc h, hb⟩

omit hc in
theorem set_values {d : Bindings} {k : Label} {b : BoundValue} (hd : ∀ e ∈ (d : List (Label × BoundValue)), MatchOf c e.2.value) (hb : MatchOf c b.value) :
    ∀ e ∈ (d.set k b : List (Label × BoundValue)), MatchOf c e.2.value := by
  intro e he
  induction d with
  | nil => simp [Dict.set] at he; rw [he]; exact hb
  | cons a d ih =>
    unfold Dict.set at he
    split at he
    · rcases List.mem_cons.1 he with rfl | he
      · exact hb
      · exact hd e (List.mem_cons_of_mem _ he)
    · rcases List.mem_cons.1 he with rfl | he
      · exact hd _ (List.mem_cons_self ..)
      · exact ih (fun e he => hd e (List.mem_cons_of_mem _ he)) he

omit hc in
theorem update_values {src : Bindings} (hs : ∀ e ∈ (src : List (Label × BoundValue)), MatchOf c e.2.value) (ks : List Label) :
    ∀ {d : Bindings}, (∀ e ∈ (d : List (Label × BoundValue)), MatchOf c e.2.value) → ∀ e ∈ (updateFrom d src ks : List (Label × BoundValue)), MatchOf c e.2.value := by
  unfold updateFrom
  induction ks with
  | nil => intro d hd; exact hd
  | cons k ks ih =>
    intro d hd
    rw [List.foldl_cons]
    refine ih ?_
    split
    · rename_i b hb
      exact set_values hd (hs _ (Dict.get?_some_mem hb))
    · exact hd

omit hc in
theorem merge_values {l r b : Bindings} (h : mergeBindings l r = .ok (some b)) (hl : ∀ e ∈ (l : List (Label × BoundValue)), MatchOf c e.2.value)
    (hr : ∀ e ∈ (r : List (Label × BoundValue)), MatchOf c e.2.value) : ∀ e ∈ (b : List (Label × BoundValue)), MatchOf c e.2.value := by
  unfold mergeBindings mergeBindingsIn at h
  split at h
  · cases h
  · cases h
  · rename_i d he
    cases h
    refine update_values hr _ (update_values hl _ ?_)
    have key : ∀ (ks : List Label) (st st' : Bindings × Bool), ks.foldlM (mergeStep l r) st = .ok st' →
        (∀ e ∈ (st.1 : List (Label × BoundValue)), MatchOf c e.2.value) → ∀ e ∈ (st'.1 : List (Label × BoundValue)), MatchOf c e.2.value := by
      intro ks
      induction ks with
      | nil => intro st st' h hst; cases h; exact hst
      | cons a ks ih =>
        intro st st' h hst
        rw [List.foldlM_cons] at h
        cases hs : mergeStep l r st a with
        | error e => rw [hs] at h; cases h
        | ok st1 =>
          rw [hs] at h
          refine ih st1 st' h ?_
          unfold mergeStep at hs
          split at hs
          · rename_i x y hx hy
            split at hs
            · cases hs
            · split at hs
              · cases hs
              · split at hs
                · cases hs
                · cases hs
                  refine set_values hst ?_
                  unfold BindMerge.pick
                  split
                  · exact hl _ (Dict.get?_some_mem hx)
                  · exact hr _ (Dict.get?_some_mem hy)
                · cases hs; exact hst
          · cases hs; exact hst
    exact key _ _ _ he (by simp)

theorem places_accum {v : Val} (hv : OfFile c v) (steps : List (List Key → MOut)) (h : ∀ st ∈ steps, ∀ ks, Places c (st ks)) (b : Bindings)
    (hb : ∀ e ∈ (b : List (Label × BoundValue)), MatchOf c e.2.value) (r : Replacements) (ks : List Key) : Places c (accumLoop c v steps b r ks) := by
  induction steps generalizing b r ks with
  | nil => intro mi ks' he; cases he; exact ⟨matchOf_create hc hv, hb⟩
  | cons st steps ih =>
    intro mi ks' he
    rw [accumLoop] at he
    split at he
    · cases he
    · cases he
    · rename_i mi1 ks1 e1
      split at he
      · cases he
      · cases he
      · rename_i b' hm
        split at he
        · cases he
        · exact ih (fun st' hs => h st' (by simp [hs])) b' (merge_values hm hb (h st (by simp) _ _ _ e1).2) _ _ mi ks' he

omit hc in
theorem places_first (steps : List (List Key → MOut)) (h : ∀ st ∈ steps, ∀ ks, Places c (st ks)) (ks : List Key) : Places c (firstMatch steps ks) := by
  intro mi ks' he
  obtain ⟨st, hs, ks0, e⟩ := firstMatch_some he
  exact h st hs ks0 mi ks' e

theorem places_rewrap {v : Val} (hv : OfFile c v) {r : MOut} (h : Places c r) : Places c (rewrap c v r) := by
  unfold rewrap
  split
  · exact places_error
  · exact places_none
  · exact places_found hc hv (h _ _ rfl).2

omit hc in
theorem places_climb {first : SemM} (h : ∀ v ks, OfFile c v → Places c (first v ks)) (n : Nat) (v : Val) (ks : List Key) : Places c (climb c first n v ks) := by
  induction n generalizing v ks with
  | zero => exact places_error
  | succ n ih =>
    unfold climb
    split
    · exact places_none
    · rename_i p hp
      split
      · exact places_error
      · rename_i mi ks' e; rw [← e]; exact h p ks (ofFile_parent hp)
      · exact ih _ _

omit hc in
theorem places_regex {rx : Str} {g : Label → Option Span} (h : ∀ l sp, g l = some sp → InText c sp) :
    ∀ e ∈ (regexBindings c rx g : List (Label × BoundValue)), MatchOf c e.2.value := by
  intro e he
  unfold regexBindings at he
  obtain ⟨l, _, rfl⟩ := List.mem_map.1 he
  cases hg : g l with
  | none => exact .absent
  | some sp => exact .text (h l sp hg)

theorem run_places (n : Nat) (env : Env) (m : Matcher) (v : Val) (ks : List Key) (hm : m.noExternal = true)
    (he : ∀ p ∈ env, p.1.noExternal = true ∧ p.2.noExternal = true) (hv : OfFile c v) : Places c (run c n env m v ks) := by
  induction n generalizing env m v ks with
  | zero => exact places_error
  | succ n ih =>
    have hnil : ∀ e ∈ (([] : Bindings) : List (Label × BoundValue)), MatchOf c e.2.value := by simp
    cases m with
    | anything => simp only [run]; exact places_found hc hv hnil
    | testRaise => simp only [run]; exact places_error
    | allOf ms =>
      simp only [run, accumulate]
      refine places_accum hc hv _ ?_ _ hnil _ _
      intro st hst ks
      obtain ⟨m, hmem, rfl⟩ := List.mem_map.1 hst
      rw [Matcher.noExternal, noExternalList_iff] at hm
      exact ih env m v ks (hm m hmem) he hv
    | anyOf ms =>
      simp only [run]
      split
      · exact places_error
      · rename_i fs hfs
        refine places_first _ ?_ _
        intro st hst ks
        obtain ⟨m, hmem, rfl⟩ := List.mem_map.1 hst
        have hmem' : m ∈ ms := by
          obtain ⟨p, hp, rfl⟩ := List.mem_map.1 (dispatch_mem (zip_nodup hfs) hmem)
          exact (List.of_mem_zip hp).1
        rw [Matcher.noExternal, noExternalList_iff] at hm
        exact ih env m v ks (hm m hmem') he hv
    | unlessM m =>
      simp only [run]
      split
      · exact places_error
      · exact places_found hc hv hnil
      · exact places_none
    | once key m =>
      simp only [run]
      split
      · exact places_accum hc hv _ (by simp) _ hnil _ _
      · refine places_accum hc hv _ ?_ _ hnil _ _
        intro st hst ks
        rw [List.mem_singleton] at hst
        subst hst
        have := ih env m v ks hm he hv
        intro mi ks' e
        simp only at e
        split at e
        · rename_i mi1 ks1 e1; cases e; exact this _ _ e1
        · rename_i hno; exact absurd e (by intro h; exact hno _ _ h)
    | bind name m oc om =>
      simp only [run]
      have := ih env m v ks hm he hv
      split
      · exact places_error
      · exact places_none
      · rename_i mi ks' e
        split
        · exact places_error
        · exact places_none
        · rename_i b hb
          intro mi' ks'' e'
          cases e'
          obtain ⟨h1, h2⟩ := this _ _ e
          exact ⟨h1, merge_values hb h2 (by intro e he; rw [List.mem_singleton.1 he]; exact h1)⟩
    | rebind m oc om =>
      simp only [run]
      have := ih env m v ks hm he hv
      split
      · exact places_error
      · exact places_none
      · rename_i mi ks' e
        intro mi' ks'' e'
        cases e'
        obtain ⟨h1, h2⟩ := this _ _ e
        refine ⟨h1, fun e he => ?_⟩
        obtain ⟨x, hx, rfl⟩ := List.mem_map.1 he
        exact h2 x hx
    | stringMatch s => simp only [run]; intro mi ks' e; cases e; exact ⟨.string, hnil⟩
    | withReplacements m rs =>
      simp only [run]
      have := ih env m v ks hm he hv
      split
      · exact places_error
      · exact places_none
      · rename_i mi ks' e
        split
        · exact places_error
        · obtain ⟨h1, h2⟩ := this _ _ e
          intro mi' ks'' e'; cases e'; exact ⟨h1, h2⟩
    | delegate m k => simp only [run]; exact ih env m v ks hm he hv
    | recWrapped i w =>
      simp only [run]
      rw [Matcher.noExternal, Bool.and_eq_true] at hm
      split
      · rename_i f f' hf hf'
        refine places_first _ ?_ _
        intro st hst ks
        obtain ⟨p, hmem, rfl⟩ := List.mem_map.1 hst
        have hn : ∀ p ∈ [((env, i), f), (((i, w) :: env, w), f')], ∀ s, p.2 = some s → s.Nodup := by
          intro p hp s hs
          simp only [List.mem_cons, List.not_mem_nil, or_false] at hp
          rcases hp with rfl | rfl
          · exact typeFilter_nodup _ _ _ _ (hf.trans (by rw [← hs]))
          · exact typeFilter_nodup _ _ _ _ (hf'.trans (by rw [← hs]))
        have := dispatch_mem hn hmem
        simp only [List.map_cons, List.map_nil, List.mem_cons, List.not_mem_nil, or_false] at this
        rcases this with rfl | rfl
        · exact ih env i v ks hm.1 he hv
        · refine ih ((i, w) :: env) w v ks hm.2 ?_ hv
          intro p hp
          rcases List.mem_cons.1 hp with rfl | hp
          · exact hm
          · exact he p hp
      · exact places_error
      · exact places_error
    | recurse k =>
      simp only [run]
      split
      · rename_i i w hk
        have hmem := List.mem_of_getElem? hk
        refine ih (env.drop (k + 1)) (.recWrapped i w) v ks ?_ ?_ hv
        · simpa [Matcher.noExternal] using he _ hmem
        · exact fun p hp => he p (List.mem_of_mem_drop hp)
      · exact places_none
    | equals w =>
      simp only [run]
      split
      · exact places_found hc hv hnil
      · exact places_none
    | typeIs ty =>
      simp only [run]
      split
      · exact places_found hc hv hnil
      · exact places_none
    | matchesRegex rx m =>
      simp only [run]
      have := ih env m v ks hm he hv
      split
      · exact places_error
      · exact places_none
      · rename_i mi ks' e
        obtain ⟨h1, h2⟩ := this _ _ e
        split
        · exact places_none
        · rename_i a b hsp
          have hin : InText c (a, b) := by
            generalize mi.obj = o at h1 hsp
            cases h1 <;> cases hsp <;> assumption
          split
          · exact places_none
          · rename_i g hg
            split
            · exact places_error
            · exact places_none
            · rename_i bs hbs
              intro mi' ks'' e'
              cases e'
              exact ⟨h1, merge_values hbs (places_regex fun l sp hl => hc.fullmatch rx a b g l sp hin hg hl) h2⟩
    | fileMatchesRegex rx =>
      simp only [run]
      split
      · exact places_none
      · rename_i g hg
        intro mi ks' e; cases e
        exact ⟨.nothing, places_regex fun l sp hl => hc.search rx g l sp hg hl⟩
    | hasItem i m =>
      simp only [run]
      split
      · exact places_none
      · rename_i w hw
        exact places_rewrap hc hv (ih env m w ks hm he (ofFile_item hv hw))
    | itemsAre ms =>
      simp only [run, accumulate]
      refine places_accum hc hv _ ?_ _ hnil _ _
      intro st hst ks
      rw [Matcher.noExternal, noExternalList_iff] at hm
      rcases List.mem_cons.1 hst with rfl | hst
      · exact ih env (.unlessM (.hasItem ms.length .anything)) v ks rfl he hv
      · obtain ⟨p, hp, rfl⟩ := List.mem_map.1 hst
        have hmem : p.2 ∈ ms := by
          have : ∀ (ms : List Matcher) (i : Nat), ∀ p ∈ enumFrom i ms, p.2 ∈ ms := by
            intro ms
            induction ms with
            | nil => intro i p hp; simp [enumFrom] at hp
            | cons a ms ih =>
              intro i p hp
              rw [enumFrom] at hp
              rcases List.mem_cons.1 hp with rfl | hp
              · simp
              · exact List.mem_cons_of_mem _ (ih _ p hp)
          exact this ms 0 p hp
        exact ih env (.hasItem p.1 p.2) v ks (by rw [Matcher.noExternal]; exact hm _ hmem) he hv
    | contains m =>
      simp only [run]
      split
      · exact places_none
      · rename_i vs hvs
        refine places_rewrap hc hv (places_first _ ?_ _)
        intro st hst ks
        obtain ⟨w, hw, rfl⟩ := List.mem_map.1 hst
        exact ih env m w ks hm he (ofFile_items hv hvs w hw)
    | inLines ls =>
      simp only [run]
      split
      · split
        · split
          · exact places_found hc hv hnil
          · exact places_none
        · exact places_none
      · exact places_none
    | node ty names ms =>
      simp only [run, accumulate]
      split
      · exact places_none
      · refine places_accum hc hv _ ?_ _ hnil _ _
        intro st hst ks
        obtain ⟨p, hp, rfl⟩ := List.mem_map.1 hst
        rw [Matcher.noExternal, noExternalList_iff] at hm
        exact ih env p.2 _ ks (hm _ (List.of_mem_zip hp).2) he (ofFile_getattr hv _)
    | constant tys m =>
      simp only [run]
      split
      · exact places_none
      · split
        · exact places_none
        · exact places_rewrap hc hv (ih env m _ ks hm he (ofFile_getattr hv _))
    | hasParent m =>
      simp only [run]
      split
      · exact places_none
      · rename_i p hp
        exact places_rewrap hc hv (ih env m p ks hm he (ofFile_parent hp))
    | hasChild m =>
      simp only [run]
      refine places_rewrap hc hv (places_first _ ?_ _)
      intro st hst ks
      obtain ⟨w, hw, rfl⟩ := List.mem_map.1 hst
      exact ih env m w ks hm he (ofFile_child hv hw)
    | hasFirstAncestor a b =>
      simp only [run]
      rw [Matcher.noExternal, Bool.and_eq_true] at hm
      have hclimb := places_climb (c := c) (first := run c n env a) (fun w ks hw => ih env a w ks hm.1 he hw) (c.tree.size + 1) v ks
      split
      · exact places_error
      · exact places_none
      · rename_i mi ks' e
        obtain ⟨h1, h2⟩ := hclimb _ _ e
        split
        · exact places_error
        · rename_i w hw
          have hof : OfFile c w := by
            generalize mi.obj = o at h1 hw
            cases h1 <;> cases hw <;> assumption
          have h3 := ih env b w ks' hm.2 he hof
          split
          · exact places_error
          · exact places_none
          · rename_i mi' ks'' e'
            split
            · exact places_error
            · exact places_error
            · rename_i bs hbs
              exact places_found hc hv (merge_values hbs h2 (h3 _ _ e').2)
    | hasPrevSibling m =>
      simp only [run]
      split
      · exact places_none
      · rename_i s hs
        split
        · exact ih env m _ ks hm he (ofFile_prev hs)
        · exact places_none
    | hasNextSibling m =>
      simp only [run]
      split
      · exact places_none
      · rename_i s hs
        split
        · exact ih env m _ ks hm he (ofFile_next hs)
        · exact places_none
    | withTopLevelImport m a b =>
      simp only [run]
      split
      · exact ih env m v ks hm he hv
      · exact places_none
    | comments want m =>
      simp only [run]
      have := ih env m v ks hm he hv
      split
      · exact places_error
      · exact places_none
      · rename_i mi ks' e
        split
        · split
          · intro mi' ks'' e'; cases e'; exact this _ _ e
          · exact places_none
        · exact places_error
    | rewriteFile pre cmd => simp [Matcher.noExternal] at hm

end

/-- **C95**: what a matcher without external commands matches and binds in a file is of the file: its objects are objects of the file, at the
place of their tokens; its texts are stretches of the text of the file. -/
theorem C95_places {c : Ctx} (hc : FileFits c) {m : Matcher} (hm : m.noExternal = true) {p : Path} {v : Val} (hv : c.tree.at? p = some v) {n : Nat} {ks ks' : List Key}
    {mi : MatchInfo} (h : run c n [] m v ks = .ok (some mi, ks')) :
    MatchOf c mi.obj ∧ ∀ l b, mi.bindings.get? l = some b → MatchOf c b.value := by
  obtain ⟨h1, h2⟩ := run_places hc n [] m v ks hm (by simp) (.part hv) mi ks' h
  exact ⟨h1, fun l b hb => h2 _ (Dict.get?_some_mem hb)⟩

/-- What has a place is in the text, and a text is the text there. -/
theorem C95_span {c : Ctx} {o : MObj} (h : MatchOf c o) : ∀ sp, o.span? = some sp → InText c sp ∧ ∀ s, o = .span s (some sp) → s = slice c.text sp.1 sp.2 := by
  intro sp hsp
  cases h with
  | node _ _ h => cases hsp; exact ⟨h, fun s hs => by cases hs⟩
  | object => cases hsp
  | string => cases hsp
  | text h => cases hsp; exact ⟨h, fun s hs => by cases hs; rfl⟩
  | absent => cases hsp
  | nothing => cases hsp

end Refex
