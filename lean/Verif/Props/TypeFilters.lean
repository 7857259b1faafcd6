import Verif.Spec.Combinators
import Verif.Props.MatcherVars
/- C39 type filters, C40 AnyOf, C41 AllOf and Unless. -/
namespace Refex
set_option autoImplicit false

theorem accumLoop_iff (c : Ctx) (v : Val) (steps : List (List Key → MOut)) (b : Bindings) (r : Replacements)
    (ks ks' : List Key) (mi : MatchInfo) :
    accumLoop c v steps b r ks = .ok (some mi, ks') ↔
      ∃ mis, AllHit steps ks mis ks' ∧ mi.obj = createMatch c v ∧
        MergeAll b (mis.map (·.bindings)) mi.bindings ∧ MergeAllRepl r (mis.map (·.replacements)) mi.replacements := by
  induction steps generalizing b r ks with
  | nil =>
    constructor
    · intro h; cases h; exact ⟨[], .nil, rfl, .nil, .nil⟩
    · rintro ⟨mis, h1, h2, h3, h4⟩
      cases h1
      obtain ⟨o, bs, rs⟩ := mi
      cases h3; cases h4; cases h2; rfl
  | cons st steps ih =>
    rw [accumLoop]
    constructor
    · intro h
      split at h
      · cases h
      · cases h
      · rename_i mi1 ks1 e1
        split at h
        · cases h
        · cases h
        · rename_i b1 hb
          split at h
          · cases h
          · rename_i r1 hr
            obtain ⟨mis, h1, h2, h3, h4⟩ := (ih _ _ _).1 h
            exact ⟨mi1 :: mis, .cons e1 h1, h2, .cons hb h3, .cons hr h4⟩
    · rintro ⟨mis, h1, h2, h3, h4⟩
      cases h1 with
      | cons hh ht =>
        cases h3 with
        | cons hb h3 =>
          cases h4 with
          | cons hr h4 =>
            unfold Hits at hh
            rw [hh]
            simp only
            rw [hb]
            simp only
            rw [hr]
            exact (ih _ _ _).2 ⟨_, ht, h2, h3, h4⟩

theorem AllHit.mem {steps : List (List Key → MOut)} {ks ks' : List Key} {mis : List MatchInfo}
    (h : AllHit steps ks mis ks') : ∀ f ∈ steps, ∃ ks mi ks', Hits f ks mi ks' := by
  induction h with
  | nil => simp
  | cons hh _ ih =>
    intro f hf
    rcases List.mem_cons.1 hf with rfl | hf
    · exact ⟨_, _, _, hh⟩
    · exact ih f hf

/-- **C39**: if the `type_filter` of a matcher does not contain the candidate's type, the matcher does not match the
candidate: in no state, at no recursion depth, in no file. -/
theorem C39_type_filter_sound (c : Ctx) (n n' : Nat) (env : Env) (m : Matcher) (f : TypeFilter) (v : Val)
    (hf : typeFilter n' env m = .ok f) (ha : admits f v.ty = false) : NeverHits (run c n env m v) := by
  induction n generalizing n' env m f v with
  | zero => intro ks mi ks' h; simp [Hits, run] at h
  | succ n ih =>
    cases n' with
    | zero => simp [typeFilter] at hf
    | succ n' =>
      intro ks mi ks' h
      unfold Hits at h
      have triv : f = none → False := by intro h; rw [h] at ha; simp [admits] at ha
      cases m <;> simp only [typeFilter] at hf
      case allOf ms =>
        simp only [run, accumulate] at h
        cases hm : ms.mapM (typeFilter n' env) with
        | error e => rw [hm] at hf; cases hf
        | ok fs =>
          rw [hm] at hf; cases hf
          rw [allOfFilter_admits, List.all_eq_false] at ha
          obtain ⟨g, hg, hrej⟩ := ha
          obtain ⟨m, hmem, e⟩ := mapM_mem_right hm g hg
          obtain ⟨mis, h1, _⟩ := (accumLoop_iff _ _ _ _ _ _ _ _).1 h
          obtain ⟨ks1, mi1, ks2, hh⟩ := h1.mem (run c n env m v) (List.mem_map.2 ⟨m, hmem, rfl⟩)
          exact ih n' env m g v e (by simpa using hrej) ks1 mi1 ks2 hh
      case anyOf ms =>
        simp only [run] at h
        cases hm : ms.mapM (typeFilter n' env) with
        | error e => rw [hm] at hf; cases hf
        | ok fs =>
          rw [hm] at hf; cases hf
          split at h
          · cases h
          · rename_i fs' hfs'
            obtain ⟨st, hst, ks0, e⟩ := firstMatch_some h
            obtain ⟨m, hmem, rfl⟩ := List.mem_map.1 hst
            obtain ⟨p, hp, rfl⟩ := List.mem_map.1 (dispatch_mem (zip_nodup hfs') hmem)
            have hpm := (List.of_mem_zip hp).1
            have hlen := (mapM_except_ok hm).1
            obtain ⟨i, hi, hie⟩ := List.getElem_of_mem hpm
            have hi' : i < fs.length := by omega
            have hz : (p.1, fs[i]) ∈ ms.zip fs := by
              have hl : i < (ms.zip fs).length := by rw [List.length_zip]; omega
              have := List.getElem_mem hl
              rw [List.getElem_zip, hie] at this
              exact this
            exact ih n' env p.1 fs[i] v ((mapM_except_ok hm).2 _ hz)
              (anyOfFilter_rejects ha _ (List.getElem_mem hi')) ks0 mi ks' e
      case recWrapped i w =>
        simp only [run] at h
        cases hi : typeFilter n' env i with
        | error e => rw [hi] at hf; cases hf
        | ok g =>
          cases hw : typeFilter n' ((i, w) :: env) w with
          | error e => rw [hi, hw] at hf; cases hf
          | ok g' =>
            rw [hi, hw] at hf
            simp only [bind, Except.bind, pure, Except.pure, Except.ok.injEq] at hf
            subst hf
            have hr := anyOfFilter_rejects ha
            split at h
            · rename_i f1 f2 hf1 hf2
              obtain ⟨st, hst, ks0, e⟩ := firstMatch_some h
              obtain ⟨p, hmem, rfl⟩ := List.mem_map.1 hst
              have hn : ∀ p ∈ [((env, i), f1), (((i, w) :: env, w), f2)], ∀ s, p.2 = some s → s.Nodup := by
                intro p hp s hs
                simp only [List.mem_cons, List.not_mem_nil, or_false] at hp
                rcases hp with rfl | rfl
                · exact typeFilter_nodup _ _ _ _ (hf1.trans (by rw [← hs]))
                · exact typeFilter_nodup _ _ _ _ (hf2.trans (by rw [← hs]))
              have hm := dispatch_mem hn hmem
              simp only [List.map_cons, List.map_nil, List.mem_cons, List.not_mem_nil, or_false] at hm
              rcases hm with rfl | rfl
              · exact ih n' env i g v hi (hr g (by simp)) ks0 mi ks' e
              · exact ih n' _ w g' v hw (hr g' (by simp)) ks0 mi ks' e
            · cases h
            · cases h
      case recurse k =>
        simp only [run] at h
        split at hf
        · rename_i i w hk
          rw [hk] at h
          exact ih n' _ _ f v hf ha ks mi ks' h
        · cases hf; exact triv rfl
      case bind name m oc om =>
        simp only [run] at h
        split at h
        · cases h
        · cases h
        · rename_i mi1 ks1 e
          exact ih n' env m f v hf ha ks mi1 ks1 e
      case rebind m oc om =>
        simp only [run] at h
        split at h
        · cases h
        · cases h
        · rename_i mi1 ks1 e
          exact ih n' env m f v hf ha ks mi1 ks1 e
      case withReplacements m rs =>
        simp only [run] at h
        split at h
        · cases h
        · cases h
        · rename_i mi1 ks1 e
          exact ih n' env m f v hf ha ks mi1 ks1 e
      case delegate m keep =>
        simp only [run] at h
        split at hf
        · exact ih n' env m f v hf ha ks mi ks' h
        · cases hf; exact triv rfl
      case typeIs ty =>
        simp only [run] at h
        cases hf
        simp only [admits, List.mem_singleton, decide_eq_false_iff_not] at ha
        rw [if_neg ha] at h; cases h
      case node ty ns ms =>
        simp only [run] at h
        cases hf
        simp only [admits, List.mem_singleton, decide_eq_false_iff_not] at ha
        rw [if_pos ha] at h; cases h
      case constant tys m =>
        simp only [run] at h
        cases hf
        simp only [admits, List.mem_singleton, decide_eq_false_iff_not] at ha
        rw [if_pos ha] at h; cases h
      case withTopLevelImport m a b =>
        simp only [run] at h
        split at h
        · exact ih n' env m f v hf ha ks mi ks' h
        · cases h
      case comments want m =>
        simp only [run] at h
        split at h
        · cases h
        · cases h
        · rename_i mi1 ks1 e
          exact ih n' env m f v hf ha ks mi1 ks1 e
      all_goals (cases hf; exact triv rfl)

/-- A string leaf. -/
def exStr : Val := .const 7 (.str (str "s"))

/-- Non-vacuity: a filtered matcher and a candidate outside of the filter, with a nested AnyOf/AllOf. -/
example : typeFilter 3 [] (.anyOf [.allOf [.anything, .typeIs (str "Name")], .node (str "Call") [] []]) =
      .ok (some [str "Name", str "Call"]) ∧ admits (some [str "Name", str "Call"]) exStr.ty = false := by
  decide

theorem firstMatch_quiet_cons {f : List Key → MOut} {fs : List (List Key → MOut)} {ks : List Key} :
    firstMatch (f :: fs) ks = match f ks with
      | .error e => .error e
      | .ok (none, ks) => firstMatch fs ks
      | .ok (some mi, ks) => .ok (some mi, ks) := rfl

/-- What the code computes: the alternatives whose type filter admits the candidate, in order. -/
theorem run_anyOf {c : Ctx} {n : Nat} {env : Env} {ms : List Matcher} {v : Val} {ks : List Key} {fs : List TypeFilter}
    (hfs : ms.mapM (typeFilter n env) = .ok fs) :
    run c (n + 1) env (.anyOf ms) v ks =
      firstMatch (((ms.zip fs).filter (fun p => admits p.2 v.ty)).map fun p => run c n env p.1 v) ks := by
  simp only [run, hfs]
  rw [dispatch_eq _ (zip_nodup hfs), List.map_map]
  rfl

theorem firstHit_of_filtered {c : Ctx} {n : Nat} {env : Env} {v : Val} (l : List (Matcher × TypeFilter))
    (hl : ∀ p ∈ l, typeFilter n env p.1 = .ok p.2) (ks ks' : List Key) :
    (∀ mi, firstMatch ((l.filter (fun p => admits p.2 v.ty)).map fun p => run c n env p.1 v) ks = .ok (some mi, ks') →
      FirstHit (l.map fun p => run c n env p.1 v) ks mi ks') ∧
    (firstMatch ((l.filter (fun p => admits p.2 v.ty)).map fun p => run c n env p.1 v) ks = .ok (none, ks') →
      AllMiss (l.map fun p => run c n env p.1 v) ks ks') := by
  induction l generalizing ks with
  | nil => exact ⟨fun mi h => by simp [firstMatch] at h, fun h => by simp [firstMatch] at h; subst h; exact .nil⟩
  | cons p l ih =>
    rw [List.filter_cons]
    cases ha : admits p.2 v.ty with
    | false =>
      have hn := C39_type_filter_sound c n n env p.1 p.2 v (hl p (by simp)) ha
      have ih' := ih (fun q hq => hl q (by simp [hq])) ks
      exact ⟨fun mi h => .never hn (ih'.1 mi (by simpa using h)), fun h => .never hn (ih'.2 (by simpa using h))⟩
    | true =>
      simp only [if_true, List.map_cons, firstMatch]
      refine ⟨fun mi h => ?_, fun h => ?_⟩
      · split at h
        · cases h
        · rename_i ks1 e
          exact .miss e ((ih (fun q hq => hl q (by simp [hq])) ks1).1 mi h)
        · rename_i e; cases h; exact .hit e
      · split at h
        · cases h
        · rename_i ks1 e
          exact .miss e ((ih (fun q hq => hl q (by simp [hq])) ks1).2 h)
        · cases h

theorem zip_map_fst {α β : Type} (l : List α) (r : List β) (h : r.length = l.length) {γ : Type} (f : α → γ) :
    (l.zip r).map (fun p => f p.1) = l.map f := by
  induction l generalizing r with
  | nil => simp
  | cons a l ih =>
    cases r with
    | nil => simp at h
    | cons b r => simp [ih r (by simpa using h)]

/-- **C40**: when `AnyOf` matches, its result is that of the first alternative that matches, and when it does not, no
alternative does: the dispatch by type only leaves out alternatives that can never match the candidate.
For all matchers, with whatever state and effects. -/
theorem C40_anyOf_first (c : Ctx) (n : Nat) (env : Env) (ms : List Matcher) (v : Val) (ks ks' : List Key) :
    (∀ mi, run c (n + 1) env (.anyOf ms) v ks = .ok (some mi, ks') →
      FirstHit (ms.map fun m => run c n env m v) ks mi ks') ∧
    (run c (n + 1) env (.anyOf ms) v ks = .ok (none, ks') → AllMiss (ms.map fun m => run c n env m v) ks ks') := by
  cases hm : ms.mapM (typeFilter n env) with
  | error e => simp [run, hm]
  | ok fs =>
    rw [run_anyOf hm]
    obtain ⟨h1, h2⟩ := mapM_except_ok hm
    rw [← zip_map_fst ms fs h1 (fun m => run c n env m v)]
    exact firstHit_of_filtered _ h2 ks ks'

/-- **C40** (for alternatives that raise no exception and use no `Once` on this candidate): `AnyOf` matches
iff some alternative does, with the result of the first such one. -/
theorem C40_anyOf_iff (c : Ctx) (n : Nat) (env : Env) (ms : List Matcher) (v : Val) (ks : List Key)
    (hf : ∃ fs, ms.mapM (typeFilter n env) = .ok fs) (hq : ∀ m ∈ ms, Quiet (run c n env m v)) :
    (∀ mi, run c (n + 1) env (.anyOf ms) v ks = .ok (some mi, ks) ↔
      ∃ pre m post, ms = pre ++ m :: post ∧ (∀ p ∈ pre, Misses (run c n env p v) ks ks) ∧
        Hits (run c n env m v) ks mi ks) ∧
    (run c (n + 1) env (.anyOf ms) v ks = .ok (none, ks) ↔ ∀ m ∈ ms, Misses (run c n env m v) ks ks) := by
  obtain ⟨fs, hm⟩ := hf
  rw [run_anyOf hm]
  obtain ⟨h1, h2⟩ := mapM_except_ok hm
  -- under quietness the filter can be dropped
  have hdrop : ∀ (l : List (Matcher × TypeFilter)), (∀ p ∈ l, typeFilter n env p.1 = .ok p.2) →
      (∀ p ∈ l, Quiet (run c n env p.1 v)) →
      firstMatch ((l.filter (fun p => admits p.2 v.ty)).map fun p => run c n env p.1 v) ks =
        firstMatch (l.map fun p => run c n env p.1 v) ks := by
    intro l
    induction l with
    | nil => intros; rfl
    | cons p l ih =>
      intro hl hql
      have ih' := ih (fun q hq => hl q (by simp [hq])) (fun q hq => hql q (by simp [hq]))
      obtain ⟨r, hr⟩ := hql p (by simp) ks
      rw [List.filter_cons]
      cases ha : admits p.2 v.ty with
      | false =>
        have hn := C39_type_filter_sound c n n env p.1 p.2 v (hl p (by simp)) ha
        have hr' : r = none := by
          cases r with
          | none => rfl
          | some mi => exact absurd hr (hn ks mi ks)
        subst hr'
        simp only [Bool.false_eq_true, if_false, List.map_cons, firstMatch, hr]
        exact ih'
      | true =>
        simp only [if_true, List.map_cons, firstMatch, hr]
        cases r with
        | none => exact ih'
        | some mi => rfl
  rw [hdrop _ h2 (fun p hp => hq p.1 (List.of_mem_zip hp).1),
    zip_map_fst ms fs h1 (fun m => run c n env m v)]
  clear hdrop h1 h2 hm
  induction ms with
  | nil => simp [firstMatch]
  | cons m ms ih =>
    obtain ⟨r, hr⟩ := hq m (by simp) ks
    obtain ⟨ih1, ih2⟩ := ih (fun m' h => hq m' (by simp [h]))
    simp only [List.map_cons, firstMatch, hr]
    cases r with
    | some mi0 =>
      refine ⟨fun mi => ⟨fun h => ?_, ?_⟩, ?_⟩
      · cases h; exact ⟨[], m, ms, rfl, by simp, hr⟩
      · rintro ⟨pre, m', post, he, hmiss, hhit⟩
        cases pre with
        | nil =>
          simp only [List.nil_append, List.cons.injEq] at he
          obtain ⟨rfl, rfl⟩ := he
          unfold Hits at hhit
          rw [hr] at hhit; exact hhit
        | cons p pre =>
          simp only [List.cons_append, List.cons.injEq] at he
          have := hmiss p (by simp)
          rw [← he.1] at this
          unfold Misses at this; rw [hr] at this; cases this
      · refine ⟨fun h => (by cases h), fun h => ?_⟩
        have := h m (by simp)
        unfold Misses at this; rw [hr] at this; cases this
    | none =>
      simp only
      refine ⟨fun mi => ?_, ?_⟩
      · rw [ih1 mi]
        constructor
        · rintro ⟨pre, m', post, rfl, hmiss, hhit⟩
          refine ⟨m :: pre, m', post, rfl, ?_, hhit⟩
          intro p hp
          rcases List.mem_cons.1 hp with rfl | hp
          · exact hr
          · exact hmiss p hp
        · rintro ⟨pre, m', post, he, hmiss, hhit⟩
          cases pre with
          | nil =>
            simp only [List.nil_append, List.cons.injEq] at he
            unfold Hits at hhit
            rw [← he.1, hr] at hhit; cases hhit
          | cons p pre =>
            simp only [List.cons_append, List.cons.injEq] at he
            exact ⟨pre, m', post, he.2, fun q hq => hmiss q (by simp [hq]), hhit⟩
      · rw [ih2]
        constructor
        · intro h m' hm'
          rcases List.mem_cons.1 hm' with rfl | hm'
          · exact hr
          · exact h m' hm'
        · exact fun h m' hm' => h m' (by simp [hm'])

/-- Two binds of `x` with the policy ERROR and a type test that fails. -/
def exErring : Matcher :=
  .allOf [.bind (str "x") .anything (some .error) none, .bind (str "x") .anything (some .error) none, .typeIs (str "int")]

/-- **C40**, refutation of the unrestricted reading: an alternative that raises `MatchError` on the candidate when tried
is left out by its type filter, so `AnyOf` returns a later result where trying in order would have raised. -/
theorem C40_skips_errors_false :
    run exCtx 3 [] exErring exStr [] = .error .matchError ∧
    ∃ mi, run exCtx 4 [] (.anyOf [exErring, .anything]) exStr [] = .ok (some mi, []) := by
  exact ⟨by rfl, _, rfl⟩

/-- Non-vacuity of C40: the second alternative of three matches first, a typed one being left out. -/
example : ∃ mi, run exCtx 3 [] (.anyOf [.typeIs (str "int"), .bind (str "a") (.typeIs (str "str")) none none, .anything]) exStr [] =
    .ok (some mi, []) ∧ mi.bindings.keys = [str "a"] := ⟨_, rfl, by decide⟩

/-- **C41**: `AllOf` matches iff every condition matches the candidate in turn and all their bindings and replacements
merge; the result is the candidate itself with the merged bindings. -/
theorem C41_allOf_iff (c : Ctx) (n : Nat) (env : Env) (ms : List Matcher) (v : Val) (ks ks' : List Key) (mi : MatchInfo) :
    run c (n + 1) env (.allOf ms) v ks = .ok (some mi, ks') ↔
      ∃ mis, AllHit (ms.map fun m => run c n env m v) ks mis ks' ∧ mi.obj = createMatch c v ∧
        MergeAll [] (mis.map (·.bindings)) mi.bindings ∧
        MergeAllRepl [] (mis.map (·.replacements)) mi.replacements := by
  simp only [run, accumulate]
  exact accumLoop_iff _ _ _ _ _ _ _ _

/-- **C41**: one failing condition fails the whole (unless an earlier one raised or failed to merge by raising). -/
theorem C41_allOf_fails (c : Ctx) (n : Nat) (env : Env) (ms : List Matcher) (v : Val) (ks : List Key) (m : Matcher)
    (hm : m ∈ ms) (h : NeverHits (run c n env m v)) : NeverHits (run c (n + 1) env (.allOf ms) v) := by
  intro ks mi ks' hh
  obtain ⟨mis, h1, _⟩ := (C41_allOf_iff c n env ms v ks ks' mi).1 hh
  obtain ⟨a, b, d, e⟩ := h1.mem _ (List.mem_map.2 ⟨m, hm, rfl⟩)
  exact h a b d e

/-- **C41**: `Unless(m)` matches iff `m` does not; it is the candidate itself and binds and replaces nothing. -/
theorem C41_unless_iff (c : Ctx) (n : Nat) (env : Env) (m : Matcher) (v : Val) (ks ks' : List Key) :
    (∀ mi, Hits (run c (n + 1) env (.unlessM m) v) ks mi ks' ↔
      Misses (run c n env m v) ks ks' ∧ mi = ⟨createMatch c v, [], []⟩) ∧
    (Misses (run c (n + 1) env (.unlessM m) v) ks ks' ↔ ∃ mi, Hits (run c n env m v) ks mi ks') := by
  unfold Hits Misses
  simp only [run]
  cases h : run c n env m v ks with
  | error e => simp
  | ok r =>
    obtain ⟨r, ks1⟩ := r
    cases r with
    | none =>
      simp only [found, Except.ok.injEq, Prod.mk.injEq, Option.some.injEq, reduceCtorEq, false_and, exists_const, true_and,
        iff_self, and_true]
      exact ⟨fun mi => ⟨fun h => ⟨h.2, h.1.symm⟩, fun h => ⟨h.2.symm, h.1⟩⟩, by simp⟩
    | some mi => simp

/-- Non-vacuity of C41: two conditions binding different names, merged; and a pair that does not merge. -/
example : (∃ mi, run exCtx 3 [] (.allOf [.bind (str "a") .anything none none, .bind (str "b") (.typeIs (str "str")) none none]) exStr [] =
      .ok (some mi, []) ∧ mi.bindings.keys = [str "a", str "b"]) ∧
    run exCtx 3 [] (.allOf [.bind (str "a") .anything (some .skip) none, .bind (str "a") .anything (some .skip) none]) exStr [] =
      .ok (none, []) := ⟨⟨_, rfl, by decide⟩, rfl⟩

end Refex
