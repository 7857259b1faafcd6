import Verif.Props.NoTemplates
import Verif.Props.Find
import Verif.Props.Patterns
import Verif.Props.Rewriting
import Verif.Props.FirstAncestor
import Verif.Spec.PySearch
/-
Property C64: what a Python search reports.
-/
namespace Refex
set_option autoImplicit false

/-! ### The matcher of a searcher -/

theorem merge_single {b : Bindings} {l : Label} (bv : BoundValue) (h : b.get? l = none) :
    ∃ d, mergeBindings b [(l, bv)] = .ok (some d) ∧ d.WF ∧ ∀ k, d.get? k = if k = l then some bv else b.get? k := by
  have hk : ∀ k ∈ b.keys, k ≠ l := by
    intro k hk e
    obtain ⟨v, hv⟩ := Dict.mem_keys_iff.1 hk
    rw [e, h] at hv; cases hv
  have hhas : ∀ k, Dict.has [(l, bv)] k = true ↔ k = l := by
    intro k
    rw [Dict.has_iff]
    simp only [Dict.get?]
    by_cases e : l = k
    · simp [e]
    · simp [e, Ne.symm e]
  have e1 : b.keys.filter (fun k => Dict.has [(l, bv)] k) = [] := by
    rw [List.filter_eq_nil_iff]
    intro k hkm hh
    exact hk k hkm ((hhas k).1 hh)
  have e2 : b.keys.filter (fun k => !Dict.has [(l, bv)] k) = b.keys := by
    rw [List.filter_eq_self]
    intro k hkm
    have : Dict.has [(l, bv)] k = false := by
      cases hh : Dict.has [(l, bv)] k with
      | false => rfl
      | true => exact absurd ((hhas k).1 hh) (hk k hkm)
    rw [this]; rfl
  have e3 : (Dict.keys [(l, bv)]).filter (fun k => !b.has k) = [l] := by
    have : b.has l = false := by
      cases hh : b.has l with
      | false => rfl
      | true => obtain ⟨v, hv⟩ := Dict.has_iff.1 hh; rw [h] at hv; cases hv
    simp [Dict.keys, this]
  have he : mergeBindings b [(l, bv)] = .ok (some (updateFrom (updateFrom [] b b.keys) [(l, bv)] [l])) := by
    unfold mergeBindings mergeBindingsIn
    rw [e1, e2, e3]
    rfl
  refine ⟨_, he, mergeBindings_wf he, fun k => ?_⟩
  rw [get?_updateFrom, get?_updateFrom]
  by_cases e : k = l
  · subst e; simp [Dict.get?]
  · simp only [List.mem_singleton, e, false_and, if_false]
    split
    · rfl
    · rename_i hn
      cases hb : b.get? k with
      | none => rfl
      | some v => exact absurd ⟨Dict.mem_keys_iff.2 ⟨v, hb⟩, by rw [hb]; rfl⟩ hn

theorem foldl_set_append {β : Type} (rs acc : Dict Label β) (hw : rs.WF) (hd : ∀ k ∈ rs.keys, acc.get? k = none) :
    rs.foldl (fun d e => d.set e.1 e.2) acc = acc ++ rs := by
  induction rs generalizing acc with
  | nil => simp
  | cons e rs ih =>
    obtain ⟨k, v⟩ := e
    simp only [Dict.WF, Dict.keys, List.map_cons, List.nodup_cons] at hw
    have hset : ∀ acc : Dict Label β, acc.get? k = none → acc.set k v = acc ++ [(k, v)] := by
      intro acc
      induction acc with
      | nil => intro _; rfl
      | cons a acc iha =>
        obtain ⟨k', v'⟩ := a
        intro hn
        simp only [Dict.get?] at hn
        by_cases e : k' = k
        · simp [e] at hn
        · simp only [e, if_false] at hn
          simp only [Dict.set, e, if_false, List.cons_append]
          rw [iha hn]
    have hk := hd k (by simp [Dict.keys])
    rw [List.foldl_cons, hset acc hk, ih _ hw.2]
    · simp
    · intro k' hk'
      have hne : k ≠ k' := fun e => hw.1 (e ▸ hk')
      have : acc.get? k' = none := hd k' (by simp only [Dict.keys, List.map_cons]; exact List.mem_cons_of_mem _ hk')
      clear ih hd hset hk hw hk'
      induction acc with
      | nil => simp [Dict.get?, hne]
      | cons a acc iha =>
        obtain ⟨x, y⟩ := a
        simp only [Dict.get?] at this
        by_cases e : x = k'
        · simp [e] at this
        · simp only [e, if_false] at this
          simp only [List.cons_append, Dict.get?, e, if_false]
          exact iha this

theorem mergeReplacements_nil_wf {ts : Replacements} (hw : ts.WF) : mergeReplacements [] ts = .ok ts := by
  unfold mergeReplacements
  rw [if_neg (by simp [Dict.keys]), foldl_set_append ts [] hw (by intro k _; rfl)]
  rfl

/-- The match that a searcher made from a matcher sees. -/
def Decorated (ts : Replacements) (mi mi' : MatchInfo) : Prop :=
  mi'.obj = mi.obj ∧ mi'.replacements = ts ∧ mi'.bindings.WF ∧
    ∀ k, mi'.bindings.get? k = if k = str "__root" then some ⟨mi.obj, .merge, .keepLast⟩ else mi.bindings.get? k

theorem run_fromMatcher (c : Ctx) (n : Nat) {m : Matcher} {ts : Replacements} (hm : m.noTemplates = true)
    (hr : str "__root" ∉ m.bindVars c.rxGroups) (hw : ts.WF) (v : Val) (ks : List Key) :
    match run c n [] m v ks with
    | .error e => run c (n + 2) [] (fromMatcher m ts) v ks = .error e
    | .ok (none, ks') => run c (n + 2) [] (fromMatcher m ts) v ks = .ok (none, ks')
    | .ok (some mi, ks') => ∃ mi', run c (n + 2) [] (fromMatcher m ts) v ks = .ok (some mi', ks') ∧ Decorated ts mi mi' := by
  unfold fromMatcher
  cases e : run c n [] m v ks with
  | error e' => simp [run, e]
  | ok p =>
    obtain ⟨o, ks'⟩ := p
    cases o with
    | none => simp [run, e]
    | some mi =>
      have hbare := run_bare c n [] m v ks hm (by simp) mi ks' e
      have hun : mi.bindings.get? (str "__root") = none := by
        cases hg : mi.bindings.get? (str "__root") with
        | none => rfl
        | some b =>
          exact absurd (C38_bound_are_declared c n m (noTemplates_noExternal m hm) v ks ks' mi e _
            (Dict.mem_keys_iff.2 ⟨b, hg⟩)) hr
      obtain ⟨d, hd, hwf, hget⟩ := merge_single ⟨mi.obj, .merge, .keepLast⟩ hun
      refine ⟨{ mi with bindings := d, replacements := ts }, ?_, rfl, rfl, hwf, hget⟩
      simp only [run, e]
      simp only [Option.getD_none, hd, hbare, mergeReplacements_nil_wf hw]

theorem typeFilter_fromMatcher (n : Nat) (m : Matcher) (ts : Replacements) :
    typeFilter (n + 2) [] (fromMatcher m ts) = typeFilter n [] m := rfl

/-- How one attempt with the searcher's matcher relates to one with the matcher itself. -/
def SameAttempt (ts : Replacements) (a b : MOut) : Prop :=
  match a with
  | .error e => b = .error e
  | .ok (none, ks) => b = .ok (none, ks)
  | .ok (some mi, ks) => ∃ mi', b = .ok (some mi', ks) ∧ Decorated ts mi mi'

theorem attempt_fromMatcher (c : Ctx) (n : Nat) {m : Matcher} {ts : Replacements} (hm : m.noTemplates = true)
    (hr : str "__root" ∉ m.bindVars c.rxGroups) (hw : ts.WF) (done : List Key) (v : Val) :
    SameAttempt ts (attempt c n m done v) (attempt c (n + 2) (fromMatcher m ts) done v) := by
  unfold attempt
  rw [typeFilter_fromMatcher]
  cases typeFilter n [] m with
  | error e => exact rfl
  | ok f =>
    simp only
    split
    · exact run_fromMatcher { c with done := done } n hm hr hw v []
    · exact rfl

theorem findLoop_decorated {ts : Replacements} {att att' : List Key → Val → MOut} (h : ∀ d v, SameAttempt ts (att d v) (att' d v))
    (stack : List Val) (done : List Key) :
    Forall2 (Decorated ts) (findLoop att stack done).1 (findLoop att' stack done).1 ∧
      (findLoop att stack done).2 = (findLoop att' stack done).2 := by
  have H := fun v => h done v
  fun_induction findLoop att stack done with
  | case1 => unfold findLoop; exact ⟨.nil, rfl⟩
  | case2 done v rest e ih =>
    have := h done v; rw [e] at this; simp only [SameAttempt] at this
    rw [findLoop, this]; exact ih (fun v => h _ v)
  | case3 done v rest e hne hh =>
    have := h done v; rw [hh] at this; simp only [SameAttempt] at this
    rw [findLoop, this]
    cases e <;> first | exact ⟨.nil, rfl⟩ | exact absurd rfl hne
  | case4 done v rest mi ks e r ih =>
    have := h done v; rw [e] at this; simp only [SameAttempt] at this
    obtain ⟨mi', h1, h2⟩ := this
    rw [findLoop, h1]
    obtain ⟨i1, i2⟩ := ih (fun v => h _ v)
    exact ⟨.cons h2 i1, i2⟩
  | case5 done v rest ks e ih =>
    have := h done v; rw [e] at this; simp only [SameAttempt] at this
    rw [findLoop, this]; exact ih (fun v => h _ v)

/-! ### Sanitizing -/

theorem removeStmt_stmt {nav : Nav} {r r' : Removed} {id : Nat} {m m' : LexMatch} {t : Str}
    (h : removeStmt nav r id m = .ok (m', t, r')) : m'.stmt = m.stmt := by
  unfold removeStmt at h
  simp only at h
  split at h
  · cases h
  · split at h
    · cases h; rfl
    · cases h; rfl
    · cases h
      split
      · split
        · rfl
        · split <;> rfl
      · split
        · rfl
        · split <;> rfl

theorem sanitizeLoop_other {nav : Nav} (items : List (Str × Str)) : ∀ {dict d' : Dict Str LexMatch} {ts t' : Dict Str Str}
    {r r' : Removed}, sanitizeLoop nav items dict ts r = .ok (d', t', r') → ∀ l,
    ((dict.get? l = none ↔ d'.get? l = none) ∧
      ((∀ t, (l, t) ∈ items → t ≠ [] ∨ (dict.get? l).bind LexMatch.stmt = none) →
        d'.get? l = dict.get? l ∧ t'.get? l = ts.get? l)) := by
  induction items with
  | nil =>
    intro dict d' ts t' r r' h l
    simp only [sanitizeLoop, Except.ok.injEq, Prod.mk.injEq] at h
    obtain ⟨rfl, rfl, rfl⟩ := h
    simp
  | cons e items ih =>
    obtain ⟨key, t⟩ := e
    intro dict d' ts t' r r' h l
    have skip : sanitizeLoop nav items dict ts r = .ok (d', t', r') →
        ((dict.get? l = none ↔ d'.get? l = none) ∧
        ((∀ t', (l, t') ∈ (key, t) :: items → t' ≠ [] ∨ (dict.get? l).bind LexMatch.stmt = none) →
        d'.get? l = dict.get? l ∧ t'.get? l = ts.get? l)) := by
      intro h
      obtain ⟨i1, i2⟩ := ih h l
      exact ⟨i1, fun hh => i2 fun t' ht => hh t' (List.mem_cons_of_mem _ ht)⟩
    unfold sanitizeLoop at h
    split at h
    · exact skip h
    · rename_i m hm
      split at h
      · exact skip h
      · rename_i id hid
        split at h
        · exact skip h
        · rename_i ht
          split at h
          · cases h
          · rename_i m1 t1 r1 hrem
            have hst := removeStmt_stmt hrem
            obtain ⟨i1, i2⟩ := ih h l
            by_cases e : l = key
            · subst e
              constructor
              · rw [← i1, hm, Dict.get?_set]; simp
              · intro hh
                rcases hh t (by simp) with h1 | h1
                · exact absurd h1 ht
                · rw [hm] at h1; simp [hid] at h1
            · simp only [Dict.get?_set, if_neg e] at i1 i2
              exact ⟨i1, fun hh => i2 fun t' ht => hh t' (List.mem_cons_of_mem _ ht)⟩

/-! ### One report -/

theorem get?_map_name {α β : Type} (d : Dict Str α) (f : Str → α → β) (l : Str) :
    Dict.get? (d.map fun e => (MatchKey.name e.1, f e.1 e.2)) (.name l) = (d.get? l).map (f l) := by
  induction d with
  | nil => rfl
  | cons e d ih =>
    obtain ⟨k, v⟩ := e
    simp only [List.map_cons, Dict.get?, MatchKey.name.injEq]
    by_cases h : k = l
    · simp [h]
    · simp only [h, if_false]; exact ih

theorem get?_map_num {α β : Type} (d : Dict Str α) (f : Str → α → β) (n : Nat) :
    Dict.get? (d.map fun e => (MatchKey.name e.1, f e.1 e.2)) (.num n) = none := by
  induction d with
  | nil => rfl
  | cons e d ih => simp only [List.map_cons, Dict.get?, reduceCtorEq, if_false]; exact ih

theorem wf_map_name {α β : Type} {d : Dict Str α} (f : Str → α → β) (hw : d.WF) :
    Dict.WF (d.map fun e => (MatchKey.name e.1, f e.1 e.2)) := by
  unfold Dict.WF Dict.keys at *
  rw [List.map_map]
  have : (Prod.fst ∘ fun e : Str × α => (MatchKey.name e.1, f e.1 e.2)) = MatchKey.name ∘ Prod.fst := rfl
  rw [this, ← List.map_map]
  exact hw.map _ (fun a b h e => h (MatchKey.name.inj e))

theorem get?_mapVal {κ α β : Type} [DecidableEq κ] (d : Dict κ α) (f : α → β) (k : κ) :
    Dict.get? (d.map fun e => (e.1, f e.2)) k = (d.get? k).map f := by
  induction d with
  | nil => rfl
  | cons e d ih =>
    obtain ⟨k', v⟩ := e
    simp only [List.map_cons, Dict.get?]
    by_cases h : k' = k
    · simp [h]
    · simp only [h, if_false]; exact ih

theorem rewriteTemplates_error {ms : Dict MatchKey MatchV} {ts : Dict MatchKey Template} {e : Exc}
    (h : rewriteTemplates ms ts = .error e) :
    (∃ n t, (MatchKey.num n, t) ∈ ts) ∨ ∃ k t m, (k, t) ∈ ts ∧ AppliedTo ms k m ∧ t.substitute m ms = .error e := by
  induction ts with
  | nil => cases h
  | cons p ts ih =>
    obtain ⟨label, t⟩ := p
    have lift : rewriteTemplates ms ts = .error e → (∃ n t', (MatchKey.num n, t') ∈ (label, t) :: ts) ∨
        ∃ k t' m, (k, t') ∈ (label, t) :: ts ∧ AppliedTo ms k m ∧ t'.substitute m ms = .error e := by
      intro h
      rcases ih h with ⟨n, t', h1⟩ | ⟨k, t', m, h1, h2⟩
      · exact .inl ⟨n, t', List.mem_cons_of_mem _ h1⟩
      · exact .inr ⟨k, t', m, List.mem_cons_of_mem _ h1, h2⟩
    have mapErr : ∀ s, (rewriteTemplates ms ts).map ((label, s) :: ·) = .error e → rewriteTemplates ms ts = .error e := by
      intro s hs
      cases hr : rewriteTemplates ms ts with
      | error e' => rw [hr] at hs; exact hs
      | ok x => rw [hr] at hs; cases hs
    unfold rewriteTemplates at h
    split at h
    · rename_i m hm
      split at h
      · exact lift h
      · rename_i sp hsp
        split at h
        · rename_i e' he
          cases h
          exact .inr ⟨label, t, m, by simp, .inl ⟨hm, by rw [hsp]; simp⟩, he⟩
        · exact lift (mapErr _ h)
    · rename_i hm
      split at h
      · rename_i e' he
        cases label with
        | num n => exact .inl ⟨n, t, by simp⟩
        | name s =>
          unfold startsDunder at he
          split at he
          · cases he
          · cases he
          · rename_i hx; cases hx
      · exact lift h
      · rename_i hd
        split at h
        · rename_i e' he
          cases h
          exact .inr ⟨label, t, {}, by simp, .inr ⟨hm, startsDunder_true.1 hd, rfl⟩, he⟩
        · exact lift (mapErr _ h)

theorem appliedTo_name {ms : Dict MatchKey MatchV} {l : Label} {m : MatchV} : AppliedTo ms (.name l) m ↔ Applies ms l m := by
  unfold AppliedTo Applies IsMeta
  constructor
  · rintro (h | ⟨h1, ⟨r, h2⟩, h3⟩)
    · exact .inl h
    · exact .inr ⟨h1, h3, r, MatchKey.name.inj h2⟩
  · rintro (h | ⟨h1, h3, r, h2⟩)
    · exact .inl h
    · exact .inr ⟨h1, ⟨r, by rw [h2]⟩, h3⟩

section report
variable {c : Ctx} {tk : TokInfo} {env : Templates} {ts : Replacements} {mi mi' : MatchInfo}

theorem labelOf_decorated (hd : Decorated ts mi mi') (l : Label) : (mi'.bindings.get? l).map (·.value) = LabelOf mi l := by
  rw [hd.2.2.2 l]
  unfold LabelOf
  split <;> rfl

theorem lexMatchV_lexOf {o : MObj} {m : LexMatch} (h : lexOf tk o = some m) (text : Str) : lexMatchV text o m = matchVOf text o := by
  cases o with
  | lexical v sp => simp only [lexOf, Option.some.injEq] at h; subst h; rfl
  | _ => cases h

theorem offered_of_sanitize (hd : Decorated ts mi mi') (hw : ts.WF) {r r' : Removed} {lex' : Dict Str LexMatch} {texts' : Dict Str Str}
    (h : sanitizeLoop (navOfTree c tk) (mi'.replacements.map fun e => (e.1, env.text e.2))
      (mi'.bindings.filterMap fun e => (lexOf tk e.2.value).map fun m => (e.1, m))
      (mi'.replacements.map fun e => (e.1, env.text e.2)) r = .ok (lex', texts', r')) :
    Offered c env ts mi (matchDict c.text mi'.bindings lex') ∧
    ∀ l t, ts.get? l = some t → (templateDict env mi'.replacements texts').get? (.name l) = some (env.sem t) ∨
      RemovesStmt env ts mi l ∧ (templateDict env mi'.replacements texts').get? (.name l) = some env.pass := by
  have hrep := hd.2.1
  have hwb := hd.2.2.1
  have hlex : ∀ l, Dict.get? (mi'.bindings.filterMap fun e => (lexOf tk e.2.value).map fun m => (e.1, m)) l =
      (LabelOf mi l).bind (lexOf tk) := by
    intro l
    rw [get?_filterMap_val hwb (fun b : BoundValue => lexOf tk b.value), ← labelOf_decorated hd]
    cases mi'.bindings.get? l <;> rfl
  have htext : ∀ l, Dict.get? (mi'.replacements.map fun e => (e.1, env.text e.2)) l = (ts.get? l).map env.text := by
    intro l; rw [hrep]; exact get?_mapVal ts env.text l
  have hmem : ∀ l t, (l, t) ∈ (mi'.replacements.map fun e => (e.1, env.text e.2)) → ∃ code, ts.get? l = some code ∧ env.text code = t := by
    intro l t hm
    rw [hrep] at hm
    obtain ⟨e, he, hx⟩ := List.mem_map.1 hm
    cases hx
    exact ⟨e.2, Dict.get?_of_mem hw he, rfl⟩
  have hs := fun l => sanitizeLoop_other _ h l
  have hsame : ∀ l, ¬ RemovesStmt env ts mi l → lex'.get? l = (LabelOf mi l).bind (lexOf tk) ∧ texts'.get? l = (ts.get? l).map env.text := by
    intro l hn
    rw [← hlex, ← htext]
    refine (hs l).2 fun t ht => ?_
    obtain ⟨code, h1, h2⟩ := hmem l t ht
    by_cases e : t = []
    · right
      rw [hlex]
      cases ho : LabelOf mi l with
      | none => rfl
      | some o =>
        cases o with
        | lexical v sp =>
          by_cases hv : v.ty ∈ stmtTypes
          · exact absurd ⟨⟨code, h1, h2.trans e⟩, v, sp, ho, hv⟩ hn
          · simp [lexOf, hv]
        | _ => rfl
    · exact .inl e
  have hget : ∀ l, (matchDict c.text mi'.bindings lex').get? (.name l) = (mi'.bindings.get? l).map fun bv =>
      match lex'.get? l with
      | some m => lexMatchV c.text bv.value m
      | none => matchVOf c.text bv.value := by
    intro l
    unfold matchDict
    exact get?_map_name mi'.bindings (fun k (bv : BoundValue) => match lex'.get? k with
      | some m => lexMatchV c.text bv.value m
      | none => matchVOf c.text bv.value) l
  refine ⟨⟨?_, ?_, ?_, ?_⟩, ?_⟩
  · unfold matchDict
    exact wf_map_name (fun k (bv : BoundValue) => match Dict.get? lex' k with
      | some m => lexMatchV c.text bv.value m
      | none => matchVOf c.text bv.value) hwb
  · intro l hn
    rw [hget, (hsame l hn).1, ← labelOf_decorated hd]
    cases mi'.bindings.get? l with
    | none => rfl
    | some bv =>
      simp only [Option.map_some, Option.bind_some]
      cases hl : lexOf tk bv.value with
      | none => rfl
      | some m => simp only [lexMatchV_lexOf hl]
  · rintro l ⟨_, v, sp, h2, h3⟩
    have hne : lex'.get? l ≠ none := by
      intro e
      have := (hs l).1.2 e
      rw [hlex, h2] at this
      cases this
    rw [hget]
    have := labelOf_decorated hd l
    rw [h2] at this
    cases hb : mi'.bindings.get? l with
    | none => rw [hb] at this; cases this
    | some bv =>
      rw [hb] at this
      have hv : bv.value = .lexical v sp := Option.some.inj this
      cases hx : lex'.get? l with
      | none => exact absurd hx hne
      | some m => exact ⟨m.span, by rw [h2, Option.map_some]; simp only [lexMatchV, hv, Option.bind_some]⟩
  · intro n
    unfold matchDict
    exact get?_map_num mi'.bindings (fun k (bv : BoundValue) => match Dict.get? lex' k with
      | some m => lexMatchV c.text bv.value m
      | none => matchVOf c.text bv.value) n
  · intro l t ht
    have : (templateDict env mi'.replacements texts').get? (.name l) =
        some (if env.text t = [] ∧ texts'.get? l = some passTemplate then env.pass else env.sem t) := by
      unfold templateDict
      rw [hrep, get?_map_name ts (fun k code => if env.text code = [] ∧ texts'.get? k = some passTemplate then env.pass else env.sem code), ht]
      rfl
    rw [this]
    by_cases hr : RemovesStmt env ts mi l
    · split
      · exact .inr ⟨hr, rfl⟩
      · exact .inl rfl
    · left
      rw [if_neg]
      rintro ⟨h1, h2⟩
      rw [(hsame l hr).2, ht] at h2
      simp only [Option.map_some, h1] at h2
      cases h2

/-- Where the templates give what, in terms of the dict of templates handed on. -/
theorem gives_iff {ms : Dict MatchKey MatchV} {td : Dict MatchKey Template} (htd : td.WF)
    (hin : ∀ l t, ts.get? l = some t → td.get? (.name l) = some (env.sem t) ∨ RemovesStmt env ts mi l ∧ td.get? (.name l) = some env.pass)
    (hout : ∀ l, ts.get? l = none → td.get? (.name l) = none) {repl : Dict MatchKey Str} (hr : rewriteTemplates ms td = .ok repl)
    (l : Label) (hn : ¬ RemovesStmt env ts mi l) (s : Str) : repl.get? (.name l) = some s ↔ Gives env ts ms l s := by
  rw [(C19_right_labels ms td htd repl hr).1]
  unfold Gives
  constructor
  · rintro ⟨t, m, h1, h2, h3⟩
    cases hc : ts.get? l with
    | none => rw [hout l hc] at h1; cases h1
    | some code =>
      rcases hin l code hc with h4 | ⟨h4, _⟩
      · rw [h4] at h1; cases h1
        exact ⟨code, m, rfl, appliedTo_name.1 h2, h3⟩
      · exact absurd h4 hn
  · rintro ⟨code, m, hc, h2, h3⟩
    rcases hin l code hc with h4 | ⟨h4, _⟩
    · exact ⟨_, m, h4, appliedTo_name.2 h2, h3⟩
    · exact absurd h4 hn

theorem templateDict_wf (env : Templates) {rs : Replacements} (hw : rs.WF) (texts : Dict Str Str) : (templateDict env rs texts).WF := by
  unfold templateDict
  exact wf_map_name (fun k code => if env.text code = [] ∧ texts.get? k = some passTemplate then env.pass else env.sem code) hw

theorem templateDict_name (env : Templates) (rs : Replacements) (texts : Dict Str Str) (l : Label) (h : rs.get? l = none) :
    (templateDict env rs texts).get? (.name l) = none := by
  unfold templateDict
  rw [get?_map_name rs (fun k code => if env.text code = [] ∧ texts.get? k = some passTemplate then env.pass else env.sem code), h]
  rfl

theorem templateDict_num (env : Templates) (rs : Replacements) (texts : Dict Str Str) (n : Nat) :
    (templateDict env rs texts).get? (.num n) = none := by
  unfold templateDict
  exact get?_map_num rs (fun k code => if env.text code = [] ∧ texts.get? k = some passTemplate then env.pass else env.sem code) n

/-- Metadata labels cannot be removed statements: nothing is bound to them. -/
def Unlabelled (mi : MatchInfo) : Prop := ∀ l ∈ metadataLabels, mi.bindings.get? l = none

theorem unlabelled_removes (hu : Unlabelled mi) {l : Label} (hl : l ∈ metadataLabels) : ¬ RemovesStmt env ts mi l := by
  rintro ⟨_, v, sp, h, _⟩
  have hne : l ≠ str "__root" := by
    intro e; subst e; revert hl; decide
  unfold LabelOf at h
  rw [if_neg hne, hu l hl] at h
  cases h

theorem pyReport_spec (hd : Decorated ts mi mi') (hw : ts.WF) (hu : Unlabelled mi) {r r' : Removed} {o : Option Found}
    (h : pyReport c tk env mi' r = .ok (o, r')) :
    match o with
    | none => Refused c env ts mi
    | some f => Finding c env ts mi f ∧ keySpanOf c mi'.bindings = .ok f.keySpan := by
  unfold pyReport at h
  simp only at h
  split at h
  · cases h
  · rename_i lex' texts' r1 hs
    obtain ⟨ho, ht⟩ := offered_of_sanitize hd hw hs
    have hwr : mi'.replacements.WF := by rw [hd.2.1]; exact hw
    have hwf := templateDict_wf env hwr texts'
    have hout : ∀ l, ts.get? l = none → (templateDict env mi'.replacements texts').get? (.name l) = none := by
      intro l hl; exact templateDict_name env _ _ l (by rw [hd.2.1]; exact hl)
    split at h
    · rename_i he
      cases h
      rcases rewriteTemplates_error he with ⟨n, t, hm⟩ | ⟨k, t, m, hm, ha, hsub⟩
      · have := Dict.get?_of_mem hwf hm
        rw [templateDict_num] at this; cases this
      · have hg := Dict.get?_of_mem hwf hm
        cases k with
        | num n => rw [templateDict_num] at hg; cases hg
        | name l =>
          cases hc : ts.get? l with
          | none => rw [hout l hc] at hg; cases hg
          | some code =>
            refine ⟨_, l, code, m, ho, hc, appliedTo_name.1 ha, ?_⟩
            rcases ht l code hc with h4 | ⟨h4, h5⟩
            · rw [h4] at hg; cases hg; exact .inl hsub
            · rw [h5] at hg; cases hg; exact .inr ⟨h4, hsub⟩
    · cases h
    · rename_i repl hrepl
      split at h
      · cases h
      · rename_i ks hks
        split at h
        · cases h
        · rename_i f hf
          cases h
          obtain ⟨hrep, _⟩ := (buildFound_eq _ ho.wf repl ks).1 f hf
          have hgive := fun l hn s => gives_iff (mi := mi) hwf ht hout hrepl l hn s
          have hmeta : ∀ l, l ∈ metadataLabels → ∀ s, repl.get? (.name l) = some s ↔ Gives env ts _ l s :=
            fun l hl s => hgive l (unlabelled_removes hu hl) s
          refine ⟨⟨hrep.primary, ⟨_, ho, ?_, ?_, ?_, ?_, ?_, ?_, ?_, ?_⟩, buildFound_spans ho.wf hf⟩, by rw [hks, hrep.key]⟩
          · intro l
            cases hx : f.matchedSpans.get? (.name l) with
            | some sp =>
              obtain ⟨m, h1, h2⟩ := (hrep.spans _ sp).1 hx
              rw [h1]; exact h2.symm
            | none =>
              cases hy : (matchDict c.text mi'.bindings lex').get? (.name l) with
              | none => rfl
              | some m =>
                cases hz : m.span with
                | none => exact hz.symm
                | some sp => rw [(hrep.spans _ sp).2 ⟨m, hy, hz⟩] at hx; cases hx
          · intro n
            cases hx : f.matchedSpans.get? (.num n) with
            | none => rfl
            | some sp =>
              obtain ⟨m, h1, _⟩ := (hrep.spans _ sp).1 hx
              rw [ho.only n] at h1; cases h1
          · intro l s hn
            rw [hrep.edits, hgive l hn s]
            have : IsMetadataLabel (.name l) ↔ l ∈ metadataLabels := by
              simp [IsMetadataLabel, metadataLabels]
            rw [this]
            exact And.comm
          · intro n
            cases hx : f.replacements.get? (.num n) with
            | none => rfl
            | some s =>
              obtain ⟨h1, _⟩ := (hrep.edits _ s).1 hx
              obtain ⟨t, m, h2, _⟩ := ((C19_right_labels _ _ hwf repl hrepl).1 _ _).1 h1
              rw [templateDict_num] at h2; cases h2
          · intro s; rw [hrep.message]; exact hmeta _ (by decide) s
          · intro s; rw [hrep.url]; exact hmeta _ (by decide) s
          · intro s; rw [hrep.category]; exact hmeta _ (by decide) s
          · rw [hrep.significant]
            constructor
            · rintro ⟨s, h1, h2⟩; exact ⟨s, h2, (hmeta _ (by decide) s).1 h1⟩
            · rintro ⟨s, h2, h1⟩; exact ⟨s, (hmeta _ (by decide) s).2 h1, h2⟩

end report

theorem pyReports_spec {c : Ctx} {tk : TokInfo} {env : Templates} {ts : Replacements} (hw : ts.WF) {mis mis' : List MatchInfo}
    (hd : Forall2 (Decorated ts) mis mis') (hu : ∀ mi ∈ mis, Unlabelled mi) {r : Removed} {fs : List Found}
    (h : pyReports c tk env mis' r = .ok fs) :
    ∃ os : List (Option Found), fs = os.filterMap id ∧
      Forall2 (fun mi o => match o with
        | none => Refused c env ts mi
        | some f => Finding c env ts mi f) mis os ∧
      Forall2 (fun mi' o => ∀ f, o = some f → keySpanOf c mi'.bindings = .ok f.keySpan) mis' os := by
  induction hd generalizing r fs with
  | nil => cases h; exact ⟨[], rfl, .nil, .nil⟩
  | @cons mi mi' mis mis' hd _ ih =>
    unfold pyReports at h
    split at h
    · cases h
    · rename_i o r' ho
      cases hr : pyReports c tk env mis' r' with
      | error e => rw [hr] at h; cases h
      | ok fs' =>
        rw [hr] at h
        cases h
        obtain ⟨os, h1, h2, h3⟩ := ih (fun mi hmi => hu mi (List.mem_cons_of_mem _ hmi)) hr
        have hp := pyReport_spec hd hw (hu mi (by simp)) ho
        refine ⟨o :: os, ?_, .cons ?_ h2, .cons ?_ h3⟩
        · cases o <;> simp [h1]
        · cases o with
          | none => exact hp
          | some f => exact hp.1
        · intro f e; subst e; exact hp.2

/-! ### C64 -/

/-- A matcher as the user writes it: no templates of its own, and none of the reserved names bound. -/
structure Ordinary (c : Ctx) (m : Matcher) : Prop where
  noTemplates : m.noTemplates = true
  unreserved : ∀ l ∈ m.bindVars c.rxGroups, l ≠ str "__root" ∧ l ∉ metadataLabels

theorem outermost_unlabelled {c : Ctx} {n : Nat} {m : Matcher} (hm : Ordinary c m) {done : List Key} {v : Val} {mi : MatchInfo}
    {ks : List Key} (h : attempt c n m done v = .ok (some mi, ks)) : Unlabelled mi := by
  intro l hl
  unfold attempt at h
  split at h
  · cases h
  · split at h
    · cases hg : mi.bindings.get? l with
      | none => rfl
      | some b =>
        have := C38_bound_are_declared { c with done := done } n m (noTemplates_noExternal m hm.noTemplates) v [] ks mi h l
          (Dict.mem_keys_iff.2 ⟨b, hg⟩)
        exact absurd hl (hm.unreserved l this).2
    · cases h

theorem forall2_map_left {α β γ : Type} {R : α → β → Prop} {f : γ → α} {as : List γ} {bs : List β}
    (h : Forall2 R (as.map f) bs) : Forall2 (fun a b => R (f a) b) as bs := by
  generalize hx : as.map f = xs at h
  induction h generalizing as with
  | nil => cases as with
    | nil => exact .nil
    | cons a as => cases hx
  | cons hab _ ih =>
    cases as with
    | nil => cases hx
    | cons a as =>
      simp only [List.map_cons, List.cons.injEq] at hx
      obtain ⟨rfl, h2⟩ := hx
      exact .cons hab (ih h2)

theorem keySpan_located {c : Ctx} {b : Bindings} {k : Option Span} (hk : keySpanOf c b = .ok k) : ∀ sp, k = some sp → ∃ i, c.tok i = some sp := by
  intro sp hsp
  subst hsp
  unfold keySpanOf at hk
  split at hk
  · cases hk
  · split at hk
    · split at hk
      · cases hk
      · cases hk
      · exact ⟨_, Except.ok.inj hk⟩
    · cases hk

theorem keySpan_part {c : Ctx} (hun : Unshared c.tree) {ts : Replacements} {mi mi' : MatchInfo} {k : Option Span} (hd : Decorated ts mi mi')
    (hk : keySpanOf c mi'.bindings = .ok k) : PartOfFile c mi.obj k := by
  unfold keySpanOf at hk
  rw [hd.2.2.2 (str "__root"), if_pos rfl] at hk
  simp only at hk
  refine ⟨fun sp hsp => ?_, fun hno => ?_, fun v sp hv hin q s b hq hb hqs hn => ?_⟩
  · subst hsp
    split at hk
    · split at hk
      · cases hk
      · cases hk
      · exact ⟨_, Except.ok.inj hk⟩
    · cases hk
  · split at hk
    · rename_i v sp he; exact absurd he (hno v sp)
    · exact (Except.ok.inj hk).symm
  · rw [hv] at hk
    simp only at hk
    have hlen := at?_depth (q ++ s) c.tree v hqs
    rw [C50_simple_node hun q s hq hb hqs hin hn (c.tree.size + 1) (by rw [List.length_append] at hlen; omega)] at hk
    cases hf : firstNonList c.tree q s with
    | none => rw [hf] at hk; exact (Except.ok.inj hk).symm
    | some x => rw [hf] at hk; exact (Except.ok.inj hk).symm

/-- **C64**, with the part of the file that each finding belongs to. -/
theorem C64_reports_parts (c : Ctx) (tk : TokInfo) (env : Templates) (n : Nat) (m : Matcher) (ts : Replacements) (hm : Ordinary c m)
    (hw : ts.WF) (fs : List Found) (h : pySearch c tk env (n + 2) (fromMatcher m ts) = .ok fs) :
    ∃ (rs : List Report) (os : List (Option Found)), Outermost (attempt c n m) c.tree c.done rs ∧ fs = os.filterMap id ∧
      Forall2 (fun r o => match o with
        | none => Refused c env ts r.mi
        | some f => Finding c env ts r.mi f ∧ (∀ sp, f.keySpan = some sp → ∃ i, c.tok i = some sp) ∧
            (Unshared c.tree → PartOfFile c r.mi.obj f.keySpan)) rs os := by
  have hroot : str "__root" ∉ m.bindVars c.rxGroups := fun hx => (hm.unreserved _ hx).1 rfl
  have hdec := findLoop_decorated (fun d v => attempt_fromMatcher c n hm.noTemplates hroot hw d v) [c.tree] c.done
  unfold pySearch at h
  split at h
  · cases h
  · rename_i fs' hp hnone
    cases h
    have hnone' : (treeFind c n m).2 = none := hdec.2.trans hnone
    obtain ⟨rs, h1, h2⟩ := C45_reports_outermost c n m hnone'
    have hu : ∀ mi ∈ (treeFind c n m).1, Unlabelled mi := by
      intro mi hmi
      rw [h1] at hmi
      obtain ⟨r, hr, rfl⟩ := List.mem_map.1 hmi
      obtain ⟨⟨v, _, ha⟩, _⟩ := (h2.2 r).1 hr
      exact outermost_unlabelled hm ha
    obtain ⟨os, h3, h4, h5⟩ := pyReports_spec hw hdec.1 hu hp
    refine ⟨rs, os, h2, h3, ?_⟩
    unfold treeFind at h1
    have hd1 := hdec.1
    rw [h1] at h4 hd1
    clear hp hu h1 h2 h3 hdec hnone
    generalize (findLoop (attempt c (n + 2) (fromMatcher m ts)) [c.tree] c.done).1 = mis' at *
    have go : ∀ (rs : List Report) (mis' : List MatchInfo) (os : List (Option Found)), Forall2 (Decorated ts) (rs.map (·.mi)) mis' →
        Forall2 (fun mi o => match o with
          | none => Refused c env ts mi
          | some f => Finding c env ts mi f) (rs.map (·.mi)) os →
        Forall2 (fun mi' o => ∀ f, o = some f → keySpanOf c mi'.bindings = .ok f.keySpan) mis' os →
        Forall2 (fun (r : Report) o => match o with
          | none => Refused c env ts r.mi
          | some f => Finding c env ts r.mi f ∧ (∀ sp, f.keySpan = some sp → ∃ i, c.tok i = some sp) ∧
            (Unshared c.tree → PartOfFile c r.mi.obj f.keySpan)) rs os := by
      intro rs
      induction rs with
      | nil => intro mis' os h1 h2 h3; cases h2; exact .nil
      | cons r rs ih =>
        intro mis' os h1 h2 h3
        cases h1 with
        | cons d1 d2 =>
          cases h2 with
          | cons f1 f2 =>
            cases h3 with
            | cons k1 k2 =>
              refine .cons ?_ (ih _ _ d2 f2 k2)
              split
              · exact f1
              · rename_i f
                exact ⟨f1, keySpan_located (k1 f rfl), fun hun => keySpan_part hun d1 (k1 f rfl)⟩
    exact go rs mis' os hd1 h4 h5
  · cases h

theorem forall2_weaken {α β : Type} {R S : α → β → Prop} (h : ∀ a b, R a b → S a b) {as : List α} {bs : List β} (hr : Forall2 R as bs) : Forall2 S as bs := by
  induction hr with
  | nil => exact .nil
  | cons h1 _ ih => exact .cons (h _ _ h1) ih

/-- **C64**: a search of a Python file with a matcher and templates that ends without an exception reports exactly the
outermost matches of the matcher, in document order, except those whose templates refuse; every finding has the matched place
as its primary span, the spans of the bound labels, the edits that its templates give on the labels that have a place, and its
metadata from the four system labels. Ranges over all files, matchers without templates of their own, and templates. -/
theorem C64_reports (c : Ctx) (tk : TokInfo) (env : Templates) (n : Nat) (m : Matcher) (ts : Replacements) (hm : Ordinary c m)
    (hw : ts.WF) (fs : List Found) (h : pySearch c tk env (n + 2) (fromMatcher m ts) = .ok fs) :
    ∃ (rs : List Report) (os : List (Option Found)), Outermost (attempt c n m) c.tree c.done rs ∧ fs = os.filterMap id ∧
      Forall2 (fun r o => match o with
        | none => Refused c env ts r.mi
        | some f => Finding c env ts r.mi f) rs os := by
  obtain ⟨rs, os, h1, h2, h3⟩ := C64_reports_parts c tk env n m ts hm hw fs h
  refine ⟨rs, os, h1, h2, forall2_weaken (fun r o h => ?_) h3⟩
  cases o with
  | none => exact h
  | some f => exact h.1

/-- **C64**, the chunk by which findings are grouped for iteration (C20-C22): the simple statement, or the expression of a
compound statement, that the match lies in; none for compound statements. -/
theorem C64_key_spans (c : Ctx) (tk : TokInfo) (env : Templates) (n : Nat) (m : Matcher) (ts : Replacements) (hm : Ordinary c m)
    (hw : ts.WF) (hun : Unshared c.tree) (fs : List Found) (h : pySearch c tk env (n + 2) (fromMatcher m ts) = .ok fs) :
    ∃ (rs : List Report) (os : List (Option Found)), Outermost (attempt c n m) c.tree c.done rs ∧ fs = os.filterMap id ∧
      Forall2 (fun r o => ∀ f, o = some f → Finding c env ts r.mi f ∧ PartOfFile c r.mi.obj f.keySpan) rs os := by
  obtain ⟨rs, os, h1, h2, h3⟩ := C64_reports_parts c tk env n m ts hm hw fs h
  refine ⟨rs, os, h1, h2, forall2_weaken (fun r o h f hf => ?_) h3⟩
  subst hf
  exact ⟨h.1, h.2.2 hun⟩

/-! Non-vacuity -/

/-- `if x: f()` -/
def exIf : Val := .node 3 (str "If") [str "test", str "body"]
  [.node 4 (str "Name") [str "id"] [.const 5 (.str (str "x"))], .list 6 []]

/-- The file with that statement. -/
def exIfCtx : Ctx := { exCtx with
  text := str "if x: f()\n"
  tree := .node 1 (str "Module") [str "body"] [.list 2 [exIf]]
  tok := fun i => if i = 3 then some (0, 9) else if i = 4 then some (3, 4) else none }

/-- Nothing special about the tokens. -/
def exTokInfo : TokInfo := { firstEnd := fun _ => 0, lastStart := fun _ => 0, semi := fun _ => none }

/-- Template `n` negates the test, template `r` refuses, any other string is a literal template. -/
def exTpls : Templates where
  text := id
  sem := fun t => if t = str "n" then regexTemplate [.lit (str "not "), .named (str "t")]
    else if t = str "r" then refusingTemplate else literalTemplate t
  pass := literalTemplate (str "pass")

/-- `If(test=Bind('t'))`. -/
def exIfMatcher : Matcher := .node (str "If") [str "test", str "body"] [.bind (str "t") .anything none none, .anything]

theorem exIf_ordinary : Ordinary exIfCtx exIfMatcher :=
  ⟨rfl, by
    intro l hl
    have : l = str "t" := by
      simpa [exIfMatcher, Matcher.bindVars, Matcher.bindVarsList] using hl
    subst this
    decide⟩

/-- The match of that statement, as the searcher sees it. -/
def exIfMi (ts : Replacements) : MatchInfo := ⟨.lexical exIf (0, 9),
  [(str "t", ⟨.lexical (.node 4 (str "Name") [str "id"] [.const 5 (.str (str "x"))]) (3, 4), .merge, .keepLast⟩),
   (str "__root", ⟨.lexical exIf (0, 9), .merge, .keepLast⟩)], ts⟩

theorem exIf_found {ts : Replacements} (h : attempt exIfCtx 7 (fromMatcher exIfMatcher ts) [] exIf = .ok (some (exIfMi ts), [])) :
    treeFind exIfCtx 7 (fromMatcher exIfMatcher ts) = ([exIfMi ts], none) := by
  unfold treeFind
  have ed : exIfCtx.done = [] := rfl
  have et : exIfCtx.tree = .node 1 (str "Module") [str "body"] [.list 2 [exIf]] := rfl
  rw [ed, et]
  rw [findLoop_miss (ks := []) rfl]
  simp only [Val.children, List.append_nil]
  rw [findLoop_miss (ks := []) rfl]
  simp only [Val.children, List.append_nil]
  rw [findLoop_hit h]
  simp [findLoop]

-- The test is replaced by its negation, the message is taken from its template.
example : pySearch exIfCtx exTokInfo exTpls 7 (fromMatcher exIfMatcher [(str "t", str "n"), (str "__message", str "M")]) =
    .ok [{ matchedSpans := [(.name (str "t"), (3, 4)), (.name (str "__root"), (0, 9))]
           replacements := [(.name (str "t"), str "not x")], primaryLabel := .name (str "__root")
           message := some (str "M"), significant := false }] := by
  unfold pySearch
  rw [exIf_found rfl]
  rfl

-- A match whose template refuses is skipped.
example : pySearch exIfCtx exTokInfo exTpls 7 (fromMatcher exIfMatcher [(str "t", str "r")]) = .ok [] := by
  unfold pySearch
  rw [exIf_found rfl]
  rfl

end Refex
