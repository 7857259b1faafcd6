import Verif.Spec.Options
import Verif.Lemmas.Dict
/-
C36, C58: the options of the command line.
-/
namespace Refex
set_option autoImplicit false

/-- The effect of substitution options on the substitutions of the current pattern. -/
def runSubs : Dict Str Str → List Opt → Except Exc (Dict Str Str)
  | d, [] => .ok d
  | d, o :: os =>
    match o.act (⟨none, d⟩, []) with
    | .error e => .error e
    | .ok st => runSubs st.1.sub os

/-- No pattern among the options. -/
def NoMatch (os : List Opt) : Prop := ∀ o ∈ os, ∀ v, o ≠ .matchOpt v

theorem act_sub (o : Opt) (h : ∀ v, o ≠ .matchOpt v) (pat : Option Str) (d : Dict Str Str) (acc : List SearchReplace) :
    o.act (⟨pat, d⟩, acc) = (o.act (⟨none, d⟩, [])).map fun st => (⟨pat, st.1.sub⟩, acc) := by
  cases o with
  | matchOpt v => exact absurd rfl (h v)
  | sub v =>
    simp only [Opt.act]
    split <;> rfl
  | namedSub v =>
    simp only [Opt.act]
    split
    · rfl
    · split
      · rfl
      · split <;> rfl

theorem actAll_subs (os : List Opt) (h : NoMatch os) (pat : Option Str) (d : Dict Str Str) (acc : List SearchReplace)
    (rest : List Opt) :
    actAll (⟨pat, d⟩, acc) (os ++ rest) =
      match runSubs d os with
      | .error e => .error e
      | .ok d' => actAll (⟨pat, d'⟩, acc) rest := by
  induction os generalizing d with
  | nil => rfl
  | cons o os ih =>
    rw [List.cons_append, actAll, runSubs, act_sub o (h o (by simp))]
    cases ho : o.act (⟨none, d⟩, []) with
    | error e => rfl
    | ok st => exact ih (fun o ho => h o (by simp [ho])) st.1.sub

theorem runSubs_append (a b : List Opt) (d : Dict Str Str) :
    runSubs d (a ++ b) = match runSubs d a with
      | .error e => .error e
      | .ok d' => runSubs d' b := by
  induction a generalizing d with
  | nil => rfl
  | cons o a ih =>
    rw [List.cons_append, runSubs, runSubs]
    cases o.act (⟨none, d⟩, []) with
    | error e => rfl
    | ok st => exact ih _

theorem partitionAtEq_some (v n p : Str) : partitionAtEq v = (n, some p) ↔ v = n ++ '=' :: p ∧ '=' ∉ n := by
  induction v generalizing n with
  | nil => simp [partitionAtEq]
  | cons c v ih =>
    rw [partitionAtEq]
    by_cases hc : c = '='
    · subst hc
      simp only [if_true, Prod.mk.injEq, Option.some.injEq]
      cases n with
      | nil => simp
      | cons x n => simp only [List.cons_append, List.cons.injEq, List.mem_cons, reduceCtorEq, false_and, false_iff]; grind
    · simp only [hc, if_false]
      cases n with
      | nil => simp [hc]
      | cons x n =>
        have := ih n
        rw [Prod.ext_iff] at this
        simp only [Prod.mk.injEq, List.cons.injEq, List.cons_append, List.mem_cons] at this ⊢
        constructor
        · rintro ⟨⟨rfl, h1⟩, h2⟩
          have := this.1 ⟨h1, h2⟩
          exact ⟨⟨rfl, this.1⟩, fun h => h.elim (fun h => hc h.symm) this.2⟩
        · rintro ⟨⟨rfl, h1⟩, h2⟩
          have := this.2 ⟨h1, fun h => h2 (.inr h)⟩
          exact ⟨⟨rfl, this.1⟩, this.2⟩

theorem set_new {κ α : Type} [DecidableEq κ] (d : Dict κ α) (k : κ) (v : α) (h : d.has k = false) : d.set k v = d ++ [(k, v)] := by
  induction d with
  | nil => rfl
  | cons e d ih =>
    obtain ⟨k', v'⟩ := e
    by_cases hk : k' = k
    · simp [Dict.has, Dict.get?, hk] at h
    · have : Dict.has d k = false := by simpa [Dict.has, Dict.get?, hk] using h
      simp [Dict.set, hk, ih this]

theorem has_false_iff {κ α : Type} [DecidableEq κ] (d : Dict κ α) (k : κ) : d.has k = false ↔ ∀ e ∈ d, e.1 ≠ k := by
  rw [← Bool.not_eq_true, Dict.has_iff]
  constructor
  · intro h e he hk
    cases hg : d.get? k with
    | none => exact Dict.get?_none_iff.1 hg e.2 (hk ▸ he)
    | some v => exact h ⟨v, hg⟩
  · rintro h ⟨v, hv⟩
    exact h _ (Dict.get?_some_mem hv) rfl

/-- Appending one substitution option. -/
theorem groupSubs_snoc (subs : List Opt) (o : Opt) (d : Dict Str Str) :
    GroupSubs (subs ++ [o]) d ↔ ∃ d0, GroupSubs subs d0 ∧ (∀ v, o ≠ .matchOpt v) ∧
      ∃ st, o.act (⟨none, d0⟩, []) = .ok st ∧ st.1.sub = d := by
  constructor
  · intro h
    generalize hl : subs ++ [o] = l at h
    cases h with
    | nothing => simp at hl
    | whole v =>
      have hs : subs = [] ∧ o = .sub v := by
        cases subs with
        | nil => simpa using hl
        | cons x xs => simp at hl
      obtain ⟨rfl, rfl⟩ := hs
      exact ⟨[], .nothing, fun _ h => (by simp at h), _, rfl, rfl⟩
    | named _ hne hnames heq hroot =>
      have hd : d = d.dropLast ++ [d.getLast hne] := (List.dropLast_concat_getLast hne).symm
      generalize d.dropLast = d0 at hd hroot
      generalize d.getLast hne = last at hd
      subst hd
      rw [List.map_append, List.map_singleton] at hl
      obtain ⟨h1, h2⟩ := List.append_inj' hl rfl
      simp only [List.cons.injEq, and_true] at h2
      subst h1 h2
      have hw : Dict.WF d0 := by
        unfold Dict.WF Dict.keys at hnames ⊢
        rw [List.map_append] at hnames
        exact (List.nodup_append.1 hnames).1
      have hnew : Dict.has d0 last.1 = false := (has_false_iff _ _).2 fun e he hk => by
        unfold Dict.WF Dict.keys at hnames
        rw [List.map_append] at hnames
        exact (List.nodup_append.1 hnames).2.2 _ (List.mem_map.2 ⟨e, he, rfl⟩) last.1 (by simp) hk
      have hr : Dict.has d0 rootName = false := (has_false_iff _ _).2 hroot
      refine ⟨d0, ?_, fun _ h => (by simp at h), (⟨none, d0 ++ [last]⟩, []), ?_, rfl⟩
      · cases d0 with
        | nil => exact .nothing
        | cons e d1 =>
          exact .named _ (by simp) hw (fun x hx => heq x (by simp only [List.mem_append]; exact .inl hx))
            (fun x hx => hroot x (List.dropLast_subset _ hx))
      · have hp := (partitionAtEq_some (last.1 ++ '=' :: last.2) last.1 last.2).2 ⟨rfl, heq last (by simp)⟩
        simp only [Opt.act, hr, Bool.false_eq_true, if_false, hp, hnew, set_new _ _ _ hnew]
  · rintro ⟨d0, h, hnm, st, hact, rfl⟩
    cases o with
    | matchOpt v => exact absurd rfl (hnm v)
    | sub v =>
      simp only [Opt.act] at hact
      split at hact
      · rename_i he
        simp only [Except.ok.injEq] at hact
        subst hact
        have hd0 : d0 = [] := List.isEmpty_iff.1 he
        subst hd0
        cases h with
        | nothing => exact .whole v
        | named _ hne => exact absurd rfl hne
      · cases hact
    | namedSub v =>
      simp only [Opt.act] at hact
      split at hact
      · cases hact
      · rename_i hr
        split at hact
        · cases hact
        · rename_i name p hp
          split at hact
          · cases hact
          · rename_i hn
            simp only [Except.ok.injEq] at hact
            subst hact
            have hn' : d0.has name = false := by simpa using hn
            have hr' : d0.has rootName = false := by simpa using hr
            obtain ⟨rfl, hne⟩ := (partitionAtEq_some v name p).1 hp
            simp only [set_new _ _ _ hn']
            have hall : subs = d0.map (fun e => Opt.namedSub (e.1 ++ '=' :: e.2)) ∧ d0.WF ∧ ∀ e ∈ d0, '=' ∉ e.1 := by
              cases h with
              | nothing => exact ⟨rfl, by simp [Dict.WF, Dict.keys], by simp⟩
              | whole v => simp [Dict.has, Dict.get?] at hr'
              | named _ _ h1 h2 _ => exact ⟨rfl, h1, h2⟩
            obtain ⟨rfl, hw, he⟩ := hall
            have := GroupSubs.named (d0 ++ [(name, p)]) (by simp) (by
              unfold Dict.WF Dict.keys at hw ⊢
              rw [List.map_append, List.nodup_append]
              refine ⟨hw, by simp, ?_⟩
              intro a ha b hb
              simp only [List.map_cons, List.map_nil, List.mem_singleton] at hb
              obtain ⟨e, he, rfl⟩ := List.mem_map.1 ha
              rw [hb]
              exact (has_false_iff _ _).1 hn' e he) (by
                intro e he'
                rcases List.mem_append.1 he' with h | h
                · exact he e h
                · rw [List.mem_singleton.1 h]; exact hne) (by
                intro e he'
                rw [List.dropLast_concat] at he'
                exact (has_false_iff _ _).1 hr' e he')
            simpa using this

theorem groupSubs_noMatch {subs : List Opt} {d : Dict Str Str} (h : GroupSubs subs d) : NoMatch subs := by
  cases h with
  | nothing => intro o ho; simp at ho
  | whole v => intro o ho w; rw [List.mem_singleton.1 ho]; simp
  | named _ _ _ _ _ =>
    intro o ho w
    obtain ⟨e, _, rfl⟩ := List.mem_map.1 ho
    simp

theorem runSubs_iff (subs : List Opt) (hnm : NoMatch subs) (d : Dict Str Str) : runSubs [] subs = .ok d ↔ GroupSubs subs d := by
  suffices H : ∀ n (subs : List Opt), subs.length = n → NoMatch subs → ∀ d, runSubs [] subs = .ok d ↔ GroupSubs subs d from
    H _ subs rfl hnm d
  intro n
  induction n with
  | zero =>
    intro subs hl hnm d
    have : subs = [] := List.length_eq_zero_iff.1 hl
    subst this
    simp only [runSubs, Except.ok.injEq]
    constructor
    · rintro rfl; exact .nothing
    · intro h
      generalize hs : ([] : List Opt) = l at h
      cases h with
      | nothing => rfl
      | whole v => cases hs
      | named _ hne =>
        cases d with
        | nil => rfl
        | cons _ _ => simp at hs
  | succ n ih =>
    intro subs hl hnm d
    have hne : subs ≠ [] := by intro e; simp [e] at hl
    have hd : subs = subs.dropLast ++ [subs.getLast hne] := (List.dropLast_concat_getLast hne).symm
    have hlen : subs.dropLast.length = n := by simp [hl]
    generalize subs.dropLast = s0 at hd hlen
    generalize subs.getLast hne = o at hd
    subst hd
    rw [groupSubs_snoc, runSubs_append]
    have ih' := ih s0 hlen (fun o ho => hnm o (by simp [ho]))
    have ho : ∀ v, o ≠ .matchOpt v := hnm o (by simp)
    cases hr : runSubs [] s0 with
    | error e =>
      simp only [reduceCtorEq, false_iff]
      rintro ⟨d0, h, _⟩
      rw [(ih' d0).2 h] at hr; cases hr
    | ok d0 =>
      simp only [runSubs]
      have h0 := (ih' d0).1 hr
      constructor
      · intro h
        refine ⟨d0, h0, ho, ?_⟩
        cases ha : o.act (⟨none, d0⟩, []) with
        | error e => rw [ha] at h; cases h
        | ok st => rw [ha] at h; simp only [Except.ok.injEq] at h; exact ⟨st, rfl, h⟩
      · rintro ⟨d1, h1, _, st, hst, hd⟩
        have := (ih' d1).2 h1
        rw [hr, Except.ok.injEq] at this
        subst this
        rw [hst]; simp only [hd]

theorem options_decompose (opts : List Opt) : ∃ lead gs, opts = lead ++ (gs : List OptGroup).flatMap OptGroup.source ∧
    NoMatch lead ∧ ∀ g ∈ gs, NoMatch g.subs := by
  induction opts with
  | nil => exact ⟨[], [], rfl, by simp [NoMatch], by simp⟩
  | cons o opts ih =>
    obtain ⟨lead, gs, rfl, h1, h2⟩ := ih
    cases o with
    | matchOpt v =>
      refine ⟨[], ⟨v, lead⟩ :: gs, by simp [OptGroup.source], by simp [NoMatch], ?_⟩
      intro g hg
      rcases List.mem_cons.1 hg with rfl | hg
      · exact h1
      · exact h2 g hg
    | sub v =>
      refine ⟨.sub v :: lead, gs, rfl, ?_, h2⟩
      intro o ho w
      rcases List.mem_cons.1 ho with rfl | ho
      · simp
      · exact h1 o ho w
    | namedSub v =>
      refine ⟨.namedSub v :: lead, gs, rfl, ?_, h2⟩
      intro o ho w
      rcases List.mem_cons.1 ho with rfl | ho
      · simp
      · exact h1 o ho w

theorem actAll_groups (gs : List OptGroup) (hnm : ∀ g ∈ gs, NoMatch g.subs) (p : Str) (d : Dict Str Str)
    (acc : List SearchReplace) (out : List SearchReplace) :
    (∃ st, actAll (⟨some p, d⟩, acc) (gs.flatMap OptGroup.source) = .ok st ∧ st.2.reverse ++ [st.1] = out) ↔
    ∃ ds, ds.length = gs.length ∧ (∀ q ∈ gs.zip ds, GroupSubs q.1.subs q.2) ∧
      out = acc.reverse ++ ⟨some p, d⟩ :: (gs.zip ds).map fun q => ⟨some q.1.pattern, q.2⟩ := by
  induction gs generalizing p d acc with
  | nil =>
    constructor
    · rintro ⟨st, h, rfl⟩
      simp only [List.flatMap_nil, actAll, Except.ok.injEq] at h
      subst h
      exact ⟨[], rfl, by simp, by simp⟩
    · rintro ⟨ds, hl, _, rfl⟩
      have : ds = [] := List.length_eq_zero_iff.1 hl
      subst this
      exact ⟨_, rfl, by simp⟩
  | cons g gs ih =>
    have hg := hnm g (by simp)
    have hstep : actAll (⟨some p, d⟩, acc) ((g :: gs).flatMap OptGroup.source) =
        match runSubs [] g.subs with
        | .error e => .error e
        | .ok d' => actAll (⟨some g.pattern, d'⟩, ⟨some p, d⟩ :: acc) (gs.flatMap OptGroup.source) := by
      rw [List.flatMap_cons]
      simp only [OptGroup.source, List.cons_append]
      rw [actAll]
      simp only [Opt.act]
      exact actAll_subs g.subs hg _ _ _ _
    rw [hstep]
    constructor
    · rintro ⟨st, h, hout⟩
      cases hr : runSubs [] g.subs with
      | error e => rw [hr] at h; cases h
      | ok d' =>
        rw [hr] at h
        obtain ⟨ds, hl, hs, ho⟩ := (ih (fun g hg => hnm g (by simp [hg])) g.pattern d' (⟨some p, d⟩ :: acc)).1 ⟨st, h, hout⟩
        refine ⟨d' :: ds, by simp [hl], ?_, by simp [ho]⟩
        intro q hq
        simp only [List.zip_cons_cons, List.mem_cons] at hq
        rcases hq with rfl | hq
        · exact (runSubs_iff _ hg _).1 hr
        · exact hs q hq
    · rintro ⟨ds, hl, hs, rfl⟩
      cases ds with
      | nil => simp at hl
      | cons d' ds =>
        have hr := (runSubs_iff _ hg _).2 (hs (g, d') (by simp))
        rw [hr]
        exact (ih (fun g hg => hnm g (by simp [hg])) g.pattern d' (⟨some p, d⟩ :: acc)).2
          ⟨ds, by simpa using hl, fun q hq => hs q (by simp [hq]), by simp⟩

/-- C36: the options are accepted exactly if they pair up, and then the patterns and substitutions are those of the pairing:
one entry per pattern, in order; each substitution option belongs to the last pattern before it (to the first, if there is
none before it). -/
theorem C36_options_pair_up (opts : List Opt) (out : List SearchReplace) :
    searchReplaceOf opts = .ok out ↔ Pairing opts out := by
  have hform : searchReplaceOf opts = .ok out ↔ ∃ st, actAll ({}, []) opts = .ok st ∧ st.2.reverse ++ [st.1] = out := by
    unfold searchReplaceOf
    cases h : actAll ({}, []) opts with
    | error e => simp
    | ok st => obtain ⟨a, b⟩ := st; simp
  rw [hform]
  constructor
  · rintro ⟨st, h, hout⟩
    obtain ⟨lead, gs, rfl, hl, hg⟩ := options_decompose opts
    rw [show (({} : SearchReplace), ([] : List SearchReplace)) = (⟨none, []⟩, []) from rfl, actAll_subs lead hl] at h
    cases hr : runSubs [] lead with
    | error e => rw [hr] at h; cases h
    | ok d0 =>
      rw [hr] at h
      simp only at h
      cases gs with
      | nil =>
        simp only [List.flatMap_nil, actAll, Except.ok.injEq] at h
        subst h
        simp only [List.flatMap_nil, List.append_nil, List.reverse_nil, List.nil_append] at hout ⊢
        rw [← hout]
        exact .noPattern lead d0 ((runSubs_iff _ hl _).1 hr)
      | cons g gs =>
        have hgm := hg g (by simp)
        rw [List.flatMap_cons] at h
        simp only [OptGroup.source, List.cons_append] at h
        rw [actAll] at h
        simp only [Opt.act] at h
        rw [actAll_subs g.subs hgm] at h
        cases hr2 : runSubs d0 g.subs with
        | error e => rw [hr2] at h; cases h
        | ok d =>
          rw [hr2] at h
          obtain ⟨ds, h1, h2, h3⟩ := (actAll_groups gs (fun g hg' => hg g (by simp [hg'])) g.pattern d [] out).1 ⟨st, h, hout⟩
          rw [h3]
          refine .patterns lead g gs d ds hl ?_ h1 h2
          refine (runSubs_iff _ ?_ _).1 ?_
          · intro o ho
            rcases List.mem_append.1 ho with ho | ho
            · exact hl o ho
            · exact hgm o ho
          · rw [runSubs_append, hr]; exact hr2
  · intro h
    cases h with
    | noPattern _ d h =>
      have hl := groupSubs_noMatch h
      have hr := (runSubs_iff _ hl _).2 h
      have := actAll_subs opts hl none [] [] []
      rw [hr, List.append_nil] at this
      exact ⟨_, this, rfl⟩
    | patterns lead g gs d ds hlead h hlen hs =>
      have hnm := groupSubs_noMatch h
      have hgm : NoMatch g.subs := fun o ho => hnm o (by simp [ho])
      have hr := (runSubs_iff _ hnm _).2 h
      rw [runSubs_append] at hr
      have hgs : ∀ g ∈ gs, NoMatch g.subs := by
        intro g hg
        obtain ⟨i, hi, rfl⟩ := List.mem_iff_getElem.1 hg
        have : (gs[i], ds[i]'(by omega)) ∈ gs.zip ds := by
          rw [List.mem_iff_getElem]
          exact ⟨i, by simp [hlen]; exact hi, by simp⟩
        exact groupSubs_noMatch (hs _ this)
      cases hr1 : runSubs [] lead with
      | error e => rw [hr1] at hr; cases hr
      | ok d0 =>
        rw [hr1] at hr
        simp only at hr
        obtain ⟨st, h1, h2⟩ := (actAll_groups gs hgs g.pattern d [] _).2 ⟨ds, hlen, hs, rfl⟩
        refine ⟨st, ?_, h2⟩
        rw [show (({} : SearchReplace), ([] : List SearchReplace)) = (⟨none, []⟩, []) from rfl, actAll_subs lead hlead, hr1]
        simp only [List.flatMap_cons, OptGroup.source, List.cons_append]
        rw [actAll]
        simp only [Opt.act]
        rw [actAll_subs g.subs hgm, hr]
        exact h1

/-- C36: the positional argument is the pattern exactly if there is no --match, and a file to search otherwise. -/
theorem C36_positional (opts : List Opt) (out : List SearchReplace) (h : searchReplaceOf opts = .ok out) (p : Str)
    (more : List Str) :
    ((∀ o ∈ opts, ∀ v, o ≠ .matchOpt v) → ∃ d, out = [⟨none, d⟩] ∧ patternOrFile out (some p) more = ([⟨some p, d⟩], more)) ∧
    (∀ v, .matchOpt v ∈ opts → patternOrFile out (some p) more = (out, p :: more) ∧ ∀ s ∈ out, s.pattern ≠ none) := by
  rw [C36_options_pair_up] at h
  cases h with
  | noPattern _ d h =>
    refine ⟨fun _ => ⟨d, rfl, rfl⟩, fun v hv => ?_⟩
    exact absurd rfl (groupSubs_noMatch h _ hv v)
  | patterns lead g gs d ds hlead h hlen hs =>
    refine ⟨fun hno => ?_, fun v _ => ⟨?_, ?_⟩⟩
    · exact absurd rfl (hno (.matchOpt g.pattern) (by simp [OptGroup.source]) g.pattern)
    · simp [patternOrFile]
    · intro s hs
      rcases List.mem_cons.1 hs with rfl | hs
      · simp
      · obtain ⟨q, _, rfl⟩ := List.mem_map.1 hs
        simp

def exOptA : Str := str "a"
def exOptB : Str := str "b"

example : searchReplaceOf [.sub (str "x"), .matchOpt exOptA, .matchOpt exOptB, .namedSub (str "n=y"), .namedSub (str "m=z")] =
    .ok [⟨some exOptA, [(rootName, str "x")]⟩, ⟨some exOptB, [(str "n", str "y"), (str "m", str "z")]⟩] := by decide
example : searchReplaceOf [.matchOpt exOptA, .sub (str "x"), .sub (str "y")] = .error .other := by decide
example : searchReplaceOf [.matchOpt exOptA, .namedSub (str "n=y"), .sub (str "y")] = .error .other := by decide
example : searchReplaceOf [.matchOpt exOptA, .namedSub (str "n=y"), .namedSub (str "n=y")] = .error .other := by decide
example : searchReplaceOf [.matchOpt exOptA, .namedSub (str "ny")] = .error .other := by decide

/-! ### C58 -/

/-- C58 is false: with `--mode=fix`, `--no-iterate` stores None, which means the default of 10 iterations. -/
theorem C58_no_iterate_false : ¬ ∀ mode : Str, iterationCount mode none = 0 := by
  intro h
  exact absurd (h (str "fix")) (by decide)

/-- C58 for the other modes. -/
theorem C58_no_iterate (mode : Str) (h : mode ≠ str "fix") : iterationCount mode none = 0 := by
  unfold iterationCount; simp [h]

/-- `--iterate=N` is obeyed in every mode; in particular `--iterate=0` turns iteration off. -/
theorem C58_iterate (mode : Str) (n : Nat) : iterationCount mode (some n) = n := rfl

example : str "py.expr" ≠ str "fix" := by decide

end Refex
