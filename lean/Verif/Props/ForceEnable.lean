import Verif.Props.RewriteString
/- C120: `--force-enable` and files without pragmas that disable anything. -/
namespace Refex
set_option autoImplicit false

/-- None of the pragmas is a pragma of pylint or refex that disables anything. -/
def NothingDisabled (ps : List Pragma) : Prop :=
  ∀ g ∈ ps, g.tag = str "pylint" ∨ g.tag = str "refex" → g.data.get? (str "disable") = none

theorem no_disable_ranges {ps : List Pragma} (h : NothingDisabled ps) : pragmaExcludedRanges ps = [] := by
  have : pragmaRanges ps (str "disable") = [] := by
    unfold pragmaRanges
    generalize (([] : Dict Str (List Span))) = acc
    induction ps generalizing acc with
    | nil => rfl
    | cons g ps ih =>
      rw [List.foldl_cons]
      have e : addPragma (str "disable") acc g = acc := by
        unfold addPragma
        split
        · rfl
        · rename_i v hv
          split
          · rfl
          · rename_i pre hpre
            have ht : g.tag = str "pylint" ∨ g.tag = str "refex" := by
              unfold tagPrefix at hpre
              split at hpre
              · exact .inl (by assumption)
              · split at hpre
                · exact .inr (by assumption)
                · cases hpre
            rw [h g List.mem_cons_self ht] at hv
            cases hv
      rw [e]
      exact ih (fun g' hg => h g' (List.mem_cons_of_mem _ hg)) acc
  unfold pragmaExcludedRanges
  rw [this]
  rfl

theorem suppress_nothing (subs : List Substitution) : suppressExcludeBytes subs [] = subs := by
  unfold suppressExcludeBytes
  rw [List.filter_eq_self]
  intro s _
  simp [subMatchesRanges, Dict.get?]

/-- Searching without iteration. -/
theorem findIter_once (parseAst : Str → Str → Except Exc ParsedFile) (s : Searcher) (content path : Str) (n : Nat) (hn : n ≤ 1) :
    findIter parseAst s content path n =
      match s.included path with
      | .error e => .error e
      | .ok () =>
        match s.parse content path with
        | .error e => .error e
        | .ok p => s.find p := by
  cases hi : s.included path with
  | error e => unfold findIter; rw [hi]
  | ok u =>
    cases hp : s.parse content path with
    | error e => unfold findIter; rw [hi, hp]
    | ok p =>
      simp only
      cases hf : s.find p with
      | error e => unfold findIter; rw [hi, hp]; simp only; rw [hf]
      | ok subs => exact C22_no_iteration_identity parseAst s content path n p subs (.inl hn) hi hp hf

/-- **C120**: (without iteration) `--force-enable` makes a file neither fail nor be skipped that is not so without it, nor the other way round; it finds everything
that is found without it, in the same order; and where no pragma of the file disables anything, it changes nothing. -/
theorem C120_search {T : Type} (w : World) (modes : Modes T) (o : Options) (sm : Str) (hsm : SyntaxInEffect o.mode o.subMode sm)
    (ss : List Searcher) (s : Searcher) (hss : Searchers modes o.mode sm o.searchReplace ss) (hs : Whole ss s) (r forced : Runner)
    (hr : runnerFromOptions w modes { o with forceEnable := false } = .ok r) (hforced : runnerFromOptions w modes { o with forceEnable := true } = .ok forced)
    (hiter : iterationCount o.mode o.iterate ≤ 1) (content path : Str) :
    (∀ e, r.find content path = .error e ↔ forced.find content path = .error e) ∧
    (∀ subs, forced.find content path = .ok subs → ∃ out, r.find content path = .ok out ∧ out.Sublist subs) ∧
    ((∀ p, s.parse content path = .ok p → NothingDisabled p.pragmas) → r.find content path = forced.find content path) := by
  rw [← (subModeOf_spec _ _ _).2 hsm] at hss
  have hb := (buildSearchers_ok modes o.mode o.subMode o.searchReplace ss).2 hss
  simp only [runnerFromOptions, hb, wholeSearcher_eq hs, Except.ok.injEq] at hr hforced
  subst hr hforced
  simp only [Bool.false_eq_true, if_false, if_true]
  generalize hs1 : (if o.also.isEmpty && o.noalso.isEmpty then s else alsoRegexp s o.also o.noalso) = s1
  have h2 := parse_wrapped s o content path
  rw [hs1] at h2
  rw [findIter_once _ _ _ _ _ hiter, findIter_once _ _ _ _ _ hiter]
  have hinc : (pragmaSuppressed s1).included = s1.included := rfl
  have hpar : (pragmaSuppressed s1).parse = s1.parse := rfl
  rw [hinc, hpar]
  cases s1.included path with
  | error e => exact ⟨fun _ => Iff.rfl, fun _ h => (by cases h), fun _ => rfl⟩
  | ok u =>
    simp only
    cases hp : s1.parse content path with
    | error e => exact ⟨fun _ => Iff.rfl, fun _ h => (by cases h), fun _ => rfl⟩
    | ok p =>
      simp only [pragmaSuppressed]
      cases hf : s1.find p with
      | error e => exact ⟨fun _ => Iff.rfl, fun _ h => (by cases h), fun _ => rfl⟩
      | ok subs =>
        refine ⟨fun e => ⟨fun h => by (cases h), fun h => by (cases h)⟩, fun subs' h => ?_, fun hq => ?_⟩
        · cases h
          exact ⟨_, rfl, List.filter_sublist⟩
        · simp only
          rw [no_disable_ranges (hq p ?_)]
          · rw [List.map_nil, suppress_nothing]
          · by_cases ha : AlsoHolds o content
            · rw [← h2.1 ha]; exact hp
            · rw [h2.2 ha] at hp; cases hp

/-- A file that has a pragma of refex that disables `x`, if it begins with a 'a', in which then something of the category `x` is found. -/
def exDisabledX : Searcher where
  included := fun _ => .ok ()
  parse := fun data path => .ok { text := data, path := path, pragmas := if data.head? = some 'a' then [⟨str "refex", [(str "disable", str "x")], 0, 5⟩] else [] }
  find := fun p => .ok (if p.text.isEmpty then [] else
    [{ matchedSpans := [(str "r", (0, 1))], primaryLabel := str "r", replacements := some [(str "r", str "aa")], category := some (str "x") }])

def exDisabledModes : Modes Str := { exModes with factory := fun _ _ _ => .ok exDisabledX }

/-- The hypotheses of C120 are met; "ab" is only changed with `--force-enable`, and "bb", which has no pragma, with and without it. -/
example : (∃ ss s, Searchers exDisabledModes exOptions.mode (str "re") exOptions.searchReplace ss ∧ Whole ss s ∧
      (∀ p, s.parse (str "bb") exFile = .ok p → NothingDisabled p.pragmas) ∧ ¬ ∀ p, s.parse (str "ab") exFile = .ok p → NothingDisabled p.pragmas) ∧
    iterationCount exOptions.mode exOptions.iterate ≤ 1 ∧
    (∃ r, runnerFromOptions exWorld exDisabledModes { exOptions with forceEnable := false } = .ok r ∧ (r.find (str "ab") exFile).toOption.map List.length = some 0 ∧
      (r.find (str "bb") exFile).toOption.map List.length = some 1) ∧
    ∃ r, runnerFromOptions exWorld exDisabledModes { exOptions with forceEnable := true } = .ok r ∧ (r.find (str "ab") exFile).toOption.map List.length = some 1 ∧
      (r.find (str "bb") exFile).toOption.map List.length = some 1 := by
  refine ⟨⟨_, _, .cons (.cons rfl .nil) rfl .nil, .one exDisabledX, ?_, ?_⟩, by decide, ⟨_, rfl, by decide, by decide⟩, ⟨_, rfl, by decide, by decide⟩⟩
  · intro p h
    cases h
    exact fun g hg => by cases hg
  · intro h
    exact absurd (h _ rfl _ List.mem_cons_self (.inr rfl)) (by decide)

end Refex
