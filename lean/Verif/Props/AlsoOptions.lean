import Verif.Props.RewriteString
/- C119: what the options `--also` and `--also-not` mean together. -/
namespace Refex
set_option autoImplicit false

/-- The options `o`, with others in place of its `--also` and `--also-not`. -/
def withAlso (o : Options) (also noalso : List (Str → Bool)) : Options := { o with also := also, noalso := noalso }

theorem alsoRegexp_congr (s : Searcher) {also noalso also' noalso' : List (Str → Bool)}
    (h : ∀ text, ((∀ r ∈ also, r text = true) ∧ (∀ r ∈ noalso, r text = false)) ↔ ((∀ r ∈ also', r text = true) ∧ (∀ r ∈ noalso', r text = false))) :
    alsoRegexp s also noalso = alsoRegexp s also' noalso' := by
  unfold alsoRegexp
  congr 1
  funext data path
  have e : (!also.all (fun r => r data) || noalso.any (fun r => r data)) = (!also'.all (fun r => r data) || noalso'.any (fun r => r data)) := by
    have := h data
    rw [Bool.eq_iff_iff]
    simp only [Bool.or_eq_true, Bool.not_eq_true', List.all_eq_false, List.any_eq_true]
    constructor <;> intro hx <;> refine Classical.byContradiction fun hn => ?_
    · have h1 := this.2 ⟨fun r hr => Classical.byContradiction fun hf => hn (.inl ⟨r, hr, hf⟩),
        fun r hr => by cases hv : r data with
          | false => rfl
          | true => exact absurd (.inr ⟨r, hr, hv⟩) hn⟩
      rcases hx with ⟨r, hr, hv⟩ | ⟨r, hr, hv⟩
      · exact hv (h1.1 r hr)
      · rw [h1.2 r hr] at hv; cases hv
    · have h1 := this.1 ⟨fun r hr => Classical.byContradiction fun hf => hn (.inl ⟨r, hr, hf⟩),
        fun r hr => by cases hv : r data with
          | false => rfl
          | true => exact absurd (.inr ⟨r, hr, hv⟩) hn⟩
      rcases hx with ⟨r, hr, hv⟩ | ⟨r, hr, hv⟩
      · exact hv (h1.1 r hr)
      · rw [h1.2 r hr] at hv; cases hv
  rw [e]

theorem wholeSearcher_congr (ss : List Searcher) {o o' : Options} (hf : o'.forceEnable = o.forceEnable)
    (h : ∀ text, AlsoHolds o text ↔ AlsoHolds o' text) :
    wholeSearcher ss o.also o.noalso o.forceEnable = wholeSearcher ss o'.also o'.noalso o'.forceEnable := by
  cases ss with
  | nil => rfl
  | cons s ss =>
    obtain ⟨s', hw⟩ := whole_of s ss
    rw [wholeSearcher_library hw, wholeSearcher_library hw]
    unfold librarySearcher
    rw [hf, alsoRegexp_congr s' h]

/-- **C119**: with any `--also` and `--also-not` that the same texts satisfy, refex does the same: to the files, in the same order, with the same report and exit
status (for all patterns, modes, other options, files and failures of the file system). -/
theorem C119_same_texts {T : Type} (w : World) (modes : Modes T) (o : Options) (also noalso : List (Str → Bool)) (dirAt : Str → Option Entry) (faults : Faults)
    (fs : FS) (rs : RState)
    (h : ∀ text, ((∀ r ∈ o.also, r text = true) ∧ (∀ r ∈ o.noalso, r text = false)) ↔ ((∀ r ∈ also, r text = true) ∧ (∀ r ∈ noalso, r text = false))) :
    mainRun w modes (withAlso o also noalso) dirAt faults fs rs = mainRun w modes o dirAt faults fs rs := by
  have e : runnerFromOptions w modes (withAlso o also noalso) = runnerFromOptions w modes o := by
    unfold runnerFromOptions
    show (match buildSearchers modes o.mode o.subMode o.searchReplace with | .error e => _ | .ok ss => _) = _
    cases buildSearchers modes o.mode o.subMode o.searchReplace with
    | error e => rfl
    | ok ss =>
      simp only
      rw [wholeSearcher_congr ss (o := o) (o' := withAlso o also noalso) rfl h]
      rfl
  unfold mainRun
  rw [e]
  rfl

/-- **C119**: neither the order of the options `--also` (or that of the options `--also-not`) matters, nor whether one is given twice. -/
theorem C119_order {T : Type} (w : World) (modes : Modes T) (o : Options) (also noalso : List (Str → Bool)) (dirAt : Str → Option Entry) (faults : Faults)
    (fs : FS) (rs : RState) (ha : ∀ r, r ∈ also ↔ r ∈ o.also) (hn : ∀ r, r ∈ noalso ↔ r ∈ o.noalso) :
    mainRun w modes (withAlso o also noalso) dirAt faults fs rs = mainRun w modes o dirAt faults fs rs :=
  C119_same_texts w modes o also noalso dirAt faults fs rs fun text => by simp only [ha, hn]

theorem find_wrapped (parseAst : Str → Str → Except Exc ParsedFile) (s : Searcher) (o : Options) (content path : Str) (n : Nat) :
    (AlsoHolds o content → findIter parseAst (librarySearcher o s) content path n = findIter parseAst (librarySearcher (withAlso o [] []) s) content path n) ∧
    (¬ AlsoHolds o content → findIter parseAst (librarySearcher o s) content path n = .error .skipNoResults ∨
      ∃ e, findIter parseAst (librarySearcher o s) content path n = .error e ∧ findIter parseAst (librarySearcher (withAlso o [] []) s) content path n = .error e) := by
  obtain ⟨h1, h2, h3, h4⟩ := C28_also s o.also o.noalso content path
  have hf : ∀ o', (librarySearcher o' s).find = (if o'.forceEnable then s else pragmaSuppressed s).find := by
    intro o'; unfold librarySearcher; cases o'.forceEnable <;> rfl
  have hp : ∀ o', (librarySearcher o' s).parse = (alsoRegexp s o'.also o'.noalso).parse := by
    intro o'; unfold librarySearcher; cases o'.forceEnable <;> rfl
  have hi : ∀ o', (librarySearcher o' s).included = s.included := by
    intro o'; unfold librarySearcher; cases o'.forceEnable <;> rfl
  have hnil : (alsoRegexp s (withAlso o [] []).also (withAlso o [] []).noalso).parse content path = s.parse content path := by
    show (alsoRegexp s [] []).parse content path = _
    rw [alsoRegexp_nil]
  constructor
  · intro ha
    unfold findIter
    rw [hi, hi, hp, hp, hnil, h1 ha, hf, hf]
    rfl
  · intro ha
    unfold findIter
    rw [hi, hi, hp, h2 ha]
    cases s.included path with
    | error e => exact .inr ⟨e, rfl, rfl⟩
    | ok => exact .inl rfl

/-- **C119**: with `--also` and `--also-not`, each file is either searched as without them (if every regex of `--also` and none of `--also-not` is found in it), or
else skipped, unless it is not even looked at without them (it is excluded). There is a runner with them iff there is one without. -/
theorem C119_search {T : Type} (w : World) (modes : Modes T) (o : Options) :
    ((∃ r, runnerFromOptions w modes o = .ok r) ↔ ∃ r, runnerFromOptions w modes (withAlso o [] []) = .ok r) ∧
    ∀ r plain, runnerFromOptions w modes o = .ok r → runnerFromOptions w modes (withAlso o [] []) = .ok plain → ∀ content path,
      (AlsoHolds o content → r.find content path = plain.find content path) ∧
      (¬ AlsoHolds o content → r.find content path = .error .skipNoResults ∨ ∃ e, r.find content path = .error e ∧ plain.find content path = .error e) := by
  unfold runnerFromOptions
  have e : buildSearchers modes (withAlso o [] []).mode (withAlso o [] []).subMode (withAlso o [] []).searchReplace =
      buildSearchers modes o.mode o.subMode o.searchReplace := rfl
  rw [e]
  cases buildSearchers modes o.mode o.subMode o.searchReplace with
  | error e => exact ⟨⟨fun ⟨_, h⟩ => (by cases h), fun ⟨_, h⟩ => (by cases h)⟩, fun _ _ h => (by cases h)⟩
  | ok ss =>
    cases ss with
    | nil => exact ⟨⟨fun ⟨_, h⟩ => (by cases h), fun ⟨_, h⟩ => (by cases h)⟩, fun _ _ h => (by cases h)⟩
    | cons s ss =>
      obtain ⟨s', hw⟩ := whole_of s ss
      simp only [wholeSearcher_library hw]
      refine ⟨⟨fun _ => ⟨_, rfl⟩, fun _ => ⟨_, rfl⟩⟩, fun r plain hr hplain content path => ?_⟩
      cases hr; cases hplain
      exact find_wrapped w.parseAst s' o content path _

/-- A regex that is found in texts with this character. -/
def exHas (c : Char) (text : Str) : Bool := text.contains c

/-- `refex a --sub=aa --also=b` rewrites "ab" and not "ac"; with `--also=b --also=a`, given in the other order and one twice, it does the same. -/
example : (mainRun exWorld exModes (withAlso exOptions [exHas 'b'] []) (fun _ => none) exNoFaults (exFs "ab") {}).fs exFile = some (exBytes "aab") ∧
    (mainRun exWorld exModes (withAlso exOptions [exHas 'b'] []) (fun _ => none) exNoFaults (exFs "ac") {}).fs exFile = some (exBytes "ac") ∧
    mainRun exWorld exModes (withAlso (withAlso exOptions [exHas 'b', exHas 'a'] []) [exHas 'a', exHas 'b', exHas 'a'] []) (fun _ => none) exNoFaults (exFs "ab") {} =
      mainRun exWorld exModes (withAlso exOptions [exHas 'b', exHas 'a'] []) (fun _ => none) exNoFaults (exFs "ab") {} :=
  ⟨by decide, by decide, C119_order _ _ _ _ _ _ _ _ _
    (fun r => by simp only [withAlso, List.mem_cons, List.not_mem_nil, or_false]; exact ⟨fun h => by rcases h with h | h | h; exact .inr h; exact .inl h; exact .inr h, fun h => h.elim (fun h => .inr (.inl h)) .inl⟩)
    (fun r => Iff.rfl)⟩

end Refex
