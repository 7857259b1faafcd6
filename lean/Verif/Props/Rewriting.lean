import Verif.Props.Templates
import Verif.Spec.Common
/-
Properties C29 (regex searches) and C30 (metadata templates).
-/
namespace Refex
set_option autoImplicit false

theorem get?_filterMap_val {κ α β : Type} [DecidableEq κ] {d : Dict κ α} (hwf : d.WF) (f : α → Option β) (k : κ) :
    Dict.get? (d.filterMap fun e => (f e.2).map fun s => (e.1, s)) k = (d.get? k).bind f := by
  induction d with
  | nil => rfl
  | cons e d ih =>
    obtain ⟨k', v⟩ := e
    simp only [Dict.WF, Dict.keys, List.map_cons, List.nodup_cons] at hwf
    have ih := ih hwf.2
    simp only [List.filterMap_cons, Dict.get?]
    cases hv : f v with
    | none =>
      simp only [Option.map_none]
      by_cases h : k' = k
      · subst h
        rw [ih]
        have : Dict.get? d k' = none := by
          cases hd : Dict.get? d k' with
          | none => rfl
          | some w => exact absurd (List.mem_map.2 ⟨_, Dict.get?_some_mem hd, rfl⟩) hwf.1
        simp [this, hv]
      · simp only [h, if_false, ih]
    | some s =>
      simp only [Option.map_some, Dict.get?]
      by_cases h : k' = k
      · simp [h, hv]
      · simp only [h, if_false, ih]

/-! ### C30 -/

/-- The four labels whose "replacement" is metadata of the finding. -/
def IsMetadataLabel (k : MatchKey) : Prop :=
  k = .name (str "__message") ∨ k = .name (str "__url") ∨ k = .name (str "__category") ∨ k = .name (str "__significant")

/-- What is to be reported for a match whose templates rewrite to `repl`. -/
structure ReportOf (keySpan : Dict MatchKey MatchV → Option Span) (ms : Dict MatchKey MatchV)
    (repl : Dict MatchKey Str) (f : Found) : Prop where
  spans : ∀ k s, f.matchedSpans.get? k = some s ↔ ∃ m, ms.get? k = some m ∧ m.span = some s
  edits : ∀ k s, f.replacements.get? k = some s ↔ repl.get? k = some s ∧ ¬ IsMetadataLabel k
  primary : f.primaryLabel = .name (str "__root")
  message : f.message = repl.get? (.name (str "__message"))
  url : f.url = repl.get? (.name (str "__url"))
  category : f.category = repl.get? (.name (str "__category"))
  significant : f.significant = true ↔ ∃ s, repl.get? (.name (str "__significant")) = some s ∧ s ≠ []
  key : f.keySpan = keySpan ms

/-- What the constructor of Substitution demands of the finding (see C04). -/
def Acceptable (ms : Dict MatchKey MatchV) (repl : Dict MatchKey Str) : Prop :=
  (∀ c, repl.get? (.name (str "__category")) = some c → categoryOk c = true) ∧
  (∃ m s, ms.get? (.name (str "__root")) = some m ∧ m.span = some s) ∧
  (∀ k v, repl.get? k = some v → ¬ IsMetadataLabel k → ∃ m s, ms.get? k = some m ∧ m.span = some s)

theorem wf_filterMap_val {κ α β : Type} [DecidableEq κ] {d : Dict κ α} (hwf : d.WF) (f : α → Option β) :
    Dict.WF (d.filterMap fun e => (f e.2).map fun s => (e.1, s)) := by
  unfold Dict.WF Dict.keys at *
  have : List.Sublist ((d.filterMap fun e => (f e.2).map fun s => (e.1, s)).map Prod.fst) (d.map Prod.fst) := by
    clear hwf
    induction d with
    | nil => exact .slnil
    | cons e d ih =>
      rw [List.filterMap_cons]
      cases h : f e.2 with
      | none => exact .cons _ ih
      | some b => exact .cons₂ _ ih
  exact this.nodup hwf

theorem buildFound_spans {ms : Dict MatchKey MatchV} (hwf : ms.WF) {repl : Dict MatchKey Str} {ks : Option Span} {f : Found}
    (h : buildFound ms repl ks = .ok f) : f.matchedSpans.WF := by
  unfold buildFound Found.validate at h
  split at h
  · cases h
  · split at h
    · cases h
    · split at h
      · cases h; exact wf_filterMap_val hwf _
      · cases h

theorem buildFound_eq (ms : Dict MatchKey MatchV) (hwf : ms.WF) (repl : Dict MatchKey Str) (ks : Option Span) :
    (∀ f, buildFound ms repl ks = .ok f → ReportOf (fun _ => ks) ms repl f ∧ Acceptable ms repl) ∧
    (Acceptable ms repl → ∃ f, buildFound ms repl ks = .ok f) ∧
    (∀ e, buildFound ms repl ks = .error e → e = .valueError) := by
  have hsp : ∀ k s, Dict.get? (ms.filterMap fun e => e.2.span.map fun s => (e.1, s)) k = some s ↔
      ∃ m, ms.get? k = some m ∧ m.span = some s := by
    intro k s
    rw [get?_filterMap_val hwf (fun v => v.span), Option.bind_eq_some_iff]
  have hrep : ∀ k s, Dict.get? ((((repl.erase messageLabel).erase urlLabel).erase categoryLabel).erase significantLabel) k
      = some s ↔ repl.get? k = some s ∧ ¬ IsMetadataLabel k := by
    intro k s
    simp only [Dict.get?_erase]
    unfold IsMetadataLabel
    have e1 : messageLabel = .name (str "__message") := rfl
    have e2 : urlLabel = .name (str "__url") := rfl
    have e3 : categoryLabel = .name (str "__category") := rfl
    have e4 : significantLabel = .name (str "__significant") := rfl
    rw [← e1, ← e2, ← e3, ← e4]
    by_cases h4 : k = significantLabel
    · simp [h4]
    by_cases h3 : k = categoryLabel
    · simp [h3]
    by_cases h2 : k = urlLabel
    · simp [h2]
    by_cases h1 : k = messageLabel
    · simp [h1]
    simp [h1, h2, h3, h4]
  unfold buildFound Found.validate
  generalize hfm : (ms.filterMap fun e => e.2.span.map fun s => (e.1, s)) = spans at hsp ⊢
  generalize hre : ((((repl.erase messageLabel).erase urlLabel).erase categoryLabel).erase significantLabel) = reps at hrep ⊢
  have hkeys : (reps.keys.all fun k => Dict.has spans k) = true ↔
      ∀ k v, repl.get? k = some v → ¬ IsMetadataLabel k → ∃ m s, ms.get? k = some m ∧ m.span = some s := by
    rw [List.all_eq_true]
    constructor
    · intro h k v hk hm
      have := h k (Dict.mem_keys_iff.2 ⟨v, (hrep k v).2 ⟨hk, hm⟩⟩)
      obtain ⟨s, hs⟩ := Dict.has_iff.1 this
      obtain ⟨m, hm1, hm2⟩ := (hsp k s).1 hs
      exact ⟨m, s, hm1, hm2⟩
    · intro h k hk
      obtain ⟨v, hv⟩ := Dict.mem_keys_iff.1 hk
      obtain ⟨h1, h2⟩ := (hrep k v).1 hv
      obtain ⟨m, s, hm1, hm2⟩ := h k v h1 h2
      exact Dict.has_iff.2 ⟨s, (hsp k s).2 ⟨m, hm1, hm2⟩⟩
  have hroot : Dict.has spans rootLabel = true ↔ ∃ m s, ms.get? (.name (str "__root")) = some m ∧ m.span = some s := by
    rw [Dict.has_iff]
    constructor
    · rintro ⟨s, hs⟩
      obtain ⟨m, h1, h2⟩ := (hsp _ s).1 hs
      exact ⟨m, s, h1, h2⟩
    · rintro ⟨m, s, h1, h2⟩
      exact ⟨s, (hsp _ s).2 ⟨m, h1, h2⟩⟩
  have hcat : Option.any (fun c => !categoryOk c) (Dict.get? repl categoryLabel) = false ↔
      ∀ c, repl.get? (.name (str "__category")) = some c → categoryOk c = true := by
    show _ ↔ ∀ c, repl.get? categoryLabel = some c → _
    cases Dict.get? repl categoryLabel with
    | none => simp
    | some c => simp
  simp only
  refine ⟨?_, ?_, ?_⟩
  · intro f hf
    split at hf
    · cases hf
    · rename_i hc
      split at hf
      · cases hf
      · rename_i hr
        split at hf
        · rename_i hk
          cases hf
          refine ⟨⟨hsp, hrep, rfl, rfl, rfl, rfl, ?_, rfl⟩, hcat.1 (by simpa using hc), hroot.1 (by simpa using hr),
            hkeys.1 hk⟩
          show (!((Dict.get? repl significantLabel).getD []).isEmpty) = true ↔ ∃ s, repl.get? significantLabel = some s ∧ s ≠ []
          cases hg : Dict.get? repl significantLabel with
          | none => simp
          | some s => cases s <;> simp
        · cases hf
  · rintro ⟨h1, h2, h3⟩
    rw [hcat.2 h1, hroot.2 h2, hkeys.2 h3]
    simp
  · intro e he
    split at he
    · cases he; rfl
    · split at he
      · cases he; rfl
      · split at he
        · cases he
        · cases he; rfl

/-- C30, what is reported: if the search of a file succeeds, there is exactly one report per match whose templates do not
refuse, in order; each has the spans of the match, its metadata from the `__` templates, and only the other
replacements as edits. -/
theorem C30_reports (ks : Dict MatchKey MatchV → Option Span)
    (ps : List (Dict MatchKey MatchV × Dict MatchKey Template)) (hwf : ∀ p ∈ ps, p.1.WF) (fs : List Found)
    (h : findIterParsed ks ps = .ok fs) :
    Forall2 (fun p f => ∃ repl, rewriteTemplates p.1 p.2 = .ok repl ∧ ReportOf ks p.1 repl f ∧ Acceptable p.1 repl)
      (ps.filter fun p => rewriteTemplates p.1 p.2 ≠ .error .rewriteError) fs := by
  induction ps generalizing fs with
  | nil => simp only [findIterParsed, Except.ok.injEq] at h; subst h; exact .nil
  | cons p ps ih =>
    obtain ⟨ms, ts⟩ := p
    have ih := ih (fun q hq => hwf q (List.mem_cons_of_mem _ hq))
    simp only [findIterParsed] at h
    split at h
    · rename_i hr
      rw [List.filter_cons_of_neg (by simp [hr])]
      exact ih fs h
    · cases h
    · rename_i repl hr
      rw [List.filter_cons_of_pos (by simp [hr])]
      split at h
      · cases h
      · rename_i f hf
        cases hrest : findIterParsed ks ps with
        | error e => rw [hrest] at h; cases h
        | ok fs' =>
          rw [hrest] at h
          cases h
          obtain ⟨h1, h2⟩ := (buildFound_eq ms (hwf (ms, ts) (List.mem_cons_self ..)) repl (ks ms)).1 f hf
          exact .cons ⟨repl, hr, ⟨h1.spans, h1.edits, h1.primary, h1.message, h1.url, h1.category, h1.significant, h1.key⟩, h2⟩
            (ih fs' hrest)

/-- C30: a metadata label never carries an edit, and every edit is on a matched span. -/
theorem C30_metadata_never_edit (ks : Dict MatchKey MatchV → Option Span)
    (ps : List (Dict MatchKey MatchV × Dict MatchKey Template)) (hwf : ∀ p ∈ ps, p.1.WF) (fs : List Found)
    (h : findIterParsed ks ps = .ok fs) (f : Found) (hf : f ∈ fs) (k : MatchKey) (v : Str)
    (hk : f.replacements.get? k = some v) :
    ¬ IsMetadataLabel k ∧ ∃ s, f.matchedSpans.get? k = some s := by
  have H := C30_reports ks ps hwf fs h
  clear h
  generalize (ps.filter fun p => rewriteTemplates p.1 p.2 ≠ .error .rewriteError) = qs at H
  induction H with
  | nil => simp at hf
  | cons hab _ ih =>
    rcases List.mem_cons.1 hf with rfl | hf'
    · obtain ⟨repl, h1, h2, h3⟩ := hab
      obtain ⟨h4, h5⟩ := (h2.edits k v).1 hk
      obtain ⟨m, s, h6, h7⟩ := h3.2.2 k v h4 h5
      exact ⟨h5, s, (h2.spans k s).2 ⟨m, h6, h7⟩⟩
    · exact ih hf'

/-- C30, when it succeeds: exactly if no template fails otherwise than by refusing, and the findings are acceptable as
Substitutions. In particular a refusal by one match (a RewriteError) disturbs no other match. -/
theorem C30_succeeds_iff (ks : Dict MatchKey MatchV → Option Span)
    (ps : List (Dict MatchKey MatchV × Dict MatchKey Template)) (hwf : ∀ p ∈ ps, p.1.WF) :
    (∃ fs, findIterParsed ks ps = .ok fs) ↔
      ∀ p ∈ ps, rewriteTemplates p.1 p.2 = .error .rewriteError ∨
        ∃ repl, rewriteTemplates p.1 p.2 = .ok repl ∧ Acceptable p.1 repl := by
  induction ps with
  | nil => simp [findIterParsed]
  | cons p ps ih =>
    obtain ⟨ms, ts⟩ := p
    have ih := ih (fun q hq => hwf q (List.mem_cons_of_mem _ hq))
    have hb := fun repl => buildFound_eq ms (hwf (ms, ts) (List.mem_cons_self ..)) repl (ks ms)
    rw [List.forall_mem_cons, ← ih]
    simp only [findIterParsed]
    split
    · rename_i hr
      simp [hr]
    · rename_i e hne hr
      constructor
      · rintro ⟨_, h⟩; cases h
      · rintro ⟨h1 | ⟨repl, h1, _⟩, _⟩
        · rw [hr] at h1; exact absurd (Except.error.inj h1) hne
        · rw [hr] at h1; cases h1
    · rename_i repl hr
      constructor
      · rintro ⟨fs, h⟩
        split at h
        · cases h
        · rename_i f hf
          refine ⟨.inr ⟨repl, hr, ((hb repl).1 f hf).2⟩, ?_⟩
          cases hrest : findIterParsed ks ps with
          | error e => rw [hrest] at h; cases h
          | ok fs' => exact ⟨fs', rfl⟩
      · rintro ⟨h1 | ⟨repl', h1, h2⟩, fs', h3⟩
        · rw [hr] at h1; cases h1
        · rw [hr] at h1
          cases h1
          obtain ⟨f, hf⟩ := (hb repl).2.1 h2
          rw [hf, h3]
          exact ⟨f :: fs', rfl⟩

/-- A template that always refuses. -/
def refusingTemplate : Template := { vars := [], substitute := fun _ _ => .error .rewriteError }

/-- A match of "ab" at 0 with an inner label. -/
def exC30 : Dict MatchKey MatchV :=
  [(.name (str "__root"), ⟨some (str "ab"), some (0, 2), none⟩), (.name (str "x"), ⟨some (str "b"), some (1, 2), none⟩)]

-- One match with message, category and an edit of `x`; a second one that refuses; a third one without edit.
example : findIterParsed (fun _ => none)
    [(exC30, [(.name (str "__message"), literalTemplate (str "hello")), (.name (str "x"), regexTemplate [.named (str "x"), .lit (str "!")]),
              (.name (str "__category"), literalTemplate (str "a.b"))]),
     (exC30, [(.name (str "x"), refusingTemplate)]), (exC30, [])] =
    .ok [{ matchedSpans := [(.name (str "__root"), (0, 2)), (.name (str "x"), (1, 2))],
           replacements := [(.name (str "x"), str "b!")], primaryLabel := rootLabel, message := some (str "hello"),
           category := some (str "a.b"), significant := false },
         { matchedSpans := [(.name (str "__root"), (0, 2)), (.name (str "x"), (1, 2))],
           replacements := [], primaryLabel := rootLabel, significant := false }] := by decide

-- An unknown `__` label is an error of the whole search, not a dropped match.
example : findIterParsed (fun _ => none) [(exC30, [(.name (str "__msg"), literalTemplate (str "hello"))])] =
    .error .valueError := by decide

/-! ### C29 -/

theorem get?_numbered (text : Str) (regs : List (Option Span)) (i : Nat) (k : MatchKey) :
    (numberedGroups text i regs).get? k = match k with
      | .num n => if i ≤ n ∧ n ≠ 0 then (regs[n - i]?).map (groupMatch text) else none
      | .name s => if s = str "__root" ∧ i = 0 then (regs[0]?).map (groupMatch text) else none := by
  induction regs generalizing i with
  | nil => cases k <;> simp [numberedGroups, Dict.get?]
  | cons r rs ih =>
    simp only [numberedGroups, Dict.get?]
    rw [ih]
    cases k with
    | num n =>
      by_cases hi : i = 0
      · subst hi
        simp only [if_true, rootLabel, reduceCtorEq, if_false]
        by_cases hn : n = 0
        · simp [hn]
        · have h1 : 1 ≤ n := by omega
          obtain ⟨m, rfl⟩ := Nat.exists_eq_add_of_le h1
          simp [Nat.add_comm 1 m]
      · simp only [hi, if_false, MatchKey.num.injEq]
        by_cases hin : i = n
        · subst hin; simp [hi]
        · simp only [hin, if_false]
          by_cases hle : i ≤ n
          · have h1 : i + 1 ≤ n := by omega
            have hn : n ≠ 0 := by omega
            obtain ⟨m, hm⟩ : ∃ m, n - i = m + 1 := ⟨n - i - 1, by omega⟩
            have hm' : n - (i + 1) = m := by omega
            simp [hle, h1, hn, hm, hm']
          · have h1 : ¬ (i + 1 ≤ n) := by omega
            simp [hle, h1]
    | name s =>
      by_cases hi : i = 0
      · subst hi
        simp only [if_true, rootLabel, MatchKey.name.injEq]
        by_cases hs : s = str "__root"
        · simp [hs]
        · have : ¬ str "__root" = s := fun h => hs h.symm
          simp [hs, this]
      · simp [hi]

theorem numbered_WF (text : Str) (regs : List (Option Span)) (i : Nat) :
    (numberedGroups text i regs).WF := by
  induction regs generalizing i with
  | nil => simp [numberedGroups, Dict.WF, Dict.keys]
  | cons r rs ih =>
    have := ih (i + 1)
    simp only [numberedGroups, Dict.WF, Dict.keys, List.map_cons, List.nodup_cons] at this ⊢
    refine ⟨?_, this⟩
    intro hmem
    obtain ⟨v, hv⟩ := Dict.mem_keys_iff.1 (show _ ∈ Dict.keys _ from hmem)
    rw [get?_numbered] at hv
    by_cases hi : i = 0
    · subst hi
      simp only [if_true, rootLabel] at hv
      simp at hv
    · simp only [hi, if_false] at hv
      have : ¬ (i + 1 ≤ i) := by omega
      simp [this] at hv

theorem addNamed_spec (g : Dict Str Nat) (hg : g.WF) (acc : Dict MatchKey MatchV) (hacc : acc.WF)
    (hin : ∀ n i, (n, i) ∈ g → ∃ v, acc.get? (.num i) = some v) :
    ∃ d, addNamed g acc = .ok d ∧ d.WF ∧ (∀ i, d.get? (.num i) = acc.get? (.num i)) ∧
      ∀ s, d.get? (.name s) = match g.get? s with
        | some i => acc.get? (.num i)
        | none => acc.get? (.name s) := by
  induction g generalizing acc with
  | nil => exact ⟨acc, rfl, hacc, fun _ => rfl, fun s => rfl⟩
  | cons e g ih =>
    obtain ⟨n, i⟩ := e
    simp only [Dict.WF, Dict.keys, List.map_cons, List.nodup_cons] at hg
    obtain ⟨v, hv⟩ := hin n i (List.mem_cons_self ..)
    simp only [addNamed, hv]
    obtain ⟨d, h1, h2, h3, h4⟩ := ih hg.2 (acc.set (.name n) v) (Dict.WF_set hacc _ _) (by
      intro n' i' h'
      obtain ⟨w, hw⟩ := hin n' i' (List.mem_cons_of_mem _ h')
      exact ⟨w, by rw [Dict.get?_set]; simp [hw]⟩)
    refine ⟨d, h1, h2, ?_, ?_⟩
    · intro j; rw [h3, Dict.get?_set]; simp
    · intro s
      rw [h4]
      simp only [Dict.get?]
      by_cases hs : n = s
      · subst hs
        have : Dict.get? g n = none := by
          cases hd : Dict.get? g n with
          | none => rfl
          | some w => exact absurd (List.mem_map.2 ⟨_, Dict.get?_some_mem hd, rfl⟩) hg.1
        simp [this, Dict.get?_set, hv]
      · simp only [hs, if_false]
        have hs' : ¬ s = n := fun h => hs h.symm
        cases Dict.get? g s <;> simp [Dict.get?_set, hs']

/-- C29, what templates see: for every match, the groups 1..n are available by number and, if named, by name; `__root` is
the whole match (unless a group has that name); a group that did not participate has no span and the empty text. -/
theorem C29_match_dict (c : Compiled) (text : Str) (regs : List (Option Span)) (h : RegexMatch c regs) :
    ∃ d, regexMatchDict c text regs = .ok d ∧ d.WF ∧
      (∀ i, d.get? (.num i) = if i = 0 then none else (regs[i]?).map (groupMatch text)) ∧
      (∀ n i, c.groupindex.get? n = some i → d.get? (.name n) = (regs[i]?).map (groupMatch text)) ∧
      (∀ n, c.groupindex.get? n = none →
        d.get? (.name n) = if n = str "__root" then (regs[0]?).map (groupMatch text) else none) := by
  unfold regexMatchDict
  obtain ⟨d, h1, h2, h3, h4⟩ := addNamed_spec c.groupindex h.names (numberedGroups text 0 regs) (numbered_WF _ _ _) (by
    intro n i hi
    obtain ⟨ha, hb⟩ := h.index n i (Dict.get?_of_mem h.names hi)
    rw [get?_numbered]
    have hlt : i < regs.length := by rw [h.length]; omega
    have : i ≠ 0 := by omega
    exact ⟨groupMatch text regs[i], by simp [this, hlt]⟩)
  refine ⟨d, h1, h2, ?_, ?_, ?_⟩
  · intro i
    rw [h3, get?_numbered]
    by_cases hi : i = 0 <;> simp [hi]
  · intro n i hn
    rw [h4, hn]
    have := h.index n i hn
    have hi : i ≠ 0 := by omega
    simp only
    rw [get?_numbered]; simp [hi]
  · intro n hn
    rw [h4, hn]
    simp only
    rw [get?_numbered]; simp

/-- A template that succeeds whenever every variable it declares has a text: what C17 and C18 prove of the template
classes. -/
def Template.Total (t : Template) : Prop :=
  ∀ m (ms : Dict MatchKey MatchV), ms.WF → (∀ k ∈ t.vars, ∃ s, TextOf ms k s) → ∃ s, t.substitute m ms = .ok s

/-- The search of a text by a regex with the given matches, refex/search.py:692-703 with 635-659. -/
def regexFindAll (c : Compiled) (text : Str) (ts : Dict MatchKey Template) (found : List (List (Option Span))) :
    Except Exc (List Found) :=
  match found.mapM (regexMatchDict c text) with
  | .error e => .error e
  | .ok ds => findIterParsed (fun _ => none) (ds.map fun d => (d, ts))

theorem rewriteTemplates_ok (ms : Dict MatchKey MatchV) (ts : Dict MatchKey Template)
    (h : ∀ e ∈ ts, (∃ m, ms.get? e.1 = some m) ∧ ∀ m, ∃ s, e.2.substitute m ms = .ok s) :
    ∃ out, rewriteTemplates ms ts = .ok out := by
  induction ts with
  | nil => exact ⟨[], rfl⟩
  | cons e ts ih =>
    obtain ⟨l, t⟩ := e
    obtain ⟨out, ho⟩ := ih (fun e he => h e (List.mem_cons_of_mem _ he))
    obtain ⟨⟨m, hm⟩, hs⟩ := h (l, t) (List.mem_cons_self ..)
    simp only [rewriteTemplates, hm]
    split
    · exact ⟨out, ho⟩
    · obtain ⟨s, hs⟩ := hs m
      simp only at hs
      rw [hs, ho]
      exact ⟨_, rfl⟩

theorem mapM_ok {α β : Type} (f : α → Except Exc β) (l : List α) (R : α → β → Prop)
    (h : ∀ a ∈ l, ∃ b, f a = .ok b ∧ R a b) :
    ∃ bs, l.mapM f = .ok bs ∧ Forall2 R l bs := by
  induction l with
  | nil => exact ⟨[], rfl, .nil⟩
  | cons a l ih =>
    obtain ⟨b, hb, hr⟩ := h a (List.mem_cons_self ..)
    obtain ⟨bs, hbs, hrs⟩ := ih (fun x hx => h x (List.mem_cons_of_mem _ hx))
    refine ⟨b :: bs, ?_, .cons hr hrs⟩
    rw [List.mapM_cons, hb, hbs]
    rfl

/-- The full statement of C29: the search of an accepted regex searcher reports every match, whatever the text. -/
def RegexSearchTotal (c : Compiled) (ts : Dict MatchKey Template) : Prop :=
  regexSearcherOk c ts = true → (∀ e ∈ ts, e.2.Total) →
    ∀ text found, (∀ regs ∈ found, RegexMatch c regs) → ∃ fs, regexFindAll c text ts found = .ok fs ∧
      Forall2 (fun regs f => (∃ s, regs[0]? = some (some s) ∧ f.matchedSpans.get? (.name (str "__root")) = some s) ∧
        (∀ i s, 0 < i → (f.matchedSpans.get? (.num i) = some s ↔ regs[i]? = some (some s))) ∧
        (∀ n i, c.groupindex.get? n = some i → ∀ s, (f.matchedSpans.get? (.name n) = some s ↔ regs[i]? = some (some s))) ∧
        (∀ l v, f.replacements.get? l = some v → ∃ s, f.matchedSpans.get? l = some s)) found fs

/-- C29: an accepted searcher whose templates do not mention group 0 by number, and whose group names
do not start with `__`, reports every match with exactly the groups that participated, and never fails. -/
theorem C29_total (c : Compiled) (ts : Dict MatchKey Template)
    (h0 : ∀ e ∈ ts, e.1 ≠ .num 0 ∧ MatchKey.num 0 ∉ e.2.vars)
    (hd : ∀ n i, c.groupindex.get? n = some i → ¬ IsMeta (.name n)) : RegexSearchTotal c ts := by
  intro hok htot text found hfound
  -- every variable is available in every match
  have hvar : ∀ regs, RegexMatch c regs → ∀ d, regexMatchDict c text regs = .ok d → ∀ e ∈ ts, ∀ k, k = e.1 ∨ k ∈ e.2.vars →
      ∃ m, d.get? k = some m ∧ ∃ s, m.string = some s := by
    intro regs hr d hdd e he k hk
    obtain ⟨d', e1, _, hnum, hname, hroot⟩ := C29_match_dict c text regs hr
    rw [hdd] at e1; cases e1
    have hgm : ∀ r, ∃ s, (groupMatch text r).string = some s := by
      intro r; cases r <;> exact ⟨_, rfl⟩
    have hmem : k ∈ templateVariables ts := by
      unfold templateVariables
      rw [List.mem_flatMap]
      refine ⟨e, he, ?_⟩
      rcases hk with rfl | hk
      · exact List.mem_cons_self ..
      · exact List.mem_cons_of_mem _ hk
    have hk' := List.all_eq_true.1 hok k hmem
    have hk0 : k ≠ .num 0 := by
      rcases hk with rfl | hk
      · exact (h0 e he).1
      · intro hz; rw [hz] at hk; exact (h0 e he).2 hk
    cases k with
    | num n =>
      have hn : n ≤ c.groups := by simpa using hk'
      have hn0 : n ≠ 0 := fun hz => hk0 (by rw [hz])
      have hlt : n < regs.length := by rw [hr.length]; omega
      refine ⟨groupMatch text regs[n], ?_, hgm _⟩
      rw [hnum]; simp [hn0, hlt]
    | name s =>
      cases hg : c.groupindex.get? s with
      | some i =>
        have := hr.index s i hg
        have hlt : i < regs.length := by rw [hr.length]; omega
        refine ⟨groupMatch text regs[i], ?_, hgm _⟩
        rw [hname s i hg]; simp [hlt]
      | none =>
        have hs : s = str "__root" := by simpa [Dict.has, hg] using hk'
        obtain ⟨sp, hsp⟩ := hr.whole
        refine ⟨groupMatch text (some sp), ?_, hgm _⟩
        rw [hroot s hg, hsp]; simp [hs]
  obtain ⟨ds, hds, hrel⟩ := mapM_ok (regexMatchDict c text) found
    (fun regs d => regexMatchDict c text regs = .ok d ∧ RegexMatch c regs ∧ d.WF) (by
      intro regs hregs
      obtain ⟨d, e1, e2, _⟩ := C29_match_dict c text regs (hfound regs hregs)
      exact ⟨d, e1, e1, hfound regs hregs, e2⟩)
  unfold regexFindAll
  rw [hds]
  simp only
  -- per match: the templates rewrite and the finding is acceptable
  have hrootfree : c.groupindex.get? (str "__root") = none := by
    cases hg : c.groupindex.get? (str "__root") with
    | none => rfl
    | some i => exact absurd ⟨str "root", rfl⟩ (hd _ _ hg)
  have hmetafree : ∀ k, IsMetadataLabel k → ∀ e ∈ ts, e.1 ≠ k := by
    intro k hk e he hek
    have hmem : k ∈ templateVariables ts := by
      unfold templateVariables
      rw [List.mem_flatMap]
      exact ⟨e, he, by rw [← hek]; exact List.mem_cons_self ..⟩
    have hk' := List.all_eq_true.1 hok k hmem
    rcases hk with rfl | rfl | rfl | rfl
    all_goals
      rcases Bool.or_eq_true_iff.1 hk' with h1 | h1
      · obtain ⟨i, hi⟩ := Dict.has_iff.1 h1
        exact hd _ _ hi ⟨_, rfl⟩
      · exact absurd h1 (by decide)
  have key : ∀ d ∈ ds, ∃ repl, rewriteTemplates d ts = .ok repl ∧ Acceptable d repl := by
    intro d hdmem
    obtain ⟨regs, hregs, hd1, hd2, hd3⟩ : ∃ regs, regs ∈ found ∧ regexMatchDict c text regs = .ok d ∧ RegexMatch c regs ∧ d.WF := by
      clear hds
      induction hrel with
      | nil => simp at hdmem
      | cons hab _ ih =>
        rcases List.mem_cons.1 hdmem with rfl | hmem
        · exact ⟨_, List.mem_cons_self .., hab⟩
        · obtain ⟨r, hr, hr'⟩ := ih (fun r hr => hfound r (List.mem_cons_of_mem _ hr)) hmem
          exact ⟨r, List.mem_cons_of_mem _ hr, hr'⟩
    obtain ⟨repl, hrepl⟩ := rewriteTemplates_ok d ts (by
      intro e he
      obtain ⟨m, hm, _⟩ := hvar regs hd2 d hd1 e he e.1 (.inl rfl)
      refine ⟨⟨m, hm⟩, fun m' => htot e he m' d hd3 ?_⟩
      intro k hk
      obtain ⟨m, hm, s, hs⟩ := hvar regs hd2 d hd1 e he k (.inr hk)
      exact ⟨s, m, hm, hs⟩)
    have hrepl' : ∀ k v, repl.get? k = some v → ∃ m s, d.get? k = some m ∧ m.span = some s ∧ ∃ e ∈ ts, e.1 = k := by
      clear hds hrel
      have gen : ∀ ts' : Dict MatchKey Template, (∀ e ∈ ts', e ∈ ts) → ∀ repl, rewriteTemplates d ts' = .ok repl →
          ∀ k v, repl.get? k = some v → ∃ m s, d.get? k = some m ∧ m.span = some s ∧ ∃ e ∈ ts, e.1 = k := by
        intro ts'
        induction ts' with
        | nil => intro _ repl hr k v hk; cases hr; simp [Dict.get?] at hk
        | cons e ts' ih =>
          intro hsub repl hr k v hk
          obtain ⟨l, t⟩ := e
          obtain ⟨m, hm, _⟩ := hvar regs hd2 d hd1 (l, t) (hsub _ (List.mem_cons_self ..)) l (.inl rfl)
          have ih := ih (fun e he => hsub e (List.mem_cons_of_mem _ he))
          simp only [rewriteTemplates, hm] at hr
          split at hr
          · exact ih repl hr k v hk
          · rename_i sp hsp
            split at hr
            · cases hr
            · cases hrest : rewriteTemplates d ts' with
              | error e => rw [hrest] at hr; cases hr
              | ok out =>
                rw [hrest] at hr
                cases hr
                simp only [Dict.get?] at hk
                split at hk
                · rename_i heq
                  subst heq
                  exact ⟨m, sp, hm, hsp, (l, t), hsub _ (List.mem_cons_self ..), rfl⟩
                · exact ih out hrest k v hk
      exact gen ts (fun _ he => he) repl hrepl
    refine ⟨repl, hrepl, ?_, ?_, ?_⟩
    · intro cat hcat
      obtain ⟨_, _, _, _, e, he, hek⟩ := hrepl' _ _ hcat
      exact absurd hek (hmetafree _ (.inr (.inr (.inl rfl))) e he)
    · obtain ⟨d', e1, _, _, _, hroot⟩ := C29_match_dict c text regs hd2
      rw [hd1] at e1; cases e1
      obtain ⟨sp, hsp⟩ := hd2.whole
      refine ⟨groupMatch text (some sp), sp, ?_, rfl⟩
      rw [hroot _ hrootfree, hsp]; simp
    · intro k v hk _
      obtain ⟨m, s, h1, h2, _⟩ := hrepl' k v hk
      exact ⟨m, s, h1, h2⟩
  have hdsWF : ∀ p ∈ (ds.map fun d => (d, ts)), p.1.WF := by
    intro p hp
    obtain ⟨d, hdmem, rfl⟩ := List.mem_map.1 hp
    clear hds key
    induction hrel with
    | nil => simp at hdmem
    | cons hab _ ih =>
      rcases List.mem_cons.1 hdmem with rfl | hmem
      · exact hab.2.2
      · exact ih (fun r hr => hfound r (List.mem_cons_of_mem _ hr)) hmem (List.mem_map.2 ⟨_, hmem, rfl⟩)
  obtain ⟨fs, hfs⟩ := (C30_succeeds_iff (fun _ => none) (ds.map fun d => (d, ts)) hdsWF).2 (by
    intro p hp
    obtain ⟨d, hdmem, rfl⟩ := List.mem_map.1 hp
    exact .inr (key d hdmem))
  refine ⟨fs, hfs, ?_⟩
  have hrep := C30_reports _ _ hdsWF fs hfs
  have hall : (ds.map fun d => (d, ts)).filter (fun p => rewriteTemplates p.1 p.2 ≠ .error .rewriteError) =
      ds.map fun d => (d, ts) := by
    rw [List.filter_eq_self]
    intro p hp
    obtain ⟨d, hdmem, rfl⟩ := List.mem_map.1 hp
    obtain ⟨repl, hr, _⟩ := key d hdmem
    simp [hr]
  rw [hall] at hrep
  clear hds hfs hall hdsWF key
  induction hrel generalizing fs with
  | nil =>
    cases hrep
    exact .nil
  | @cons regs d found' ds' hab _ ih =>
    simp only [List.map_cons] at hrep
    cases hrep with
    | cons h1 h2 =>
      refine .cons ?_ (ih (fun r hr => hfound r (List.mem_cons_of_mem _ hr)) _ h2)
      obtain ⟨repl, h3, h4, h5⟩ := h1
      obtain ⟨hd1, hd2, _⟩ := hab
      obtain ⟨d', e1, _, hnum, hname, hroot⟩ := C29_match_dict c text regs hd2
      rw [hd1] at e1; cases e1
      have hgm : ∀ (r : Option Span) s, (groupMatch text r).span = some s ↔ r = some s := by
        intro r s; cases r <;> simp [groupMatch]
      have hlook : ∀ (o : Option (Option Span)) s, (∃ m, o.map (groupMatch text) = some m ∧ m.span = some s) ↔ o = some (some s) := by
        intro o s
        cases o with
        | none => simp
        | some r => simp [hgm]
      refine ⟨?_, ?_, ?_, ?_⟩
      · obtain ⟨sp, hsp⟩ := hd2.whole
        refine ⟨sp, hsp, (h4.spans _ _).2 ?_⟩
        simp only
        rw [hroot _ hrootfree]
        simp only [if_true]
        exact (hlook _ _).2 hsp
      · intro i s hi
        rw [h4.spans]
        simp only
        rw [hnum]
        have : i ≠ 0 := by omega
        simp only [this, if_false]
        exact hlook _ _
      · intro n i hni s
        rw [h4.spans]
        simp only
        rw [hname n i hni]
        exact hlook _ _
      · intro l v hl
        obtain ⟨h6, h7⟩ := (h4.edits l v).1 hl
        obtain ⟨m, s, h8, h9⟩ := h5.2.2 l v h6 h7
        exact ⟨s, (h4.spans l s).2 ⟨m, h8, h9⟩⟩

/-- `(a)(?P<w>b)?` -/
def exC29 : Compiled := { groups := 2, groupindex := [(str "w", 2)] }

/-- The template `\g<w>-\1` on the whole match. -/
def exC29Templates : Dict MatchKey Template := [(.name (str "__root"), regexTemplate [.named (str "w"), .lit (str "-"), .group 1])]

/-- C17 makes the regex templates total. -/
theorem regexTemplate_total (items : List ReItem) : (regexTemplate items).Total := by
  intro m ms hwf h
  by_cases hc : ∃ it ∈ items, ∃ k, it.ref? = some k ∧ ∀ s, ¬ TextOf ms k s
  · obtain ⟨it, hit, k, hk, hno⟩ := hc
    obtain ⟨s, hs⟩ := h k ((C17_variables items k).2 ⟨it, hit, hk⟩)
    exact absurd hs (hno s)
  · have hall : ∀ it ∈ items, ∀ k, it.ref? = some k → ∃ s, TextOf ms k s := by
      intro it hit k hk
      exact Classical.byContradiction fun hno => hc ⟨it, hit, k, hk, fun s hs => hno ⟨s, hs⟩⟩
    classical
    exact ⟨_, C17_substitute items m ms hwf (fun k => if h : ∃ s, TextOf ms k s then h.choose else []) (by
      intro it hit k hk
      have := hall it hit k hk
      simp only [this, dif_pos]
      exact this.choose_spec)⟩

-- The hypotheses are met by `(a)(?P<w>b)?` with `\g<w>-\1` on "ab a", and the search gives two findings.
example : RegexSearchTotal exC29 exC29Templates :=
  C29_total _ _ (by
    intro e he
    rw [List.mem_singleton.1 he]
    exact ⟨by decide, by decide⟩) (by
    intro n i hn
    simp only [exC29, Dict.get?] at hn
    split at hn
    · rename_i h; rintro ⟨r, hr⟩; rw [← h] at hr; simp [str] at hr
    · simp at hn)
example : regexSearcherOk exC29 exC29Templates = true := by decide
example : ∀ e ∈ exC29Templates, e.2.Total := by
  intro e he; rw [List.mem_singleton.1 he]; exact regexTemplate_total _
example : RegexMatch exC29 [some (0, 2), some (0, 1), some (1, 2)] :=
  ⟨by decide, by
    intro n i h
    simp only [exC29, Dict.get?] at h
    split at h
    · cases h; exact ⟨by decide, by decide⟩
    · simp at h, rfl, (0, 2), rfl⟩
example : regexFindAll exC29 (str "ab a") exC29Templates
    [[some (0, 2), some (0, 1), some (1, 2)], [some (3, 4), some (3, 4), none]] =
    .ok [{ matchedSpans := [(.name (str "__root"), (0, 2)), (.num 1, (0, 1)), (.num 2, (1, 2)), (.name (str "w"), (1, 2))],
           replacements := [(.name (str "__root"), str "b-a")], primaryLabel := rootLabel, significant := false },
         { matchedSpans := [(.name (str "__root"), (3, 4)), (.num 1, (3, 4))],
           replacements := [(.name (str "__root"), str "-a")], primaryLabel := rootLabel, significant := false }] := by
  decide

/-- C29 is false in full: the template `\g<0>` is accepted but every match fails with a KeyError, because group 0 is only
known as `__root`. -/
theorem C29_group_zero_false :
    ¬ RegexSearchTotal { groups := 0, groupindex := [] } [(.name (str "__root"), regexTemplate [.group 0])] := by
  intro h
  obtain ⟨fs, hfs, _⟩ := h (by decide) (by
    intro e he; rw [List.mem_singleton.1 he]; exact regexTemplate_total _) (str "x") [[some (0, 1)]] (by
    intro r hr
    rw [List.mem_singleton.1 hr]
    exact ⟨by decide, by intro n i h; simp [Dict.get?] at h, rfl, (0, 1), rfl⟩)
  have : regexFindAll { groups := 0, groupindex := [] } (str "x") [(.name (str "__root"), regexTemplate [.group 0])]
      [[some (0, 1)]] = .error .keyError := by decide
  rw [this] at hfs
  cases hfs

end Refex
