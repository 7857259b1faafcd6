import Verif.Props.ModesMain
import Verif.Spec.RegexMode
/- C94: the command line in the mode of regular expressions. -/
namespace Refex
set_option autoImplicit false

/-! ### Labels -/

theorem label_num_inj {m n : Nat} (h : (MatchKey.num m).label = (MatchKey.num n).label) : m = n := by
  unfold MatchKey.label at h
  simp only [List.cons.injEq, true_and] at h
  rw [Nat.toList_repr, Nat.toList_repr] at h
  have := Nat.ofDigitChars_toDigits (b := 10) (n := m) (by decide) (by decide)
  rw [h, Nat.ofDigitChars_toDigits (by decide) (by decide)] at this
  exact this.symm

/-- A key that is not confused with another one by its label. -/
def PlainKey : MatchKey → Prop
  | .name s => s.head? ≠ some '#'
  | .num _ => True

theorem label_inj {j k : MatchKey} (hj : PlainKey j) (hk : PlainKey k) (h : j.label = k.label) : j = k := by
  cases j with
  | num m =>
    cases k with
    | num n => rw [label_num_inj h]
    | name s => exact absurd (by rw [← show _ = s from h]; rfl) hk
  | name r =>
    cases k with
    | num n => exact absurd (by rw [show r = _ from h]; rfl) hj
    | name s => rw [show r = s from h]

theorem get?_plain {α : Type} (d : Dict MatchKey α) (hd : ∀ e ∈ d, PlainKey e.1) (k : MatchKey) (hk : PlainKey k) :
    Dict.get? (d.map fun e => (e.1.label, e.2)) k.label = d.get? k := by
  induction d with
  | nil => rfl
  | cons e d ih =>
    obtain ⟨j, v⟩ := e
    have hj := hd (j, v) (List.mem_cons_self ..)
    simp only [List.map_cons, Dict.get?]
    rw [ih fun e he => hd e (List.mem_cons_of_mem _ he)]
    by_cases h : j = k
    · rw [if_pos h, if_pos (congrArg _ h)]
    · rw [if_neg h, if_neg fun e => h (label_inj hj hk e)]

theorem wf_plain {α : Type} {d : Dict MatchKey α} (hd : ∀ e ∈ d, PlainKey e.1) (hw : d.WF) : Dict.WF (d.map fun e => (e.1.label, e.2)) := by
  induction d with
  | nil => exact List.nodup_nil
  | cons e d ih =>
    unfold Dict.WF Dict.keys at hw ⊢
    simp only [List.map_cons, List.nodup_cons] at hw ⊢
    refine ⟨?_, ih (fun e he => hd e (List.mem_cons_of_mem _ he)) hw.2⟩
    intro hm
    obtain ⟨⟨l, v⟩, he, e1⟩ := List.mem_map.1 hm
    obtain ⟨f, hf, e2⟩ := List.mem_map.1 he
    have : f.1.label = e.1.label := by rw [← e1, ← e2]
    have := label_inj (hd f (List.mem_cons_of_mem _ hf)) (hd e (List.mem_cons_self ..)) this
    exact hw.1 (List.mem_map.2 ⟨f, hf, this⟩)

/-! ### One match -/

/-- The templates as the search uses them. -/
def reTemplates (tpls : Dict Str (List ReItem)) : Dict MatchKey Template := tpls.map fun e => (.name e.1, regexTemplate e.2)

/-- What a searcher is refused without. -/
def ReAccepted (c : Compiled) (tpls : Dict Str (List ReItem)) : Prop :=
  ∀ e ∈ tpls, groupOf c e.1 ≠ none ∧ ∀ it ∈ e.2, HasRef c it

theorem get?_reTemplates (tpls : Dict Str (List ReItem)) (l : Str) : (reTemplates tpls).get? (.name l) = (tpls.get? l).map regexTemplate := by
  induction tpls with
  | nil => rfl
  | cons e tpls ih =>
    unfold reTemplates at ih ⊢
    simp only [List.map_cons, Dict.get?]
    rw [ih]
    by_cases h : e.1 = l
    · rw [if_pos h, if_pos (congrArg _ h)]; rfl
    · rw [if_neg h, if_neg fun x => h (MatchKey.name.inj x)]

theorem get?_reTemplates_num (tpls : Dict Str (List ReItem)) (n : Nat) : (reTemplates tpls).get? (.num n) = none := by
  induction tpls with
  | nil => rfl
  | cons e tpls ih =>
    unfold reTemplates at ih ⊢
    simp only [List.map_cons, Dict.get?]
    rw [ih, if_neg (by intro h; cases h)]

theorem wf_reTemplates {tpls : Dict Str (List ReItem)} (h : tpls.WF) : (reTemplates tpls).WF := by
  unfold Dict.WF Dict.keys reTemplates at *
  rw [List.map_map]
  have : (Prod.fst ∘ fun e : Str × List ReItem => (MatchKey.name e.1, regexTemplate e.2)) = (MatchKey.name ∘ Prod.fst) := rfl
  rw [this, ← List.map_map]
  exact List.Pairwise.map _ (fun a b hab h => hab (MatchKey.name.inj h)) h

theorem groupMatch_span (text : Str) (r : Option Span) : (groupMatch text r).span = r := by
  cases r <;> rfl

theorem groupMatch_string (text : Str) (regs : List (Option Span)) (i : Nat) (m : MatchV) (h : (regs[i]?).map (groupMatch text) = some m) :
    m.string = some (groupText text regs i) := by
  unfold groupText
  cases hr : regs[i]? with
  | none => rw [hr] at h; cases h
  | some r =>
    rw [hr] at h
    cases h
    cases r <;> rfl

/-- What is found under a key. -/
theorem regexDict_name {c : Compiled} {text : Str} {regs : List (Option Span)} (hroot : c.groupindex.get? (str "__root") = none) {d : Dict MatchKey MatchV}
    (hname : ∀ n i, c.groupindex.get? n = some i → d.get? (.name n) = (regs[i]?).map (groupMatch text))
    (hno : ∀ n, c.groupindex.get? n = none → d.get? (.name n) = if n = str "__root" then (regs[0]?).map (groupMatch text) else none) (n : Str) :
    d.get? (.name n) = (groupOf c n).bind fun i => (regs[i]?).map (groupMatch text) := by
  unfold groupOf
  by_cases h : n = str "__root"
  · rw [if_pos h, h, hno _ hroot, if_pos rfl]; rfl
  · rw [if_neg h]
    cases hg : c.groupindex.get? n with
    | none => rw [hno n hg, if_neg h]; rfl
    | some i => rw [hname n i hg]; rfl

theorem not_metadata {c : Compiled} (hnames : ∀ n i, c.groupindex.get? n = some i → n.head? ≠ some '#' ∧ ¬ ['_', '_'] <+: n) {l : Str} (h : groupOf c l ≠ none) :
    ¬ IsMetadataLabel (.name l) := by
  intro hm
  unfold groupOf at h
  have key : l ≠ str "__root" ∧ ['_', '_'] <+: l := by
    rcases hm with h | h | h | h
    all_goals
      cases h
      exact ⟨by decide, _, rfl⟩
  rw [if_neg key.1] at h
  cases hg : c.groupindex.get? l with
  | none => exact h hg
  | some i => exact (hnames l i hg).2 key.2

/-- One match gives one report. -/
theorem regex_match {c : Compiled} (hnames : ∀ n i, c.groupindex.get? n = some i → n.head? ≠ some '#' ∧ ¬ ['_', '_'] <+: n) {tpls : Dict Str (List ReItem)} (hw : tpls.WF)
    (hacc : ReAccepted c tpls) (h0 : ∀ e ∈ tpls, ReItem.group 0 ∉ e.2) (text : Str) {regs : List (Option Span)} (hm : RegexMatch c regs) :
    ∃ d repl f, regexMatchDict c text regs = .ok d ∧ rewriteTemplates d (reTemplates tpls) = .ok repl ∧ buildFound d repl none = .ok f ∧
      RegexReport c text tpls regs f.substitution := by
  obtain ⟨d, hd, hwf, hnum, hname, hno⟩ := C29_match_dict c text regs hm
  have hroot : c.groupindex.get? (str "__root") = none := by
    cases hg : c.groupindex.get? (str "__root") with
    | none => rfl
    | some i => exact absurd ⟨_, rfl⟩ (hnames _ i hg).2
  have hlook := regexDict_name hroot hname hno
  have hlt : ∀ l i, groupOf c l = some i → i < regs.length := by
    intro l i h
    rw [hm.length]
    unfold groupOf at h
    split at h
    · cases h; omega
    · have := (hm.index l i h).2; omega
  -- the templates
  let f : MatchKey → Str := fun k => match k with
    | .num n => groupText text regs n
    | .name v => groupText text regs ((groupOf c v).getD 0)
  have hval : ∀ items, items.flatMap (ReItem.value f) = expandMatch c text regs items := by
    intro items
    unfold expandMatch
    congr 1
    funext it
    cases it <;> rfl
  have hsub : ∀ e ∈ tpls, ∀ m, (regexTemplate e.2).substitute m d = .ok (expandMatch c text regs e.2) := by
    intro e he m
    rw [← hval]
    refine C17_substitute e.2 m d hwf f ?_
    intro it hit k hk
    have hr := (hacc e he).2 it hit
    cases it with
    | lit s => cases hk
    | group n =>
      cases hk
      have hn0 : n ≠ 0 := fun h => h0 e he (h ▸ hit)
      have hn : n ≤ c.groups := hr
      have hlt : n < regs.length := by rw [hm.length]; omega
      refine ⟨groupMatch text regs[n], ?_, ?_⟩
      · rw [hnum, if_neg hn0]; simp [hlt]
      · exact groupMatch_string text regs n _ (by simp [hlt])
    | named v =>
      cases hk
      cases hg : groupOf c v with
      | none => exact absurd hg hr
      | some i =>
        have hi := hlt v i hg
        refine ⟨groupMatch text regs[i], ?_, ?_⟩
        · rw [hlook, hg]; simp [hi]
        · show _ = some (groupText text regs ((groupOf c v).getD 0))
          rw [hg]
          exact groupMatch_string text regs i _ (by simp [hi])
  have hmem : ∀ e ∈ reTemplates tpls, ∃ t ∈ tpls, e = (.name t.1, regexTemplate t.2) := by
    intro e he
    obtain ⟨t, ht, rfl⟩ := List.mem_map.1 he
    exact ⟨t, ht, rfl⟩
  obtain ⟨repl, hrepl⟩ := rewriteTemplates_ok d (reTemplates tpls) (by
    intro e he
    obtain ⟨t, ht, rfl⟩ := hmem e he
    refine ⟨?_, fun m => ⟨_, hsub t ht m⟩⟩
    cases hg : groupOf c t.1 with
    | none => exact absurd hg (hacc t ht).1
    | some i =>
      have hi := hlt _ i hg
      exact ⟨groupMatch text regs[i], by simp only; rw [hlook, hg]; simp [hi]⟩)
  obtain ⟨hr1, _⟩ := C19_right_labels d (reTemplates tpls) (wf_reTemplates hw) repl hrepl
  have hspan : ∀ l s, (∃ m, d.get? (.name l) = some m ∧ m.span = some s) ↔ labelSpan c regs l = some s := by
    intro l s
    rw [hlook]
    unfold labelSpan
    cases groupOf c l with
    | none => simp
    | some i =>
      cases hri : regs[i]? with
      | none => simp [hri]
      | some r => simp [hri, groupMatch_span]
  have hreplName : ∀ l new, repl.get? (.name l) = some new ↔
      ∃ items, tpls.get? l = some items ∧ labelSpan c regs l ≠ none ∧ new = expandMatch c text regs items := by
    intro l new
    rw [hr1]
    constructor
    · rintro ⟨t, m, ht, happ, hs⟩
      rw [get?_reTemplates] at ht
      cases hg : tpls.get? l with
      | none => rw [hg] at ht; cases ht
      | some items =>
        rw [hg] at ht; cases ht
        have hin := Dict.get?_some_mem hg
        refine ⟨items, rfl, ?_, ?_⟩
        · rcases happ with ⟨h1, h2⟩ | ⟨h1, h2, _⟩
          · cases hs : m.span with
            | none => exact absurd hs h2
            | some s => rw [(hspan l s).1 ⟨m, h1, hs⟩]; exact Option.some_ne_none _
          · exfalso
            rw [hlook] at h1
            cases hgo : groupOf c l with
            | none => exact (hacc _ hin).1 hgo
            | some i =>
              have hi := hlt l i hgo
              rw [hgo] at h1
              simp [hi] at h1
        · have := hsub _ hin m
          simp only at this
          rw [this] at hs; cases hs; rfl
    · rintro ⟨items, hg, hl, rfl⟩
      have hin := Dict.get?_some_mem hg
      cases hls : labelSpan c regs l with
      | none => exact absurd hls hl
      | some s =>
        obtain ⟨m, h1, h2⟩ := (hspan l s).2 hls
        exact ⟨regexTemplate items, m, by rw [get?_reTemplates, hg]; rfl, .inl ⟨h1, by rw [h2]; exact Option.some_ne_none _⟩, hsub _ hin m⟩
  have hreplNum : ∀ n, repl.get? (.num n) = none := by
    intro n
    cases h : repl.get? (.num n) with
    | none => rfl
    | some s =>
      obtain ⟨t, _, ht, _⟩ := (hr1 _ _).1 h
      rw [get?_reTemplates_num] at ht; cases ht
  have hreplMeta : ∀ k, IsMetadataLabel k → repl.get? k = none := by
    intro k hk
    cases h : repl.get? k with
    | none => rfl
    | some s =>
      cases k with
      | num n => rw [hreplNum] at h; cases h
      | name l =>
        obtain ⟨items, h1, _⟩ := (hreplName l s).1 h
        exact absurd hk (not_metadata hnames (hacc _ (Dict.get?_some_mem h1)).1)
  obtain ⟨hb1, hb2, _⟩ := buildFound_eq d hwf repl none
  have hAcc : Acceptable d repl := by
    refine ⟨?_, ?_, ?_⟩
    · intro x hx
      rw [hreplMeta _ (.inr (.inr (.inl rfl)))] at hx; cases hx
    · obtain ⟨s, hs⟩ := hm.whole
      obtain ⟨m, h1, h2⟩ := (hspan (str "__root") s).2 (by unfold labelSpan groupOf; rw [if_pos rfl]; simp [hs])
      exact ⟨m, s, h1, h2⟩
    · intro k v hk _
      cases k with
      | num n => rw [hreplNum] at hk; cases hk
      | name l =>
        obtain ⟨_, _, hl, _⟩ := (hreplName l v).1 hk
        cases hls : labelSpan c regs l with
        | none => exact absurd hls hl
        | some s =>
          obtain ⟨m, h1, h2⟩ := (hspan l s).2 hls
          exact ⟨m, s, h1, h2⟩
  obtain ⟨fd, hfd⟩ := hb2 hAcc
  obtain ⟨hrep, _⟩ := hb1 fd hfd
  refine ⟨d, repl, fd, hd, hrepl, hfd, ?_⟩
  have hplainD : ∀ k v, d.get? k = some v → PlainKey k := by
    intro k v hk
    cases k with
    | num n => trivial
    | name l =>
      rw [hlook] at hk
      unfold groupOf at hk
      by_cases hl : l = str "__root"
      · rw [hl]; unfold PlainKey; decide
      · rw [if_neg hl] at hk
        cases hg : c.groupindex.get? l with
        | none => rw [hg] at hk; cases hk
        | some i => exact (hnames l i hg).1
  have hplainS : ∀ e ∈ fd.matchedSpans, PlainKey e.1 := by
    intro e he
    obtain ⟨m, h1, _⟩ := (hrep.spans e.1 e.2).1 (Dict.get?_of_mem (buildFound_spans hwf hfd) he)
    exact hplainD _ _ h1
  have hgetS : ∀ l, fd.matchedSpans.get? (.name l) = labelSpan c regs l := by
    intro l
    apply Option.ext
    intro s
    rw [hrep.spans, hspan]
  have hreplsNum : ∀ n, fd.replacements.get? (.num n) = none := by
    intro n
    cases h : fd.replacements.get? (.num n) with
    | none => rfl
    | some s => have := ((hrep.edits _ _).1 h).1; rw [hreplNum] at this; cases this
  refine ⟨?_, ?_, ?_, wf_plain hplainS (buildFound_spans hwf hfd), ⟨_, rfl, ?_⟩, ?_, ?_, ?_, ?_, ?_⟩
  · show fd.primaryLabel.label = _
    rw [hrep.primary]; rfl
  · intro l hl
    show Dict.get? (fd.matchedSpans.map fun e => (e.1.label, e.2)) (MatchKey.name l).label = _
    rw [get?_plain _ hplainS (.name l) hl, hgetS]
  · intro i hi
    show Dict.get? (fd.matchedSpans.map fun e => (e.1.label, e.2)) _ = _
    rw [get?_plain _ hplainS (.num i) trivial]
    apply Option.ext
    intro s
    rw [hrep.spans]
    simp only [hnum, if_neg (show ¬ i = 0 by omega)]
    cases hri : regs[i]? with
    | none => simp
    | some r => simp [groupMatch_span]
  · intro l new
    rw [get?_map_label _ hreplsNum, hrep.edits, hreplName]
    constructor
    · exact And.left
    · rintro ⟨items, h1, h2⟩
      exact ⟨⟨items, h1, h2⟩, not_metadata hnames (hacc _ (Dict.get?_some_mem h1)).1⟩
  · show fd.message = none
    rw [hrep.message]; exact hreplMeta _ (.inl rfl)
  · show fd.url = none
    rw [hrep.url]; exact hreplMeta _ (.inr (.inl rfl))
  · show fd.category = none
    rw [hrep.category]; exact hreplMeta _ (.inr (.inr (.inl rfl)))
  · show fd.significant = false
    cases h : fd.significant with
    | false => rfl
    | true =>
      obtain ⟨s, h1, _⟩ := hrep.significant.1 h
      rw [hreplMeta _ (.inr (.inr (.inr rfl)))] at h1; cases h1
  · exact hrep.key

/-! ### All matches -/

theorem template_re (py : Python) (text : Str) : py.template (str "re") text =
    match py.reItems text with
    | none => .error .other
    | some items => .ok (reCodeTemplate text items) := by
  unfold Python.template
  rw [if_pos rfl]
  cases py.reItems text <;> rfl

theorem reTemplates_of {py : Python} {sub : Dict Str Str} {ts : Dict Str CodeTemplate} (h : TemplatesParse (py.template (str "re")) sub ts) :
    ∃ tpls, ReTemplates py sub tpls ∧ (ts.map fun e => (MatchKey.name e.1, e.2.on none)) = reTemplates tpls ∧
      modeVariables ts = .ok (tpls.flatMap fun e => .name e.1 :: (regexTemplate e.2).vars) := by
  induction h with
  | nil => exact ⟨[], .nil, rfl, rfl⟩
  | @cons name sub t rest ts ht _ ih =>
    obtain ⟨tpls, h1, h2, h3⟩ := ih
    rw [template_re] at ht
    split at ht
    · cases ht
    · rename_i items hi
      cases ht
      refine ⟨(name, items) :: tpls, .cons ⟨rfl, hi⟩ h1, ?_, ?_⟩
      · unfold reTemplates at h2 ⊢
        rw [List.map_cons, List.map_cons, h2]; rfl
      · rw [modeVariables, h3]; rfl

theorem hasRef_of (c : Compiled) (k : MatchKey) : ((match k with
    | .num n => decide (n ≤ c.groups)
    | .name s => c.groupindex.has s || decide (s = str "__root")) = true) ↔
    match k with
    | .num n => HasRef c (.group n)
    | .name s => groupOf c s ≠ none := by
  cases k with
  | num n => simp [HasRef]
  | name s =>
    simp only [Bool.or_eq_true, decide_eq_true_eq]
    unfold groupOf
    by_cases h : s = str "__root"
    · rw [if_pos h]; simp [h]
    · rw [if_neg h]
      rw [Dict.has_iff]
      cases c.groupindex.get? s <;> simp [h]

theorem accepted_iff (c : Compiled) (tpls : Dict Str (List ReItem)) :
    ((tpls.flatMap fun e => .name e.1 :: (regexTemplate e.2).vars).all fun k => match k with
      | .num n => decide (n ≤ c.groups)
      | .name s => c.groupindex.has s || decide (s = str "__root")) = true ↔ ReAccepted c tpls := by
  rw [List.all_eq_true]
  unfold ReAccepted
  constructor
  · intro h e he
    refine ⟨?_, fun it hit => ?_⟩
    · exact (hasRef_of c (.name e.1)).1 (h _ (List.mem_flatMap.2 ⟨e, he, List.mem_cons_self ..⟩))
    · have key : ∀ k, it.ref? = some k → _ := fun k hk =>
        (hasRef_of c k).1 (h k (List.mem_flatMap.2 ⟨e, he, List.mem_cons_of_mem _ ((C17_variables _ _).2 ⟨it, hit, hk⟩)⟩))
      cases it with
      | lit _ => trivial
      | group n => exact key _ rfl
      | named v => exact key _ rfl
  · intro h k hk
    obtain ⟨e, he, hk⟩ := List.mem_flatMap.1 hk
    refine (hasRef_of c k).2 ?_
    rcases List.mem_cons.1 hk with rfl | hk
    · exact (h e he).1
    · obtain ⟨it, hit, hr⟩ := (C17_variables _ _).1 hk
      have := (h e he).2 it hit
      cases it with
      | lit _ => cases hr
      | group n => cases hr; exact this
      | named v => cases hr; exact this

theorem regex_all {c : Compiled} {text : Str} {tpls : Dict Str (List ReItem)} {found : List (List (Option Span))}
    (h : ∀ regs ∈ found, ∃ d repl f, regexMatchDict c text regs = .ok d ∧ rewriteTemplates d (reTemplates tpls) = .ok repl ∧ buildFound d repl none = .ok f ∧
      RegexReport c text tpls regs f.substitution) :
    ∃ ds fs, regexDicts c text found = .ok ds ∧ findIterParsed (fun _ => none) (ds.map fun d => (d, reTemplates tpls)) = .ok fs ∧
      Forall2 (RegexReport c text tpls) found (fs.map Found.substitution) := by
  induction found with
  | nil => exact ⟨[], [], rfl, rfl, .nil⟩
  | cons regs found ih =>
    obtain ⟨ds, fs, h1, h2, h3⟩ := ih fun r hr => h r (List.mem_cons_of_mem _ hr)
    obtain ⟨d, repl, f, e1, e2, e3, e4⟩ := h regs (List.mem_cons_self ..)
    refine ⟨d :: ds, f :: fs, ?_, ?_, .cons e4 h3⟩
    · rw [regexDicts, e1, h1]
    · rw [List.map_cons, findIterParsed, e2]
      simp only
      rw [e3, h2]; rfl

/-- **C94**, what is accepted: the regex compiles, labels are names of its groups or `__root`, and templates refer to its groups only. -/
theorem C94_accepted {py : Python} {pattern : Str} {sub : Dict Str Str} {ts : Dict Str CodeTemplate} (hts : TemplatesParse (py.template (str "re")) sub ts) :
    ∃ tpls, ReTemplates py sub tpls ∧ ((∃ s, py.regexSearcher pattern ts = .ok s) ↔ ∃ c, py.regex pattern = some c ∧ ReAccepted c tpls) ∧
      ((∀ s, py.regexSearcher pattern ts ≠ .ok s) → py.regexSearcher pattern ts = .error .valueError) := by
  obtain ⟨tpls, h1, _, h3⟩ := reTemplates_of hts
  refine ⟨tpls, h1, ?_, ?_⟩
  · unfold Python.regexSearcher
    cases hc : py.regex pattern with
    | none => simp
    | some c =>
      simp only [h3, Option.some.injEq, exists_eq_left']
      split
      · rename_i h; exact ⟨fun _ => (accepted_iff c tpls).1 h, fun _ => ⟨_, rfl⟩⟩
      · rename_i h
        refine ⟨?_, fun ha => absurd ((accepted_iff c tpls).2 ha) h⟩
        rintro ⟨s, hs⟩; cases hs
  · intro h
    unfold Python.regexSearcher at h ⊢
    cases hc : py.regex pattern with
    | none => rfl
    | some c =>
      rw [hc] at h
      simp only [h3] at h ⊢
      split
      · rename_i ha
        rw [if_pos ha] at h
        exact absurd rfl (h _)
      · rfl

/-- **C94**, the search: every match of the regex in the text is reported, in order, with its groups and the expanded templates; nothing else is. -/
theorem C94_search {py : Python} {pattern : Str} {c : Compiled} (hc : FindsMatches py pattern c) {sub : Dict Str Str} (hw : sub.WF) {ts : Dict Str CodeTemplate}
    (hts : TemplatesParse (py.template (str "re")) sub ts) {s : Searcher} (hs : py.regexSearcher pattern ts = .ok s) :
    ∃ tpls, ReTemplates py sub tpls ∧ ReAccepted c tpls ∧ ((∀ e ∈ tpls, ReItem.group 0 ∉ e.2) → ∀ content path, s.included path = .ok () ∧
      ∃ p subs, s.parse content path = .ok p ∧ p.pragmas = [] ∧ s.find p = .ok subs ∧
        Forall2 (RegexReport c content tpls) (py.finditer pattern content) subs) := by
  obtain ⟨tpls, h1, h2, h3⟩ := reTemplates_of hts
  have hwt : tpls.WF := by
    have : ∀ {sub : Dict Str Str} {tpls : Dict Str (List ReItem)}, ReTemplates py sub tpls → tpls.keys = sub.keys := by
      intro sub tpls h
      induction h with
      | nil => rfl
      | cons h _ ih => unfold Dict.keys at ih ⊢; rw [List.map_cons, List.map_cons, ih, h.1]
    unfold Dict.WF at hw ⊢
    rw [this h1]; exact hw
  unfold Python.regexSearcher at hs
  rw [hc.compiled] at hs
  simp only [h3] at hs
  split at hs
  case isFalse => cases hs
  rename_i hacc
  have hacc := (accepted_iff c tpls).1 hacc
  cases hs
  refine ⟨tpls, h1, hacc, fun h0 content path => ⟨rfl, ⟨content, path, []⟩, ?_⟩⟩
  obtain ⟨ds, fs, e1, e2, e3⟩ := regex_all (c := c) (text := content) (tpls := tpls) (found := py.finditer pattern content) fun regs hregs =>
    regex_match hc.names hwt hacc h0 content (hc.each content regs hregs)
  refine ⟨_, rfl, rfl, ?_, e3⟩
  simp only
  rw [e1]
  simp only
  rw [h2, e2]

/-! ### The command -/

theorem factory_re {py : Python} {pattern : Option Str} {ts : Dict Str CodeTemplate} {s : Searcher} (h : py.factory (str "re") pattern ts = .ok s) :
    ∃ text, pattern = some text ∧ py.regexSearcher text ts = .ok s := by
  unfold Python.factory at h
  rw [if_neg (by decide), if_pos rfl] at h
  cases pattern with
  | none => cases h
  | some text => exact ⟨text, rfl, h⟩

theorem forall2_pairwise {α β : Type} {R : α → β → Prop} {P : α → α → Prop} {Q : β → β → Prop} {l : List α} {l' : List β} (h : Forall2 R l l') (hp : l.Pairwise P)
    (hpq : ∀ a b a' b', R a a' → R b b' → P a b → Q a' b') : l'.Pairwise Q := by
  induction h with
  | nil => exact .nil
  | cons hab hrest ih =>
    rw [List.pairwise_cons] at hp ⊢
    refine ⟨fun b' hb' => ?_, ih hp.2⟩
    obtain ⟨b, hb, hr⟩ := forall2_mem_right hrest hb'
    exact hpq _ _ _ _ hab hr (hp.1 b hb)

theorem sublist_all {α : Type} {l l' : List α} (h : l.Sublist l') (hn : l'.Pairwise (· ≠ ·)) (hall : ∀ x ∈ l', x ∈ l) : l = l' := by
  induction h with
  | slnil => rfl
  | @cons l₁ l₂ a hs ih =>
    rw [List.pairwise_cons] at hn
    exact absurd rfl (hn.1 a (hs.subset (hall a (List.mem_cons_self ..))))
  | @cons_cons l₁ l₂ a hs ih =>
    rw [List.pairwise_cons] at hn
    rw [ih hn.2 fun x hx => (List.mem_cons.1 (hall x (List.mem_cons_of_mem _ hx))).resolve_left fun e => hn.1 x hx e.symm]

theorem labelSpan_root (c : Compiled) (regs : List (Option Span)) : labelSpan c regs (str "__root") = (regs[0]?).join := by
  unfold labelSpan groupOf
  rw [if_pos rfl]; rfl

theorem regex_distinct {py : Python} {pattern : Str} {c : Compiled} (hc : FindsMatches py pattern c) {content : Str} {tpls : Dict Str (List ReItem)} {subs : List Substitution}
    (h : Forall2 (RegexReport c content tpls) (py.finditer pattern content) subs) : subs.Pairwise (· ≠ ·) := by
  have hmem : ∀ regs ∈ py.finditer pattern content, RegexMatch c regs := hc.each content
  have h' : Forall2 (fun regs s => RegexMatch c regs ∧ RegexReport c content tpls regs s) (py.finditer pattern content) subs := by
    generalize py.finditer pattern content = found at h hmem
    induction h with
    | nil => exact .nil
    | cons h _ ih => exact .cons ⟨hmem _ (List.mem_cons_self ..), h⟩ (ih fun r hr => hmem r (List.mem_cons_of_mem _ hr))
  refine forall2_pairwise h' (hc.ordered content) ?_
  rintro a b s t ⟨ha, hs⟩ ⟨hb, ht⟩ hab e
  subst e
  obtain ⟨sa, hsa⟩ := ha.whole
  obtain ⟨sb, hsb⟩ := hb.whole
  have h1 := hs.named (str "__root") (by decide)
  have h2 := ht.named (str "__root") (by decide)
  rw [labelSpan_root, hsa] at h1
  rw [labelSpan_root, hsb, h1] at h2
  exact (hab sa sb hsa hsb).2 (Option.some.inj h2)

/-- **C94**, the command: in a file that satisfies `--also` and `--noalso`, exactly the matches of the regex are reported, whatever `--iterate` and
`--force-enable` are and whatever the comments of the file say. -/
theorem C94_command {py : Python} {w : World} {o : Options} {r : Runner} (hr : runnerFromOptions w py.modes o = .ok r) (hmode : o.mode = str "re")
    (hsm : SyntaxInEffect o.mode o.subMode (str "re")) {sr : SearchReplace} (hone : o.searchReplace = [sr]) (hw : sr.sub.WF)
    (hfind : ∀ pattern, sr.pattern = some pattern → ∃ c, FindsMatches py pattern c) :
    ∃ pattern c tpls, sr.pattern = some pattern ∧ FindsMatches py pattern c ∧ ReTemplates py sr.sub tpls ∧ ReAccepted c tpls ∧
      ((∀ e ∈ tpls, ReItem.group 0 ∉ e.2) → ∀ content path,
        (¬ AlsoHolds o content → r.find content path = .error .skipNoResults) ∧
        (AlsoHolds o content → ∃ subs, r.find content path = .ok subs ∧ Forall2 (RegexReport c content tpls) (py.finditer pattern content) subs)) := by
  obtain ⟨ss, hss⟩ := (C69_runner w py.modes o _ hsm (by rw [hone]; exact List.cons_ne_nil _ _)).1.1 ⟨r, hr⟩
  have hss' := hss
  rw [hone, hmode] at hss'
  cases hss' with
  | @cons _ ts s _ ss' htp hfac hrest =>
    cases hrest
    obtain ⟨pattern, hpat, hs⟩ := factory_re hfac
    obtain ⟨c, hc⟩ := hfind pattern hpat
    obtain ⟨tpls, h1, h2, h3⟩ := C94_search hc hw htp hs
    refine ⟨pattern, c, tpls, hpat, hc, h1, h2, fun h0 content path => ?_⟩
    obtain ⟨hinc, p, subs, e1, e2, e3, e4⟩ := h3 h0 content path
    have hkey : ∀ x ∈ subs, x.keySpan = none := by
      intro x hx
      obtain ⟨_, _, h⟩ := forall2_mem_right e4 hx
      exact h.metadata.2.2.2.2
    obtain ⟨g1, g2, g3⟩ := C69_results w py.modes o _ hsm _ _ hss (.one _) r hr content path p subs (.inr hkey) hinc e1 e3
    refine ⟨g1, fun ha => ⟨subs, ?_, e4⟩⟩
    cases hfo : o.forceEnable with
    | true => exact g2 ha hfo
    | false =>
      obtain ⟨out, k1, k2, k3⟩ := g3 ha hfo
      have hall : ∀ x ∈ subs, x ∈ out := by
        intro x hx
        by_cases hm : x ∈ out
        · exact hm
        · obtain ⟨cat, _, rg, hrg, _⟩ := (k3 x hx).1 hm
          rw [e2] at hrg
          obtain ⟨_, hrg, _⟩ := hrg
          cases hrg
      rw [k1, sublist_all k2 (regex_distinct hc e4) hall]

/-! ### `re.sub` -/

/-- The edit that `re.sub` makes of a match. -/
def wholeEdit (c : Compiled) (text : Str) (items : List ReItem) (regs : List (Option Span)) : Repl :=
  ⟨expandMatch c text regs items, (((regs[0]?).join).getD (0, 0)).1, (((regs[0]?).join).getD (0, 0)).2⟩

theorem filterMap_one {α β : Type} {d : Dict Str α} (hw : d.WF) {k : Str} {v : α} (hk : d.get? k = some v) (f : Str × α → Option β) (hf : ∀ e, e.1 ≠ k → f e = none) :
    d.filterMap f = (f (k, v)).toList := by
  induction d with
  | nil => cases hk
  | cons e d ih =>
    unfold Dict.WF Dict.keys at hw
    rw [List.map_cons, List.nodup_cons] at hw
    rw [List.filterMap_cons]
    simp only [Dict.get?] at hk
    by_cases h : e.1 = k
    · rw [if_pos h] at hk
      cases hk
      have hnone : d.filterMap f = [] := by
        rw [List.filterMap_eq_nil_iff]
        intro x hx
        exact hf x fun hxk => hw.1 (List.mem_map.2 ⟨x, hx, hxk.trans h.symm⟩)
      rw [hnone, show (k, e.2) = e from by rw [← h]]
      cases f e <;> rfl
    · rw [if_neg h] at hk
      rw [hf e h]
      exact ih hw.2 hk

theorem edits_whole {c : Compiled} {content : Str} {items : List ReItem} {regs : List (Option Span)} {s : Substitution} (hm : RegexMatch c regs)
    (h : RegexReport c content [(str "__root", items)] regs s) : editsOf s = [wholeEdit c content items regs] := by
  obtain ⟨rs, hrs, hed⟩ := h.edits
  obtain ⟨sp, hsp⟩ := hm.whole
  have hroot : s.matchedSpans.get? (str "__root") = some sp := by
    rw [h.named _ (by decide), labelSpan_root, hsp]; rfl
  have hget : rs.get? (str "__root") = some (expandMatch c content regs items) :=
    (hed _ _).2 ⟨items, rfl, by rw [labelSpan_root, hsp]; exact Option.some_ne_none _, rfl⟩
  unfold editsOf
  rw [hrs]
  simp only
  rw [filterMap_one h.distinct hroot _ ?_]
  · simp only
    rw [hget]
    unfold wholeEdit
    rw [hsp]; rfl
  · intro e he
    have : rs.get? e.1 = none := by
      cases hg : rs.get? e.1 with
      | none => rfl
      | some new =>
        obtain ⟨it, h1, _⟩ := (hed _ _).1 hg
        simp only [Dict.get?] at h1
        rw [if_neg fun h => he h.symm] at h1
        cases h1
    rw [this]

/-- Substitutions with one edit each, in order. -/
theorem apply_in_order {content : Str} {subs : List Substitution} {es : List Repl} (hed : Forall2 (fun s e => editsOf s = [e]) subs es)
    (hio : InOrder 0 es) (hin : ∀ e ∈ es, e.stop ≤ content.length) : ∃ new, applySubstitutions content subs = .ok new ∧ Spliced 0 content es new := by
  have hse : ∀ s e, editsOf s = [e] → sortedEdits s = [e] := by
    intro s e h
    have := sortedEdits_perm s
    rw [h] at this
    exact List.perm_singleton.1 this
  have hpw : es.Pairwise fun a b => a.start ≤ b.start := by
    refine List.Pairwise.imp_of_mem ?_ hio.pairwise
    intro a b ha _ hab
    have := (hio.bounds a ha).2.1
    have hab : a.stop ≤ b.start := hab
    omega
  have hsw : Forall2 (fun e s => editsOf s = [e]) es subs := by
    clear hio hin hpw
    induction hed with
    | nil => exact .nil
    | cons h _ ih => exact .cons h ih
  have hsorted : sortedSubs content subs = subs := by
    refine stableSort_of_sorted (forall2_pairwise hsw hpw ?_)
    intro a b s t hs ht hab
    rw [hse s a hs, hse t b ht]
    exact decide_eq_true hab
  have hflat : subs.flatMap sortedEdits = es := by
    clear hio hin hpw hsorted hsw
    induction hed with
    | nil => rfl
    | cons h _ ih => rw [List.flatMap_cons, hse _ _ h, ih]; rfl
  have hmap : subs.map (fun s => hull content (sortedEdits s)) = es := by
    clear hio hin hpw hsorted hsw hflat
    induction hed with
    | nil => rfl
    | cons h _ ih =>
      rw [List.map_cons, hse _ _ h, ih, hull_cons]
      simp only [midText, lastStop, List.append_nil]
  refine ⟨splice content 0 es, ?_, ?_⟩
  · have h1 : ∀ s ∈ subs, InOrder 0 (sortedEdits s) := by
      intro s hs
      obtain ⟨e, he, h⟩ := forall2_mem_left hed hs
      rw [hse s e h]
      exact ⟨Nat.zero_le _, (hio.bounds e he).2.1, trivial⟩
    rw [apply_eq, hsorted, hmap, hflat, if_pos ⟨h1, hio⟩]
  · simpa using splice_spliced content 0 es hio hin

/-- **C94**: with a template for the whole match only, applying what is reported for a text is `re.sub`, for every text, also where matches are empty. -/
theorem C94_is_re_sub {py : Python} {pattern : Str} {c : Compiled} (hc : FindsMatches py pattern c) {content : Str} {items : List ReItem} {subs : List Substitution}
    (h : Forall2 (RegexReport c content [(str "__root", items)]) (py.finditer pattern content) subs) :
    ∃ new, applySubstitutions content subs = .ok new ∧ ReSub c (py.finditer pattern content) items content new := by
  have hmem := hc.each content
  have hins := hc.inside content
  have hord := hc.ordered content
  unfold ReSub
  generalize py.finditer pattern content = found at h hmem hins hord
  have hbounds : ∀ e ∈ found.map (wholeEdit c content items), e.start ≤ e.stop ∧ e.stop ≤ content.length := by
    intro e he
    obtain ⟨regs, hr, rfl⟩ := List.mem_map.1 he
    obtain ⟨sp, hsp⟩ := (hmem regs hr).whole
    unfold wholeEdit
    rw [hsp]
    exact hins regs hr 0 sp hsp
  refine apply_in_order ?_ ?_ fun e he => (hbounds e he).2
  · clear hord hins hbounds
    induction h with
    | nil => exact .nil
    | cons h _ ih => exact .cons (edits_whole (hmem _ (List.mem_cons_self ..)) h) (ih fun r hr => hmem r (List.mem_cons_of_mem _ hr))
  · refine InOrder.of_pairwise (fun _ _ => Nat.zero_le _) (fun e he => (hbounds e he).1) ?_
    rw [List.pairwise_map]
    refine List.Pairwise.imp_of_mem ?_ hord
    intro a b ha hb hab
    obtain ⟨sa, hsa⟩ := (hmem a ha).whole
    obtain ⟨sb, hsb⟩ := (hmem b hb).whole
    simp only
    rw [hsa, hsb]
    exact (hab sa sb hsa hsb).1

/-- **C94**, in a file: what `refex --mode=re PATTERN --sub=TEMPLATE -i` writes into a file is `re.sub` of its text (with universal newlines). -/
theorem C94_rewritten {py : Python} {w : World} {o : Options} {r : Runner} (hr : runnerFromOptions w py.modes o = .ok r) (hmode : o.mode = str "re")
    (hsm : SyntaxInEffect o.mode o.subMode (str "re")) {pattern template : Str} (hone : o.searchReplace = [⟨some pattern, [(str "__root", template)]⟩])
    {c : Compiled} (hc : FindsMatches py pattern c) (hrt : ∀ s x, r.enc.encode s = some x → r.enc.decode x = some s) :
    ∃ items, py.reItems template = some items ∧ (∀ it ∈ items, HasRef c it) ∧
      (ReItem.group 0 ∉ items → ∀ faults fs q b b' old, fs q = some b → r.enc.decode b = some old → Rewritten r faults fs q b' →
        AlsoHolds o (universalNewlines old) ∧ ∃ new, r.enc.decode b' = some new ∧
          ReSub c (py.finditer pattern (universalNewlines old)) items (universalNewlines old) new) := by
  obtain ⟨pattern', c', tpls, h1, h2, h3, h4, h5⟩ := C94_command hr hmode hsm hone (by simp [Dict.WF, Dict.keys]) fun p hp => ⟨c, by cases hp; exact hc⟩
  cases h1
  have : c' = c := Option.some.inj (h2.compiled.symm.trans hc.compiled)
  subst this
  cases h3 with
  | @cons _ e _ l he hrest =>
    cases hrest
    obtain ⟨l, items⟩ := e
    obtain ⟨he1, he2⟩ := he
    simp only at he1 he2
    subst he1
    refine ⟨items, he2, (h4 _ (List.mem_cons_self ..)).2, fun h0 faults fs q b b' old hold hdec hnew => ?_⟩
    have h5 := h5 fun e he => by rw [List.mem_singleton.1 he]; exact h0
    obtain ⟨content, ms, out, hread, hfind, _, happ, hb⟩ := hnew
    have hcont : content = universalNewlines old := by
      unfold Runner.read at hread
      split at hread
      · cases hread
      · simp only [hold, Option.bind_some, hdec, Option.map_some, Option.some.injEq] at hread
        exact hread.symm
    subst hcont
    have ha : AlsoHolds o (universalNewlines old) := Classical.byContradiction fun hn => by
      rw [(h5 _ _).1 hn] at hfind; cases hfind
    obtain ⟨subs, hf, hall⟩ := (h5 (universalNewlines old) (r.shorten q)).2 ha
    rw [hf] at hfind; cases hfind
    obtain ⟨new, hnew, hre⟩ := C94_is_re_sub hc hall
    rw [hnew] at happ; cases happ
    exact ⟨ha, _, hrt _ _ hb, hre⟩

theorem spliced_unique {pos : Nat} {rest : Str} {es : List Repl} {out out' : Str} (h : Spliced pos rest es out) (h' : Spliced pos rest es out') : out = out' := by
  induction h generalizing out' with
  | done => cases h'; rfl
  | edit pos e es keep old rest out hkeep hold _ ih =>
    generalize hx : keep ++ (old ++ rest) = x at h'
    cases h' with
    | edit _ _ _ keep' old' rest' out' hkeep' hold' h' =>
      obtain ⟨e1, hx2⟩ := List.append_inj hx (by omega)
      obtain ⟨_, e3⟩ := List.append_inj hx2 (by omega)
      subst e3
      rw [ih h', e1]

/-! ### An instance: `refex --mode=re '(a)(?P<w>b)?' --sub='\\g<w>-\\1' -i` on "ab a" -/

def rxPattern : Str := str "(a)(?P<w>b)?"
def rxTemplate : Str := str "\\g<w>-\\1"
def rxItems : List ReItem := [.named (str "w"), .lit (str "-"), .group 1]
def rxFound : List (List (Option Span)) := [[some (0, 2), some (0, 1), some (1, 2)], [some (3, 4), some (3, 4), none]]

def rxPy : Python where
  tokens := fun _ => none
  parse := fun _ => none
  iter := id
  file := fun _ => none
  tokInfo := fun _ => exTokInfo
  pragmas := fun _ => []
  isExpr := fun _ => false
  isStmt := fun _ => false
  depth := 40
  regex := fun p => if p = rxPattern then some exC29 else none
  finditer := fun _ t => if t = str "ab a" then rxFound else []
  reItems := fun t => if t = rxTemplate then some rxItems else none
  matcher := fun _ => .error .valueError
  fixer := fun _ => .error .valueError

theorem exC29_names {n : Str} {i : Nat} (h : exC29.groupindex.get? n = some i) : n = str "w" ∧ i = 2 := by
  simp only [exC29, Dict.get?] at h
  split at h
  · rename_i e; cases h; exact ⟨e.symm, rfl⟩
  · cases h

theorem rxFound_cases {text : Str} {regs : List (Option Span)} (h : regs ∈ rxPy.finditer rxPattern text) :
    text = str "ab a" ∧ (regs = [some (0, 2), some (0, 1), some (1, 2)] ∨ regs = [some (3, 4), some (3, 4), none]) := by
  have h : regs ∈ (if text = str "ab a" then rxFound else []) := h
  split at h
  · rename_i e
    unfold rxFound at h
    simp only [List.mem_cons, List.not_mem_nil, or_false] at h
    exact ⟨e, h⟩
  · cases h

theorem rxFits : FindsMatches rxPy rxPattern exC29 where
  compiled := rfl
  names := by
    intro n i h
    rw [(exC29_names h).1]
    exact ⟨by decide, by decide⟩
  each := by
    intro text regs h
    have hn : ∀ n i, exC29.groupindex.get? n = some i → 1 ≤ i ∧ i ≤ exC29.groups := by
      intro n i h
      rw [(exC29_names h).2]; exact ⟨by decide, by decide⟩
    obtain ⟨_, rfl | rfl⟩ := rxFound_cases h
    · exact ⟨by decide, hn, rfl, _, rfl⟩
    · exact ⟨by decide, hn, rfl, _, rfl⟩
  inside := by
    intro text regs h i sp hi
    obtain ⟨rfl, rfl | rfl⟩ := rxFound_cases h
    · match i, hi with
      | 0, hi => cases hi; decide
      | 1, hi => cases hi; decide
      | 2, hi => cases hi; decide
      | n + 3, hi => cases hi
    · match i, hi with
      | 0, hi => cases hi; decide
      | 1, hi => cases hi; decide
      | 2, hi => cases hi
      | n + 3, hi => cases hi
  ordered := by
    intro text
    show (if text = str "ab a" then rxFound else []).Pairwise _
    split
    · unfold rxFound
      refine .cons ?_ (.cons (by intro _ h; cases h) .nil)
      intro b hb
      rw [List.mem_singleton.1 hb]
      intro sa sb ha hb
      cases ha; cases hb; decide
    · exact .nil

def rxTemplates : Dict Str CodeTemplate := [(str "__root", reCodeTemplate rxTemplate rxItems)]

/-- The searcher is made, and the two matches are reported. -/
example : ∃ s, rxPy.regexSearcher rxPattern rxTemplates = .ok s ∧
    TemplatesParse (rxPy.template (str "re")) [(str "__root", rxTemplate)] rxTemplates ∧ ReItem.group 0 ∉ rxItems ∧
    (match s.find ⟨str "ab a", str "f", []⟩ with
      | .ok subs => decide (subs.length = 2 ∧ applySubstitutions (str "ab a") subs = .ok (str "b-a -a"))
      | .error _ => false) = true :=
  ⟨_, rfl, .cons rfl .nil, by decide, by decide +kernel⟩

/-- The text that the theorem speaks of. -/
example : ReSub exC29 (rxPy.finditer rxPattern (str "ab a")) rxItems (str "ab a") (str "b-a -a") := by
  refine Spliced.edit 0 _ _ [] (str "ab") (str " a") (str " -a") rfl rfl ?_
  exact Spliced.edit 2 _ _ (str " ") (str "a") [] [] rfl rfl (.done _ _)

/-- `refex --mode=re '(a)(?P<w>b)?' --sub='\\g<w>-\\1' -i --iterate=5 a.py` -/
def rxOptions : Options where
  mode := str "re"
  searchReplace := [⟨some rxPattern, [(str "__root", rxTemplate)]⟩]
  inPlace := true
  iterate := some 5
  files := [exFile]

/-- The hypotheses of C94_rewritten are met. -/
example : ∃ r, runnerFromOptions exWorld rxPy.modes rxOptions = .ok r ∧ SyntaxInEffect rxOptions.mode rxOptions.subMode (str "re") ∧
    (∀ s x, r.enc.encode s = some x → r.enc.decode x = some s) ∧ Rewritten r exNoFaults (exFs "ab a") exFile (exBytes "b-a -a") := by
  have hsm : SyntaxInEffect rxOptions.mode rxOptions.subMode (str "re") := .ofMode _ (by decide)
  have hss : ∃ s, Searchers rxPy.modes rxOptions.mode (str "re") rxOptions.searchReplace [s] := ⟨_, .cons (ts := rxTemplates) (.cons rfl .nil) rfl .nil⟩
  obtain ⟨s, hss⟩ := hss
  obtain ⟨r, hr⟩ := (C69_runner exWorld rxPy.modes rxOptions _ hsm (by decide)).1.2 ⟨_, hss⟩
  have henc : r.enc = exAscii := by
    unfold runnerFromOptions at hr
    split at hr
    · cases hr
    · split at hr
      · cases hr
      · cases hr; rfl
  have hfs := C94_command hr rfl hsm rfl (by decide) fun p hp => by cases hp; exact ⟨_, rxFits⟩
  obtain ⟨_, c, tpls, hp, hc, ht, _, hall⟩ := hfs
  cases hp
  have : c = exC29 := Option.some.inj (hc.compiled.symm.trans rxFits.compiled)
  subst this
  have : tpls = [(str "__root", rxItems)] := by
    cases ht with
    | @cons _ e _ l he hrest =>
      cases hrest
      obtain ⟨l, items⟩ := e
      obtain ⟨rfl, he2⟩ := he
      have : rxPy.reItems rxTemplate = some items := he2
      rw [show rxPy.reItems rxTemplate = some rxItems from rfl] at this
      cases this; rfl
  subst this
  obtain ⟨subs, hf, hrep⟩ := (hall (by intro e he; rw [List.mem_singleton.1 he]; decide) (str "ab a") (r.shorten exFile)).2 ⟨(by intro r h; cases h), (by intro r h; cases h)⟩
  obtain ⟨new, h1, h2⟩ := C94_is_re_sub rxFits hrep
  have hnew : new = str "b-a -a" := by
    have : ReSub exC29 (rxPy.finditer rxPattern (str "ab a")) rxItems (str "ab a") (str "b-a -a") := by
      refine Spliced.edit 0 _ _ [] (str "ab") (str " a") (str " -a") rfl rfl ?_
      exact Spliced.edit 2 _ _ (str " ") (str "a") [] [] rfl rfl (.done _ _)
    exact spliced_unique h2 this
  subst hnew
  refine ⟨r, hr, hsm, by rw [henc]; exact exAscii_round_trip, str "ab a", subs, _, ?_, hf, ?_, h1, ?_⟩
  · unfold Runner.read; rw [henc]; decide +kernel
  · have hl := forall2_length' hrep
    intro e; rw [e] at hl; exact absurd hl (by decide)
  · rw [henc]; decide

end Refex
