import Verif.Props.ReTemplateVersions
import Verif.Props.RegexMode
/- C103: `--mode=re` with templates read from their texts is `re.sub`. -/
namespace Refex
set_option autoImplicit false

/-- What a reference means in a match of a regex: the text of the group of that number, or of that name. -/
def groupValue (c : Compiled) (text : Str) (regs : List (Option Span)) : MatchKey → Str
  | .num n => groupText text regs n
  | .name v => groupText text regs ((groupOf c v).getD 0)

/-- `new` is the text with every match replaced, in turn, by the parts of the template one after the other, and everything else kept. -/
def ReSubText (c : Compiled) (found : List (List (Option Span))) (es : List REvent) (text new : Str) : Prop :=
  Spliced 0 text (found.map fun regs => ⟨es.flatMap (REvent.value (groupValue c text regs)), (((regs[0]?).join).getD (0, 0)).1, (((regs[0]?).join).getD (0, 0)).2⟩) new

/-- Python reads templates as some version of it does. -/
def ReadsTemplates (p : GroupNames) (py : Python) : Prop :=
  (∀ s, py.reItems s = (reRead (groupRef312 p) s).map (items312 [])) ∨
  (∀ s, py.reItems s = (reRead (groupRef311 p) s).map fun es => nonEmpty (items312 [] es))

theorem reads_template {p : GroupNames} (hp : p.Usual) {py : Python} (h : ReadsTemplates p py) {text : Str} {es : List REvent}
    (ht : TemplateText p.identifier p.maxGroups text es) : ∃ items, py.reItems text = some items ∧
      (∀ f, items.flatMap (ReItem.value f) = es.flatMap (REvent.value f)) ∧ ∀ k, (∃ it ∈ items, it.ref? = some k) ↔ ∃ e ∈ es, e.ref? = some k := by
  have h1 := (C103_read hp text es).2 ht
  rcases h with h | h
  · refine ⟨items312 [] es, by rw [h, h1]; rfl, fun f => by rw [items312_values, List.nil_append], fun k => items312_refs k es []⟩
  · refine ⟨nonEmpty (items312 [] es), by rw [h, C103_read_before hp text es h1]; rfl, fun f => by rw [nonEmpty_values, items312_values, List.nil_append],
      fun k => (nonEmpty_refs k _).trans (items312_refs k es [])⟩

theorem expandMatch_value (c : Compiled) (text : Str) (regs : List (Option Span)) (items : List ReItem) :
    expandMatch c text regs items = items.flatMap (ReItem.value (groupValue c text regs)) := by
  unfold expandMatch
  congr 1
  funext it
  cases it <;> rfl

/-- **C103**, in a file: what `refex --mode=re PATTERN --sub=TEMPLATE -i` writes is the text (with universal newlines) in which each match of the pattern is
replaced by what the text of the template says, character by character, with the texts of the groups it refers to. -/
theorem C103_rewritten {p : GroupNames} (hp : p.Usual) {py : Python} (hread : ReadsTemplates p py) {w : World} {o : Options} {r : Runner}
    (hr : runnerFromOptions w py.modes o = .ok r) (hmode : o.mode = str "re")
    (hsm : SyntaxInEffect o.mode o.subMode (str "re")) {pattern template : Str} (hone : o.searchReplace = [⟨some pattern, [(str "__root", template)]⟩])
    {c : Compiled} (hc : FindsMatches py pattern c) (hrt : ∀ s x, r.enc.encode s = some x → r.enc.decode x = some s) {es : List REvent}
    (htext : TemplateText p.identifier p.maxGroups template es) (h0 : REvent.group 0 ∉ es) :
    (∀ e ∈ es, ∀ k, e.ref? = some k → match k with | .num n => n ≤ c.groups | .name v => groupOf c v ≠ none) ∧
    ∀ faults fs q b b' old, fs q = some b → r.enc.decode b = some old → Rewritten r faults fs q b' →
      AlsoHolds o (universalNewlines old) ∧ ∃ new, r.enc.decode b' = some new ∧
        ReSubText c (py.finditer pattern (universalNewlines old)) es (universalNewlines old) new := by
  obtain ⟨items, h1, h2, h3⟩ := C94_rewritten hr hmode hsm hone hc hrt
  obtain ⟨items', k1, k2, k3⟩ := reads_template hp hread htext
  rw [k1] at h1; cases h1
  refine ⟨fun e he k hk => ?_, fun faults fs q b b' old hb hdec hnew => ?_⟩
  · obtain ⟨it, hit, hitk⟩ := (k3 k).2 ⟨e, he, hk⟩
    have := h2 it hit
    cases it with
    | lit s => cases hitk
    | group n => cases hitk; exact this
    | named v => cases hitk; exact this
  · have h0' : ReItem.group 0 ∉ items := by
      intro hm
      obtain ⟨e, he, hk⟩ := (k3 (.num 0)).1 ⟨_, hm, rfl⟩
      cases e with
      | char c => cases hk
      | group n => cases hk; exact h0 he
      | named v => cases hk
    obtain ⟨ha, new, hd, hsub⟩ := h3 h0' faults fs q b b' old hb hdec hnew
    refine ⟨ha, new, hd, ?_⟩
    unfold ReSub at hsub
    unfold ReSubText
    simp only [expandMatch_value, k2] at hsub
    exact hsub

/-! ### Examples -/

/-- A bit of Python. -/
def rtNames : GroupNames where
  identifier := fun name => !(name.headD '0').isDigit && name.all fun c => c.isAlphanum || c = '_'
  intOf := fun s => if s ≠ [] ∧ s.all Char.isDigit then some ((digitsValue 10 s : Nat) : Int) else if s = str "1_0" then some 10 else none
  maxGroups := 1073741823

theorem rtNames_usual : rtNames.Usual where
  identifier := by
    intro name h
    simp only [rtNames, Bool.and_eq_true, Bool.not_eq_true'] at h
    obtain ⟨h1, h2⟩ := h
    have h2 := List.all_eq_true.1 h2
    refine ⟨fun hn => ?_, fun hm => absurd (h2 _ hm) (by decide), fun hm => absurd (h2 _ hm) (by decide), fun hall => ?_⟩
    · subst hn
      revert h1
      decide
    · cases name with
      | nil => revert h1; decide
      | cons c rest =>
        rw [List.headD_cons, hall c List.mem_cons_self] at h1
        cases h1
  intOf := by
    intro ds h1 h2
    simp only [rtNames]
    rw [if_pos ⟨h1, List.all_eq_true.2 h2⟩]

/-- The hypotheses of C103 are met: a template with all there is. -/
example : TemplateText rtNames.identifier rtNames.maxGroups (str "a\\g<x>\\1\\g<12>\\n\\.\\101\\0") [.char 'a', .named (str "x"), .group 1, .group 12, .char '\n',
    .char '\\', .char '.', .char 'A', .char (Char.ofNat 0)] := (C103_read rtNames_usual _ _).1 (by decide +kernel)

example : ∃ t, regexTemplate311 rtNames (str "a\\g<x>\\1\\g<12>\\n\\.\\101\\0") = some t :=
  (C103_accepted rtNames_usual _).2 ⟨_, (C103_read rtNames_usual _ [.char 'a', .named (str "x"), .group 1, .group 12, .char '\n',
    .char '\\', .char '.', .char 'A', .char (Char.ofNat 0)]).1 (by decide +kernel)⟩

/-- Texts that are refused: a backslash at the end, an escape of a letter, a name that is none, an octal number that is too big. -/
example : ∀ text ∈ [str "\\", str "\\q", str "\\g", str "\\g<>", str "\\g<a", str "\\g<a b>", str "\\777"], regexTemplate312 rtNames text = none ∧
    regexTemplate311 rtNames text = none := by
  have h1 : ∀ text ∈ [str "\\", str "\\q", str "\\g", str "\\g<>", str "\\g<a", str "\\g<a b>", str "\\777"],
      reRead (groupRef312 rtNames) text = none ∧ reRead (groupRef311 rtNames) text = none := by decide +kernel
  intro text h
  obtain ⟨k1, k2⟩ := h1 text h
  unfold regexTemplate312 regexTemplate311
  rw [k1, k2]
  exact ⟨rfl, rfl⟩

/-- C103, versions: texts may be accepted up to Python 3.11 and refused as of Python 3.12, since `int` reads `1_0`. -/
theorem C103_versions_differ : ¬ ∀ p : GroupNames, p.Usual → ∀ text, (∃ t, regexTemplate311 p text = some t) → ∃ t, regexTemplate312 p text = some t := by
  intro h
  obtain ⟨t, ht⟩ := h rtNames rtNames_usual (str "\\g<1_0>") (by
    have : reRead (groupRef311 rtNames) (str "\\g<1_0>") = some [.group 10] := by decide +kernel
    unfold regexTemplate311
    rw [this]
    simp only [parseReTemplate311_eq]
    exact ⟨_, rfl⟩)
  have : reRead (groupRef312 rtNames) (str "\\g<1_0>") = none := by decide +kernel
  unfold regexTemplate312 at ht
  rw [this] at ht
  cases ht

/-- The Python of the examples of C94, with templates read from their texts. -/
def rtPy : Python := { rxPy with reItems := fun s => (reRead (groupRef312 rtNames) s).map (items312 []) }

theorem rtPy_fits : FindsMatches rtPy rxPattern exC29 := ⟨rxFits.compiled, rxFits.names, rxFits.each, rxFits.inside, rxFits.ordered⟩

def rtItems : List ReItem := [.lit [], .named (str "w"), .lit (str "-"), .group 1, .lit []]

theorem template_of {py : Python} {text : Str} {items : List ReItem} (h : py.reItems text = some items) :
    py.template (str "re") text = .ok (reCodeTemplate text items) := by
  unfold Python.template
  rw [if_pos rfl, h]

theorem rtPy_reItems (s : Str) : rtPy.reItems s = (reRead (groupRef312 rtNames) s).map (items312 []) := rfl

theorem rt_read : reRead (groupRef312 rtNames) rxTemplate = some [.named (str "w"), .char '-', .group 1] := by decide +kernel

theorem rtPy_template : rtPy.template (str "re") rxTemplate = .ok (reCodeTemplate rxTemplate rtItems) :=
  template_of (by rw [rtPy_reItems, rt_read, Option.map_some]; rfl)

theorem searcher_of {py : Python} (h1 : py.regex = rxPy.regex) (items : List ReItem) (h2 : (match rxPy.regexSearcher rxPattern [(str "__root", reCodeTemplate rxTemplate items)] with | .ok _ => true | .error _ => false) = true) :
    ∃ s, py.regexSearcher rxPattern [(str "__root", reCodeTemplate rxTemplate items)] = .ok s := by
  unfold Python.regexSearcher at h2 ⊢
  rw [h1]
  cases hc : rxPy.regex rxPattern with
  | none => rw [hc] at h2; cases h2
  | some c =>
    rw [hc] at h2
    simp only at h2 ⊢
    cases hm : modeVariables [(str "__root", reCodeTemplate rxTemplate items)] with
    | error e => rw [hm] at h2; cases h2
    | ok vs =>
      rw [hm] at h2
      simp only at h2 ⊢
      split at h2
      · rename_i s hs
        split at hs
        · rename_i e; rw [if_pos e]; exact ⟨_, rfl⟩
        · cases hs
      · cases h2

theorem rx_accepted {py : Python} {s : Searcher} {items : List ReItem} (ht : py.template (str "re") rxTemplate = .ok (reCodeTemplate rxTemplate items))
    (hs : py.regexSearcher rxPattern [(str "__root", reCodeTemplate rxTemplate items)] = .ok s) : ∃ r, runnerFromOptions exWorld py.modes rxOptions = .ok r := by
  have hsm : SyntaxInEffect rxOptions.mode rxOptions.subMode (str "re") := .ofMode _ (by decide)
  exact (C69_runner exWorld py.modes rxOptions _ hsm (by decide)).1.2 ⟨_, .cons (ts := [(str "__root", reCodeTemplate rxTemplate items)]) (.cons ht .nil) hs .nil⟩

/-- The hypotheses of C103_rewritten are met by the command `refex --mode=re '(a)(?P<w>b)?' --sub='\\g<w>-\\1' -i --iterate=5 a.py`, and this is the text it
speaks of. -/
example : ReadsTemplates rtNames rtPy ∧ FindsMatches rtPy rxPattern exC29 ∧
    (∃ r, runnerFromOptions exWorld rtPy.modes rxOptions = .ok r) ∧
    TemplateText rtNames.identifier rtNames.maxGroups rxTemplate [.named (str "w"), .char '-', .group 1] ∧
    ReSubText exC29 (rtPy.finditer rxPattern (str "ab a")) [.named (str "w"), .char '-', .group 1] (str "ab a") (str "b-a -a") := by
  refine ⟨.inl rtPy_reItems, rtPy_fits, ?_, (C103_read rtNames_usual _ _).1 rt_read, ?_⟩
  · obtain ⟨s, hs⟩ := searcher_of (py := rtPy) rfl rtItems (by decide +kernel)
    exact rx_accepted rtPy_template hs
  · refine Spliced.edit 0 _ _ [] (str "ab") (str " a") (str " -a") rfl rfl ?_
    exact Spliced.edit 2 _ _ (str " ") (str "a") [] [] rfl rfl (.done _ _)

end Refex
