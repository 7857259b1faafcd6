import Verif.Spec.Examples
import Verif.Spec.Common
import Verif.Props.Templates
import Verif.Props.BuiltinRules
/- C88: the examples of fixers. -/
namespace Refex
set_option autoImplicit false

/-! ### Texts -/

def sampleValue (ps : List ShPart) : Str := ps.flatMap (ShPart.value fun n => n)

/-- The text becomes the other when dollars are left out, whatever follows (that does not continue a name). -/
def Dollars (t u : Str) : Prop :=
  ∀ qs, ShWF qs → (∀ c, (shSource qs).head? = some c → isIdChar c = false) → ∃ ps, ShWF ps ∧ shSource ps = t ++ shSource qs ∧ sampleValue ps = u ++ sampleValue qs

theorem lit_parts {s : Str} (h : '$' ∉ s) : ∀ qs, ShWF qs → ∃ ps, ShWF ps ∧ shSource ps = s ++ shSource qs ∧ sampleValue ps = s ++ sampleValue qs := by
  induction s with
  | nil => intro qs hq; exact ⟨qs, hq, rfl, rfl⟩
  | cons c s ih =>
    intro qs hq
    obtain ⟨ps, h1, h2, h3⟩ := ih (fun hm => h (List.mem_cons_of_mem _ hm)) qs hq
    refine ⟨.lit c :: ps, ⟨fun e => h (by rw [e]; exact List.mem_cons_self ..), h1⟩, ?_, ?_⟩
    · show c :: shSource ps = _
      rw [h2]; rfl
    · show c :: sampleValue ps = _
      rw [h3]; rfl

theorem dollars_lit {s : Str} (h : '$' ∉ s) : Dollars s s := fun qs hq _ => lit_parts h qs hq

theorem dollars_var {x : Str} (h : IsName x) : Dollars (str "$" ++ x) x := fun qs hq hh => ⟨.bare x :: qs, ⟨h, hh, hq⟩, rfl, rfl⟩

theorem dollars_pre {s t u : Str} (hs : '$' ∉ s) (h : Dollars t u) : Dollars (s ++ t) (s ++ u) := by
  intro qs hq hh
  obtain ⟨ps, h1, h2, h3⟩ := h qs hq hh
  obtain ⟨ps', g1, g2, g3⟩ := lit_parts hs ps h1
  exact ⟨ps', g1, by rw [g2, h2, List.append_assoc], by rw [g3, h3, List.append_assoc]⟩

theorem dollars_mid {t u s t' u' : Str} (h : Dollars t u) (hs : '$' ∉ s) (hc : ∃ c cs, s = c :: cs ∧ isIdChar c = false) (h' : Dollars t' u') :
    Dollars (t ++ s ++ t') (u ++ s ++ u') := by
  intro qs hq hh
  obtain ⟨ps, h1, h2, h3⟩ := dollars_pre hs h' qs hq hh
  obtain ⟨c, cs, rfl, hc⟩ := hc
  obtain ⟨ps', g1, g2, g3⟩ := h ps h1 (by rw [h2]; intro c' e; cases e; exact hc)
  exact ⟨ps', g1, by rw [g2, h2]; simp [List.append_assoc], by rw [g3, h3]; simp [List.append_assoc]⟩

theorem dollars_nil : Dollars [] [] := fun qs hq _ => ⟨qs, hq, rfl, rfl⟩

theorem dollars_post {t u s : Str} (h : Dollars t u) (hs : '$' ∉ s) (hc : ∃ c cs, s = c :: cs ∧ isIdChar c = false) : Dollars (t ++ s) (u ++ s) := by
  have := dollars_mid h hs hc dollars_nil
  simpa using this

theorem forall2_app {α β : Type} {R : α → β → Prop} : ∀ {as : List α} {bs : List β} {as' : List α} {bs' : List β}, Forall2 R as bs → Forall2 R as' bs' → Forall2 R (as ++ as') (bs ++ bs')
  | _, _, _, _, .nil, h => h
  | _, _, _, _, .cons h h1, h2 => .cons h (forall2_app h1 h2)

theorem dollars_join : ∀ {ts us : List Str}, Forall2 Dollars ts us → Dollars (joinWith (str ", ") ts) (joinWith (str ", ") us)
  | _, _, .nil => dollars_nil
  | _, _, .cons h .nil => h
  | _, _, .cons h (.cons h1 h2) => dollars_mid h (by decide) ⟨_, _, rfl, by decide⟩ (dollars_join (.cons h1 h2))

theorem int_text (i : Int) : '$' ∉ str (toString i) := by
  have hn : ∀ n : Nat, '$' ∉ (Nat.repr n).toList := by
    intro n h
    have : ('$').isDigit = true := by
      rw [Nat.repr_eq_ofList_toDigits, String.toList_ofList] at h
      exact Nat.isDigit_of_mem_toDigits (by decide) (by decide) h
    exact absurd this (by decide)
  intro h
  cases i with
  | ofNat n => exact hn n h
  | negSucc n =>
    have h : '$' ∈ ("-" ++ Nat.repr (n + 1)).toList := h
    rw [String.toList_append] at h
    rcases List.mem_append.1 h with h | h
    · revert h; decide
    · exact hn _ h

theorem opText_lit (op : Str) : '$' ∉ opText op := by
  unfold opText
  repeat' split
  all_goals decide

mutual
theorem code_dollars : ∀ (p : Code), (∀ x ∈ p.vars, IsName x) → (∀ s ∈ p.words, '$' ∉ s) → Dollars p.text p.sample.text
  | .var x, hv, _ => dollars_var (hv x (List.mem_singleton.2 rfl))
  | .name s, _, hw => dollars_lit (hw s (List.mem_singleton.2 rfl))
  | .int i, _, _ => dollars_lit (int_text i)
  | .attr e a, hv, hw => by
    have := code_dollars e hv fun s hs => hw s (List.mem_cons_of_mem _ hs)
    exact dollars_mid this (by decide) ⟨_, _, rfl, by decide⟩ (dollars_lit (hw a (List.mem_cons_self ..)))
  | .call f as ks, hv, hw => by
    simp only [Code.vars, Code.words, List.mem_append] at hv hw
    have h1 := code_dollars f (fun x h => hv x (.inl h)) fun s h => hw s (.inl h)
    have h2 := codes_dollars as (fun x h => hv x (.inr (.inl h))) fun s h => hw s (.inr (.inl h))
    have h3 := codes_dollars ks (fun x h => hv x (.inr (.inr h))) fun s h => hw s (.inr (.inr h))
    simp only [Code.sample, Code.fill, Code.text]
    exact dollars_post (dollars_mid h1 (by decide) ⟨_, _, rfl, by decide⟩ (dollars_join (forall2_app h2 h3))) (by decide) ⟨_, _, rfl, by decide⟩
  | .keyword a e, hv, hw => by
    have := code_dollars e hv fun s hs => hw s (List.mem_cons_of_mem _ hs)
    exact dollars_mid (dollars_lit (hw a (List.mem_cons_self ..))) (by decide) ⟨_, _, rfl, by decide⟩ this
  | .compare l op r, hv, hw => by
    simp only [Code.vars, Code.words, List.mem_append] at hv hw
    have h1 := code_dollars l (fun x h => hv x (.inl h)) fun s h => hw s (.inl h)
    have h2 := code_dollars r (fun x h => hv x (.inr h)) fun s h => hw s (.inr h)
    have := dollars_mid (s := str " " ++ opText op ++ str " ") h1 (by
      intro h
      simp only [List.mem_append] at h
      rcases h with (h | h) | h
      · revert h; decide
      · exact opText_lit op h
      · revert h; decide) ⟨_, _, rfl, by decide⟩ h2
    simpa [Code.sample, Code.fill, Code.text] using this
  | .not e, hv, hw => dollars_pre (by decide) (code_dollars e hv hw)
  | .mod l r, hv, hw => by
    simp only [Code.vars, Code.words, List.mem_append] at hv hw
    have h1 := code_dollars l (fun x h => hv x (.inl h)) fun s h => hw s (.inl h)
    have h2 := code_dollars r (fun x h => hv x (.inr h)) fun s h => hw s (.inr h)
    exact dollars_mid h1 (by decide) ⟨_, _, rfl, by decide⟩ h2
  | .tuple1 e, hv, hw => dollars_post (dollars_pre (by decide) (code_dollars e hv hw)) (by decide) ⟨_, _, rfl, by decide⟩
  | .emptyList, _, _ => dollars_lit (by decide)
  | .emptyDict, _, _ => dollars_lit (by decide)
  | .comp set e t i, hv, hw => by
    simp only [Code.vars, Code.words, List.mem_append] at hv hw
    have h1 := code_dollars e (fun x h => hv x (.inl h)) fun s h => hw s (.inl h)
    have h2 := code_dollars t (fun x h => hv x (.inr (.inl h))) fun s h => hw s (.inr (.inl h))
    have h3 := code_dollars i (fun x h => hv x (.inr (.inr h))) fun s h => hw s (.inr (.inr h))
    have h4 := dollars_mid (dollars_mid (dollars_pre (s := if set then str "{" else str "[") (by cases set <;> decide) h1) (s := str " for ") (by decide) ⟨_, _, rfl, by decide⟩ h2)
      (s := str " in ") (by decide) ⟨_, _, rfl, by decide⟩ h3
    have h5 := dollars_post (s := if set then str "}" else str "]") h4 (by cases set <;> decide) (by cases set <;> exact ⟨_, _, rfl, by decide⟩)
    simpa [Code.sample, Code.fill, Code.text] using h5
  | .assign t e, hv, hw => by
    simp only [Code.vars, Code.words, List.mem_append] at hv hw
    have h1 := code_dollars t (fun x h => hv x (.inl h)) fun s h => hw s (.inl h)
    have h2 := code_dollars e (fun x h => hv x (.inr h)) fun s h => hw s (.inr h)
    exact dollars_mid h1 (by decide) ⟨_, _, rfl, by decide⟩ h2
  | .expr e, hv, hw => code_dollars e hv hw
theorem codes_dollars : ∀ (ps : List Code), (∀ x ∈ Code.varss ps, IsName x) → (∀ s ∈ Code.wordss ps, '$' ∉ s) → Forall2 Dollars (Code.texts ps) (Code.texts (Code.fills .name ps))
  | [], _, _ => .nil
  | p :: ps, hv, hw => by
    simp only [Code.varss, Code.wordss, List.mem_append] at hv hw
    exact .cons (code_dollars p (fun x h => hv x (.inl h)) fun s h => hw s (.inl h)) (codes_dollars ps (fun x h => hv x (.inr h)) fun s h => hw s (.inr h))
end

theorem withoutDollars_parts {ps : List ShPart} (h : ShWF ps) : withoutDollars (shSource ps) = .ok (sampleValue ps) := by
  unfold withoutDollars
  rw [shTokens_source ps h _ (Nat.le_refl _)]
  exact shSubst_value _ _ ps fun p _ n _ => rfl

theorem withoutDollars_code {p : Code} (h : Writable p) : withoutDollars p.text = .ok p.sample.text := by
  obtain ⟨ps, h1, h2, h3⟩ := code_dollars p h.vars h.words [] trivial (by intro c e; cases e)
  have := withoutDollars_parts h1
  rw [h2, h3] at this
  simpa [shSource, sampleValue] using this

/-- C88: without an example of its own, the example of a fixer with a pattern without restrictions is the pattern with `x` for each
`$x`. -/
theorem C88_fragment {e : ExampleInfo} {p : Code} (h : Writable p) (h1 : e.fragment = none) (h2 : e.pattern = some p.text) (h3 : e.restricted = false) :
    e.exampleFragment = .ok (some p.sample.text) := by
  simp only [ExampleInfo.exampleFragment, h1, h2, h3, withoutDollars_code h]
  rfl

/-- C88: and what it becomes is the template with `x` for each `$x`. -/
theorem C88_replacement {e : ExampleInfo} {p : Code} (h : Writable p) (h1 : e.fragment = none) (h2 : e.replacement = none) (h3 : e.template = some p.text) :
    e.exampleReplacement = .ok (some p.sample.text) := by
  simp only [ExampleInfo.exampleReplacement, h1, h2, h3, withoutDollars_code h]
  rfl

/-- C88: for any pattern text: pieces `$x` and `${x}` become `x`, and `$$` becomes `$`; other uses of `$` raise ValueError. -/
theorem C88_pieces {e : ExampleInfo} (h1 : e.fragment = none) (h3 : e.restricted = false) :
    (∀ ps, ShWF ps → e.pattern = some (shSource ps) → e.exampleFragment = .ok (some (ps.flatMap (ShPart.value fun n => n)))) ∧
    (∀ text, e.pattern = some text → (¬ ∃ ps, ShWF ps ∧ shSource ps = text) → e.exampleFragment = .error .valueError) := by
  constructor
  · intro ps hp h2
    simp only [ExampleInfo.exampleFragment, h1, h2, h3, withoutDollars_parts hp]
    rfl
  · intro text h2 hn
    have hi : ShTok.invalid ∈ shTokens text.length text := Classical.byContradiction fun h => hn (shTokens_valid _ _ (Nat.le_refl _) h)
    have : withoutDollars text = .error .valueError := (shSubst_invalid _ (by intro v h; cases h) _).1 hi
    simp only [ExampleInfo.exampleFragment, h1, h2, h3, this]
    rfl

/-- C88: an example that was given is the example, and so is what was given for it; if a replacement was given without an example, or the
replacement is not for the whole match, asking for it raises TypeError; a matcher that is not a pattern, or has restrictions, has
no example unless one is given. -/
theorem C88_given (e : ExampleInfo) :
    (∀ s, e.fragment = some s → e.exampleFragment = .ok (some s) ∧ e.exampleReplacement = .ok e.replacement) ∧
    (e.fragment = none → (e.pattern = none ∨ e.restricted = true) → e.exampleFragment = .ok none) ∧
    (e.fragment = none → (e.replacement ≠ none ∨ e.template = none) → e.exampleReplacement = .error .typeError) := by
  refine ⟨fun s h => ?_, fun h h' => ?_, fun h h' => ?_⟩
  · simp only [ExampleInfo.exampleFragment, ExampleInfo.exampleReplacement, h]
    exact ⟨trivial, trivial⟩
  · unfold ExampleInfo.exampleFragment
    rw [h]
    cases hp : e.pattern with
    | none => rfl
    | some t =>
      rcases h' with h' | h'
      · rw [hp] at h'; cases h'
      · simp only [h', if_true]
  · unfold ExampleInfo.exampleReplacement
    rw [h]
    cases hp : e.replacement with
    | some t => rfl
    | none =>
      rcases h' with h' | h'
      · exact absurd hp h'
      · simp only [h']

/-! ### Trees -/

/-- Something stands for each metavariable. -/
def FilledWith (f : Label → Code) (occ : Occs) : Prop := ∀ x w, (x, w) ∈ occ → ∃ o, (f x).Reads w o

theorem filled_nil (f : Label → Code) : FilledWith f [] := fun _ _ h => by cases h

theorem filled_append {f : Label → Code} {o o' : Occs} (h : FilledWith f o) (h' : FilledWith f o') : FilledWith f (o ++ o') := fun x w hx =>
  (List.mem_append.1 hx).elim (h x w) (h' x w)

mutual
theorem reads_fill {f : Label → Code} : ∀ (p : Code) {v : Val} {o : Occs}, (p.fill f).Reads v o → ∃ occ, p.Reads v occ ∧ FilledWith f occ
  | .var x, v, o, h => ⟨[(x, v)], .var, fun y w hy => by cases List.mem_singleton.1 hy; exact ⟨o, h⟩⟩
  | .name s, v, o, h => by cases h; exact ⟨[], .name, filled_nil f⟩
  | .int n, v, o, h => by cases h with | int h => exact ⟨[], .int h, filled_nil f⟩
  | .attr e a, v, o, h => by
    cases h with | attr h hl =>
    obtain ⟨occ, h1, h2⟩ := reads_fill e h
    exact ⟨occ, .attr h1 hl, h2⟩
  | .call g as ks, v, o, h => by
    cases h with | call h h1 h2 =>
    obtain ⟨o1, a1, b1⟩ := reads_fill g h
    obtain ⟨o2, a2, b2⟩ := readss_fill as h1
    obtain ⟨o3, a3, b3⟩ := readss_fill ks h2
    exact ⟨_, .call a1 a2 a3, filled_append b1 (filled_append b2 b3)⟩
  | .keyword a e, v, o, h => by
    cases h with | keyword h =>
    obtain ⟨occ, h1, h2⟩ := reads_fill e h
    exact ⟨occ, .keyword h1, h2⟩
  | .compare l op r, v, o, h => by
    cases h with | compare h h1 h2 h3 h4 =>
    obtain ⟨o1, a1, b1⟩ := reads_fill l h
    obtain ⟨o2, a2, b2⟩ := reads_fill r h4
    exact ⟨_, .compare a1 h1 h2 h3 a2, filled_append b1 b2⟩
  | .not e, v, o, h => by
    cases h with | not h1 h =>
    obtain ⟨occ, a1, b1⟩ := reads_fill e h
    exact ⟨occ, .not h1 a1, b1⟩
  | .mod l r, v, o, h => by
    cases h with | mod h h1 h2 =>
    obtain ⟨o1, a1, b1⟩ := reads_fill l h
    obtain ⟨o2, a2, b2⟩ := reads_fill r h2
    exact ⟨_, .mod a1 h1 a2, filled_append b1 b2⟩
  | .tuple1 e, v, o, h => by
    cases h with | tuple1 h1 h h2 =>
    obtain ⟨occ, a1, b1⟩ := reads_fill e h
    exact ⟨occ, .tuple1 h1 a1 h2, b1⟩
  | .emptyList, v, o, h => by cases h with | emptyList h => exact ⟨[], .emptyList h, filled_nil f⟩
  | .emptyDict, v, o, h => by cases h; exact ⟨[], .emptyDict, filled_nil f⟩
  | .comp set e t it, v, o, h => by
    cases h with | comp h h1 h2 h3 h4 =>
    obtain ⟨o1, a1, b1⟩ := reads_fill e h
    obtain ⟨o2, a2, b2⟩ := reads_fill t h2
    obtain ⟨o3, a3, b3⟩ := reads_fill it h3
    exact ⟨_, .comp a1 h1 a2 a3 h4, filled_append b1 (filled_append b2 b3)⟩
  | .assign t e, v, o, h => by
    cases h with | assign h1 h2 h3 =>
    obtain ⟨o1, a1, b1⟩ := reads_fill t h2
    obtain ⟨o2, a2, b2⟩ := reads_fill e h3
    exact ⟨_, .assign h1 a1 a2, filled_append b1 b2⟩
  | .expr e, v, o, h => by
    cases h with | expr h =>
    obtain ⟨occ, a1, b1⟩ := reads_fill e h
    exact ⟨occ, .expr a1, b1⟩
theorem readss_fill {f : Label → Code} : ∀ (ps : List Code) {vs : List Val} {o : Occs}, CodesRead (Code.fills f ps) vs o → ∃ occ, CodesRead ps vs occ ∧ FilledWith f occ
  | [], vs, o, h => by cases h; exact ⟨[], .nil, filled_nil f⟩
  | p :: ps, vs, o, h => by
    cases h with | cons h h1 =>
    obtain ⟨o1, a1, b1⟩ := reads_fill p h
    obtain ⟨o2, a2, b2⟩ := readss_fill ps h1
    exact ⟨_, .cons a1 a2, filled_append b1 b2⟩
end

theorem filled_left {f : Label → Code} {o o' : Occs} (h : FilledWith f (o ++ o')) : FilledWith f o := fun x w hx => h x w (List.mem_append_left _ hx)
theorem filled_right {f : Label → Code} {o o' : Occs} (h : FilledWith f (o ++ o')) : FilledWith f o' := fun x w hx => h x w (List.mem_append_right _ hx)

mutual
theorem fill_reads {f : Label → Code} : ∀ (p : Code) {v : Val} {occ : Occs}, p.Reads v occ → FilledWith f occ → ∃ o, (p.fill f).Reads v o
  | .var x, v, occ, h, hf => by cases h; exact hf x v (List.mem_singleton.2 rfl)
  | .name s, v, occ, h, _ => by cases h; exact ⟨[], .name⟩
  | .int n, v, occ, h, _ => by cases h with | int h => exact ⟨[], .int h⟩
  | .attr e a, v, occ, h, hf => by
    cases h with | attr h hl =>
    obtain ⟨o, h1⟩ := fill_reads e h hf
    exact ⟨o, .attr h1 hl⟩
  | .call g as ks, v, occ, h, hf => by
    cases h with | call h h1 h2 =>
    obtain ⟨o1, a1⟩ := fill_reads g h (filled_left hf)
    obtain ⟨o2, a2⟩ := fills_read as h1 (filled_left (filled_right hf))
    obtain ⟨o3, a3⟩ := fills_read ks h2 (filled_right (filled_right hf))
    exact ⟨_, .call a1 a2 a3⟩
  | .keyword a e, v, occ, h, hf => by
    cases h with | keyword h =>
    obtain ⟨o, h1⟩ := fill_reads e h hf
    exact ⟨o, .keyword h1⟩
  | .compare l op r, v, occ, h, hf => by
    cases h with | compare h h1 h2 h3 h4 =>
    obtain ⟨o1, a1⟩ := fill_reads l h (filled_left hf)
    obtain ⟨o2, a2⟩ := fill_reads r h4 (filled_right hf)
    exact ⟨_, .compare a1 h1 h2 h3 a2⟩
  | .not e, v, occ, h, hf => by
    cases h with | not h1 h =>
    obtain ⟨o, a1⟩ := fill_reads e h hf
    exact ⟨o, .not h1 a1⟩
  | .mod l r, v, occ, h, hf => by
    cases h with | mod h h1 h2 =>
    obtain ⟨o1, a1⟩ := fill_reads l h (filled_left hf)
    obtain ⟨o2, a2⟩ := fill_reads r h2 (filled_right hf)
    exact ⟨_, .mod a1 h1 a2⟩
  | .tuple1 e, v, occ, h, hf => by
    cases h with | tuple1 h1 h h2 =>
    obtain ⟨o, a1⟩ := fill_reads e h hf
    exact ⟨o, .tuple1 h1 a1 h2⟩
  | .emptyList, v, occ, h, _ => by cases h with | emptyList h => exact ⟨[], .emptyList h⟩
  | .emptyDict, v, occ, h, _ => by cases h; exact ⟨[], .emptyDict⟩
  | .comp set e t it, v, occ, h, hf => by
    cases h with | comp h h1 h2 h3 h4 =>
    obtain ⟨o1, a1⟩ := fill_reads e h (filled_left hf)
    obtain ⟨o2, a2⟩ := fill_reads t h2 (filled_left (filled_right hf))
    obtain ⟨o3, a3⟩ := fill_reads it h3 (filled_right (filled_right hf))
    exact ⟨_, .comp a1 h1 a2 a3 h4⟩
  | .assign t e, v, occ, h, hf => by
    cases h with | assign h1 h2 h3 =>
    obtain ⟨o1, a1⟩ := fill_reads t h2 (filled_left hf)
    obtain ⟨o2, a2⟩ := fill_reads e h3 (filled_right hf)
    exact ⟨_, .assign h1 a1 a2⟩
  | .expr e, v, occ, h, hf => by
    cases h with | expr h =>
    obtain ⟨o, a1⟩ := fill_reads e h hf
    exact ⟨o, .expr a1⟩
theorem fills_read {f : Label → Code} : ∀ (ps : List Code) {vs : List Val} {occ : Occs}, CodesRead ps vs occ → FilledWith f occ → ∃ o, CodesRead (Code.fills f ps) vs o
  | [], vs, occ, h, _ => by cases h; exact ⟨[], .nil⟩
  | p :: ps, vs, occ, h, hf => by
    cases h with | cons h h1 =>
    obtain ⟨o1, a1⟩ := fill_reads p h (filled_left hf)
    obtain ⟨o2, a2⟩ := fills_read ps h1 (filled_right hf)
    exact ⟨_, .cons a1 a2⟩
end

theorem readsName_iff {x : Label} {w : Val} : (∃ o, (Code.name x).Reads w o) ↔ IsNameNode w x := by
  constructor
  · rintro ⟨o, h⟩; cases h; exact ⟨_, _, _, rfl⟩
  · rintro ⟨i, j, ctx, rfl⟩; exact ⟨_, .name⟩

/-- C88: a tree is that of the example exactly if it is that of the pattern with the name `x` for each metavariable `$x`. -/
theorem C88_tree (p : Code) (v : Val) : (∃ o, p.sample.Reads v o) ↔ ∃ occ, p.Reads v occ ∧ ∀ x w, (x, w) ∈ occ → IsNameNode w x := by
  constructor
  · rintro ⟨o, h⟩
    obtain ⟨occ, h1, h2⟩ := reads_fill p h
    exact ⟨occ, h1, fun x w hx => readsName_iff.1 (h2 x w hx)⟩
  · rintro ⟨occ, h1, h2⟩
    exact fill_reads p h1 fun x w hx => readsName_iff.2 (h2 x w hx)

/-! ### Matches -/

theorem contexts_name {v w : Val} {p : Path} {x : Label} (h : NameContexts v) (hp : v.at? p = some w) (hw : IsNameNode w x) :
    ∃ i j k ctx, w = .node i (str "Name") [str "id", str "ctx"] [.const j (.str x), .node k ctx [] []] ∧ ctx ∈ [str "Load", str "Store", str "Del"] := by
  obtain ⟨i, j, c, rfl⟩ := hw
  obtain ⟨i', x', k, ctx, e, h⟩ := h p _ hp rfl
  cases e
  exact ⟨_, _, _, _, rfl, h⟩

theorem names_alike {a b : Val} {x : Label}
    (ha : ∃ i j k ctx, a = .node i (str "Name") [str "id", str "ctx"] [.const j (.str x), .node k ctx [] []] ∧ ctx ∈ [str "Load", str "Store", str "Del"])
    (hb : ∃ i j k ctx, b = .node i (str "Name") [str "id", str "ctx"] [.const j (.str x), .node k ctx [] []] ∧ ctx ∈ [str "Load", str "Store", str "Del"]) : Alike a b := by
  obtain ⟨i, j, k, ctx, rfl, h⟩ := ha
  obtain ⟨i', j', k', ctx', rfl, h'⟩ := hb
  refine ⟨fun _ _ h => (by cases h), fun _ _ h => (by cases h), ?_⟩
  unfold astEquivalent
  split
  · rfl
  · rw [astEqLoop, if_pos rfl]
    simp only [fieldPairs, List.append_nil]
    have e1 : Val.getattr (.node i' (str "Name") [str "id", str "ctx"] [.const j' (.str x), .node k' ctx' [] []]) (str "id") = .const j' (.str x) := by
      simp [Val.getattr, Val.lookup]
    have e2 : Val.getattr (.node i' (str "Name") [str "id", str "ctx"] [.const j' (.str x), .node k' ctx' [] []]) (str "ctx") = .node k' ctx' [] [] := by
      simp only [Val.getattr, Val.lookup]
      rw [if_neg (by decide), if_pos trivial]
      rfl
    rw [e1, e2, astEqLoop, if_pos (by simp [Val.pyEq, Const.pyEq, Const.whole?]), astEqLoop]
    split
    · simp only [fieldPairs, List.append_nil]
      rw [astEqLoop]
    · have hc : ∀ {k : Nat} {t : Str}, t ∈ [str "Load", str "Store", str "Del"] → isExprContext (.node k t [] []) = true := by
        intro k t ht
        refine decide_eq_true ?_
        simp only [List.mem_cons, List.not_mem_nil, or_false] at ht ⊢
        rcases ht with h | h | h <;> simp [h]
      rw [hc h, hc h']
      rfl
    · intro _ _ _ _ _ _ _ _ e _
      cases e

/-! Occurrences of metavariables are parts of the tree. -/

def PartOf (v w : Val) : Prop := ∃ p, v.at? p = some w

theorem part_child {v u w : Val} (hu : u ∈ v.children) (h : PartOf u w) : PartOf v w := by
  obtain ⟨k, hk⟩ := List.mem_iff_getElem?.1 hu
  obtain ⟨p, hp⟩ := h
  exact ⟨k :: p, by rw [at?_cons, hk]; exact hp⟩

theorem part_single {v u w : Val} (hs : Single v u) (h : PartOf u w) : PartOf v w := by
  obtain ⟨i, rfl⟩ := hs
  exact part_child (List.mem_singleton.2 rfl) h

mutual
theorem reads_part : ∀ (p : Code) {v : Val} {occ : Occs}, p.Reads v occ → ∀ x w, (x, w) ∈ occ → PartOf v w
  | .var x, v, occ, h => by cases h; intro y w hy; cases List.mem_singleton.1 hy; exact ⟨[], rfl⟩
  | .name s, v, occ, h => by cases h; intro y w hy; cases hy
  | .int n, v, occ, h => by cases h; intro y w hy; cases hy
  | .attr e a, v, occ, h => by
    cases h with | attr h hl =>
    exact fun x w hx => part_child (by simp [Val.children]) (reads_part e h x w hx)
  | .call g as ks, v, occ, h => by
    cases h with | call h h1 h2 =>
    intro x w hx
    rcases List.mem_append.1 hx with hx | hx
    · exact part_child (by simp [Val.children]) (reads_part g h x w hx)
    · rcases List.mem_append.1 hx with hx | hx
      · obtain ⟨u, hu, hp⟩ := readss_part as h1 x w hx
        exact part_child (List.mem_cons_of_mem _ (List.mem_cons_self ..)) (part_child hu hp)
      · obtain ⟨u, hu, hp⟩ := readss_part ks h2 x w hx
        exact part_child (List.mem_cons_of_mem _ (List.mem_cons_of_mem _ (List.mem_cons_self ..))) (part_child hu hp)
  | .keyword a e, v, occ, h => by
    cases h with | keyword h =>
    exact fun x w hx => part_child (by simp [Val.children]) (reads_part e h x w hx)
  | .compare l op r, v, occ, h => by
    cases h with | compare h h1 h2 h3 h4 =>
    intro x w hx
    rcases List.mem_append.1 hx with hx | hx
    · exact part_child (by simp [Val.children]) (reads_part l h x w hx)
    · exact part_child (List.mem_cons_of_mem _ (List.mem_cons_of_mem _ (List.mem_cons_self ..))) (part_single h3 (reads_part r h4 x w hx))
  | .not e, v, occ, h => by
    cases h with | not h1 h =>
    exact fun x w hx => part_child (by simp [Val.children]) (reads_part e h x w hx)
  | .mod l r, v, occ, h => by
    cases h with | mod h h1 h2 =>
    intro x w hx
    rcases List.mem_append.1 hx with hx | hx
    · exact part_child (by simp [Val.children]) (reads_part l h x w hx)
    · exact part_child (by simp [Val.children]) (reads_part r h2 x w hx)
  | .tuple1 e, v, occ, h => by
    cases h with | tuple1 h1 h h2 =>
    exact fun x w hx => part_child (List.mem_cons_self ..) (part_single h1 (reads_part e h x w hx))
  | .emptyList, v, occ, h => by cases h; intro y w hy; cases hy
  | .emptyDict, v, occ, h => by cases h; intro y w hy; cases hy
  | .comp set e t it, v, occ, h => by
    cases h with | comp h h1 h2 h3 h4 =>
    intro x w hx
    rcases List.mem_append.1 hx with hx | hx
    · exact part_child (by simp [Val.children]) (reads_part e h x w hx)
    · refine part_child (List.mem_cons_of_mem _ (List.mem_cons_self ..)) (part_single h1 ?_)
      rcases List.mem_append.1 hx with hx | hx
      · exact part_child (by simp [Val.children]) (reads_part t h2 x w hx)
      · exact part_child (by simp [Val.children]) (reads_part it h3 x w hx)
  | .assign t e, v, occ, h => by
    cases h with | assign h1 h2 h3 =>
    intro x w hx
    rcases List.mem_append.1 hx with hx | hx
    · exact part_child (List.mem_cons_self ..) (part_single h1 (reads_part t h2 x w hx))
    · exact part_child (by simp [Val.children]) (reads_part e h3 x w hx)
  | .expr e, v, occ, h => by
    cases h with | expr h =>
    exact fun x w hx => part_child (by simp [Val.children]) (reads_part e h x w hx)
theorem readss_part : ∀ (ps : List Code) {vs : List Val} {occ : Occs}, CodesRead ps vs occ → ∀ x w, (x, w) ∈ occ → ∃ u ∈ vs, PartOf u w
  | [], vs, occ, h => by cases h; intro y w hy; cases hy
  | p :: ps, vs, occ, h => by
    cases h with | cons h h1 =>
    intro x w hx
    rcases List.mem_append.1 hx with hx | hx
    · exact ⟨_, List.mem_cons_self .., reads_part p h x w hx⟩
    · obtain ⟨u, hu, hp⟩ := readss_part ps h1 x w hx
      exact ⟨u, List.mem_cons_of_mem _ hu, hp⟩
end

theorem occs_mem {occ : Occs} {x : Label} {w : Val} (h : w ∈ occ.of x) : (x, w) ∈ occ := by
  obtain ⟨⟨y, u⟩, h2, rfl⟩ := List.mem_map.1 h
  obtain ⟨h3, h4⟩ := List.mem_filter.1 h2
  have : y = x := by simpa using h4
  subst this
  exact h3

theorem sample_alike {p : Code} {v : Val} {occ : Occs} (hc : NameContexts v) (h : p.Reads v occ) (hn : ∀ x w, (x, w) ∈ occ → IsNameNode w x) (x : Label) :
    AllAlike (occ.of x) := by
  intro i j a b _ ha hb
  have h1 : ∀ {w : Val}, w ∈ occ.of x → ∃ i j k ctx, w = .node i (str "Name") [str "id", str "ctx"] [.const j (.str x), .node k ctx [] []] ∧ ctx ∈ [str "Load", str "Store", str "Del"] := by
    intro w hw
    obtain ⟨q, hq⟩ := reads_part p h x w (occs_mem hw)
    exact contexts_name hc hq (hn x w (occs_mem hw))
  exact names_alike (h1 (List.mem_of_getElem? ha)) (h1 (List.mem_of_getElem? hb))

theorem reads_det {mangle : Label → Str} {p : Code} (hp : CodeOk mangle p) {v : Val} {occ occ' : Occs} (h : p.Reads v occ) (h' : p.Reads v occ') : occ = occ' := by
  have hiff := fun (v : Val) (occ : Occs) => reads_iff (allowed := fun _ _ => True) p (v := v) (occ := occ) (holesAre hp.mangles) (fun x h => h) (fun x h => h) (opsOk hp.ops)
  exact instance_det _ _ _ _ ((hiff v occ).2 ⟨h, fun _ _ => trivial⟩) ((hiff v occ').2 ⟨h', fun _ _ => trivial⟩)

/-- C88: the pattern matches its example, wherever that stands in a file: each metavariable `$x` is bound to the name `x`. -/
theorem C88_found {mangle : Label → Str} {c : Ctx} {env : Env} {g : Grammar} {p : Code} (hg : PythonGrammar g) (hp : CodeOk mangle p)
    {b : Bool} {v : Val} (hv : Parsed g b v) (hc : NameContexts v) {o : Occs} (h : p.sample.Reads v o) {n : Nat} (hn : 2 * (p.val mangle).size + 5 ≤ n) (ks : List Key) :
    ∃ mi, run c n env (p.pattern mangle []) v ks = .ok (some mi, ks) ∧ mi.obj = createMatch c v ∧
      (∀ x ∈ p.vars, ∃ w, PartOf v w ∧ IsNameNode w x ∧ mi.bindings.get? x = some ⟨createMatch c w, .merge, .keepLast⟩) ∧
      ∀ x ∉ p.vars, mi.bindings.get? x = none := by
  obtain ⟨occ0, h1, h2⟩ := (C88_tree p v).1 ⟨o, h⟩
  obtain ⟨mi, occ, a1, a2, _, a4, a5, a6⟩ := (C81_pattern (c := c) (env := env) hg hp (no_restrictions c env) hv (n := n) (by omega) ks).1
    ⟨occ0, h1, fun _ _ => trivial, sample_alike hc h1 h2⟩
  obtain rfl := reads_det hp h1 a2
  refine ⟨mi, a1, a5, fun x hx => ?_, fun x hx => ?_⟩
  rotate_left
  · rw [← reads_vars p h1] at hx
    have : occ0.of x = [] := List.eq_nil_iff_forall_not_mem.2 fun w hw => hx (List.mem_map.2 ⟨_, occs_mem hw, rfl⟩)
    rw [a6, this]; rfl
  rw [← reads_vars p h1] at hx
  obtain ⟨⟨y, w0⟩, hy, rfl⟩ := List.mem_map.1 hx
  have hm : w0 ∈ occ0.of y := List.mem_map.2 ⟨(y, w0), List.mem_filter.2 ⟨hy, by simp⟩, rfl⟩
  cases hl : (occ0.of y).getLast? with
  | none => rw [List.getLast?_eq_none_iff] at hl; rw [hl] at hm; cases hm
  | some w =>
    have hw := occs_mem (List.mem_of_getLast? hl)
    exact ⟨w, reads_part p h1 y w hw, h2 y w hw, by rw [a6, hl]; rfl⟩

theorem sameTree_name {w w' : Val} {x : Label} (h : SameTree w w') (hw : IsNameNode w x) : IsNameNode w' x := by
  obtain ⟨i, j, ctx, rfl⟩ := hw
  cases h with
  | node hl hs =>
    rename_i j2 vs
    match vs, hl with
    | [a, b], _ =>
      have h0 := hs 0 (str "id") _ _ rfl rfl rfl (by rintro ⟨_, e⟩; revert e; decide)
      cases h0 with
      | const he =>
        rename_i d _
        have hd : d = .str x := by
          cases d <;> simp [Const.pyEq, Const.whole?] at he
          rw [he]
        subst hd
        exact ⟨_, _, _, rfl⟩

/-- C88: what a built-in rule with a generated example makes of the example is, when it is parsed, the generated replacement. -/
theorem C88_fixed {mangle : Label → Str} {c : Ctx} {env : Env} {g : Grammar} {r : Rule} (hr : r ∈ unittestRules ++ idiomRules ++ datetimeRules)
    (hmo : Mangles mangle r.old) (hmn : Mangles mangle r.new)
    (hg : PythonGrammar g) {n m : Nat} {penv : PyEnv} (henv : penv.Fits g) {t : PyTemplate}
    (ht : t.astMatcher = exprTemplate (r.new.pattern mangle []))
    {b : Bool} {v : Val} (hv : Parsed g b v) (hc : NameContexts v) {o : Occs} (hs : r.old.sample.Reads v o)
    (hloc : ∀ w, PartOf v w → w.ty = str "Name" → ∃ sp, createMatch c w = .lexical w sp ∧ penv.isExpr w = true ∧ Parsed g false w)
    (hn : 2 * (r.old.val mangle).size + 5 ≤ n) (ks : List Key) :
    ∃ mi, run c n env (r.fixer mangle).matcher v ks = .ok (some mi, ks) ∧
      ∀ (ms : Dict Label PyMatch), ms.WF → (∀ x bd, mi.bindings.get? x = some bd → ∃ pm, ms.get? x = some pm ∧ pm.obj = bd.value) →
      ∀ text, t.substituteMatch m penv (some c) mi.obj ms = .ok text →
      ∃ replacement cc e o', (text = replacement ∨ text = str "(" ++ replacement ++ str ")") ∧ penv.parse replacement = some cc ∧ OneExpr cc.tree e ∧
        r.new.sample.Reads e o' := by
  have hb : r ∈ builtinRules := by unfold builtinRules; exact List.mem_append_left _ hr
  have hok := rule_codeOk hb hmo
  obtain ⟨occ0, h1, h2⟩ := (C88_tree r.old v).1 ⟨o, hs⟩
  obtain ⟨mi, occ, a1, _⟩ := (C81_finds_plain (c := c) (env := env) hr hmo hg hv hn ks).1 ⟨occ0, h1, sample_alike hc h1 h2⟩
  refine ⟨mi, a1, fun ms hw hms text htext => ?_⟩
  obtain ⟨replacement, cc, occ1, e, occ', k1, k2, k3, k4, k5, k6⟩ := C81_replaces_plain hr hmo hmn hg henv ht hv hn a1 hw hms htext
  obtain rfl := reads_det hok h1 k4.1
  obtain ⟨o', ho⟩ := (C88_tree r.new e).2 ⟨occ', k5, fun x w' hx => by
    obtain ⟨w, hl, hsame⟩ := k6 x w' hx
    have hm := occs_mem (List.mem_of_getLast? hl)
    have hnm := h2 x w hm
    have hty : w.ty = str "Name" := by obtain ⟨i, j, ctx, rfl⟩ := hnm; rfl
    obtain ⟨sp, q1, q2, q3⟩ := hloc w (reads_part r.old h1 x w hm) hty
    exact sameTree_name (hsame w sp q1 q2 q3) hnm⟩
  exact ⟨replacement, cc, e, o', k1, k2, k3, ho⟩

/-! ### The built-in fixers -/

/-- C88: the rules without an example of their own: their examples are the old and the new code with `x` for each `$x`. -/
theorem C88_rules : ∀ r ∈ unittestRules ++ idiomRules,
    (r.examples).exampleFragment = .ok (some r.old.sample.text) ∧ (r.examples).exampleReplacement = .ok (some r.new.sample.text) := by decide +kernel

/-- C88: the examples given with the comparisons, dates and the last of the constants are also the old code and the new code of the rule,
with something in the place of the metavariables. -/
def givenFillings : List (Rule × ExampleInfo × (Label → Code)) :=
  List.zipWith (fun r (e : ExampleInfo × (Label → Code)) => (r, e.1, e.2)) (literalRules ++ datetimeRules ++ constantRules.drop 2)
    ((correctnessExamples.take 2 ++ correctnessExamples.drop 8 ++ (idiomExamples.drop 6).take 1).zip
      [fun x => if x = str "lhs" then .name (str "lhs") else .int 42, fun x => if x = str "lhs" then .name (str "lhs") else .int 42,
       fun _ => .name (str "foo"), fun _ => .name (str "foo"),
       fun x => if x = str "constant" then .name (str "_FOO1_BAZ2") else .call (.attr (.name (str "my_mod")) (str "my_func")) [] []])

theorem C88_given_rules : givenFillings.length = 5 ∧ ∀ e ∈ givenFillings,
    e.2.1.exampleFragment = .ok (some (e.1.old.fill e.2.2).text) ∧ e.2.1.exampleReplacement = .ok (some (e.1.new.fill e.2.2).text) := by decide +kernel

/-- C88: example code exists exactly if every fixer has an example; it consists of two comments and the examples, each on a line of its own. -/
theorem C88_source (es : List ExampleInfo) :
    (∀ fs, Forall2 (fun (e : ExampleInfo) f => e.exampleFragment = .ok (some f)) es fs →
      exampleSource es = .ok (str "# coding: utf-8\n# Only enable refex warnings: pylint: skip-file\n" ++ fs.flatMap fun f => f ++ str "\n")) ∧
    ((¬ ∀ e ∈ es, ∃ f, e.exampleFragment = .ok (some f)) → ∃ x, exampleSource es = .error x) := by
  constructor
  · intro fs h
    have h1 : exampleLines es = .ok (fs.map some) := by
      induction h with
      | nil => rfl
      | cons h _ ih => rw [exampleLines, h]; simp only [ih]; rfl
    have h2 : ∀ (fs : List Str), joinWith (str "\n") (fs ++ [[]]) = fs.flatMap fun f => f ++ str "\n" := by
      intro fs
      induction fs with
      | nil => rfl
      | cons f fs ih =>
        rw [List.flatMap_cons, ← ih]
        cases fs with
        | nil => simp [joinWith]
        | cons f' fs => simp only [List.cons_append, joinWith]
    unfold exampleSource
    rw [h1]
    simp only [joinLines]
    rw [if_neg (by simp)]
    have h3 : ([some (str "# coding: utf-8"), some (str "# Only enable refex warnings: pylint: skip-file")] ++ fs.map some ++ [some []]).filterMap id =
        (str "# coding: utf-8" :: str "# Only enable refex warnings: pylint: skip-file" :: fs) ++ [[]] := by
      simp [List.filterMap_append, List.filterMap_map]
    rw [h3, h2]
    simp only [List.flatMap_cons]
    rw [← List.append_assoc]
    rfl
  · intro h
    unfold exampleSource
    cases hl : exampleLines es with
    | error x => exact ⟨x, rfl⟩
    | ok fs =>
      refine ⟨.typeError, ?_⟩
      have : (none : Option Str) ∈ fs := by
        refine Classical.byContradiction fun hn => h ?_
        clear h
        induction es generalizing fs with
        | nil => intro e he; cases he
        | cons e es ih =>
          rw [exampleLines] at hl
          cases hf : e.exampleFragment with
          | error x => rw [hf] at hl; cases hl
          | ok f =>
            rw [hf] at hl
            cases hl' : exampleLines es with
            | error x => simp only [hl'] at hl; cases hl
            | ok fs' =>
              simp only [hl'] at hl
              cases hl
              intro e' he
              rcases List.mem_cons.1 he with rfl | he
              · cases f with
                | none => exact absurd (List.mem_cons_self ..) hn
                | some s => exact ⟨s, hf⟩
              · exact ih fs' hl' (fun hm => hn (List.mem_cons_of_mem _ hm)) e' he
      simp only [joinLines]
      rw [if_pos]
      simp only [List.any_eq_true]
      exact ⟨none, by simp [this], rfl⟩

theorem builtin_fragments : ∀ e ∈ builtinExamples, (match e.exampleFragment with | .ok (some _) => true | _ => false) = true := by decide +kernel

/-- C88: every built-in fixer has an example, so that there is example code. -/
theorem C88_builtin (mangle : Label → Str) :
    (∀ e ∈ builtinExamples, ∃ f, e.exampleFragment = .ok (some f)) ∧ (∃ text, exampleSource builtinExamples = .ok text) ∧
    builtinExamples.length = (correctnessFixers mangle ++ idiomFixers mangle ++ unittestFixers mangle).length := by
  have h : ∀ e ∈ builtinExamples, ∃ f, e.exampleFragment = .ok (some f) := by
    intro e he
    have := builtin_fragments e he
    split at this
    · rename_i f hf; exact ⟨f, hf⟩
    · cases this
  refine ⟨h, ?_, ?_⟩
  · have : ∀ (es : List ExampleInfo), (∀ e ∈ es, ∃ f, e.exampleFragment = .ok (some f)) → ∃ fs, Forall2 (fun (e : ExampleInfo) f => e.exampleFragment = .ok (some f)) es fs := by
      intro es
      induction es with
      | nil => intro _; exact ⟨[], .nil⟩
      | cons e es ih =>
        intro h
        obtain ⟨f, hf⟩ := h e (List.mem_cons_self ..)
        obtain ⟨fs, hfs⟩ := ih fun e he => h e (List.mem_cons_of_mem _ he)
        exact ⟨f :: fs, .cons hf hfs⟩
    obtain ⟨fs, hfs⟩ := this _ h
    exact ⟨_, (C88_source builtinExamples).1 fs hfs⟩
  · simp [builtinExamples, correctnessExamples, idiomExamples, unittestExamples, correctnessFixers, idiomFixers, unittestFixers]
    decide

end Refex
