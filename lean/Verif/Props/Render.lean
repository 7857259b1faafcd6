import Verif.Model.Render
import Verif.Props.Spans
import Verif.Spec.Diff
/-
Properties C14-C16: the renderer.
-/
namespace Refex
set_option autoImplicit false

/-! ### Lines -/

theorem splitlinesKeep_flatten (s : Str) : (splitlinesKeep s).flatten = s := by
  fun_induction splitlinesKeep s with
  | case1 => rfl
  | case2 c => rfl
  | case3 c d rest h ih =>
    simp only [Bool.and_eq_true, decide_eq_true_eq] at h
    simp [ih, h.1, h.2]
  | case4 c d rest h1 h2 ih => simp [ih]
  | case5 c d rest h1 h2 h3 ih => simp [h3] at ih
  | case6 c d rest h1 h2 l ls h3 ih => simp [h3] at ih; simp [ih]

theorem splitlinesKeep_ne (s : Str) : ∀ l ∈ splitlinesKeep s, l ≠ [] := by
  fun_induction splitlinesKeep s with
  | case1 => simp
  | case2 c => simp
  | case3 c d rest h ih => simpa using ih
  | case4 c d rest h1 h2 ih => simpa using ih
  | case5 c d rest h1 h2 h3 ih => simp
  | case6 c d rest h1 h2 l ls h3 ih =>
    rw [h3] at ih
    intro x hx
    rcases List.mem_cons.1 hx with rfl | hx
    · simp
    · exact ih x (List.mem_cons_of_mem _ hx)

theorem dropLast_getLast? {l : Str} {c : Char} (h : l.getLast? = some c) : l.dropLast ++ [c] = l := by
  obtain ⟨ys, rfl⟩ := List.getLast?_eq_some_iff.1 h
  simp

theorem styleLines_plain (p : Palette) (style s : Str) : styleLines p false style s = s := by
  unfold styleLines
  have : (fun line : Str => if line.getLast? = some '\n' then applyStyle p false style line.dropLast ++ ['\n']
      else applyStyle p false style line) = id := by
    funext line
    unfold applyStyle
    split
    · rename_i h; simp [dropLast_getLast? h]
    · simp
  rw [this, List.flatMap_id, splitlinesKeep_flatten]

/-! ### C14 -/

/-- C14: without colour, rendering the items of a diff gives the concatenation of their texts, whatever their labels and
whatever the renderer's state. -/
theorem C14_plain_text (p : Palette) (contents : Str) (sub : Substitution) (before isDiff : Bool) (st : RState)
    (items : List DiffItem) :
    (renderDiffBlock p false contents sub before isDiff st items).1 =
      items.flatMap (if before then DiffItem.before contents else DiffItem.after' contents) := by
  induction items generalizing st with
  | nil => rfl
  | cons d items ih =>
    cases d with
    | diff s l a =>
      simp only [renderDiffBlock, styleLines_plain, ih]
      cases before <;> simp [DiffItem.before, DiffItem.after', DiffItem.span]
    | labeled ls =>
      simp only [renderDiffBlock, styleLines_plain, ih]
      cases before <;> simp [DiffItem.before, DiffItem.after', DiffItem.span]

theorem foldl_min (l : Dict Label Span) (m : Nat) :
    (l.foldl (fun m x => min m x.2.1) m ≤ m ∧ ∀ x ∈ l, l.foldl (fun m x => min m x.2.1) m ≤ x.2.1) ∧
    (l.foldl (fun m x => min m x.2.1) m = m ∨ ∃ x ∈ l, x.2.1 = l.foldl (fun m x => min m x.2.1) m) := by
  induction l generalizing m with
  | nil => simp
  | cons e l ih =>
    simp only [List.foldl_cons]
    obtain ⟨⟨h1, h2⟩, h3⟩ := ih (min m e.2.1)
    refine ⟨⟨by omega, ?_⟩, ?_⟩
    · intro x hx
      rcases List.mem_cons.1 hx with rfl | hx
      · omega
      · exact h2 x hx
    · rcases h3 with h3 | ⟨x, hx, h3⟩
      · by_cases hm : m ≤ e.2.1
        · left; omega
        · right; exact ⟨e, List.mem_cons_self .., by omega⟩
      · right; exact ⟨x, List.mem_cons_of_mem _ hx, h3⟩

theorem foldl_max (l : Dict Label Span) (m : Nat) :
    (m ≤ l.foldl (fun m x => max m x.2.2) m ∧ ∀ x ∈ l, x.2.2 ≤ l.foldl (fun m x => max m x.2.2) m) ∧
    (l.foldl (fun m x => max m x.2.2) m = m ∨ ∃ x ∈ l, x.2.2 = l.foldl (fun m x => max m x.2.2) m) := by
  induction l generalizing m with
  | nil => simp
  | cons e l ih =>
    simp only [List.foldl_cons]
    obtain ⟨⟨h1, h2⟩, h3⟩ := ih (max m e.2.2)
    refine ⟨⟨by omega, ?_⟩, ?_⟩
    · intro x hx
      rcases List.mem_cons.1 hx with rfl | hx
      · omega
      · exact h2 x hx
    · rcases h3 with h3 | ⟨x, hx, h3⟩
      · by_cases hm : e.2.2 ≤ m
        · left; omega
        · right; exact ⟨e, List.mem_cons_self .., by omega⟩
      · right; exact ⟨x, List.mem_cons_of_mem _ hx, h3⟩

theorem extent_min_max (s : Substitution) (hne : s.matchedSpans ≠ []) : IsExtent s (minStart s) (maxEnd s) := by
  unfold IsExtent minStart maxEnd
  cases hm : s.matchedSpans with
  | nil => exact absurd hm hne
  | cons e es =>
    simp only
    obtain ⟨⟨h1, h2⟩, h3⟩ := foldl_min es e.2.1
    obtain ⟨⟨g1, g2⟩, g3⟩ := foldl_max es e.2.2
    refine ⟨?_, ?_, ?_⟩
    · rcases h3 with h3 | ⟨x, hx, h3⟩
      · exact ⟨e, List.mem_cons_self .., h3.symm⟩
      · exact ⟨x, List.mem_cons_of_mem _ hx, h3⟩
    · rcases g3 with g3 | ⟨x, hx, g3⟩
      · exact ⟨e, List.mem_cons_self .., g3.symm⟩
      · exact ⟨x, List.mem_cons_of_mem _ hx, g3⟩
    · intro x hx
      rcases List.mem_cons.1 hx with rfl | hx
      · exact ⟨h1, g1⟩
      · exact ⟨h2 x hx, g2 x hx⟩

theorem extent_unique {s : Substitution} {lo hi lo' hi' : Nat} (h : IsExtent s lo hi) (h' : IsExtent s lo' hi') :
    lo = lo' ∧ hi = hi' := by
  obtain ⟨⟨p, hp, e1⟩, ⟨q, hq, e2⟩, h3⟩ := h
  obtain ⟨⟨p', hp', e1'⟩, ⟨q', hq', e2'⟩, h3'⟩ := h'
  have a := (h3 p' hp').1
  have b := (h3' p hp).1
  have c := (h3 q' hq').2
  have d := (h3' q hq).2
  omega

theorem contig_flatMap_before (data : Str) {a b : Nat} {lss : List LabeledSpan} (h : Contig a b lss) :
    (lss.map DiffItem.labeled).flatMap (DiffItem.before data) = slice data a b := by
  induction lss generalizing a with
  | nil => cases h; simp [slice_self]
  | cons l rest ih =>
    obtain ⟨h1, h2, h3⟩ := h
    simp only [List.map_cons, List.flatMap_cons, ih h3, DiffItem.before, DiffItem.span]
    rw [h1, slice_append _ h2 h3.mono]

theorem asDiffLoop_noRepl (s : Substitution) (lss : List LabeledSpan) :
    asDiffLoop s [] 0 lss = lss.map DiffItem.labeled := by
  induction lss with
  | nil => rfl
  | cons l rest ih =>
    have : l.labels.filter (fun x => Dict.has ([] : Dict Label Str) x) = [] := by
      simp [Dict.has, Dict.get?]
    simp [asDiffLoop, this, ih]

/-- C14: a match without replacement is displayed, without colour and with the default format, as exactly the whole lines
that the match touches, and a newline. -/
theorem C14_match_display (p : Palette) (st : RState) (contents : Str) (sub : Substitution) (hwf : sub.matchedSpans.WF)
    (hne : sub.matchedSpans ≠ []) (hsp : ∀ e ∈ sub.matchedSpans, e.2.1 ≤ e.2.2 ∧ e.2.2 ≤ contents.length)
    (hrep : sub.replacements = none ∨ sub.replacements = some []) :
    ∃ lo hi r, IsExtent sub lo hi ∧ WholeLines contents lo hi r ∧
      (render p false defaultFormat st contents sub).1 = .ok (false, slice contents r.1 r.2 ++ ['\n']) := by
  obtain ⟨lo, hi, out, h1, h2, h3, _⟩ := C08_labeled_spans sub hwf hne (fun e he => (hsp e he).1)
  have hrep' : sub.replacements.getD [] = [] := by rcases hrep with h | h <;> simp [h]
  have hext := extent_min_max sub hne
  obtain ⟨e1, e2⟩ := extent_unique h2 hext
  have hhi : hi ≤ contents.length := by
    obtain ⟨_, ⟨q, hq, hq'⟩, _⟩ := h2
    have := (hsp q hq).2; omega
  have hw := C12_whole_lines contents lo hi h3.mono hhi
  refine ⟨lo, hi, _, h2, hw, ?_⟩
  have hd : asDiff sub = .ok (out.map DiffItem.labeled) := by
    unfold asDiff; rw [h1]; simp only; rw [hrep', asDiffLoop_noRepl]
  unfold render
  rw [hd]
  simp only [hrep', List.isEmpty_nil, if_true, ← e1, ← e2, defaultFormat, C14_plain_text]
  rw [contig_flatMap_before contents h3]
  rw [slice_append _ hw.1 h3.mono, slice_append _ (Nat.le_trans hw.1 h3.mono) hw.2.1]

/-- A match of two labels inside the second line of a text. -/
def exMatchOnly : Substitution :=
  { matchedSpans := [(str "r", (5, 8)), (str "a", (6, 7))], primaryLabel := str "r", replacements := none }
/-- Some escape sequences. -/
def exPalette : Palette :=
  { red := str "<r>", green := str "<g>", bright := str "<b>", dim := str "<d>", reset := str "</>",
    stream := fun n => if n % 2 = 0 then str "<1>" else str "<2>" }
def exRenderText : Str := str "abc\n0123456\nx"
def exMatchOut : Str := str "0123456\n"
def exMatchColored : Str := str "0<b>1</><1>2</><b>3</>456\n"
example : (render exPalette false defaultFormat {} exRenderText exMatchOnly).1 = .ok (false, exMatchOut) := by decide
example : (render exPalette true defaultFormat {} exRenderText exMatchOnly).1 = .ok (false, exMatchColored) := by decide
example : exMatchOnly.matchedSpans.WF ∧ ∀ e ∈ exMatchOnly.matchedSpans, e.2.1 ≤ e.2.2 ∧ e.2.2 ≤ exRenderText.length := by decide

/-! ### C15 -/

/-- How one item of a diff is to be displayed when `σ` is the style of each combination of labels: removed text red, added text
green, the primary span alone bright if the match has other labels, and everything else in its style. -/
def itemDisplay (p : Palette) (color : Bool) (contents : Str) (sub : Substitution) (σ : List Label → Str) (before isDiff : Bool) :
    DiffItem → Str
  | .diff s _ a => styleLines p color ((if before then p.red else p.green) ++ p.bright) (if before then slice contents s.1 s.2 else a)
  | .labeled ls =>
    let style := if 1 < sub.matchedSpans.length && sameLabels ls.labels [sub.primaryLabel] then p.bright else σ ls.labels
    styleLines p color (if isDiff then style ++ p.dim else style) (slice contents ls.span.1 ls.span.2)

/-- The display of a list of items, given the styles. -/
def itemsDisplay (p : Palette) (color : Bool) (contents : Str) (sub : Substitution) (σ : List Label → Str) (before isDiff : Bool)
    (items : List DiffItem) : Str := items.flatMap (itemDisplay p color contents sub σ before isDiff)

/-- The display of a block, given the styles. -/
def blockDisplay (p : Palette) (color : Bool) (contents : Str) (sub : Substitution) (σ : List Label → Str) :
    Bool × List DiffItem → Str
  | (true, block) =>
    createDiff (applyStyle p color p.red ['-']) (itemsDisplay p color contents sub σ true true block) ++
    createDiff (applyStyle p color p.green ['+']) (itemsDisplay p color contents sub σ false true block)
  | (false, block) => createDiff [' '] (itemsDisplay p color contents sub σ true true block)

/-- What `render` is to return when the styles are fixed by `σ`: a function of the text and the substitution alone. -/
def renderWith (p : Palette) (color : Bool) (format : Str → Str → Str → Except Exc Str) (σ : List Label → Str) (contents : Str)
    (sub : Substitution) : Except Exc (Bool × Str) :=
  match asDiff sub with
  | .error e => .error e
  | .ok items =>
    let line := lineExpandedSpan contents (some (minStart sub)) (some (maxEnd sub))
    if (sub.replacements.getD []).isEmpty then
      match format (slice contents line.1 (minStart sub)) (itemsDisplay p color contents sub σ true false items)
          (slice contents (maxEnd sub) line.2) with
      | .error e => .error e
      | .ok s => .ok (false, s ++ ['\n'])
    else .ok (true, (subDiffBlocks contents [] false
        (.labeled { labels := [], span := (line.1, minStart sub) } :: items ++
          [.labeled { labels := [], span := (maxEnd sub, line.2) }])).flatMap (blockDisplay p color contents sub σ))

/-- `σ` gives the styles recorded in the state. -/
def Agrees (σ : List Label → Str) (st : RState) : Prop := ∀ l s, styleOf st.labelStyle l = some s → σ l = s

/-- The state only grows. -/
def Grows (st st' : RState) : Prop := ∀ l s, styleOf st.labelStyle l = some s → styleOf st'.labelStyle l = some s

theorem Agrees.of_grows {σ : List Label → Str} {st st' : RState} (h : Agrees σ st') (g : Grows st st') : Agrees σ st :=
  fun l s hs => h l s (g l s hs)

theorem Grows.trans {a b c : RState} (h : Grows a b) (g : Grows b c) : Grows a c := fun l s hs => g l s (h l s hs)

theorem sameLabels_refl (l : List Label) : sameLabels l l = true := by simp [sameLabels]

theorem sameLabels_iff {a b : List Label} : sameLabels a b = true ↔ ∀ x, x ∈ a ↔ x ∈ b := by
  simp only [sameLabels, Bool.and_eq_true, List.all_eq_true, List.contains_iff_mem]
  exact ⟨fun h x => ⟨h.1 x, h.2 x⟩, fun h => ⟨fun x => (h x).1, fun x => (h x).2⟩⟩

theorem styleOf_append (d : List (List Label × Str)) (k : List Label) (v : Str) (l : List Label) :
    styleOf (d ++ [(k, v)]) l = match styleOf d l with
      | some s => some s
      | none => if sameLabels k l then some v else none := by
  induction d with
  | nil => simp [styleOf]
  | cons e d ih =>
    obtain ⟨k', v'⟩ := e
    simp only [List.cons_append, styleOf, ih]
    split <;> rfl

theorem styleFor_spec (p : Palette) (st : RState) (sub : Substitution) (ls : LabeledSpan) :
    Grows st (styleFor p st sub ls).2 ∧ ∀ σ, Agrees σ (styleFor p st sub ls).2 →
      (styleFor p st sub ls).1 =
        if 1 < sub.matchedSpans.length && sameLabels ls.labels [sub.primaryLabel] then p.bright else σ ls.labels := by
  unfold styleFor
  split
  · exact ⟨fun _ _ h => h, fun _ _ => rfl⟩
  · split
    · rename_i s hs
      exact ⟨fun _ _ h => h, fun σ h => (h _ _ hs).symm⟩
    · rename_i hn
      refine ⟨?_, ?_⟩
      · intro l s hs
        simp only [styleOf_append, hs]
      · intro σ h
        refine (h ls.labels _ ?_).symm
        simp only [styleOf_append, hn, sameLabels_refl, if_true]

theorem renderDiffBlock_spec (p : Palette) (color : Bool) (contents : Str) (sub : Substitution) (before isDiff : Bool)
    (items : List DiffItem) (st : RState) :
    Grows st (renderDiffBlock p color contents sub before isDiff st items).2 ∧
    ∀ σ, Agrees σ (renderDiffBlock p color contents sub before isDiff st items).2 →
      (renderDiffBlock p color contents sub before isDiff st items).1 =
        itemsDisplay p color contents sub σ before isDiff items := by
  induction items generalizing st with
  | nil => exact ⟨fun _ _ h => h, fun _ _ => rfl⟩
  | cons d items ih =>
    cases d with
    | diff s l a =>
      simp only [renderDiffBlock]
      refine ⟨(ih st).1, fun σ h => ?_⟩
      rw [(ih st).2 σ h]
      rfl
    | labeled ls =>
      simp only [renderDiffBlock]
      obtain ⟨g1, f1⟩ := styleFor_spec p st sub ls
      obtain ⟨g2, f2⟩ := ih (styleFor p st sub ls).2
      refine ⟨g1.trans g2, fun σ h => ?_⟩
      rw [f2 σ h, f1 σ (h.of_grows g2)]
      rfl

theorem renderBlocks_spec (p : Palette) (color : Bool) (contents : Str) (sub : Substitution)
    (blocks : List (Bool × List DiffItem)) (st : RState) :
    Grows st (renderBlocks p color contents sub st blocks).2 ∧
    ∀ σ, Agrees σ (renderBlocks p color contents sub st blocks).2 →
      (renderBlocks p color contents sub st blocks).1 = blocks.flatMap (blockDisplay p color contents sub σ) := by
  induction blocks generalizing st with
  | nil => exact ⟨fun _ _ h => h, fun _ _ => rfl⟩
  | cons b blocks ih =>
    obtain ⟨d, block⟩ := b
    cases d with
    | true =>
      simp only [renderBlocks]
      obtain ⟨g1, f1⟩ := renderDiffBlock_spec p color contents sub true true block st
      obtain ⟨g2, f2⟩ := renderDiffBlock_spec p color contents sub false true block
        (renderDiffBlock p color contents sub true true st block).2
      obtain ⟨g3, f3⟩ := ih (renderDiffBlock p color contents sub false true
        (renderDiffBlock p color contents sub true true st block).2 block).2
      refine ⟨(g1.trans g2).trans g3, fun σ h => ?_⟩
      rw [f3 σ h, f2 σ (h.of_grows g3), f1 σ ((h.of_grows g3).of_grows g2)]
      rfl
    | false =>
      simp only [renderBlocks]
      obtain ⟨g1, f1⟩ := renderDiffBlock_spec p color contents sub true true block st
      obtain ⟨g3, f3⟩ := ih (renderDiffBlock p color contents sub true true st block).2
      refine ⟨g1.trans g3, fun σ h => ?_⟩
      rw [f3 σ h, f1 σ (h.of_grows g3)]
      rfl

theorem render_spec (p : Palette) (color : Bool) (format : Str → Str → Str → Except Exc Str) (st : RState) (contents : Str)
    (sub : Substitution) :
    Grows st (render p color format st contents sub).2 ∧
    ∀ σ, Agrees σ (render p color format st contents sub).2 →
      (render p color format st contents sub).1 = renderWith p color format σ contents sub := by
  unfold render renderWith
  cases asDiff sub with
  | error e => exact ⟨fun _ _ h => h, fun _ _ => rfl⟩
  | ok items =>
    simp only
    split
    · obtain ⟨g1, f1⟩ := renderDiffBlock_spec p color contents sub true false items st
      split
      · rename_i e he
        refine ⟨g1, fun σ h => ?_⟩
        rw [f1 σ h] at he
        rw [he]
      · rename_i s he
        refine ⟨g1, fun σ h => ?_⟩
        rw [f1 σ h] at he
        rw [he]
    · obtain ⟨g1, f1⟩ := renderBlocks_spec p color contents sub (subDiffBlocks contents [] false
        (.labeled { labels := [], span := ((lineExpandedSpan contents (some (minStart sub)) (some (maxEnd sub))).1, minStart sub) } ::
          items ++ [.labeled { labels := [], span := (maxEnd sub, (lineExpandedSpan contents (some (minStart sub)) (some (maxEnd sub))).2) }])) st
      exact ⟨g1, fun σ h => by rw [f1 σ h]⟩

theorem renderAll_spec (p : Palette) (color : Bool) (format : Str → Str → Str → Except Exc Str)
    (calls : List (Str × Substitution)) (st : RState) :
    Grows st (renderAll p color format st calls).2 ∧
    ∀ σ, Agrees σ (renderAll p color format st calls).2 →
      (renderAll p color format st calls).1 = calls.map fun c => renderWith p color format σ c.1 c.2 := by
  induction calls generalizing st with
  | nil => exact ⟨fun _ _ h => h, fun _ _ => rfl⟩
  | cons c calls ih =>
    obtain ⟨contents, sub⟩ := c
    simp only [renderAll]
    obtain ⟨g1, f1⟩ := render_spec p color format st contents sub
    obtain ⟨g2, f2⟩ := ih (render p color format st contents sub).2
    refine ⟨g1.trans g2, fun σ h => ?_⟩
    rw [f2 σ h, f1 σ (h.of_grows g2)]
    rfl

theorem styleOf_congr (d : List (List Label × Str)) {a b : List Label} (h : ∀ x, x ∈ a ↔ x ∈ b) :
    styleOf d a = styleOf d b := by
  induction d with
  | nil => rfl
  | cons e d ih =>
    obtain ⟨k, v⟩ := e
    have : sameLabels k a = sameLabels k b := by
      rw [Bool.eq_iff_iff, sameLabels_iff, sameLabels_iff]
      exact ⟨fun g x => (g x).trans (h x), fun g x => (g x).trans (h x).symm⟩
    simp [styleOf, this, ih]

/-- C15. Over the whole life of a renderer, for any sequence of calls, there is one assignment of styles to label combinations
(depending only on the set of labels, and giving text outside all labels no style) such that every call displays exactly what
that assignment prescribes. -/
theorem C15_styles_stable (p : Palette) (color : Bool) (format : Str → Str → Str → Except Exc Str)
    (calls : List (Str × Substitution)) :
    ∃ σ : List Label → Str, σ [] = [] ∧ (∀ a b, (∀ x, x ∈ a ↔ x ∈ b) → σ a = σ b) ∧
      (renderAll p color format {} calls).1 = calls.map fun c => renderWith p color format σ c.1 c.2 := by
  obtain ⟨g, f⟩ := renderAll_spec p color format calls {}
  refine ⟨fun l => (styleOf (renderAll p color format {} calls).2.labelStyle l).getD [], ?_, ?_, ?_⟩
  · have := g [] [] rfl
    simp [this]
  · intro a b h
    simp only [styleOf_congr _ h]
  · exact f _ (fun l s hs => by simp [hs])

-- The same label `a` gets the same style in two calls, although another label is styled in between.
def exOther : Substitution := { exMatchOnly with matchedSpans := [(str "r", (5, 8)), (str "c", (6, 7))] }
def exOtherOut : Str := str "0<b>1</><2>2</><b>3</>456\n"
example : (renderAll exPalette true defaultFormat {} [(exRenderText, exMatchOnly), (exRenderText, exOther), (exRenderText, exMatchOnly)]).1 =
    [.ok (false, exMatchColored), .ok (false, exOtherOut), .ok (false, exMatchColored)] := by decide

/-! ### C16 -/

/-- The full statement of C16 for one substitution with replacements: reading the uncoloured diff back gives the original
lines touched by the match and, from the same lines, the result of applying the substitution. -/
def DiffRoundTrip (p : Palette) (format : Str → Str → Str → Except Exc Str) (st : RState) (contents : Str) (sub : Substitution) : Prop :=
  ∃ display lo hi r out region, (render p false format st contents sub).1 = .ok (true, display) ∧
    IsExtent sub lo hi ∧ WholeLines contents lo hi r ∧ oldSide display = withNl (slice contents r.1 r.2) ∧
    applySubstitutions contents [sub] = .ok out ∧ out = contents.take r.1 ++ region ++ contents.drop r.2 ∧
    newSide display = withNl region

/-- Only `\n` separates lines in the text. -/
def OnlyNl (s : Str) : Prop := ∀ c ∈ s, isLineBreak c = true → c = '\n'

theorem OnlyNl.append {a b : Str} (ha : OnlyNl a) (hb : OnlyNl b) : OnlyNl (a ++ b) := by
  intro c hc h
  rcases List.mem_append.1 hc with hc | hc
  · exact ha c hc h
  · exact hb c hc h

theorem OnlyNl.slice {s : Str} (h : OnlyNl s) (a b : Nat) : OnlyNl (slice s a b) := by
  intro c hc
  exact h c (List.mem_of_mem_drop (List.mem_of_mem_take hc))

theorem splitlines_onlyNl (s : Str) (h : OnlyNl s) (hlast : s = [] ∨ s.getLast? = some '\n') :
    ∃ ls : List Str, splitlinesKeep s = ls.map (· ++ ['\n']) ∧ ∀ l ∈ ls, '\n' ∉ l := by
  fun_induction splitlinesKeep s with
  | case1 => exact ⟨[], rfl, by simp⟩
  | case2 c =>
    have : c = '\n' := by simpa using hlast
    subst this
    exact ⟨[[]], rfl, by simp⟩
  | case3 c d rest hc ih =>
    simp only [Bool.and_eq_true, decide_eq_true_eq] at hc
    have := h c (List.mem_cons_self ..) (by rw [hc.1]; decide)
    rw [hc.1] at this
    exact absurd this (by decide)
  | case4 c d rest h1 h2 ih =>
    have hc := h c (List.mem_cons_self ..) h2
    obtain ⟨ls, e1, e2⟩ := ih (fun x hx => h x (List.mem_cons_of_mem _ hx)) (by right; simpa using hlast)
    refine ⟨[] :: ls, by simp [e1, hc], ?_⟩
    intro l hl
    rcases List.mem_cons.1 hl with rfl | hl
    · simp
    · exact e2 l hl
  | case5 c d rest h1 h2 h3 ih =>
    have := splitlinesKeep_flatten (d :: rest)
    rw [h3] at this
    simp at this
  | case6 c d rest h1 h2 l ls h3 ih =>
    obtain ⟨ls', e1, e2⟩ := ih (fun x hx => h x (List.mem_cons_of_mem _ hx)) (by right; simpa using hlast)
    rw [h3] at e1
    cases ls' with
    | nil => simp at e1
    | cons l' ls' =>
      simp only [List.map_cons, List.cons.injEq] at e1
      refine ⟨(c :: l') :: ls', by simp [e1.1, e1.2], ?_⟩
      intro x hx
      rcases List.mem_cons.1 hx with rfl | hx
      · intro hm
        rcases List.mem_cons.1 hm with hm | hm
        · rw [← hm] at h2; simp [isLineBreak] at h2
        · exact e2 l' (List.mem_cons_self ..) hm
      · exact e2 x (List.mem_cons_of_mem _ hx)

/-- Lines with their marks, as displayed. -/
def showLines (L : List (Char × Str)) : Str := L.flatMap fun m => m.1 :: m.2 ++ ['\n']

theorem createDiff_lines (m : Char) (s : Str) (h : OnlyNl s) :
    ∃ ls : List Str, createDiff [m] s = showLines (ls.map fun l => (m, l)) ∧ (∀ l ∈ ls, '\n' ∉ l) ∧
      ls.flatMap (· ++ ['\n']) = withNl s := by
  unfold createDiff withNl
  by_cases hs : s = []
  · simp only [hs, if_true]
    exact ⟨[], rfl, by simp, rfl⟩
  · simp only [hs, if_false]
    have key : ∀ t : Str, OnlyNl t → t.getLast? = some '\n' →
        ∃ ls : List Str, ((splitlinesKeep t).flatMap fun line => [m] ++ line) = showLines (ls.map fun l => (m, l)) ∧
          (∀ l ∈ ls, '\n' ∉ l) ∧ ls.flatMap (· ++ ['\n']) = t := by
      intro t ht hl
      obtain ⟨ls, e1, e2⟩ := splitlines_onlyNl t ht (.inr hl)
      refine ⟨ls, ?_, e2, ?_⟩
      · rw [e1]; simp [showLines, List.flatMap_map]
      · have := splitlinesKeep_flatten t
        rw [e1] at this
        simpa [List.flatMap_def] using this
    split
    · rename_i hl
      exact key s h hl
    · refine key (s ++ ['\n']) (h.append ?_) (by simp)
      intro c hc _; simpa using hc

theorem splitOn_ne (c : Char) (s : Str) : splitOn c s ≠ [] := by
  cases s with
  | nil => simp [splitOn]
  | cons x xs =>
    simp only [splitOn]
    split
    · simp
    · split <;> simp

theorem splitOn_line (l rest : Str) (h : '\n' ∉ l) : splitOn '\n' (l ++ '\n' :: rest) = l :: splitOn '\n' rest := by
  induction l with
  | nil => simp [splitOn]
  | cons x xs ih =>
    have hx : x ≠ '\n' := fun hc => h (by simp [hc])
    have := ih (fun hm => h (List.mem_cons_of_mem _ hm))
    simp [splitOn, hx, this]

theorem linesOf_show (L : List (Char × Str)) (h : ∀ m ∈ L, m.1 ≠ '\n' ∧ '\n' ∉ m.2) :
    linesOf (showLines L) = L.map fun m => m.1 :: m.2 := by
  unfold linesOf showLines
  have : splitOn '\n' (L.flatMap fun m => m.1 :: m.2 ++ ['\n']) = (L.map fun m => m.1 :: m.2) ++ [[]] := by
    induction L with
    | nil => rfl
    | cons m L ih =>
      have hm := h m (List.mem_cons_self ..)
      have e : (List.flatMap (fun m : Char × Str => m.1 :: m.2 ++ ['\n']) (m :: L)) =
          (m.1 :: m.2) ++ '\n' :: L.flatMap (fun m => m.1 :: m.2 ++ ['\n']) := by simp
      rw [e, splitOn_line _ _ (by simp [hm.2, Ne.symm hm.1]), ih (fun x hx => h x (List.mem_cons_of_mem _ hx))]
      simp
  rw [this]
  simp

theorem sideOf_show (marks : List Char) (L : List (Char × Str)) (h : ∀ m ∈ L, m.1 ≠ '\n' ∧ '\n' ∉ m.2) :
    sideOf marks (showLines L) = (L.filter fun m => marks.contains m.1).flatMap fun m => m.2 ++ ['\n'] := by
  unfold sideOf
  rw [linesOf_show L h, List.filter_map, List.flatMap_map]
  rfl

theorem sideOf_append (marks : List Char) (L M : List (Char × Str)) (h : ∀ m ∈ L ++ M, m.1 ≠ '\n' ∧ '\n' ∉ m.2) :
    sideOf marks (showLines (L ++ M)) = sideOf marks (showLines L) ++ sideOf marks (showLines M) := by
  rw [sideOf_show _ _ h, sideOf_show _ _ (fun m hm => h m (List.mem_append_left _ hm)),
    sideOf_show _ _ (fun m hm => h m (List.mem_append_right _ hm))]
  simp

/-- The text ends in a newline. -/
def EndsNl (s : Str) : Prop := s.getLast? = some '\n'

theorem EndsNl.append {a b : Str} (h : EndsNl b) : EndsNl (a ++ b) := by
  unfold EndsNl at *
  obtain ⟨ys, rfl⟩ := List.getLast?_eq_some_iff.1 h
  rw [← List.append_assoc]; simp

theorem slice_endsNl {s : Str} {a b i : Nat} (h : firstNl (slice s a b) = some i) :
    EndsNl (slice s a (a + i + 1)) ∧ a + i + 1 ≤ b := by
  have hi := (firstNl_some h).1
  have hlt : i < (slice s a b).length := by
    rcases Nat.lt_or_ge i (slice s a b).length with h | h
    · exact h
    · rw [List.getElem?_eq_none h] at hi; cases hi
  have hb : a + i + 1 ≤ b := by
    simp only [slice, List.length_take] at hlt; omega
  refine ⟨?_, hb⟩
  unfold EndsNl
  have hlen : a + i < s.length := by
    simp only [slice, List.length_take, List.length_drop] at hlt; omega
  have hg : s[a + i]? = some '\n' := by
    simp only [slice, List.getElem?_take, List.getElem?_drop] at hi
    split at hi
    · exact hi
    · cases hi
  have : slice s a (a + i + 1) = slice s a (a + i) ++ ['\n'] := by
    have e : a + i + 1 - a = (a + i - a) + 1 := by omega
    simp only [slice, e, List.take_add_one, List.getElem?_drop]
    have e2 : a + (a + i - a) = a + i := by omega
    rw [e2, hg]; rfl
  rw [this]; simp

theorem slice_endsNl' {s : Str} {a b i : Nat} (h : lastNl (slice s a b) = some i) :
    EndsNl (slice s a (a + i + 1)) ∧ a + i + 1 ≤ b := by
  have hi := (lastNl_some h).1
  have hlt : i < (slice s a b).length := by
    rcases Nat.lt_or_ge i (slice s a b).length with h | h
    · exact h
    · rw [List.getElem?_eq_none h] at hi; cases hi
  have hb : a + i + 1 ≤ b := by
    simp only [slice, List.length_take] at hlt; omega
  refine ⟨?_, hb⟩
  unfold EndsNl
  have hg : s[a + i]? = some '\n' := by
    simp only [slice, List.getElem?_take, List.getElem?_drop] at hi
    split at hi
    · exact hi
    · cases hi
  have : slice s a (a + i + 1) = slice s a (a + i) ++ ['\n'] := by
    have e : a + i + 1 - a = (a + i - a) + 1 := by omega
    simp only [slice, e, List.take_add_one, List.getElem?_drop]
    have e2 : a + (a + i - a) = a + i := by omega
    rw [e2, hg]; rfl
  rw [this]; simp

/-- The two sides of a list of items. -/
def beforeText (data : Str) (b : List DiffItem) : Str := b.flatMap (DiffItem.before data)
def afterText (data : Str) (b : List DiffItem) : Str := b.flatMap (DiffItem.after' data)

/-- The item is not an edit. -/
def DiffItem.isLabeled : DiffItem → Bool
  | .labeled _ => true
  | _ => false

theorem before_eq_after {data : Str} {b : List DiffItem} (h : ∀ d ∈ b, d.isLabeled = true) :
    beforeText data b = afterText data b := by
  unfold beforeText afterText
  induction b with
  | nil => rfl
  | cons d b ih =>
    have hd := h d (List.mem_cons_self ..)
    cases d with
    | labeled ls => simp [ih (fun x hx => h x (List.mem_cons_of_mem _ hx)), DiffItem.before, DiffItem.after', DiffItem.span]
    | diff _ _ _ => cases hd

theorem flatMap_split {α β : Type} (f : α → List β) (a : α) (m i : List α) (l : α) :
    (a :: (m ++ i) ++ [l]).flatMap f = f a ++ (m.flatMap f ++ (i ++ [l]).flatMap f) := by simp

/-- The blocks have the same two sides as the items, only blocks marked as diffs contain edits, and all blocks but the last
end in a newline on both sides. -/
theorem blocks_spec (data : Str) (items cur : List DiffItem) (isDiff : Bool)
    (hcur : isDiff = false → ∀ d ∈ cur, d.isLabeled = true) :
    ∃ init last, subDiffBlocks data cur isDiff items = init ++ [last] ∧
      (init ++ [last]).flatMap (fun b => beforeText data b.2) = beforeText data (cur ++ items) ∧
      (init ++ [last]).flatMap (fun b => afterText data b.2) = afterText data (cur ++ items) ∧
      (∀ b ∈ init, EndsNl (beforeText data b.2) ∧ EndsNl (afterText data b.2)) ∧
      (∀ b ∈ init ++ [last], b.1 = false → ∀ d ∈ b.2, d.isLabeled = true) := by
  induction items generalizing cur isDiff with
  | nil =>
    refine ⟨[], (isDiff, cur), rfl, by simp, by simp, by simp, ?_⟩
    intro b hb
    have : b = (isDiff, cur) := by simpa using hb
    subst this; exact hcur
  | cons it items ih =>
    cases it with
    | diff s l a =>
      simp only [subDiffBlocks]
      obtain ⟨init, last, h1, h2, h3, h4, h5⟩ := ih (cur ++ [.diff s l a]) true (fun h => by cases h)
      exact ⟨init, last, h1, by rw [h2]; simp, by rw [h3]; simp, h4, h5⟩
    | labeled ls =>
      simp only [subDiffBlocks]
      cases hf : firstNl (slice data ls.span.1 ls.span.2) with
      | none =>
        have e : partitionLabeledSpan data ls = (ls, none, none) := by unfold partitionLabeledSpan; rw [hf]
        rw [e]
        simp only
        obtain ⟨init, last, h1, h2, h3, h4, h5⟩ := ih (cur ++ [.labeled ls]) isDiff (by
          intro h d hd
          rcases List.mem_append.1 hd with hd | hd
          · exact hcur h d hd
          · rw [List.mem_singleton.1 hd]; rfl)
        exact ⟨init, last, h1, by rw [h2]; simp, by rw [h3]; simp, h4, h5⟩
      | some i =>
        obtain ⟨f1, f2⟩ := slice_endsNl hf
        -- the rest of the span after the first line
        have rest : ∀ (l2 : LabeledSpan) (mids : List DiffItem),
            (∀ d ∈ mids, d.isLabeled = true ∧ EndsNl (d.before data)) →
            slice data ls.span.1 (ls.span.1 + i + 1) ++ (mids.flatMap (DiffItem.before data) ++ slice data l2.span.1 l2.span.2) =
              slice data ls.span.1 ls.span.2 →
            ∃ init last, (isDiff, cur ++ [.labeled { ls with span := (ls.span.1, ls.span.1 + i + 1) }]) ::
                ((mids.map fun d => (false, [d])) ++ subDiffBlocks data [.labeled l2] false items) = init ++ [last] ∧
              (init ++ [last]).flatMap (fun b => beforeText data b.2) = beforeText data (cur ++ .labeled ls :: items) ∧
              (init ++ [last]).flatMap (fun b => afterText data b.2) = afterText data (cur ++ .labeled ls :: items) ∧
              (∀ b ∈ init, EndsNl (beforeText data b.2) ∧ EndsNl (afterText data b.2)) ∧
              (∀ b ∈ init ++ [last], b.1 = false → ∀ d ∈ b.2, d.isLabeled = true) := by
          intro l2 mids hmids hsl
          obtain ⟨init, last, h1, h2, h3, h4, h5⟩ := ih [.labeled l2] false (by
            intro _ d hd; rw [List.mem_singleton.1 hd]; rfl)
          have hma : mids.flatMap (DiffItem.before data) = mids.flatMap (DiffItem.after' data) :=
            before_eq_after (fun d hd => (hmids d hd).1)
          refine ⟨(isDiff, cur ++ [.labeled { ls with span := (ls.span.1, ls.span.1 + i + 1) }]) ::
            ((mids.map fun d => (false, [d])) ++ init), last, by rw [h1]; simp, ?_, ?_, ?_, ?_⟩
          · rw [flatMap_split, h2]
            simp only [beforeText, List.flatMap_append, List.flatMap_cons, List.flatMap_nil, List.append_nil,
              List.flatMap_map, DiffItem.before, DiffItem.span] at hsl ⊢
            rw [← hsl]
            simp only [List.append_assoc, List.singleton_append, List.cons_append, List.nil_append, List.flatMap_cons,
              DiffItem.span, DiffItem.before]
            rfl
          · rw [flatMap_split, h3]
            simp only [afterText, List.flatMap_append, List.flatMap_cons, List.flatMap_nil, List.append_nil,
              List.flatMap_map, DiffItem.after'] at hma ⊢
            rw [← hsl, hma]
            simp only [List.append_assoc, List.singleton_append, List.cons_append, List.nil_append, List.flatMap_cons,
              DiffItem.after']
            rfl
          · intro b hb
            rcases List.mem_cons.1 hb with rfl | hb
            · constructor
              · simp only [beforeText, List.flatMap_append, List.flatMap_cons, List.flatMap_nil, List.append_nil,
                  DiffItem.before, DiffItem.span]
                exact EndsNl.append f1
              · simp only [afterText, List.flatMap_append, List.flatMap_cons, List.flatMap_nil, List.append_nil,
                  DiffItem.after']
                exact EndsNl.append f1
            · rcases List.mem_append.1 hb with hb | hb
              · obtain ⟨d, hd, rfl⟩ := List.mem_map.1 hb
                obtain ⟨d1, d2⟩ := hmids d hd
                have : beforeText data [d] = afterText data [d] :=
                  before_eq_after (fun x hx => by rw [List.mem_singleton.1 hx]; exact d1)
                simp only
                rw [← this]
                have e : beforeText data [d] = d.before data := by simp [beforeText]
                rw [e]
                exact ⟨d2, d2⟩
              · exact h4 b hb
          · intro b hb hbf
            rcases List.mem_append.1 hb with hb | hb
            · rcases List.mem_cons.1 hb with rfl | hb
              · intro d hd
                rcases List.mem_append.1 hd with hd | hd
                · exact hcur hbf d hd
                · rw [List.mem_singleton.1 hd]; rfl
              · rcases List.mem_append.1 hb with hb | hb
                · obtain ⟨d, hd, rfl⟩ := List.mem_map.1 hb
                  intro x hx
                  rw [List.mem_singleton.1 hx]; exact (hmids d hd).1
                · exact h5 b (List.mem_append_left _ hb) hbf
            · exact h5 b (List.mem_append_right _ hb) hbf
        cases hl : lastNl (slice data (ls.span.1 + i + 1) ls.span.2) with
        | none =>
          have e : partitionLabeledSpan data ls = ({ ls with span := (ls.span.1, ls.span.1 + i + 1) }, none,
              some { ls with span := (ls.span.1 + i + 1, ls.span.2) }) := by
            unfold partitionLabeledSpan; rw [hf]; simp only [splitLabeledSpanAfter]; rw [hl]
          rw [e]
          simp only
          exact rest { ls with span := (ls.span.1 + i + 1, ls.span.2) } [] (by simp) (by
            simp only [List.flatMap_nil, List.nil_append]
            exact slice_append _ (by omega) f2)
        | some j =>
          obtain ⟨g1, g2⟩ := slice_endsNl' hl
          have e : partitionLabeledSpan data ls = ({ ls with span := (ls.span.1, ls.span.1 + i + 1) },
              some { ls with span := (ls.span.1 + i + 1, ls.span.1 + i + 1 + j + 1) },
              some { ls with span := (ls.span.1 + i + 1 + j + 1, ls.span.2) }) := by
            unfold partitionLabeledSpan; rw [hf]; simp only [splitLabeledSpanAfter]; rw [hl]
          rw [e]
          simp only
          have := rest { ls with span := (ls.span.1 + i + 1 + j + 1, ls.span.2) }
            [.labeled { ls with span := (ls.span.1 + i + 1, ls.span.1 + i + 1 + j + 1) }] (by
              intro d hd
              rw [List.mem_singleton.1 hd]
              exact ⟨rfl, g1⟩) (by
              simp only [List.flatMap_cons, List.flatMap_nil, List.append_nil, DiffItem.before, DiffItem.span]
              rw [slice_append _ (by omega) g2, slice_append _ (by omega) f2])
          exact this

theorem withNl_flatMap {β : Type} (f : β → Str) (init : List β) (last : β) (h : ∀ b ∈ init, EndsNl (f b)) :
    (init ++ [last]).flatMap (fun b => withNl (f b)) = withNl ((init ++ [last]).flatMap f) := by
  have e : init.flatMap (fun b => withNl (f b)) = init.flatMap f := by
    induction init with
    | nil => rfl
    | cons b init ih =>
      have hb : f b ≠ [] := by
        intro hn; have := h b (List.mem_cons_self ..); rw [hn] at this; cases this
      have hb' : withNl (f b) = f b := by
        have := h b (List.mem_cons_self ..)
        unfold withNl
        unfold EndsNl at this
        simp [hb, this]
      simp only [List.flatMap_cons, hb', ih (fun x hx => h x (List.mem_cons_of_mem _ hx))]
  have hinit : init.flatMap f = [] ∨ EndsNl (init.flatMap f) := by
    rcases List.eq_nil_or_concat init with rfl | ⟨l, b, rfl⟩
    · left; rfl
    · right
      simp only [List.concat_eq_append, List.flatMap_append, List.flatMap_cons, List.flatMap_nil, List.append_nil]
      exact EndsNl.append (h b (by simp))
  simp only [List.flatMap_append, List.flatMap_cons, List.flatMap_nil, List.append_nil, e]
  generalize init.flatMap f = I at hinit
  generalize f last = F
  unfold withNl
  by_cases hF : F = []
  · subst hF
    simp only [if_true, List.append_nil]
    rcases hinit with rfl | hI
    · simp
    · have : I ≠ [] := by intro hn; rw [hn] at hI; cases hI
      unfold EndsNl at hI
      simp [this, hI]
  · have hIF : I ++ F ≠ [] := by simp [hF]
    have hlast : (I ++ F).getLast? = F.getLast? := by
      rw [List.getLast?_append]
      cases hg : F.getLast? with
      | none => rw [List.getLast?_eq_none_iff] at hg; exact absurd hg hF
      | some c => simp
    simp only [hF, hIF, if_false, hlast]
    split
    · rfl
    · simp

/-- Every replacement text displayed by `as_diff` is one of the replacements. -/
theorem asDiff_after (s : Substitution) (repl : Dict Label Str) (E : Nat) (lss : List LabeledSpan) (sp : Span) (l : Label) (a : Str)
    (h : DiffItem.diff sp l a ∈ asDiffLoop s repl E lss) : a = [] ∨ ∃ l, repl.get? l = some a := by
  induction lss generalizing E with
  | nil => simp [asDiffLoop] at h
  | cons x rest ih =>
    simp only [asDiffLoop] at h
    split at h
    · exact ih _ h
    · split at h
      · rcases List.mem_cons.1 h with h | h
        · cases h
        · exact ih _ h
      · rcases List.mem_cons.1 h with h | h
        · cases h
          cases hg : Dict.get? repl (maxLabel s.matchedSpans ‹Label› ‹List Label›) with
          | none => left; simp
          | some v => right; exact ⟨_, by rw [hg]; simp⟩
        · exact ih _ h

/-- C16: if the text and the replacements have no line separators other than `\n`, and the list of
edits made for display is faithful (C09: true if no replaced span ends where another matched span starts), the
displayed diff reads back to the lines touched and to their rewrite.
Not so: the cases in which C09 fails, see `C16_round_trip_false`. -/
theorem C16_round_trip (p : Palette) (format : Str → Str → Str → Except Exc Str) (st : RState) (contents : Str)
    (sub : Substitution) (hne : sub.matchedSpans ≠ [])
    (hsp : ∀ e ∈ sub.matchedSpans, e.2.1 ≤ e.2.2 ∧ e.2.2 ≤ contents.length)
    (hrep : (sub.replacements.getD []) ≠ []) (hnl : OnlyNl contents)
    (hnlr : ∀ l a, (sub.replacements.getD []).get? l = some a → OnlyNl a)
    (hfaith : DiffFaithful contents sub) : DiffRoundTrip p format st contents sub := by
  obtain ⟨items, lo, hi, out, h1, h2, h3, h4, h5⟩ := hfaith
  obtain ⟨e1, e2⟩ := extent_unique h2 (extent_min_max sub hne)
  have hlohi : lo ≤ hi ∧ hi ≤ contents.length := by
    obtain ⟨⟨q, hq, hq1⟩, ⟨q', hq', hq2⟩, hall⟩ := h2
    have a := hsp q hq
    have b := hall q hq
    have c := hsp q' hq'
    omega
  have hw := C12_whole_lines contents lo hi hlohi.1 hlohi.2
  generalize hr : lineExpandedSpan contents (some (lo : Int)) (some (hi : Int)) = r at hw
  have hitems : ∀ sp l a, DiffItem.diff sp l a ∈ items → OnlyNl a := by
    intro sp l a hm
    unfold asDiff at h1
    split at h1
    · cases h1
    · cases h1
      rcases asDiff_after sub _ _ _ sp l a hm with rfl | ⟨l', hl'⟩
      · intro c hc; simp at hc
      · exact hnlr l' a hl'
  obtain ⟨init, last, b1, b2, b3, b4, b5⟩ := blocks_spec contents
    (.labeled { labels := [], span := (r.1, lo) } :: items ++ [.labeled { labels := [], span := (hi, r.2) }]) [] false
    (fun _ d hd => by simp at hd)
  generalize hext : (DiffItem.labeled { labels := [], span := (r.1, lo) } :: items ++
    [.labeled { labels := [], span := (hi, r.2) }]) = ext at b1 b2 b3
  -- the displayed text, block by block
  have hdisp : (render p false format st contents sub).1 = .ok (true,
      (init ++ [last]).flatMap fun b => if b.1 then createDiff ['-'] (beforeText contents b.2) ++ createDiff ['+'] (afterText contents b.2)
        else createDiff [' '] (beforeText contents b.2)) := by
    unfold render
    rw [h1]
    have hemp : List.isEmpty (sub.replacements.getD []) = false := by
      cases hc : sub.replacements.getD [] with
      | nil => exact absurd hc hrep
      | cons _ _ => rfl
    simp only [hemp, ← e1, ← e2, hr, hext, b1]
    simp only [Bool.false_eq_true, if_false]
    congr 2
    generalize init ++ [last] = bs
    induction bs generalizing st with
    | nil => rfl
    | cons b bs ih =>
      obtain ⟨d, blk⟩ := b
      cases d
      · simp only [renderBlocks, C14_plain_text, ih, List.flatMap_cons, Bool.false_eq_true, if_false, if_true]
        rfl
      · simp only [renderBlocks, C14_plain_text, ih, List.flatMap_cons, Bool.false_eq_true, if_false, if_true, applyStyle]
        rfl
  -- texts have only newlines
  have hbn : OnlyNl (beforeText contents ext) := by
    intro c hc
    obtain ⟨d, _, hd⟩ := List.mem_flatMap.1 hc
    exact hnl.slice _ _ c hd
  have han : OnlyNl (afterText contents ext) := by
    intro c hc
    obtain ⟨d, hdm, hd⟩ := List.mem_flatMap.1 hc
    cases d with
    | labeled ls => exact hnl.slice _ _ c hd
    | diff sp l a =>
      have : DiffItem.diff sp l a ∈ items := by
        rw [← hext] at hdm
        simpa using hdm
      exact hitems sp l a this c hd
  have hblk : ∀ b ∈ init ++ [last], OnlyNl (beforeText contents b.2) ∧ OnlyNl (afterText contents b.2) := by
    intro b hb
    constructor
    · intro c hc
      refine hbn c ?_
      have : c ∈ (init ++ [last]).flatMap (fun b => beforeText contents b.2) := List.mem_flatMap.2 ⟨b, hb, hc⟩
      rw [b2] at this
      simpa using this
    · intro c hc
      refine han c ?_
      have : c ∈ (init ++ [last]).flatMap (fun b => afterText contents b.2) := List.mem_flatMap.2 ⟨b, hb, hc⟩
      rw [b3] at this
      simpa using this
  -- lines
  have hlines : ∀ bs : List (Bool × List DiffItem), (∀ b ∈ bs, OnlyNl (beforeText contents b.2) ∧ OnlyNl (afterText contents b.2)) →
      (∀ b ∈ bs, b.1 = false → ∀ d ∈ b.2, d.isLabeled = true) →
      ∃ L : List (Char × Str), (∀ m ∈ L, m.1 ≠ '\n' ∧ '\n' ∉ m.2) ∧
        (bs.flatMap fun b => if b.1 then createDiff ['-'] (beforeText contents b.2) ++ createDiff ['+'] (afterText contents b.2)
          else createDiff [' '] (beforeText contents b.2)) = showLines L ∧
        oldSide (showLines L) = bs.flatMap (fun b => withNl (beforeText contents b.2)) ∧
        newSide (showLines L) = bs.flatMap (fun b => withNl (afterText contents b.2)) := by
    intro bs hbs hlab
    induction bs with
    | nil => exact ⟨[], by simp, rfl, rfl, rfl⟩
    | cons b bs ih =>
      obtain ⟨L, l1, l2, l3, l4⟩ := ih (fun x hx => hbs x (List.mem_cons_of_mem _ hx)) (fun x hx => hlab x (List.mem_cons_of_mem _ hx))
      obtain ⟨d, blk⟩ := b
      have hb := hbs (d, blk) (List.mem_cons_self ..)
      have side : ∀ marks m (ls : List Str), m ≠ '\n' → (∀ l ∈ ls, '\n' ∉ l) →
          sideOf marks (showLines (ls.map fun l => (m, l))) = if marks.contains m then ls.flatMap (· ++ ['\n']) else [] := by
        intro marks m ls hm hls
        rw [sideOf_show _ _ (by
          intro x hx
          obtain ⟨l, hl, rfl⟩ := List.mem_map.1 hx
          exact ⟨hm, hls l hl⟩), List.filter_map]
        by_cases hc : marks.contains m = true
        · simp only [Function.comp_def, hc, if_true, List.filter_eq_self.2 (fun _ _ => rfl), List.flatMap_map]
        · have hc' : marks.contains m = false := by simpa using hc
          simp only [Function.comp_def, hc', Bool.false_eq_true, if_false, List.filter_eq_nil_iff.2 (fun _ _ => Bool.false_ne_true), List.map_nil, List.flatMap_nil]
      have okl : ∀ m (ls : List Str), m ≠ '\n' → (∀ l ∈ ls, '\n' ∉ l) → ∀ x ∈ ls.map (fun l => (m, l)), x.1 ≠ '\n' ∧ '\n' ∉ x.2 := by
        intro m ls hm hls x hx
        obtain ⟨l, hl, rfl⟩ := List.mem_map.1 hx
        exact ⟨hm, hls l hl⟩
      cases d with
      | false =>
        obtain ⟨ls, c1, c2, c3⟩ := createDiff_lines ' ' _ hb.1
        have hok := okl ' ' ls (by decide) c2
        refine ⟨ls.map (fun l => (' ', l)) ++ L, ?_, ?_, ?_, ?_⟩
        · intro m hm
          rcases List.mem_append.1 hm with hm | hm
          · exact hok m hm
          · exact l1 m hm
        · simp only [List.flatMap_cons, Bool.false_eq_true, if_false, c1, l2]
          simp [showLines]
        · unfold oldSide at l3 ⊢
          rw [sideOf_append _ _ _ (by
            intro m hm
            rcases List.mem_append.1 hm with hm | hm
            · exact hok m hm
            · exact l1 m hm), l3, side _ _ _ (by decide) c2]
          simp [c3]
        · unfold newSide at l4 ⊢
          rw [sideOf_append _ _ _ (by
            intro m hm
            rcases List.mem_append.1 hm with hm | hm
            · exact hok m hm
            · exact l1 m hm), l4, side _ _ _ (by decide) c2]
          have := before_eq_after (data := contents) (hlab (false, blk) (List.mem_cons_self ..) rfl)
          simp only at this
          simp [c3, this]
      | true =>
        obtain ⟨ls, c1, c2, c3⟩ := createDiff_lines '-' _ hb.1
        obtain ⟨ms, d1, d2, d3⟩ := createDiff_lines '+' _ hb.2
        have hok := okl '-' ls (by decide) c2
        have hok' := okl '+' ms (by decide) d2
        have hokL : ∀ m ∈ ls.map (fun l => ('-', l)) ++ (ms.map (fun l => ('+', l)) ++ L), m.1 ≠ '\n' ∧ '\n' ∉ m.2 := by
          intro m hm
          rcases List.mem_append.1 hm with hm | hm
          · exact hok m hm
          · rcases List.mem_append.1 hm with hm | hm
            · exact hok' m hm
            · exact l1 m hm
        refine ⟨ls.map (fun l => ('-', l)) ++ (ms.map (fun l => ('+', l)) ++ L), hokL, ?_, ?_, ?_⟩
        · simp only [List.flatMap_cons, if_true, c1, d1, l2]
          simp [showLines]
        · unfold oldSide at l3 ⊢
          rw [sideOf_append _ _ _ hokL, sideOf_append _ _ _ (fun m hm => hokL m (List.mem_append_right _ hm)), l3,
            side _ _ _ (by decide) c2, side _ _ _ (by decide) d2]
          simp [c3]
        · unfold newSide at l4 ⊢
          rw [sideOf_append _ _ _ hokL, sideOf_append _ _ _ (fun m hm => hokL m (List.mem_append_right _ hm)), l4,
            side _ _ _ (by decide) c2, side _ _ _ (by decide) d2]
          simp [d3]
  obtain ⟨L, l1, l2, l3, l4⟩ := hlines (init ++ [last]) hblk b5
  refine ⟨showLines L, lo, hi, r, out, slice contents r.1 lo ++ items.flatMap (DiffItem.after' contents) ++ slice contents hi r.2,
    by rw [hdisp, l2], h2, hw, ?_, h3, ?_, ?_⟩
  · rw [l3, withNl_flatMap (fun b : Bool × List DiffItem => beforeText contents b.2) _ _ (fun b hb => (b4 b hb).1), b2, ← hext]
    simp only [beforeText, List.nil_append, List.cons_append, List.flatMap_cons, List.flatMap_append, List.flatMap_nil,
      List.append_nil, h4]
    simp only [DiffItem.before, DiffItem.span]
    rw [slice_append _ hlohi.1 hw.2.1, slice_append _ hw.1 (Nat.le_trans hlohi.1 hw.2.1)]
  · rw [← h5]
    have a1 : contents.take lo = contents.take r.1 ++ slice contents r.1 lo := by
      have := slice_append contents (Nat.zero_le r.1) hw.1
      simpa [slice] using this.symm
    have a2 : contents.drop hi = slice contents hi r.2 ++ contents.drop r.2 := (slice_drop contents hw.2.1).symm
    rw [a1, a2]
    simp only [List.append_assoc]
  · rw [l4, withNl_flatMap (fun b : Bool × List DiffItem => afterText contents b.2) _ _ (fun b hb => (b4 b hb).2), b3, ← hext]
    simp only [afterText, List.nil_append, List.cons_append, List.flatMap_cons, List.flatMap_append, List.flatMap_nil,
      List.append_nil, DiffItem.after', List.append_assoc]

-- The diff of a two-line match with a context line: the hypotheses of C16 hold and so does its conclusion.
def exDiffText : Str := str "pre\nab\nmid\ncd x\npost"
/-- Replaces `b` by `B` and `c` by two lines. -/
def exDiffSub : Substitution :=
  { matchedSpans := [(str "r", (4, 13)), (str "a", (5, 6)), (str "c", (11, 12))], primaryLabel := str "r",
    replacements := some [(str "a", str "B"), (str "c", str "C\nD")] }
def exDiffOut : Str := str "-ab\n+aB\n mid\n-cd x\n+C\n+Dd x\n"
example : (render exPalette false defaultFormat {} exDiffText exDiffSub).1 = .ok (true, exDiffOut) := by decide
example : exDiffSub.matchedSpans.WF ∧ exDiffSub.validate = .ok () ∧
    (∀ e ∈ exDiffSub.matchedSpans, e.2.1 ≤ e.2.2 ∧ e.2.2 ≤ exDiffText.length) ∧
    (∀ c ∈ exDiffText, isLineBreak c = true → c = '\n') := by decide

/-- C16 is false without that condition: when a replaced span ends where another matched span starts, the `+` lines are not
the rewrite of the `-` lines. -/
theorem C16_round_trip_false : exTwice.validate = .ok () ∧
    ¬ DiffRoundTrip exPalette defaultFormat {} (str "012345") exTwice := by
  refine ⟨by decide, ?_⟩
  rintro ⟨display, lo, hi, r, out, region, h1, h2, h3, h4, h5, h6, h7⟩
  have hd : (render exPalette false defaultFormat {} (str "012345") exTwice).1 = .ok (true, str "-01212345\n+0XX345\n") := by decide
  rw [hd] at h1
  simp only [Except.ok.injEq, Prod.mk.injEq, true_and] at h1
  subst h1
  have ho : oldSide (str "-01212345\n+0XX345\n") = str "01212345\n" := by decide
  rw [ho] at h4
  have hlen : (withNl (slice (str "012345") r.1 r.2)).length ≤ 7 := by
    unfold withNl
    have : (slice (str "012345") r.1 r.2).length ≤ 6 := by
      simp only [slice, List.length_take, List.length_drop]
      have : (str "012345").length = 6 := by decide
      omega
    split
    · simp
    · split
      · omega
      · simp only [List.length_append, List.length_singleton]; omega
  rw [← h4] at hlen
  revert hlen
  decide

end Refex
