import Verif.Props.ReTemplateText
/- C103: a regex template on the various versions of Python. -/
namespace Refex
set_option autoImplicit false

/-! ### Reading, up to Python 3.11 -/

theorem reParse_mono {f g : Str → Option REvent} (h : ∀ name e, name ≠ [] → f name = some e → g name = some e) :
    ∀ (n : Nat) (toks : List RTok) (es : List REvent), reParse f n toks = some es → reParse g n toks = some es := by
  intro n
  induction n with
  | zero =>
    intro toks es hr
    cases toks with
    | nil => rw [reParse] at hr ⊢; exact hr
    | cons t ts => rw [reParse] at hr; cases hr
  | succ n ih =>
    intro toks es hr
    cases toks with
    | nil => rw [reParse] at hr ⊢; exact hr
    | cons t ts =>
      have hmap : ∀ {ts : List RTok} {k : List REvent → List REvent} {es : List REvent}, (reParse f n ts).map k = some es → (reParse g n ts).map k = some es := by
        intro ts k es hr
        obtain ⟨es', h1, h2⟩ := Option.map_eq_some_iff.1 hr
        rw [ih _ _ h1, ← h2]; rfl
      cases t with
      | plain c => rw [reParse] at hr ⊢; exact hmap hr
      | esc c =>
        rw [reParse] at hr ⊢
        split at hr
        · rename_i hc
          rw [if_pos hc]
          cases ha : angleName ts with
          | none => rw [ha] at hr; cases hr
          | some r =>
            obtain ⟨name, rest⟩ := r
            rw [ha] at hr
            simp only at hr ⊢
            cases hf : f name with
            | none => rw [hf] at hr; cases hr
            | some e =>
              rw [hf] at hr
              rw [h name e (angleName_ok ha).2.1 hf]
              exact hmap hr
        · rename_i hc
          rw [if_neg hc]
          split at hr
          · rename_i h0
            rw [if_pos h0]; exact hmap hr
          · rename_i h0
            rw [if_neg h0]
            split at hr
            · rename_i hd
              rw [if_pos hd]
              cases hb : backslashDigit c ts with
              | none => rw [hb] at hr; cases hr
              | some r => rw [hb] at hr; exact hmap hr
            · rename_i hd
              rw [if_neg hd]
              cases he : reEscape c with
              | some d => rw [he] at hr; exact hmap hr
              | none =>
                rw [he] at hr
                simp only at hr ⊢
                split at hr
                · cases hr
                · rename_i ha
                  rw [if_neg ha]; exact hmap hr

/-- **C103**, versions: what Python 3.12 reads, earlier versions read too, and in the same way. -/
theorem C103_read_before {p : GroupNames} (hp : p.Usual) (text : Str) (es : List REvent) (h : reRead (groupRef312 p) text = some es) :
    reRead (groupRef311 p) text = some es := by
  unfold reRead at h ⊢
  cases ht : reTokens text with
  | none => rw [ht] at h; cases h
  | some toks =>
    rw [ht] at h
    refine reParse_mono (fun name e hne href => ?_) _ _ _ h
    unfold groupRef312 at href
    unfold groupRef311
    split at href
    · rename_i hall
      have hall := List.all_eq_true.1 hall
      rw [if_neg (fun hid => (hp.identifier name hid).2.2.2 hall), hp.intOf name hne hall]
      simp only
      split at href
      · cases href
      · rename_i hmax
        cases href
        rw [if_neg (by omega), if_neg (by omega)]
        simp
    · split at href
      · rename_i hid
        rw [if_pos hid]; exact href
      · cases href

/-! ### The two formats of what was read -/

/-- The items without empty literals. -/
def nonEmpty (items : List ReItem) : List ReItem := items.filter fun i => decide (i ≠ .lit [])

theorem fillGroups_append : ∀ (gs : List (Nat × Int)) (l l' more : List (Option Expanded)), fillGroups gs l = some l' → fillGroups gs (l ++ more) = some (l' ++ more)
  | [], l, l', more, h => by rw [fillGroups] at h ⊢; cases h; rfl
  | (i, g) :: rest, l, l', more, h => by
    rw [fillGroups] at h ⊢
    split at h
    · rename_i hi
      have hlt : i < l.length := by
        rcases Nat.lt_or_ge i l.length with hlt | hge
        · exact hlt
        · rw [List.getElem?_eq_none hge] at hi; cases hi
      rw [List.getElem?_append_left hlt, hi]
      simp only
      rw [List.set_append_left _ _ hlt]
      exact fillGroups_append rest _ _ _ h
    · cases h

theorem fillGroups_length : ∀ (gs : List (Nat × Int)) (l l' : List (Option Expanded)), fillGroups gs l = some l' → l'.length = l.length
  | [], l, l', h => by rw [fillGroups] at h; cases h; rfl
  | (i, g) :: rest, l, l', h => by
    rw [fillGroups] at h
    split at h
    · have := fillGroups_length rest _ _ h
      rw [this, List.length_set]
    · cases h

theorem fillGroups_concat : ∀ (gs hs : List (Nat × Int)) (l l' : List (Option Expanded)), fillGroups gs l = some l' → fillGroups (gs ++ hs) l = fillGroups hs l'
  | [], hs, l, l', h => by rw [fillGroups] at h; cases h; rfl
  | (i, g) :: rest, hs, l, l', h => by
    rw [List.cons_append, fillGroups]
    rw [fillGroups] at h
    split at h
    · rename_i hi
      exact fillGroups_concat rest hs _ _ h
    · cases h

theorem noneLeft_some (es : List Expanded) : noneLeft (es.map some) = some es := by
  induction es with
  | nil => rfl
  | cons e es ih => rw [List.map_cons, noneLeft, ih]; rfl

/-- A state in which the loop that fills in the references gives these elements. -/
def Parts311.Fills (s : Parts311) (done : List Expanded) : Prop := fillGroups s.groups s.literals = some (done.map some)

theorem fills_flush {s : Parts311} {done : List Expanded} (h : s.Fills done) (literal : Str) :
    (s.flush literal).Fills (done ++ if literal = [] then [] else [.lit literal]) := by
  unfold Parts311.flush Parts311.Fills
  split
  · rw [List.append_nil]; exact h
  · rw [List.map_append]
    exact fillGroups_append _ _ _ _ h

theorem fills_group {s : Parts311} {done : List Expanded} (h : s.Fills done) (literal : Str) (index : Int) :
    (s.addGroup literal index).Fills (done ++ (if literal = [] then [] else [.lit literal]) ++ [.index index]) := by
  have h1 := fills_flush h literal
  unfold Parts311.addGroup Parts311.Fills
  simp only
  unfold Parts311.Fills at h1
  have hlen := fillGroups_length _ _ _ h1
  rw [fillGroups_concat _ _ _ _ (fillGroups_append _ _ _ [none] h1), fillGroups, ← hlen, List.getElem?_append_right (Nat.le_refl _), Nat.sub_self]
  simp only [List.getElem?_cons_zero, fillGroups]
  rw [List.set_append_right _ _ (Nat.le_refl _), Nat.sub_self, List.set_cons_zero, List.map_append (f := some) (l₂ := [Expanded.index index])]
  rfl

theorem nonEmpty_lit (literal : Str) (items : List ReItem) : nonEmpty (.lit literal :: items) = (if literal = [] then [] else [.lit literal]) ++ nonEmpty items := by
  unfold nonEmpty
  rw [List.filter_cons]
  by_cases h : literal = []
  · subst h; simp
  · rw [if_pos (by simpa using h), if_neg h]; rfl

theorem expandItems_lits (d : VarDict) (literal : Str) (items : List ReItem) :
    expandItems d ((if literal = [] then [] else [.lit literal]) ++ items) =
      ((if literal = [] then [] else [.lit literal]) ++ (expandItems d items).1, (expandItems d items).2) := by
  split
  · rfl
  · rw [List.singleton_append, expandItems]; rfl

theorem parts311_spec : ∀ (es : List REvent) (d : VarDict) (s : Parts311) (literal : Str) (done : List Expanded), s.Fills done →
    (parts311 d s literal es).1.Fills (done ++ (expandItems d (nonEmpty (items312 literal es))).1) ∧
      (parts311 d s literal es).2 = (expandItems d (nonEmpty (items312 literal es))).2
  | [], d, s, literal, done, h => by
    rw [parts311, items312, nonEmpty_lit, expandItems_lits]
    simp only [nonEmpty, List.filter_nil, expandItems, List.append_nil, and_true]
    exact fills_flush h literal
  | .char c :: es, d, s, literal, done, h => by
    rw [parts311, items312]
    exact parts311_spec es d s _ done h
  | .group n :: es, d, s, literal, done, h => by
    rw [parts311, items312, nonEmpty_lit, expandItems_lits]
    obtain ⟨h1, h2⟩ := parts311_spec es d (s.addGroup literal n) [] _ (fills_group h literal n)
    have e : nonEmpty (.group n :: items312 [] es) = .group n :: nonEmpty (items312 [] es) := rfl
    rw [e, expandItems]
    simp only
    refine ⟨?_, h2⟩
    rw [List.append_assoc, List.append_assoc] at h1
    exact h1
  | .named v :: es, d, s, literal, done, h => by
    rw [parts311, items312, nonEmpty_lit, expandItems_lits]
    obtain ⟨h1, h2⟩ := parts311_spec es (d.getItem (.name v)).2 (s.addGroup literal (d.getItem (.name v)).1) [] _ (fills_group h literal _)
    have e : nonEmpty (.named v :: items312 [] es) = .named v :: nonEmpty (items312 [] es) := rfl
    rw [e, expandItems]
    simp only
    refine ⟨?_, h2⟩
    rw [List.append_assoc, List.append_assoc] at h1
    exact h1

/-- Up to Python 3.11, no assertion fails, and the result is that of the items without empty literals. -/
theorem parseReTemplate311_eq (es : List REvent) : parseReTemplate311 es = some (parseReTemplate (nonEmpty (items312 [] es))) := by
  obtain ⟨h1, h2⟩ := parts311_spec es {} {} [] [] (by unfold Parts311.Fills; rfl)
  unfold parseReTemplate311
  simp only
  unfold Parts311.Fills at h1
  rw [h1, List.nil_append]
  simp only
  rw [noneLeft_some, h2]
  rfl

/-! ### Empty literals do not matter -/

theorem nonEmpty_values (m : MatchKey → Str) (items : List ReItem) : (nonEmpty items).flatMap (ReItem.value m) = items.flatMap (ReItem.value m) := by
  induction items with
  | nil => rfl
  | cons it items ih =>
    unfold nonEmpty at ih ⊢
    rw [List.filter_cons]
    split
    · rw [List.flatMap_cons, List.flatMap_cons, ih]
    · rename_i h
      have : it = .lit [] := by simpa using h
      rw [List.flatMap_cons, ih, this]; rfl

theorem items312_values (m : MatchKey → Str) (es : List REvent) (literal : Str) :
    (items312 literal es).flatMap (ReItem.value m) = literal ++ es.flatMap (REvent.value m) := by
  induction es generalizing literal with
  | nil => simp [items312, ReItem.value]
  | cons e es ih =>
    cases e with
    | char c => rw [items312, ih, List.flatMap_cons, List.append_assoc]; rfl
    | group n => rw [items312, List.flatMap_cons, List.flatMap_cons, ih, List.flatMap_cons]; rfl
    | named v => rw [items312, List.flatMap_cons, List.flatMap_cons, ih, List.flatMap_cons]; rfl

theorem items312_refs (k : MatchKey) (es : List REvent) (literal : Str) :
    (∃ it ∈ items312 literal es, it.ref? = some k) ↔ ∃ e ∈ es, e.ref? = some k := by
  induction es generalizing literal with
  | nil => simp [items312, ReItem.ref?]
  | cons e es ih =>
    cases e with
    | char c => rw [items312, ih]; simp [REvent.ref?]
    | group n => simp only [items312, List.mem_cons, exists_eq_or_imp, ih]; simp [REvent.ref?, ReItem.ref?]
    | named v => simp only [items312, List.mem_cons, exists_eq_or_imp, ih]; simp [REvent.ref?, ReItem.ref?]

theorem nonEmpty_refs (k : MatchKey) (items : List ReItem) : (∃ it ∈ nonEmpty items, it.ref? = some k) ↔ ∃ it ∈ items, it.ref? = some k := by
  constructor
  · rintro ⟨it, h, hk⟩; exact ⟨it, (List.mem_filter.1 h).1, hk⟩
  · rintro ⟨it, h, hk⟩
    refine ⟨it, List.mem_filter.2 ⟨h, ?_⟩, hk⟩
    simp only [decide_eq_true_eq]
    rintro rfl; cases hk

/-! ### The property -/

/-- **C103**: if the text of a regex template reads as these parts, the template mentions what they refer to, and replaces it by the parts one after
the other, if all they refer to is there, and otherwise with a KeyError; all this no matter which version of Python it is. -/
theorem C103_template {p : GroupNames} (hp : p.Usual) {text : Str} {es : List REvent} (h : TemplateText p.identifier p.maxGroups text es) :
    ∀ t, regexTemplate312 p text = some t ∨ regexTemplate311 p text = some t →
      (∀ k, k ∈ t.vars ↔ ∃ e ∈ es, e.ref? = some k) ∧
      ∀ (m : MatchV) (ms : Dict MatchKey MatchV), ms.WF →
        (∀ f : MatchKey → Str, (∀ e ∈ es, ∀ k, e.ref? = some k → TextOf ms k (f k)) → t.substitute m ms = .ok (es.flatMap (REvent.value f))) ∧
        ((∃ e ∈ es, ∃ k, e.ref? = some k ∧ ∀ s, ¬ TextOf ms k s) → t.substitute m ms = .error .keyError) := by
  have hread := (C103_read hp text es).2 h
  have hread' := C103_read_before hp text es hread
  have key : ∀ items : List ReItem, (∀ k, (∃ it ∈ items, it.ref? = some k) ↔ ∃ e ∈ es, e.ref? = some k) →
      (∀ f, items.flatMap (ReItem.value f) = es.flatMap (REvent.value f)) → ∀ t : Template, t = regexTemplate items →
      (∀ k, k ∈ t.vars ↔ ∃ e ∈ es, e.ref? = some k) ∧
      ∀ (m : MatchV) (ms : Dict MatchKey MatchV), ms.WF →
        (∀ f : MatchKey → Str, (∀ e ∈ es, ∀ k, e.ref? = some k → TextOf ms k (f k)) → t.substitute m ms = .ok (es.flatMap (REvent.value f))) ∧
        ((∃ e ∈ es, ∃ k, e.ref? = some k ∧ ∀ s, ¬ TextOf ms k s) → t.substitute m ms = .error .keyError) := by
    rintro items hrefs hvals t rfl
    refine ⟨fun k => (C17_variables items k).trans (hrefs k), fun m ms hwf => ⟨fun f hf => ?_, ?_⟩⟩
    · rw [← hvals]
      refine C17_substitute items m ms hwf f fun it hit k hk => ?_
      obtain ⟨e, he, hek⟩ := (hrefs k).1 ⟨it, hit, hk⟩
      exact hf e he k hek
    · rintro ⟨e, he, k, hk, hno⟩
      obtain ⟨it, hit, hitk⟩ := (hrefs k).2 ⟨e, he, hk⟩
      refine C17_needs_references items m ms hwf ⟨it, hit, k, hitk, ?_⟩
      first | exact hno | (rintro ⟨s, hs⟩; exact hno s hs)
  rintro t (ht | ht)
  · unfold regexTemplate312 at ht
    rw [hread] at ht
    exact key (items312 [] es) (fun k => items312_refs k es []) (fun f => by rw [items312_values, List.nil_append]) t (Option.some.inj ht).symm
  · unfold regexTemplate311 at ht
    rw [hread'] at ht
    simp only [parseReTemplate311_eq] at ht
    exact key (nonEmpty (items312 [] es)) (fun k => (nonEmpty_refs k _).trans (items312_refs k es []))
      (fun f => by rw [nonEmpty_values, items312_values, List.nil_append]) t (Option.some.inj ht).symm

/-- **C103**, which texts are accepted: as of Python 3.12 those of the grammar; they are accepted by earlier versions too. -/
theorem C103_accepted {p : GroupNames} (hp : p.Usual) (text : Str) :
    ((∃ t, regexTemplate312 p text = some t) ↔ ∃ es, TemplateText p.identifier p.maxGroups text es) ∧
    ((∃ es, TemplateText p.identifier p.maxGroups text es) → ∃ t, regexTemplate311 p text = some t) := by
  constructor
  · constructor
    · rintro ⟨t, h⟩
      unfold regexTemplate312 at h
      split at h
      · cases h
      · rename_i es hes; exact ⟨es, (C103_read hp text es).1 hes⟩
    · rintro ⟨es, h⟩
      unfold regexTemplate312
      rw [(C103_read hp text es).2 h]
      exact ⟨_, rfl⟩
  · rintro ⟨es, h⟩
    unfold regexTemplate311
    rw [C103_read_before hp text es ((C103_read hp text es).2 h)]
    simp only [parseReTemplate311_eq]
    exact ⟨_, rfl⟩

/-- **C103**, a text without backslashes stands for itself. -/
theorem C103_plain {p : GroupNames} {text : Str} (h : '\\' ∉ text) : TemplateText p.identifier p.maxGroups text (text.map REvent.char) := by
  induction text with
  | nil => exact .nil
  | cons c cs ih =>
    simp only [List.mem_cons, not_or] at h
    exact .char (fun e => h.1 e.symm) (ih h.2)

/-- **C103**, a text reads in one way only. -/
theorem C103_unique {p : GroupNames} (hp : p.Usual) {text : Str} {es es' : List REvent} (h : TemplateText p.identifier p.maxGroups text es)
    (h' : TemplateText p.identifier p.maxGroups text es') : es = es' := by
  have h1 := (C103_read hp text es).2 h
  rw [(C103_read hp text es').2 h'] at h1
  exact (Option.some.inj h1).symm

end Refex
