import Verif.Spec.MatcherMode
import Verif.Props.Places
import Verif.Props.ModesMain
import Verif.Props.BuildMore
/- C96: `--mode=py`. -/
namespace Refex
set_option autoImplicit false

/-! ### The matcher of the expression -/

theorem readsAs (input : Str) : ReadsAs input (stripNl (dedent input)) := by
  obtain ⟨rs, h1, h2⟩ := C89_dedent (hasLines input)
  obtain ⟨⟨j, k, h3⟩, h4, h5⟩ := C89_strip (dedent input)
  exact ⟨_, rs, j, k, hasLines input, h1, by rw [← h2.2.2]; exact h3, h4, h5⟩

theorem strip_unique : ∀ (j k j' k' : Nat) (s s' : Str), List.replicate j '\n' ++ s ++ List.replicate k '\n' = List.replicate j' '\n' ++ s' ++ List.replicate k' '\n' →
    s.head? ≠ some '\n' → s.getLast? ≠ some '\n' → s'.head? ≠ some '\n' → s'.getLast? ≠ some '\n' → s = s' := by
  have strip : ∀ (j k : Nat) (s : Str), s.head? ≠ some '\n' → s.getLast? ≠ some '\n' → stripNl (List.replicate j '\n' ++ s ++ List.replicate k '\n') = s := by
    intro j k s hh hl
    have dw : ∀ (n : Nat) (r : Str), (List.replicate n '\n' ++ r).dropWhile (· = '\n') = r.dropWhile (· = '\n') := by
      intro n r
      induction n with
      | zero => rfl
      | succ n ih => rw [List.replicate_succ, List.cons_append, List.dropWhile_cons_of_pos (by decide)]; exact ih
    have dh : ∀ r : Str, r.head? ≠ some '\n' → r.dropWhile (· = '\n') = r := by
      intro r hr
      cases r with
      | nil => rfl
      | cons a r =>
        refine List.dropWhile_cons_of_neg ?_
        intro ha
        exact hr (by rw [of_decide_eq_true ha]; rfl)
    unfold stripNl
    rw [List.append_assoc, dw]
    cases s with
    | nil =>
      have : (List.replicate k '\n').dropWhile (· = '\n') = [] := by
        have := dw k []
        rw [List.append_nil] at this
        rw [this]; rfl
      rw [List.nil_append, this]; rfl
    | cons a s =>
      rw [dh (a :: s ++ List.replicate k '\n') hh, List.reverse_append, List.reverse_replicate, dw, dh, List.reverse_reverse]
      rw [List.head?_reverse]; exact hl
  intro j k j' k' s s' h h1 h2 h3 h4
  rw [← strip j k s h1 h2, h, strip j' k' s' h3 h4]

theorem readsAs_unique {input s : Str} (h : ReadsAs input s) : s = stripNl (dedent input) := by
  obtain ⟨ls, rs, j, k, h1, h2, h3, h4, h5⟩ := h
  obtain ⟨rs', h6, h7⟩ := C89_dedent h1
  have := C89_dedented_unique h2 h6
  subst this
  rw [← h7.2.2] at h3
  obtain ⟨⟨j', k', h8⟩, h9, h10⟩ := C89_strip (dedent input)
  exact strip_unique j k j' k' _ _ (h3.symm.trans h8) h4 h5 h9 h10

theorem broken_any (st : List Thing) : (st.any Thing.isBroken = false) ↔ NoneBroken st := by
  unfold NoneBroken
  rw [List.any_eq_false]
  constructor
  · intro h t ht e
    exact h t ht (by rw [e]; rfl)
  · intro h t ht e
    refine h t ht ?_
    cases t with
    | broken => rfl
    | _ => cases e

theorem constants_unbroken : NoneBroken (constantObjects registeredConstants).2 := by
  rw [← broken_any]; rfl

section
variable {py : Python} {C : Compiler} (hC : ∀ ty fs, C.fields ty = some fs → fs.Nodup)
include hC

/-- **C96**: `--mode=py` makes exactly the matcher that its input stands for. -/
theorem C96_compiles {input : Str} {m : Matcher} : py.compile C (some input) = .ok m ↔ StandsFor py C input m := by
  have hx := C92_expression (py.evalWorld C) hC (constantObjects registeredConstants).2 constants_unbroken
  constructor
  · intro h
    unfold Python.compile at h
    simp only at h
    split at h
    · split at h <;> cases h
    · rename_i e he
      split at h
      · split at h <;> cases h
      · cases h
      · rename_i v st hb
        split at h
        · cases h
        · rename_i hbr
          split at h
          · cases h
          · rename_i m' hco
            cases h
            have hnb := (broken_any st).1 (by simpa using hbr)
            exact ⟨_, e, v, st, readsAs input, he, (hx e v st).1 ⟨hb, hnb⟩, coerce_iff.1 hco⟩
  · rintro ⟨s, e, v, st, hs, he, hb, hsub⟩
    rw [readsAs_unique hs] at he
    obtain ⟨h1, h2⟩ := (hx e v st).2 hb
    unfold Python.compile
    simp only [he, h1, (broken_any st).2 h2, coerce_iff.2 hsub]
    rfl

end

/-- **C96**: an input that is no expression is a ValueError (so that the command line is refused with the message of C89), if Python says where the error is, or does not show the line. -/
theorem C96_syntax {py : Python} {C : Compiler} {input s : Str} {e : SyntaxErr} (hs : ReadsAs input s) (h : C.syn.parse s = .error e)
    (ht : e.text = none ∨ e.offset ≠ none) : py.compile C (some input) = .error .valueError := by
  rw [readsAs_unique hs] at h
  have hmsg : ∃ msg, userSyntaxError e (stripNl (dedent input)) = .ok msg := by
    unfold userSyntaxError
    cases he : e.text with
    | none => exact ⟨_, rfl⟩
    | some t =>
      cases ho : e.offset with
      | none => rw [he, ho] at ht; rcases ht with ht | ht <;> exact absurd ht (by simp)
      | some o =>
        simp only
        split
        · exact ⟨_, rfl⟩
        · exact ⟨_, rfl⟩
  obtain ⟨msg, hmsg⟩ := hmsg
  unfold Python.compile
  simp only [h, hmsg]

/-! ### Patterns in the expression -/

theorem sub_congr {E E' : MakeEnv} (h : E.thing = E'.thing) {v : Option PVal} {m : Matcher} (hs : Sub E v m) : Sub E' v m := by
  cases hs with
  | default => exact .default
  | object h1 => exact .object (h ▸ h1)
  | constant h1 h2 => exact .constant (h ▸ h1) (h ▸ h2)
  | value h1 => exact .value h1

theorem restrictionItems_of {E : MakeEnv} : ∀ (items : List PVal) (d : Dict Label Matcher), restrictionItems E items = some d →
    ∃ ps, items = flatItems ps ∧ Forall2 (fun (p : PVal × PVal) (q : Label × Matcher) => p.1 = .const (.str q.1) ∧ Sub E (some p.2) q.2) ps d
  | [], d, h => by
    rw [restrictionItems] at h; cases h
    exact ⟨[], rfl, .nil⟩
  | [k], d, h => by
    unfold restrictionItems at h
    split at h
    · rename_i he; cases he
    · rename_i he; cases he
    · cases h
  | k :: v :: items, d, h => by
    unfold restrictionItems at h
    split at h
    · rename_i x v' items' he
      cases he
      split at h
      · rename_i m d' hm hd
        cases h
        obtain ⟨ps, rfl, hf⟩ := restrictionItems_of items d' hd
        exact ⟨(.const (.str x), v) :: ps, rfl, .cons ⟨rfl, coerce_iff.1 hm⟩ hf⟩
      · cases h
    · rename_i he; cases he
    · cases h

theorem restrictionItems_is {E : MakeEnv} {ps : List (PVal × PVal)} {d : Dict Label Matcher}
    (h : Forall2 (fun (p : PVal × PVal) (q : Label × Matcher) => p.1 = .const (.str q.1) ∧ Sub E (some p.2) q.2) ps d) : restrictionItems E (flatItems ps) = some d := by
  induction h with
  | nil => rfl
  | @cons p q ps d h _ ih =>
    obtain ⟨k, v⟩ := p
    obtain ⟨x, m⟩ := q
    obtain ⟨h1, h2⟩ := h
    have h1 : k = .const (.str x) := h1
    subst h1
    rw [flatItems, restrictionItems, coerce_iff.2 h2, ih]

theorem restrictionsArg_iff {E : MakeEnv} {r : Option PVal} {d : Dict Label Matcher} : restrictionsArg E r = some d ↔ RestrictionsOf E r d := by
  constructor
  · intro h
    unfold restrictionsArg at h
    split at h
    · cases h; exact .missing
    · obtain ⟨ps, rfl, hf⟩ := restrictionItems_of _ _ h
      exact .dict hf
    · cases h
  · intro h
    cases h with
    | missing => rfl
    | dict hf => exact restrictionItems_is hf

theorem restrictionsOf_congr {E E' : MakeEnv} (h : E.thing = E'.thing) {v : Option PVal} {d : Dict Label Matcher} (hs : RestrictionsOf E v d) : RestrictionsOf E' v d := by
  cases hs with
  | missing => exact .missing
  | dict hf => exact .dict (forall2_imp hf fun _ _ _ h' => ⟨h'.1, sub_congr h h'.2⟩)

/-- **C96**: `ExprPattern` and `StmtPattern` in a matcher expression are the patterns of C72, with the restrictions that are given. -/
theorem C96_patterns {g : Grammar} {py : Python} (hfit : PythonFits g py) {C : Compiler} {st : List Thing} {isExpr : Bool} {text : Str} {r : Option PVal}
    {d : Dict Label Matcher} (hr : RestrictionsOf ((py.evalWorld C).now st) r d) {toks : List PTok} {ps : List (Str × Str)}
    (htok : py.tokens (withNewline text) = some toks) (hplain : PlainTokens toks ps) :
    ∃ res, Passed res (((py.evalWorld C).now st).pattern isExpr (.const (.str text)) r) ∧
      (res = .error .valueError ∨ ∃ l s, Reading ps (addsNewline text) l s ∧ BuildResult py.parse (if isExpr then .expr else .stmt) d l s res) := by
  have hd : restrictionsArg { thing := ((py.evalWorld C).now st).thing, fields := C.fields, word := C.word, key := C.key, pattern := fun _ _ _ => .ok none } r = some d :=
    restrictionsArg_iff.2 (restrictionsOf_congr (E := (py.evalWorld C).now st) (E' := { thing := ((py.evalWorld C).now st).thing, fields := C.fields, word := C.word, key := C.key, pattern := fun _ _ _ => .ok none }) rfl hr)
  have hcall : ((py.evalWorld C).now st).pattern isExpr (.const (.str text)) r =
      match buildPattern py.parse py.iter (if isExpr then .expr else .stmt) toks (addsNewline text) d with
      | .error e => .error (EErr.ofExc e)
      | .ok m => .ok (some m) := by
    show py.patternCall { thing := ((py.evalWorld C).now st).thing, fields := C.fields, word := C.word, key := C.key, pattern := fun _ _ _ => .ok none } isExpr (.const (.str text)) r = _
    unfold Python.patternCall
    rw [hd]
    simp only [htok]
    rfl
  obtain ⟨⟨body, em, rfl, hem, hes, hz⟩, hlay⟩ := hplain
  rw [hcall]
  rcases C72_outcome hem hes hz hlay py.parse hfit.parse py.iter hfit.iter (if isExpr then .expr else .stmt) (addsNewline text) d with ⟨_, h⟩ | ⟨_, l, s, hread, hres⟩
  · rw [h]; exact ⟨_, .raised rfl (by decide), .inl rfl⟩
  · refine ⟨_, ?_, .inr ⟨l, s, hread, hres⟩⟩
    generalize buildPattern py.parse py.iter (if isExpr then .expr else .stmt) (body ++ [em]) (addsNewline text) d = res at hres
    cases hres with
    | made => exact .made
    | unknown => exact .raised rfl (by decide)
    | reserved => exact .raised rfl (by decide)
    | syntaxError => exact .raised rfl (by decide)
    | lost => exact .raised rfl (by decide)
    | shape => exact .raised rfl (by decide)

/-- **C96**: a pattern that Python cannot tokenize is a ValueError. -/
theorem C96_untokenizable {py : Python} {C : Compiler} {st : List Thing} {isExpr : Bool} {text : Str} {r : Option PVal} {d : Dict Label Matcher}
    (hr : RestrictionsOf ((py.evalWorld C).now st) r d) (htok : py.tokens (withNewline text) = none) :
    Passed (.error .valueError) (((py.evalWorld C).now st).pattern isExpr (.const (.str text)) r) := by
  have hd : restrictionsArg { thing := ((py.evalWorld C).now st).thing, fields := C.fields, word := C.word, key := C.key, pattern := fun _ _ _ => .ok none } r = some d :=
    restrictionsArg_iff.2 (restrictionsOf_congr (E := (py.evalWorld C).now st) (E' := { thing := ((py.evalWorld C).now st).thing, fields := C.fields, word := C.word, key := C.key, pattern := fun _ _ _ => .ok none }) rfl hr)
  have : ((py.evalWorld C).now st).pattern isExpr (.const (.str text)) r = .error valueErrorCode := by
    show py.patternCall { thing := ((py.evalWorld C).now st).thing, fields := C.fields, word := C.word, key := C.key, pattern := fun _ _ _ => .ok none } isExpr (.const (.str text)) r = _
    unfold Python.patternCall
    rw [hd]
    simp only [htok]
  rw [this]
  exact .raised rfl (by decide)

/-- **C96**: in matcher expressions, the names of the constants mean what they mean (C92), whatever other objects there are. -/
theorem C96_constants {py : Python} {C : Compiler} {e : EExpr} {n : Str} {t : Thing} (he : Dotted e n) (ht : IsConstant n t) (more : List Thing) :
    ∃ i, Builds (py.evalWorld C) ((constantObjects registeredConstants).2 ++ more) e (.obj i) ((constantObjects registeredConstants).2 ++ more) ∧
      ((py.evalWorld C).now ((constantObjects registeredConstants).2 ++ more)).thing i = t := by
  obtain ⟨i, h1, h2⟩ := (C92_constants n t).2 ht
  refine ⟨i, .constant he h1, ?_⟩
  have h3 : ((constantObjects registeredConstants).2 ++ more)[i]? = some t := by
    rw [List.getElem?_append_left (List.getElem?_eq_some_iff.1 h2).1]; exact h2
  simp only [EvalWorld.now, h3, Option.getD_some]

/-- `_` stands for `Anything()`. -/
theorem C96_anything {py : Python} {C : Compiler} {input s : Str} (hs : ReadsAs input s) (h : C.syn.parse s = .ok (.name (str "_"))) :
    StandsFor py C input .anything := by
  obtain ⟨i, h1, h2⟩ := C96_constants (py := py) (C := C) .name .anything []
  rw [List.append_nil] at h1 h2
  exact ⟨s, _, _, _, hs, h, h1, .object h2⟩

/-! ### What is made is ordinary -/

/-- No templates, and no labels that begin with two underscores but names of groups. -/
structure CleanMatcher (g : Str → List Label) (m : Matcher) : Prop where
  plain : m.noTemplates = true
  labels : ∀ l ∈ m.bindVars g, ¬ (str "__") <+: l ∨ ∃ rx, l ∈ g rx

theorem proper_list {g : Str → List Label} {ms : List Matcher} (h : ∀ m ∈ ms, CleanMatcher g m) :
    Matcher.noTemplatesList ms = true ∧ ∀ l ∈ Matcher.bindVarsList g ms, ¬ (str "__") <+: l ∨ ∃ rx, l ∈ g rx := by
  induction ms with
  | nil => exact ⟨rfl, fun l hl => by cases hl⟩
  | cons m ms ih =>
    obtain ⟨h1, h2⟩ := ih fun m hm => h m (List.mem_cons_of_mem _ hm)
    obtain ⟨h3, h4⟩ := h m (List.mem_cons_self ..)
    refine ⟨by rw [Matcher.noTemplatesList, h1, h3]; rfl, fun l hl => ?_⟩
    rw [Matcher.bindVarsList, List.mem_append] at hl
    rcases hl with hl | hl
    · exact h4 l hl
    · exact h2 l hl

theorem proper_equals {g : Str → List Label} (v : Val) : CleanMatcher g (.equals v) := ⟨rfl, fun l hl => by cases hl⟩

theorem proper_sub {g : Str → List Label} {E : MakeEnv} (hE : ∀ i m, E.thing i = .matcher m → CleanMatcher g m) {v : Option PVal} {m : Matcher} (h : Sub E v m) : CleanMatcher g m := by
  cases h with
  | default => exact ⟨rfl, fun l hl => by cases hl⟩
  | object h => exact hE _ _ h
  | constant => exact proper_equals _
  | value => exact proper_equals _

theorem proper_makesWith {g : Str → List Label} {E : MakeEnv} (hE : ∀ i m, E.thing i = .matcher m → CleanMatcher g m)
    (hp : ∀ b p r m, E.pattern b p r = .ok (some m) → CleanMatcher g m) {self : Nat} {n : String} {args : List PVal} {kws : List (Str × PVal)} {m : Matcher}
    (h : MakesWith E self n args kws m) : CleanMatcher g m := by
  have hs : ∀ {v : Option PVal} {m : Matcher}, Sub E v m → CleanMatcher g m := fun h => proper_sub hE h
  cases h with
  | anything => exact ⟨rfl, fun l hl => by cases hl⟩
  | testOnlyRaise => exact ⟨rfl, fun l hl => by cases hl⟩
  | «unless» _ h => exact ⟨(hs h).plain, fun l hl => by cases hl⟩
  | once _ h => exact ⟨(hs h).plain, (hs h).labels⟩
  | onceKey _ h => exact ⟨(hs h).plain, (hs h).labels⟩
  | bind _ _ hn h =>
    refine ⟨(hs h).plain, fun l hl => ?_⟩
    rcases List.mem_cons.1 hl with rfl | hl
    · exact .inl hn.user
    · exact (hs h).labels l hl
  | rebind _ h => exact ⟨(hs h).plain, (hs h).labels⟩
  | stringMatch => exact ⟨rfl, fun l hl => by cases hl⟩
  | equals => exact proper_equals _
  | @matchesRegex _ _ _ rx _ _ _ h =>
    refine ⟨(hs h).plain, fun l hl => ?_⟩
    rcases List.mem_append.1 hl with hl | hl
    · exact .inr ⟨rx, hl⟩
    · exact (hs h).labels l hl
  | @fileMatchesRegex _ _ _ rx => exact ⟨rfl, fun l hl => .inr ⟨rx, hl⟩⟩
  | hasItem _ _ _ h => exact ⟨(hs h).plain, (hs h).labels⟩
  | @itemsAre _ _ _ _ _ ms _ _ _ hf =>
    have := proper_list (g := g) (ms := ms) fun m hm => by
      obtain ⟨u, _, hu⟩ := forall2_mem_right hf hm
      exact hs hu
    exact ⟨this.1, this.2⟩
  | contains _ h => exact ⟨(hs h).plain, (hs h).labels⟩
  | inLines => exact ⟨rfl, fun l hl => by cases hl⟩
  | num _ h => exact ⟨(hs h).plain, (hs h).labels⟩
  | bytes _ h => exact ⟨(hs h).plain, (hs h).labels⟩
  | str _ h => exact ⟨(hs h).plain, (hs h).labels⟩
  | nameConstant _ h => exact ⟨(hs h).plain, (hs h).labels⟩
  | ellipsis => exact ⟨rfl, fun l hl => by cases hl⟩
  | exprPattern _ _ h => exact hp _ _ _ _ h
  | stmtPattern _ _ h => exact hp _ _ _ _ h
  | hasParent _ h => exact ⟨(hs h).plain, (hs h).labels⟩
  | isOrHasAncestor _ h =>
    have h1 := (hs h).plain
    have h2 := (hs h).labels
    refine ⟨by simp [isOrHasAncestor, hasAncestor, Matcher.noTemplates, Matcher.noTemplatesList, h1], fun l hl => h2 l ?_⟩
    simpa [isOrHasAncestor, hasAncestor, Matcher.bindVars, Matcher.bindVarsList] using hl
  | hasAncestor _ h =>
    have h1 := (hs h).plain
    have h2 := (hs h).labels
    refine ⟨by simp [isOrHasAncestor, hasAncestor, Matcher.noTemplates, Matcher.noTemplatesList, h1], fun l hl => h2 l ?_⟩
    simpa [isOrHasAncestor, hasAncestor, Matcher.bindVars, Matcher.bindVarsList] using hl
  | hasChild _ h => exact ⟨(hs h).plain, (hs h).labels⟩
  | isOrHasDescendant _ h =>
    have h1 := (hs h).plain
    have h2 := (hs h).labels
    refine ⟨by simp [isOrHasDescendant, hasDescendant, Matcher.noTemplates, Matcher.noTemplatesList, h1], fun l hl => h2 l ?_⟩
    simpa [isOrHasDescendant, hasDescendant, Matcher.bindVars, Matcher.bindVarsList] using hl
  | hasDescendant _ h =>
    have h1 := (hs h).plain
    have h2 := (hs h).labels
    refine ⟨by simp [isOrHasDescendant, hasDescendant, Matcher.noTemplates, Matcher.noTemplatesList, h1], fun l hl => h2 l ?_⟩
    simpa [isOrHasDescendant, hasDescendant, Matcher.bindVars, Matcher.bindVarsList] using hl
  | hasPrevSibling _ h => exact ⟨(hs h).plain, (hs h).labels⟩
  | hasNextSibling _ h => exact ⟨(hs h).plain, (hs h).labels⟩
  | namedFunctionDefinition _ h h' =>
    have h1 := (hs h).plain
    have h2 := (hs h).labels
    have h3 := (hs h').plain
    have h4 := (hs h').labels
    refine ⟨by simp [namedFunctionDefinition, functionWith, Matcher.noTemplates, Matcher.noTemplatesList, h1, h3], fun l hl => ?_⟩
    simp [namedFunctionDefinition, functionWith, Matcher.bindVars, Matcher.bindVarsList] at hl
    rcases hl with hl | hl | hl | hl
    · exact h2 l hl
    · exact h4 l hl
    · exact h2 l hl
    · exact h4 l hl
  | inNamedFunction _ h =>
    have h1 := (hs h).plain
    have h2 := (hs h).labels
    refine ⟨by simp [inNamedFunction, namedFunctionDefinition, functionWith, Matcher.noTemplates, Matcher.noTemplatesList, h1], fun l hl => ?_⟩
    simp [inNamedFunction, namedFunctionDefinition, functionWith, Matcher.bindVars, Matcher.bindVarsList] at hl
    exact h2 l hl
  | imported _ h => exact ⟨(hs h).plain, (hs h).labels⟩
  | importedAs _ h => exact ⟨(hs h).plain, (hs h).labels⟩
  | hasComments _ h => exact ⟨(hs h).plain, (hs h).labels⟩
  | noComments _ h => exact ⟨(hs h).plain, (hs h).labels⟩

theorem proper_makes {g : Str → List Label} {E : MakeEnv} (hE : ∀ i m, E.thing i = .matcher m → CleanMatcher g m)
    (hp : ∀ b p r m, E.pattern b p r = .ok (some m) → CleanMatcher g m) {self : Nat} {n : Str} {args : List PVal} {kws : List (Str × PVal)} {m : Matcher}
    (h : Makes E self n args kws m) : CleanMatcher g m := by
  cases h with
  | special h => exact proper_makesWith hE hp h
  | @allOf _ ms hf =>
    have := proper_list (g := g) (ms := ms) fun m hm => by
      obtain ⟨_, _, i, _, hu⟩ := forall2_mem_right hf hm
      exact hE _ _ hu
    exact ⟨this.1, this.2⟩
  | @anyOf _ ms hf =>
    have := proper_list (g := g) (ms := ms) fun m hm => by
      obtain ⟨_, _, i, _, hu⟩ := forall2_mem_right hf hm
      exact hE _ _ hu
    exact ⟨this.1, this.2⟩
  | @node _ _ _ _ _ ms _ _ _ hf =>
    have := proper_list (g := g) (ms := ms) fun m hm => by
      obtain ⟨_, _, hu⟩ := forall2_mem_right hf hm
      exact proper_sub hE hu
    exact ⟨this.1, this.2⟩

theorem proper_submatchers {g : Str → List Label} (anonymous : List Str) (variables : List (Label × Str)) {d : Dict Label Matcher}
    (hv : ∀ x a, (x, a) ∈ variables → ¬ (str "__") <+: x) (hd : ∀ e ∈ (d : List (Label × Matcher)), CleanMatcher g e.2) :
    ∀ e ∈ (submatchers anonymous variables d : List (Str × Matcher)), CleanMatcher g e.2 := by
  have h1 : ∀ (as : List Str) (d : Dict Str Matcher), (∀ e ∈ (d : List (Str × Matcher)), CleanMatcher g e.2) →
      ∀ e ∈ (as.foldl (fun (d : Dict Str Matcher) a => d.set a .anything) d : Dict Str Matcher), CleanMatcher g e.2 := by
    intro as
    induction as with
    | nil => intro d h; exact h
    | cons a as ih =>
      intro d h
      refine ih _ fun e he => ?_
      rcases Dict.mem_set he with h' | h'
      · exact h e h'
      · rw [h']; exact ⟨rfl, fun l hl => by cases hl⟩
  have h2 : ∀ (vs : List (Label × Str)) (d' : Dict Str Matcher), (∀ e ∈ vs, ¬ (str "__") <+: e.1) →
      (∀ e ∈ (d' : List (Str × Matcher)), CleanMatcher g e.2) →
      ∀ e ∈ (vs.foldl (fun (d' : Dict Str Matcher) e => d'.set e.2 (metaBind e.1 ((d.get? e.1).getD .anything))) d' : Dict Str Matcher), CleanMatcher g e.2 := by
    intro vs
    induction vs with
    | nil => intro d _ h; exact h
    | cons a vs ih =>
      intro d' hn h
      refine ih _ (fun e he => hn e (by simp [he])) fun e he => ?_
      rcases Dict.mem_set he with h' | h'
      · exact h e h'
      · rw [h']
        have hr : CleanMatcher g ((d.get? a.1).getD .anything) := by
          cases hg : d.get? a.1 with
          | none => exact ⟨rfl, fun l hl => by cases hl⟩
          | some r => exact hd _ (Dict.get?_mem hg)
        refine ⟨hr.plain, fun l hl => ?_⟩
        rcases List.mem_cons.1 hl with rfl | hl
        · exact .inl (hn a (by simp))
        · exact hr.labels l hl
  refine h2 variables _ (fun e he => hv e.1 e.2 he) fun e he => ?_
  exact h1 anonymous [] (by simp) e he

section
variable {g : Str → List Label} {vars : Dict Str Matcher} (hv : ∀ e ∈ (vars : List (Str × Matcher)), CleanMatcher g e.2)
include hv

mutual
theorem proper_astPattern : ∀ (t : Val), CleanMatcher g (astPattern vars t)
  | .list _ vs => by
    rw [astPattern]
    have := proper_list (proper_astPatterns vs)
    exact ⟨this.1, this.2⟩
  | .const i c => by
    rw [astPattern]
    exact ⟨rfl, fun x hx => by cases hx⟩
  | .node i t ns vs => by
    rw [astPattern]
    split
    · rename_i m hm
      obtain ⟨a, _, ha⟩ := Option.bind_eq_some_iff.1 hm
      exact hv _ (Dict.get?_mem ha)
    · exact ⟨(proper_list (proper_fieldPatterns _ ns vs)).1, (proper_list (proper_fieldPatterns _ ns vs)).2⟩
theorem proper_astPatterns : ∀ (ts : List Val), ∀ m ∈ astPatterns vars ts, CleanMatcher g m
  | [] => by rw [astPatterns]; exact fun x hx => by cases hx
  | v :: vs => by
    rw [astPatterns]
    intro m hm
    rcases List.mem_cons.1 hm with rfl | hm
    · exact proper_astPattern v
    · exact proper_astPatterns vs m hm
theorem proper_fieldPatterns (b : Bool) : ∀ (ns : List Str) (ts : List Val), ∀ m ∈ fieldPatterns vars b ns ts, CleanMatcher g m
  | [], _ => fun m hm => by simp [fieldPatterns] at hm
  | _ :: _, [] => fun m hm => by simp [fieldPatterns] at hm
  | n :: ns, v :: vs => by
    rw [fieldPatterns]
    intro m hm
    rcases List.mem_cons.1 hm with rfl | hm
    · split
      · exact ⟨rfl, fun x hx => by cases hx⟩
      · exact proper_astPattern v
    · exact proper_fieldPatterns b ns vs m hm
end

end

theorem proper_patternCall {g : Str → List Label} {py : Python} {E : MakeEnv} (hE : ∀ i m, E.thing i = .matcher m → CleanMatcher g m) {b : Bool} {p : PVal} {r : Option PVal}
    {m : Matcher} (h : py.patternCall E b p r = .ok (some m)) : CleanMatcher g m := by
  unfold Python.patternCall at h
  split at h
  · rename_i text d hd
    split at h
    · cases h
    · split at h
      · cases h
      · rename_i m' hm
        cases h
        obtain ⟨an, vs, t, rfl, hres⟩ := buildPattern_shape hm
        have hdp : ∀ e ∈ (d : List (Label × Matcher)), CleanMatcher g e.2 := by
          have := restrictionsArg_iff.1 hd
          cases this with
          | missing => exact fun e he => by cases he
          | dict hf =>
            intro e he
            obtain ⟨_, _, _, hu⟩ := forall2_mem_right hf he
            exact proper_sub hE hu
        have := proper_astPattern (proper_submatchers an vs hres hdp) t
        exact ⟨this.plain, this.labels⟩
  · cases h

section
variable {g : Str → List Label} {py : Python} {C : Compiler}

/-- All matchers that there are are proper. -/
def AllClean (g : Str → List Label) (st : List Thing) : Prop := ∀ m, Thing.matcher m ∈ st → CleanMatcher g m

theorem now_thing {st : List Thing} (h : AllClean g st) : ∀ i m, ((py.evalWorld C).now st).thing i = .matcher m → CleanMatcher g m := by
  intro i m hm
  exact h m (by
    have hm : (st[i]?.getD .other) = .matcher m := hm
    cases hi : st[i]? with
    | none => rw [hi] at hm; cases hm
    | some t => rw [hi] at hm; cases hm; exact List.mem_of_getElem? hi)

mutual
theorem proper_builds {st st' : List Thing} {e : EExpr} {v : PVal} (h : Builds (py.evalWorld C) st e v st') (hst : AllClean g st) : AllClean g st' := by
  cases h with
  | const => exact hst
  | minusInt => exact hst
  | minusOther => exact hst
  | tuple h => exact proper_buildsAll h hst
  | list h => exact proper_buildsAll h hst
  | set h => exact proper_buildsAll h hst
  | dict h => exact proper_buildsAll h hst
  | constant => exact hst
  | @call _ _ _ _ _ _ _ _ _ st2 _ _ _ _ _ _ h1 h2 _ hm =>
    have h3 := proper_buildsAll h2 (proper_buildsAll h1 hst)
    intro m' hm'
    rcases List.mem_append.1 hm' with hm' | hm'
    · exact h3 m' hm'
    · have := List.mem_singleton.1 hm'
      cases this
      exact proper_makes (now_thing h3) (fun b p r m h => proper_patternCall (py := py)
        (E := { thing := ((py.evalWorld C).now st2).thing, fields := C.fields, word := C.word, key := C.key, pattern := fun _ _ _ => .ok none }) (now_thing (py := py) (C := C) h3) h) hm
theorem proper_buildsAll {st st' : List Thing} {es : List EExpr} {vs : List PVal} (h : BuildsAll (py.evalWorld C) st es vs st') (hst : AllClean g st) : AllClean g st' := by
  cases h with
  | nil => exact hst
  | cons h1 h2 => exact proper_buildsAll h2 (proper_builds h1 hst)
end

theorem constants_proper : AllClean g (constantObjects registeredConstants).2 := by
  intro m hm
  have : m = .anything := by
    revert hm
    generalize hc : (constantObjects registeredConstants).2 = l
    intro hm
    have hl : l.all (fun t => match t with | .matcher .anything => true | .matcher _ => false | _ => true) = true := by rw [← hc]; rfl
    have := List.all_eq_true.1 hl _ hm
    cases m <;> first | rfl | cases this
  subst this
  exact ⟨rfl, fun l hl => by cases hl⟩

theorem standsFor_proper {input : Str} {m : Matcher} (h : StandsFor py C input m) : CleanMatcher g m := by
  obtain ⟨s, e, v, st, _, _, hb, hsub⟩ := h
  exact proper_sub (now_thing (proper_builds hb constants_proper)) hsub

/-- **C96**: a matcher of the command line binds none of the reserved names (unless by a group of a regex) and has no templates of its own. -/
theorem C96_ordinary {input : Str} {m : Matcher} (h : StandsFor py C input m) {c : Ctx} (hg : GroupsUnreserved c m) : Ordinary c m := by
  have hp := standsFor_proper (g := c.rxGroups) h
  refine ⟨hp.plain, fun l hl => ?_⟩
  have hn : ¬ (str "__") <+: l := by
    rcases hp.labels l hl with h | h
    · exact h
    · exact hg l hl h
  constructor
  · rintro rfl; exact hn (by decide)
  · intro hmm
    unfold metadataLabels at hmm
    simp only [List.mem_cons, List.not_mem_nil, or_false] at hmm
    rcases hmm with rfl | rfl | rfl | rfl <;> exact hn (by decide)

end

end Refex
