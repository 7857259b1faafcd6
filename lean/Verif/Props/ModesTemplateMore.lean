import Verif.Spec.ModesTemplate
import Verif.Props.ModesTemplate
import Verif.Props.ModesExamples
import Verif.Props.Templates
/- C93: the templates of the command line: sub-modes, variables, refusals. -/
namespace Refex
set_option autoImplicit false

/-! ### Texts that are not tokens -/

/-- **C93**: a pattern that can not be tokenized is a ValueError, and so the command line is refused; a template that can not be tokenized is a
SyntaxError. -/
theorem C93_untokenizable {py : Python} {text : Str} (h : py.tokens (withNewline text) = none) (ts : Dict Str CodeTemplate) :
    (∀ mode kind, ModeKind mode kind → py.factory mode (some text) ts = .error .valueError) ∧
    ∀ mode kind, SubModeKind mode kind → py.template mode text = .error .syntaxError := by
  have hp : ∀ kind, py.pattern kind text = .error .valueError := by intro kind; unfold Python.pattern; rw [h]
  have ht : ∀ kind, py.pyTemplate kind text = .error .syntaxError := by intro kind; unfold Python.pyTemplate; rw [h]
  refine ⟨fun mode kind hm => ?_, fun mode kind hm => ?_⟩
  · cases hm with
    | expr =>
      have : py.factory (str "py.expr") (some text) ts = (py.pattern .expr text).map fun m => py.searcher m ts := rfl
      rw [this, hp]; rfl
    | stmt =>
      have : py.factory (str "py.stmt") (some text) ts = (py.pattern .stmt text).map fun m => py.searcher m ts := rfl
      rw [this, hp]; rfl
  · cases hm with
    | module => have : py.template (str "py") text = (py.pyTemplate .module text).map (·.code py) := rfl
                rw [this, ht]; rfl
    | expr => have : py.template (str "py.expr") text = (py.pyTemplate .expr text).map (·.code py) := rfl
              rw [this, ht]; rfl
    | stmt => have : py.template (str "py.stmt") text = (py.pyTemplate .stmt text).map (·.code py) := rfl
              rw [this, ht]; rfl

example : mdPy.tokens (withNewline (str "$")) = none := rfl

/-- **C93**: the modes that need a pattern do not refuse a command line without one: they crash, with an exception that is not a ValueError. -/
theorem C93_missing_pattern (py : Python) (ts : Dict Str CodeTemplate) : ∀ mode ∈ [str "re", str "py.expr", str "py.stmt"],
    ∃ e, py.factory mode none ts = .error e ∧ e ≠ .valueError := by
  intro mode hm
  simp only [List.mem_cons, List.not_mem_nil, or_false] at hm
  rcases hm with rfl | rfl | rfl
  · exact ⟨.typeError, rfl, by decide⟩
  · exact ⟨.attributeError, rfl, by decide⟩
  · exact ⟨.attributeError, rfl, by decide⟩

/-! ### Which variables -/

theorem marked_mentions {b : List PTok} {m : List (PTok × Bool)} (h : Marked b m) {rest : List PTok} (hr : ∀ t ∈ rest, t.string ≠ str "$") (x : Str) :
    (∃ t, (t, true) ∈ m ∧ t.string = x) ↔ Mentions (b ++ rest) x := by
  induction h with
  | nil =>
    refine ⟨fun ⟨t, ht, _⟩ => (by cases ht), ?_⟩
    rintro ⟨pre, d, t, post, he, hd, _⟩
    exact absurd hd (hr d (by rw [List.nil_append] at he; rw [he]; simp))
  | @plain u us out hne _ ih =>
    constructor
    · rintro ⟨t, ht, hx⟩
      rcases List.mem_cons.1 ht with ht | ht
      · cases ht
      · obtain ⟨pre, d, t, post, he, hd, ht⟩ := ih.1 ⟨t, ht, hx⟩
        exact ⟨u :: pre, d, t, post, by rw [List.cons_append, he]; rfl, hd, ht⟩
    · rintro ⟨pre, d, t, post, he, hd, ht⟩
      cases pre with
      | nil => simp only [List.cons_append, List.nil_append, List.cons.injEq] at he; exact absurd (he.1 ▸ hd) hne
      | cons p pre =>
        simp only [List.cons_append, List.cons.injEq] at he
        obtain ⟨t, ht, hx⟩ := ih.2 ⟨pre, d, t, post, he.2, hd, ht⟩
        exact ⟨t, List.mem_cons_of_mem _ ht, hx⟩
  | @metavar d u us out hd hv _ _ ih =>
    constructor
    · rintro ⟨t, ht, hx⟩
      rcases List.mem_cons.1 ht with ht | ht
      · cases ht; exact ⟨[], d, u, us ++ rest, rfl, hd, hx⟩
      · obtain ⟨pre, d', t, post, he, hd, ht⟩ := ih.1 ⟨t, ht, hx⟩
        exact ⟨d :: u :: pre, d', t, post, by rw [List.cons_append, List.cons_append, he]; rfl, hd, ht⟩
    · rintro ⟨pre, d', t, post, he, hd', ht⟩
      cases pre with
      | nil =>
        simp only [List.cons_append, List.nil_append, List.cons.injEq] at he
        exact ⟨_, List.mem_cons_self .., he.2.1 ▸ ht⟩
      | cons p pre =>
        cases pre with
        | nil =>
          simp only [List.cons_append, List.nil_append, List.cons.injEq] at he
          rw [← he.2.1] at hd'
          rw [hd'] at hv
          exact absurd hv (by decide)
        | cons q pre =>
          simp only [List.cons_append, List.cons.injEq] at he
          obtain ⟨t, ht, hx⟩ := ih.2 ⟨pre, d', t, post, he.2.2, hd', ht⟩
          exact ⟨t, List.mem_cons_of_mem _ ht, hx⟩

theorem template_variables {py : Python} (hends : ∀ s toks, py.tokens s = some toks → ∃ body em, toks = body ++ [em] ∧ em.string = []) {kind : PatternKind} {text : Str} {t : PyTemplate} (h : py.pyTemplate kind text = .ok t) {toks : List PTok}
    (htok : py.tokens (withNewline text) = some toks) :
    ∃ vs, (t.code py).vars = .ok vs ∧ ∀ k, k ∈ vs ↔ ∃ x, k = .name x ∧ Mentions toks x := by
  obtain ⟨toks', mt, htok', htp, _⟩ := pyTemplate_parts h
  rw [htok] at htok'; cases htok'
  obtain ⟨body, em, rfl, hes⟩ := hends _ _ htok
  obtain ⟨body', m, hm, ho, hi, hb⟩ := tokenPattern_read hes htp
  have hspec := (markedAt_spec m 0).1
  simp only [Nat.zero_le, true_and, Nat.sub_zero] at hspec
  have hvar : ∀ x, x ∈ t.variables ↔ Mentions (body ++ [em]) x := by
    intro x
    have hr : ∃ rest, body ++ [em] = body' ++ rest ∧ ∀ u ∈ rest, u.string ≠ str "$" := by
      rcases hb with rfl | ⟨_, nl, hnl, rfl⟩
      · exact ⟨[em], rfl, by intro u hu; rw [List.mem_singleton.1 hu, hes]; decide⟩
      · refine ⟨[nl, em], by simp, ?_⟩
        intro u hu
        simp only [List.mem_cons, List.not_mem_nil, or_false] at hu
        rcases hu with rfl | rfl
        · rw [hnl]; decide
        · rw [hes]; decide
    obtain ⟨rest, he, hrest⟩ := hr
    rw [he, ← marked_mentions hm hrest x]
    unfold PyTemplate.variables
    rw [mem_dedup, List.mem_filterMap]
    constructor
    · rintro ⟨i, hmi, hx⟩
      obtain ⟨u, hu⟩ := (hspec i).1 (hi ▸ hmi)
      refine ⟨u, List.mem_of_getElem? hu, ?_⟩
      have hlt := (List.getElem?_eq_some_iff.1 hu).1
      rw [ho, List.getElem?_append_left (by simpa using hlt), List.getElem?_map, hu] at hx
      simpa using hx
    · rintro ⟨u, hu, rfl⟩
      obtain ⟨i, hi'⟩ := List.getElem?_of_mem hu
      refine ⟨i, hi ▸ (hspec i).2 ⟨u, hi'⟩, ?_⟩
      have hlt := (List.getElem?_eq_some_iff.1 hi').1
      rw [ho, List.getElem?_append_left (by simpa using hlt), List.getElem?_map, hi']
      rfl
  refine ⟨t.variables.map .name, rfl, fun k => ?_⟩
  rw [List.mem_map]
  constructor
  · rintro ⟨x, hx, rfl⟩; exact ⟨x, rfl, (hvar x).1 hx⟩
  · rintro ⟨x, rfl, hx⟩; exact ⟨x, (hvar x).2 hx, rfl⟩

section
variable {g : Grammar} {py : Python} (hfit : PythonFits g py)
include hfit

/-- **C93**: the variables of a Python template are what is mentioned in its text. -/
theorem C93_variables {kind : PatternKind} {text : Str} {t : PyTemplate} (h : py.pyTemplate kind text = .ok t) {toks : List PTok}
    (htok : py.tokens (withNewline text) = some toks) :
    ∃ vs, (t.code py).vars = .ok vs ∧ ∀ k, k ∈ vs ↔ ∃ x, k = .name x ∧ Mentions toks x :=
  template_variables hfit.tokens h htok

/-! ### What is refused -/

theorem template_fill {kind : PatternKind} {text : Str} {t : PyTemplate} (h : py.pyTemplate kind text = .ok t) (hne : text ≠ []) {toks : List PTok}
    {ps : List (Str × Str)} (htok : py.tokens (withNewline text) = some toks) (hplain : PlainTokens toks ps) {ms : Dict MatchKey MatchV} (hw : ms.WF) :
    match t.fill (safeMapping (matchersFor py.isExpr (namedMatches ms)) (stringified (namedMatches ms))) with
    | .ok s => TextFilled py text (fun x => ms.get? (.name x)) s
    | .error e => e = .keyError ∧ ∃ x, Mentions toks x ∧ ∀ s, ¬ TextOf ms (.name x) s := by
  obtain ⟨vs, hvs, hmem⟩ := C93_variables hfit h htok
  obtain ⟨toks', mt, htok', htp, _, _, htext, _⟩ := pyTemplate_parts h
  rw [htok] at htok'; cases htok'
  have hres := hplain
  obtain ⟨⟨body, em, rfl, hem, hes, hz⟩, hlay⟩ := hplain
  have hnw := namedMatches_wf hw
  have hsw := stringified_wf hnw
  have hget : ∀ x, (safeMapping (matchersFor py.isExpr (namedMatches ms)) (stringified (namedMatches ms))).get? x =
      ((ms.get? (.name x)).bind (·.string)).map fun s => if (matchersFor py.isExpr (namedMatches ms)).has x then inParens s else s := by
    intro x
    have e := Dict.get?_map_val (stringified (namedMatches ms)) (fun k s => if (matchersFor py.isExpr (namedMatches ms)).has k then inParens s else s) x
    rw [stringified_get hnw, namedMatches_get] at e
    refine Eq.trans e ?_
    cases ms.get? (.name x) <;> rfl
  have htx := C53_text hem hes hz hlay htp (by rw [htext]; exact hne) (wf_safe (matchers := matchersFor py.isExpr (namedMatches ms)) hsw)
  split at htx
  · rename_i s hs
    rw [hs]
    obtain ⟨qs, l, kept, h1, h2, h3⟩ := htx
    refine ⟨_, ps, qs, l, kept, htok, hres, h1, h2, fun p hp => ?_⟩
    have hg := h3 p hp
    rw [hget] at hg
    cases hm : ms.get? (.name p.1) with
    | none => rw [hm] at hg; cases hg
    | some mv =>
      rw [hm] at hg
      cases hs : mv.string with
      | none => rw [Option.bind_some, hs] at hg; cases hg
      | some s =>
        rw [Option.bind_some, hs, Option.map_some] at hg
        injection hg with hg
        refine ⟨mv, s, hm, hs, ?_⟩
        rw [← hg]
        split
        · exact .inr rfl
        · exact .inl rfl
  · rename_i e he
    rw [he]
    obtain ⟨rfl, i, hi, x, hx, hn⟩ := htx
    refine ⟨rfl, x, ?_, ?_⟩
    · have : MatchKey.name x ∈ vs := by
        have hvs : Except.ok (t.variables.map MatchKey.name) = (Except.ok vs : Except Exc _) := hvs
        cases hvs
        refine List.mem_map.2 ⟨x, ?_, rfl⟩
        unfold PyTemplate.variables
        rw [mem_dedup, List.mem_filterMap]
        obtain ⟨u, hu, rfl⟩ := hx
        exact ⟨i, hi, by rw [hu]; rfl⟩
      obtain ⟨y, hy, hm⟩ := (hmem _).1 this
      cases hy; exact hm
    · rintro s ⟨v, hv, hs⟩
      rw [hget, hv, Option.bind_some, hs] at hn
      cases hn

omit hfit in
theorem fill_missing {t : PyTemplate} (hne : t.template ≠ []) {x : Label} (hx : x ∈ t.variables) {map : Dict Label Str} (hn : map.get? x = none) {s : Str} :
    t.fill map ≠ .ok s := by
  unfold PyTemplate.variables at hx
  rw [mem_dedup, List.mem_filterMap] at hx
  obtain ⟨i, hi, hx⟩ := hx
  obtain ⟨u, hu, rfl⟩ := Option.map_eq_some_iff.1 hx
  have hm := (get?_varIndices t.toks t.metas u.string i).2 ⟨hi, u, hu, rfl⟩
  have hk : u.string ∈ (varIndices t.toks t.metas).keys := by
    cases hg : (varIndices t.toks t.metas).get? u.string with
    | none => rw [hg] at hm; cases hm
    | some is => exact Dict.mem_keys_iff.2 ⟨is, hg⟩
  have hany : (varIndices t.toks t.metas).keys.any (fun x => !map.has x) = true := by
    rw [List.any_eq_true]
    refine ⟨_, hk, ?_⟩
    unfold Dict.has
    rw [hn]; rfl
  unfold PyTemplate.fill lexicalSubstitute
  rw [if_neg hne]
  simp only [hany, if_true]
  intro h; cases h

/-- **C93**: a Python template refuses (with RewriteError: the match is skipped, see C81) if no text made from it, with the matches in parentheses or not, is
Python; a variable without a match is a KeyError. -/
theorem C93_refuses {kind : PatternKind} {text : Str} {t : PyTemplate} (h : py.pyTemplate kind text = .ok t) (hne : text ≠ [])
    {toks : List PTok} {ps : List (Str × Str)} (htok : py.tokens (withNewline text) = some toks) (hplain : PlainTokens toks ps)
    (parsed : Option Ctx) (m : MatchV) {ms : Dict MatchKey MatchV} (hw : ms.WF) :
    ((∀ x, Mentions toks x → ∃ s, TextOf ms (.name x) s) → (∀ new, TextFilled py text (fun x => ms.get? (.name x)) new → py.file new = none) →
      ((t.code py).on parsed).substitute m ms = .error .rewriteError) ∧
    ((∃ x, Mentions toks x ∧ ∀ s, ¬ TextOf ms (.name x) s) → ((t.code py).on parsed).substitute m ms = .error .keyError) := by
  have hf := template_fill hfit h hne htok hplain hw
  have hsub : ∀ e, t.parenthesized py.depth py.env.parse (matchersFor py.env.isExpr (namedMatches ms)) (stringified (namedMatches ms)) = .error e →
      ((t.code py).on parsed).substitute m ms = .error e.toExc := by
    intro e he
    show (match t.substituteMatch py.depth py.env parsed m.obj (namedMatches ms) with
      | .error e => Except.error e.toExc
      | .ok s => .ok s) = _
    have : t.substituteMatch py.depth py.env parsed m.obj (namedMatches ms) = .error e := by
      unfold PyTemplate.substituteMatch; rw [he]
    rw [this]
  constructor
  · intro hall hno
    refine hsub .rewriteError ?_
    unfold PyTemplate.parenthesized
    split at hf
    · rename_i s hs
      have : py.env.isExpr = py.isExpr := rfl
      rw [this, hs]
      have : py.env.parse s = none := hno s hf
      simp only [this]
    · obtain ⟨_, x, hx, hn⟩ := hf
      obtain ⟨s, hs⟩ := hall x hx
      exact absurd hs (hn s)
  · rintro ⟨x, hx, hn⟩
    refine hsub .keyError ?_
    unfold PyTemplate.parenthesized
    split at hf
    · exfalso
      rename_i s hs
      obtain ⟨_, _, _, _, _, _, htext, _⟩ := pyTemplate_parts h
      have hv : x ∈ t.variables := by
        obtain ⟨vs, hvs, hmem⟩ := C93_variables hfit h htok
        have hvs : Except.ok (t.variables.map MatchKey.name) = (Except.ok vs : Except Exc _) := hvs
        cases hvs
        obtain ⟨y, hy, e⟩ := List.mem_map.1 ((hmem (.name x)).2 ⟨x, rfl, hx⟩)
        cases e
        exact hy
      have hnone : (safeMapping (matchersFor py.isExpr (namedMatches ms)) (stringified (namedMatches ms))).get? x = none := by
        have e := Dict.get?_map_val (stringified (namedMatches ms)) (fun k s => if (matchersFor py.isExpr (namedMatches ms)).has k then inParens s else s) x
        rw [stringified_get (namedMatches_wf hw), namedMatches_get] at e
        refine Eq.trans e ?_
        cases hm : ms.get? (.name x) with
        | none => rfl
        | some mv =>
          cases hs : mv.string with
          | none => show Option.map _ mv.string = none; rw [hs]; rfl
          | some s => exact absurd ⟨mv, hm, hs⟩ (hn s)
      exact fill_missing (by rw [htext]; exact hne) hv hnone hs
    · rename_i e he
      obtain ⟨rfl, _⟩ := hf
      have : py.env.isExpr = py.isExpr := rfl
      rw [this, he]

end

/-! ### Sub-modes -/

/-- **C93**: a Python sub-mode makes Python templates of its kind (for which see C93_template), with this text. -/
theorem C93_python_template {py : Python} {mode text : Str} {kind : PatternKind} (hm : SubModeKind mode kind) {t : CodeTemplate} (h : py.template mode text = .ok t) :
    t.text = text ∧ ∃ u, py.pyTemplate kind text = .ok u ∧ t = u.code py := by
  have key : py.template mode text = (py.pyTemplate kind text).map (·.code py) := by cases hm <;> rfl
  rw [key] at h
  cases hu : py.pyTemplate kind text with
  | error e => rw [hu] at h; cases h
  | ok u =>
    rw [hu] at h
    cases h
    obtain ⟨_, _, _, _, _, _, htext, _⟩ := pyTemplate_parts hu
    exact ⟨htext, u, rfl, rfl⟩

/-- **C93**: sub-mode `sh` makes shell-style templates: in the text every `$name` and `${name}` is replaced by the text of the match, every `$$` by `$`. A text
that is not written so has no variables (it is refused when a searcher asks for them). -/
theorem C93_shell_template {py : Python} {text : Str} : ∃ t, py.template (str "sh") text = .ok t ∧ t.text = text ∧
    (∀ ps, ShWF ps → shSource ps = text →
      (∃ vs, t.vars = .ok vs ∧ ∀ k, k ∈ vs ↔ ∃ p ∈ ps, ∃ n, p.name? = some n ∧ k = .name n) ∧
      ∀ parsed m (ms : Dict MatchKey MatchV), ms.WF →
        (∀ f : Str → Str, (∀ p ∈ ps, ∀ n, p.name? = some n → TextOf ms (.name n) (f n)) → (t.on parsed).substitute m ms = .ok (ps.flatMap (ShPart.value f))) ∧
        ((∃ p ∈ ps, ∃ n, p.name? = some n ∧ ∀ s, ¬ TextOf ms (.name n) s) → (t.on parsed).substitute m ms = .error .keyError)) ∧
    ((¬ ∃ ps, ShWF ps ∧ shSource ps = text) → t.vars = .error .valueError) := by
  refine ⟨shCodeTemplate text, rfl, rfl, ?_, ?_⟩
  · rintro ps hps rfl
    refine ⟨?_, fun parsed m ms hw => ⟨fun f hf => C18_substitute ps hps ms hw f hf, fun hn => C18_needs_names ps hps ms hw hn⟩⟩
    obtain ⟨vs, hvs, hmem⟩ := C18_variables ps hps
    refine ⟨vs.map .name, ?_, fun k => ?_⟩
    · show (match shVariables (shSource ps) with
        | .error e => Except.error e
        | .ok xs => .ok (xs.map MatchKey.name)) = _
      rw [hvs]
    · rw [List.mem_map]
      constructor
      · rintro ⟨n, hn, rfl⟩
        obtain ⟨p, hp, h⟩ := (hmem n).1 hn
        exact ⟨p, hp, n, h, rfl⟩
      · rintro ⟨p, hp, n, hn, rfl⟩
        exact ⟨n, (hmem n).2 ⟨p, hp, hn⟩, rfl⟩
  · intro hno
    show (match shVariables text with
        | .error e => Except.error e
        | .ok xs => .ok (xs.map MatchKey.name)) = _
    rw [(C18_malformed_rejected text).2 hno]

/-- The template `f($x)` mentions `x` and nothing else, and `x` without a match is a KeyError. -/
example : ((mdTemplate.code mdPy).on none).substitute ⟨none, none, none⟩ [] = .error .keyError := by
  obtain ⟨ps, hps⟩ := mdTplPlain
  refine (C93_refuses mdFits mdPyTemplate (by decide) rfl hps none _ (by exact List.nodup_nil)).2 ⟨str "x", ⟨mdTpl.take 2, mdTpl[2], mdTpl[3], (mdTpl ++ [mdEnd]).drop 4, ?_, ?_, ?_⟩, ?_⟩
  · decide
  · decide
  · decide
  · rintro s ⟨v, hv, _⟩; cases hv

end Refex
