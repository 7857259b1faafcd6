import Verif.Props.SearchErrors
import Verif.Props.TemplateErrorsExamples
/- C99: `refex --mode=py.expr '$x % $x' --sub-mode=sh --sub='$y'`, where nothing is called `y`. -/
namespace Refex
set_option autoImplicit false

/-- The template `$y`. -/
def msTemplates : Dict Str CodeTemplate := [(str "__root", shCodeTemplate (str "$y"))]

theorem msTemplates_get {l : Str} {t : CodeTemplate} (h : msTemplates.get? l = some t) : l = str "__root" ∧ t = shCodeTemplate (str "$y") := by
  unfold msTemplates Dict.get? at h
  split at h
  · rename_i e; cases h; exact ⟨e.symm, rfl⟩
  · cases h

/-- The patterns are no names, and are of types whose nodes have places in `a % a`. -/
theorem mdPatternTypes {s : Str} {tree t : Val} (h : mdParse s = some tree) (hi : Intended .expr tree t) :
    ∃ i ty ns vs, t = .node i ty ns vs ∧ ty ∈ [str "BinOp", str "Call"] := by
  have hsub : ∃ e, tree = mdModule e ∧ ∃ i ty ns vs, e = .node i ty ns vs ∧ ty ∈ [str "BinOp", str "Call"] := by
    unfold mdParse at h
    split at h
    · cases h; exact ⟨_, rfl, _, _, _, _, rfl, by decide +kernel⟩
    · split at h
      · cases h; exact ⟨_, rfl, _, _, _, _, rfl, by decide +kernel⟩
      · cases h
  obtain ⟨e, rfl, h1⟩ := hsub
  cases hi with
  | expr _ hb _ hv =>
    obtain ⟨_, _, _, _, hx, hl⟩ := hb
    cases hx; cases hl
    obtain ⟨_, _, _, _, hx, hl⟩ := hv
    cases hx; cases hl
    exact h1

/-- All that C99_search assumes holds, and the search ends with the KeyError that it allows. -/
theorem msRaises : ∃ hit, (mdPy.searcher mdMatcher msTemplates).find ⟨str "a % a", [], []⟩ = .error .keyError ∧ SearchRaises mdPy mdCtx msTemplates hit .keyError := by
  have hfind : (mdPy.searcher mdMatcher msTemplates).find ⟨str "a % a", [], []⟩ = .error .keyError := by
    have h : (match (mdPy.searcher mdMatcher msTemplates).find ⟨str "a % a", [], []⟩ with
      | .error .keyError => true
      | _ => false) = true := by decide +kernel
    generalize (mdPy.searcher mdMatcher msTemplates).find ⟨str "a % a", [], []⟩ = o at h ⊢
    split at h
    · rfl
    · cases h
  obtain ⟨ps, hps⟩ := mdPatPlain
  obtain ⟨what, t, h1, h2⟩ := C99_search mdFits mdWords (text := str "$x % $x") rfl hps mdPattern (ts := msTemplates) (by decide +kernel)
    (fun l t h => by
      obtain ⟨_, rfl⟩ := msTemplates_get h
      exact ⟨by show str "$y" ≠ []; decide, .inr ⟨_, [str "y"], by decide +kernel, rfl⟩⟩)
    (fun l t h => .inl (msTemplates_get h).1)
  obtain ⟨_, _, _, _, _, _, _, _, _, hp, _, hi, _⟩ := h1
  rcases h2 (mdSmall hp hi) (str "a % a") [] mdCtx rfl (unshared_of_check (tree := mdCtx.tree) (by decide +kernel)) (fun hits hh h hm => by
      obtain ⟨h3, h4, _⟩ := hh.sound h hm
      obtain ⟨i, ty, ns, vs, rfl, hty⟩ := mdPatternTypes hp hi
      have hnode : ∃ j ns vs, h.node = .node j ty ns vs := by
        have hno : holeAt what (.node i ty ns vs) = .none := by
          unfold holeAt
          simp only
          rw [if_neg]
          rintro rfl
          exact absurd hty (by decide)
        generalize h.node = v at h4
        generalize h.occ = occ at h4
        cases h4 with
        | named e _ => rw [hno] at e; cases e
        | anonymous e => rw [hno] at e; cases e
        | node _ _ => exact ⟨_, _, _, rfl⟩
      obtain ⟨j, ns', vs', hn⟩ := hnode
      rw [hn] at h3 ⊢
      have hall : ((allPos mdCtx.tree).all fun a => match a.2 with
          | .node i t _ _ => !decide (t ∈ [str "BinOp", str "Call"]) || (mdCtx.tok i).isSome
          | _ => true) = true := by decide +kernel
      have := List.all_eq_true.1 hall _ (mem_allPos _ _ _ h3)
      simp only [hty, decide_true, Bool.not_true, Bool.false_or] at this
      obtain ⟨sp, hsp⟩ := Option.isSome_iff_exists.1 this
      refine ⟨sp, ?_⟩
      simp only [createMatch, hsp]
      rw [if_neg, if_neg]
      · rintro rfl; exact absurd hty (by decide)
      · rintro rfl; exact absurd hty (by decide)) with ⟨subs, h⟩ | ⟨hits, hit, e, _, _, h, hr⟩
  · have h : (mdPy.searcher mdMatcher msTemplates).find ⟨str "a % a", [], []⟩ = .ok subs := h
    rw [hfind] at h; cases h
  · have h : (mdPy.searcher mdMatcher msTemplates).find ⟨str "a % a", [], []⟩ = .error e := h
    rw [hfind] at h; cases h
    exact ⟨hit, hfind, hr⟩

end Refex
