import Verif.Props.FixTexts
import Verif.Props.FixErrors
import Verif.Spec.FixEdits
/- C104: the templates of the built-in fixers are what their texts say, and what `--mode=fix` puts in the place of what it finds. -/
namespace Refex
set_option autoImplicit false

/-! ### Templates made of their texts -/

theorem new_check : (builtinRules.all fun r => textCheck r.new []) = true := by decide +kernel

def loggingNew : Code := .expr (.attr (.name (str "logging")) (str "exception"))

theorem logging_check : textCheck loggingNew [] = true := by decide +kernel

theorem foldl_same {α β : Type} {f : β → α → β} (l : List α) (h : ∀ b a, f b a = b) {b : β} : l.foldl f b = b := by
  induction l with
  | nil => rfl
  | cons a l ih => rw [List.foldl_cons, h, ih]

theorem template_of_code {py : Python} (hiter : ∀ l, (py.iter l).Perm l) {kind : PatternKind} {p : Code} (h : ReadsCode py kind p) (hc : textCheck p [] = true) :
    ∃ t out idx, py.pyTemplate kind p.text = .ok t ∧ tokenPattern (lineTokens (p.text ++ str "\n")) true = some (out, idx) ∧ t.toks = out ∧ t.metas = idx ∧
      t.template = p.text ∧ t.astMatcher = kind.factory (p.pattern gensymName []) ∧ ∀ x, x ∈ t.variables ↔ x ∈ p.vars := by
  have hpat := pattern_of_text hiter h (restrictions := []) hc
  unfold textCheck at hc
  cases htp : tokenPattern (lineTokens (p.text ++ str "\n")) true with
  | none => rw [htp] at hc; cases hc
  | some r =>
    obtain ⟨out, idx⟩ := r
    rw [htp] at hc
    simp only [Bool.and_eq_true, decide_eq_true_eq] at hc
    obtain ⟨⟨⟨⟨⟨⟨⟨hnl, hnodup⟩, hmeta⟩, hvars⟩, huntok⟩, hkeys⟩, hnames⟩, hnode⟩ := hc
    have hwn : withNewline p.text = p.text ++ str "\n" := by
      unfold withNewline; rw [hnl]; rfl
    have e1 : py.pattern kind p.text = .ok (p.pattern gensymName []) := hpat
    refine ⟨⟨p.text, out, idx, kind.factory (p.pattern gensymName [])⟩, out, idx, ?_, rfl, rfl, rfl, rfl, rfl, fun x => ?_⟩
    · unfold Python.pyTemplate
      rw [hwn, h.tokens]
      simp only
      rw [hnl, htp]
      simp only
      rw [e1]
    · unfold PyTemplate.variables
      simp only [mem_dedup, List.mem_filterMap]
      constructor
      · rintro ⟨i, hi, hx⟩
        have := List.all_eq_true.1 hmeta i hi
        unfold metaCheck at this
        cases ht : out[i]? with
        | none => rw [ht] at hx; cases hx
        | some t =>
          rw [ht] at this hx
          simp only [Bool.and_eq_true, decide_eq_true_eq] at this
          cases hx
          exact this.2
      · intro hx
        obtain ⟨i, hi, h⟩ := List.any_eq_true.1 (List.all_eq_true.1 hvars x hx)
        exact ⟨i, hi, of_decide_eq_true h⟩

section
variable {py : Python} (hiter : ∀ l, (py.iter l).Perm l) (hnew : ReadsReplacements py)
include hiter hnew

/-- **C104**: the template of a rule is made of its text; it has the variables of the new code, and its tree is that of the new code. -/
theorem C104_template {r : Rule} (hr : r ∈ builtinRules) : ∃ t, py.pyTemplate r.kind.asPattern r.newText = .ok t ∧ t.template = r.newText ∧
    t.astMatcher = r.kind.template.matcher (r.new.pattern gensymName []) ∧ ∀ x, x ∈ t.variables ↔ x ∈ r.new.vars := by
  obtain ⟨t, _, _, h1, _, _, _, h2, h3, h4⟩ := template_of_code hiter (hnew.rules r hr) (List.all_eq_true.1 new_check r hr)
  rw [(C81_texts r hr).2] at h1 h2
  refine ⟨t, h1, h2, ?_, h4⟩
  rw [h3]
  cases r.kind <;> rfl

theorem logging_template : ∃ t, py.pyTemplate .stmt (str "logging.exception") = .ok t ∧ (∀ map s, t.fill map = .ok s → s = str "logging.exception") ∧
    t.astMatcher = stmtTemplate (loggingNew.pattern gensymName []) ∧ ∀ x, x ∉ t.variables := by
  obtain ⟨t, out, idx, h1, h2, h3, h4, h5, h6, h7⟩ := template_of_code hiter hnew.logging logging_check
  have e : loggingNew.text = str "logging.exception" := by decide
  refine ⟨t, by rw [← e]; exact h1, fun map s hs => ?_, h6, fun x hx => by
    have := (h7 x).1 hx
    revert this
    show x ∉ loggingNew.vars
    rw [show loggingNew.vars = [] by decide]
    exact List.not_mem_nil⟩
  have h2' : tokenPattern (lineTokens (str "logging.exception" ++ str "\n")) true = some (out, idx) := by rw [← e]; exact h2
  have hf : (match tokenPattern (lineTokens (str "logging.exception" ++ str "\n")) true with
    | none => false
    | some (out, idx) => decide (idx = []) && decide (untokenize out = some (str "logging.exception"))) = true := by decide +kernel
  rw [h2'] at hf
  simp only [Bool.and_eq_true, decide_eq_true_eq] at hf
  obtain ⟨f1, f2⟩ := hf
  unfold PyTemplate.fill at hs
  rw [h3, h4, h5] at hs
  rw [f1] at hs
  have hs' : lexicalSubstitute (str "logging.exception") out [] map = some (some (str "logging.exception")) := by
    unfold lexicalSubstitute
    rw [if_neg (by decide)]
    simp only
    rw [foldl_same, f2]
    · rfl
    · intro ts e; rfl
  have hs : (match lexicalSubstitute loggingNew.text out [] map with
    | none => (Except.error TExc.valueError : Except TExc Str)
    | some none => Except.error TExc.keyError
    | some (some s) => Except.ok s) = Except.ok s := hs
  rw [e, hs'] at hs
  cases hs
  rfl

theorem rule_tokens {r : Rule} (hr : r ∈ builtinRules) {toks : List PTok} (h : py.tokens (withNewline r.newText) = some toks) {x : Str} (hx : Mentions toks x) :
    x ∈ r.new.vars := by
  obtain ⟨t, h1, _, _, h2⟩ := C104_template hiter hnew hr
  obtain ⟨vs, k1, k2⟩ := template_variables hnew.ends h1 h
  have k1 : (Except.ok (t.variables.map MatchKey.name) : Except Exc (List MatchKey)) = .ok vs := k1
  cases k1
  obtain ⟨y, hy, e⟩ := List.mem_map.1 ((k2 (.name x)).2 ⟨x, rfl, hx⟩)
  cases e
  exact (h2 x).1 hy

/-- **C104**: what C97 assumes of the tokens of templates holds. -/
theorem C104_tokens : TokensFit py where
  ends := hnew.ends
  rules := fun r hr toks h x hx => rule_tokens hiter hnew hr h hx
  logging := fun toks h x hx => by
    obtain ⟨t, h1, _, _, h2⟩ := logging_template hiter hnew
    obtain ⟨vs, k1, k2⟩ := template_variables hnew.ends h1 (toks := toks) (by
      rw [show withNewline (str "logging.exception") = str "logging.exception\n" by decide]; exact h)
    have k1 : (Except.ok (t.variables.map MatchKey.name) : Except Exc (List MatchKey)) = .ok vs := k1
    cases k1
    obtain ⟨y, hy, e⟩ := List.mem_map.1 ((k2 (.name x)).2 ⟨x, rfl, hx⟩)
    exact h2 y hy

theorem rule_made {r : Rule} (hr : r ∈ builtinRules) : ∃ t, py.fixTemplate (templateCode r.kind r.newText) = .ok t := by
  obtain ⟨t, h1, _⟩ := C104_template hiter hnew hr
  cases hk : r.kind with
  | expr => rw [fixTemplate_expr]; rw [hk] at h1; exact ⟨_, by rw [show py.pyTemplate .expr r.newText = .ok t from h1]; rfl⟩
  | stmt => rw [fixTemplate_stmt]; rw [hk] at h1; exact ⟨_, by rw [show py.pyTemplate .stmt r.newText = .ok t from h1]; rfl⟩

/-- **C104**: the templates of all built-in fixers can be made. -/
theorem C104_made : TemplatesMade py gensymName := by
  intro F hF l name hn
  have hrule : ∀ rs : List Rule, (∀ r ∈ rs, r ∈ builtinRules) → F ∈ rs.map (Rule.fixer gensymName) → ∃ t, py.fixTemplate name = .ok t := by
    intro rs hrs h
    obtain ⟨r, hr, rfl⟩ := List.mem_map.1 h
    have hn : (l, name) ∈ [(str "__root", templateCode r.kind r.newText)] := hn
    cases List.mem_singleton.1 hn
    exact rule_made hiter hnew (hrs r hr)
  have hsh : ∀ l' text, (l, name) ∈ [(l', shCode text)] → ∃ t, py.fixTemplate name = .ok t := by
    intro l' text h
    cases List.mem_singleton.1 h
    exact ⟨_, fixTemplate_sh text⟩
  rcases List.mem_append.1 hF with hF | hF
  · rcases List.mem_append.1 hF with hF | hF
    · unfold correctnessFixers at hF
      rcases List.mem_append.1 hF with hF | hF
      · rcases List.mem_append.1 hF with hF | hF
        · exact hrule _ (by unfold builtinRules; simp; intro r h; rcases h with h | h | h <;> simp [h]) hF
        · simp only [List.mem_cons, List.not_mem_nil, or_false] at hF
          rcases hF with rfl | rfl | rfl <;> exact hsh _ _ hn
      · exact hrule _ (by unfold builtinRules; simp; intro r h; simp [h]) hF
    · unfold idiomFixers at hF
      rcases List.mem_append.1 hF with hF | hF
      · rcases List.mem_append.1 hF with hF | hF
        · exact hrule _ (by unfold builtinRules; simp; intro r h; simp [h]) hF
        · exact hrule _ (by unfold builtinRules; simp; intro r h; simp [h]) hF
      · simp only [List.mem_cons, List.not_mem_nil, or_false] at hF
        rcases hF with rfl | rfl
        · have hn : (l, name) ∈ [(str "logging_error", templateCode .stmt (str "logging.exception"))] := hn
          cases List.mem_singleton.1 hn
          obtain ⟨t, h1, _⟩ := logging_template hiter hnew
          rw [fixTemplate_stmt, h1]
          exact ⟨_, rfl⟩
        · exact hsh _ _ hn
  · exact hrule _ (by unfold builtinRules; simp; intro r h; simp [h]) hF

end

/-- **C104**: so mode `fix`, with all patterns and templates made of their texts, takes the names of the four groups, and refuses anything else. -/
theorem C104_accepted {py : Python} (hpat : ReadsPatterns py) (hnew : ReadsReplacements py) {groups : Str → List Label} (hfixer : py.fixer = py.textFixer groups)
    (hd : 8 ≤ py.depth) (pattern : Option Str) (ts : Dict Str CodeTemplate) :
    ((∃ s, py.factory (str "fix") pattern ts = .ok s) ↔ ts = [] ∧ ∃ name ∈ [str "*", str "correctness", str "idiom", str "unittest"], pattern = some name) ∧
      ∀ e, py.factory (str "fix") pattern ts = .error e → e = .valueError :=
  (C101_command hpat hfixer).2 (C104_made hpat.iter hnew) (C104_tokens hpat.iter hnew) hd pattern ts

end Refex
