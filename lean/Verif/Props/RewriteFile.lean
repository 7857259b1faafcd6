import Verif.Spec.RewriteFile
import Verif.Props.FromDiff
import Verif.Props.PySearch
import Verif.Props.NamedFunctions
import Verif.Props.FixedPoint
import Verif.Props.Sanitize
import Verif.Model.Modes
import Verif.Model.ExternalCommand
/-! # C107: a matcher that rewrites the file rewrites the file -/
namespace Refex
set_option autoImplicit false

theorem mergeBindings_one {b : Bindings} {l : Label} (bv : BoundValue) (hb : b.WF) (h : ∀ e ∈ (b : List (Label × BoundValue)), e.1 ≠ l) :
    mergeBindings b [(l, bv)] = .ok (some (b ++ [(l, bv)])) := by
  have hhas : ∀ k, Dict.has [(l, bv)] k = true ↔ k = l := by
    intro k
    rw [Dict.has_iff]
    simp only [Dict.get?]
    by_cases e : l = k
    · simp [e]
    · simp [e, Ne.symm e]
  have hk : ∀ k ∈ b.keys, k ≠ l := by
    intro k hk
    obtain ⟨e, he, rfl⟩ := List.mem_map.1 hk
    exact h e he
  have hno : ∀ k ∈ b.keys, Dict.has [(l, bv)] k = false := by
    intro k hkm
    cases hh : Dict.has [(l, bv)] k with
    | false => rfl
    | true => exact absurd ((hhas k).1 hh) (hk k hkm)
  have e1 : b.keys.filter (fun k => Dict.has [(l, bv)] k) = [] := by
    rw [List.filter_eq_nil_iff]
    intro k hkm hh
    rw [hno k hkm] at hh; cases hh
  have e2 : b.keys.filter (fun k => !Dict.has [(l, bv)] k) = b.keys := by
    rw [List.filter_eq_self]
    intro k hkm
    rw [hno k hkm]; rfl
  have hl : b.get? l = none := Dict.get?_none_iff.2 fun v hv => h _ hv rfl
  have hbl : b.has l = false := by
    cases hh : b.has l with
    | false => rfl
    | true => obtain ⟨v, hv⟩ := Dict.has_iff.1 hh; rw [hl] at hv; cases hv
  have e3 : (Dict.keys [(l, bv)]).filter (fun k => !b.has k) = [l] := by
    simp [Dict.keys, hbl]
  unfold mergeBindings mergeBindingsIn
  rw [e1, e2, e3]
  have hu : updateFrom b [(l, bv)] [l] = b ++ [(l, bv)] := by
    simp only [updateFrom, List.foldl_cons, List.foldl_nil, Dict.get?, if_true]
    have := foldl_set_append [(l, bv)] b (by simp [Dict.WF, Dict.keys]) (by simpa [Dict.keys] using hl)
    simpa using this
  have : (([] : List Label).foldlM (mergeStep b [(l, bv)]) ([], false)) = (.ok ([], false) : Except MExc (Bindings × Bool)) := rfl
  rw [this]
  simp only
  rw [updateFrom_all hb, hu]

/-- Something put at the end of a sorted list goes somewhere, and the rest stays in order. -/
theorem stableSort_snoc {α : Type} {le : α → α → Bool} (l : List α) (x : α) (h : l.Pairwise fun a b => le a b = true) :
    ∃ l₁ l₂, l = l₁ ++ l₂ ∧ stableSort le (l ++ [x]) = l₁ ++ x :: l₂ := by
  induction l with
  | nil => exact ⟨[], [], rfl, rfl⟩
  | cons a l ih =>
    rw [List.pairwise_cons] at h
    obtain ⟨l₁, l₂, e, hs⟩ := ih h.2
    simp only [List.cons_append, stableSort]
    rw [hs]
    cases l₁ with
    | nil =>
      simp only [List.nil_append] at e ⊢
      subst e
      by_cases hx : le a x = true
      · exact ⟨[a], l, rfl, by simp [insertBy, hx]⟩
      · refine ⟨[], a :: l, rfl, ?_⟩
        rw [List.nil_append, insertBy, if_neg hx]
        congr 1
        cases l with
        | nil => rfl
        | cons b l => rw [insertBy, if_pos (h.1 b (by simp))]
    | cons b l₁ =>
      refine ⟨a :: b :: l₁, l₂, by rw [e]; rfl, ?_⟩
      rw [List.cons_append, insertBy, if_pos (h.1 b (by rw [e]; simp))]
      rfl

theorem diffLabel_dot (p : Label) (i : Nat) : '.' ∈ diffLabel p i := by
  unfold diffLabel
  simp [str]

/-- All entries of the bindings for a diff. -/
theorem diffBindings_values (before : Str) (p : Label) (rs : List DiffRepl) (i : Nat) :
    ∀ e ∈ ((diffBindings before p i rs).1 : List (Label × BoundValue)), (∃ j, e.1 = diffLabel p j) ∧ ∃ s sp, e.2.value = .span s (some sp) := by
  induction rs generalizing i with
  | nil => intro e he; simp [diffBindings] at he
  | cons r rs ih =>
    intro e he
    simp only [diffBindings, List.mem_cons] at he
    rcases he with rfl | he
    · exact ⟨⟨i, rfl⟩, _, _, rfl⟩
    · exact ih (i + 1) e he

theorem diffBindings_keys (before : Str) (p : Label) (rs : List DiffRepl) (i : Nat) :
    (diffBindings before p i rs).1.keys = (diffBindings before p i rs).2.keys := by
  induction rs generalizing i with
  | nil => rfl
  | cons r rs ih => simp only [diffBindings, Dict.keys, List.map_cons]; rw [show List.map Prod.fst _ = _ from ih (i + 1)]; rfl

theorem rewriteTemplates_literal (ms : Dict MatchKey MatchV) (l : List (MatchKey × Str))
    (h : ∀ e ∈ l, ∃ m sp, ms.get? e.1 = some m ∧ m.span = some sp) :
    rewriteTemplates ms (l.map fun e => (e.1, literalTemplate e.2)) = .ok l := by
  induction l with
  | nil => rfl
  | cons e l ih =>
    obtain ⟨m, sp, h1, h2⟩ := h e (by simp)
    simp only [List.map_cons, rewriteTemplates, h1, h2, literalTemplate]
    have := ih fun e he => h e (by simp [he])
    simp only [literalTemplate] at this
    rw [this]
    rfl

theorem sanitize_nothing (nav : Nav) (items : List (Str × Str)) (dict : Dict Str LexMatch) (ts : Dict Str Str) (r : Removed)
    (h : ∀ e ∈ items, dict.get? e.1 = none) : sanitizeLoop nav items dict ts r = .ok (dict, ts, r) := by
  induction items with
  | nil => rfl
  | cons e items ih =>
    simp only [sanitizeLoop]
    rw [h e (by simp)]
    exact ih fun e he => h e (by simp [he])

theorem apply_congr {before : Str} {s t : Substitution} (h : sortedEdits s = sortedEdits t) :
    applySubstitutions before [s] = applySubstitutions before [t] := by
  rw [apply_eq, apply_eq]
  have h1 : ∀ x, sortedSubs before [x] = [x] := fun _ => rfl
  simp only [h1, List.mem_singleton, forall_eq, List.map_cons, List.map_nil, List.flatMap_cons, List.flatMap_nil, h]

/-- The match: the whole tree, with a binding and a template for each piece of the diff. -/
theorem rewriteFile_found {c : Ctx} {n cmd : Nat} {pre : Label} {diff : List DiffLine} {done ks : List Key} {v : Val} (h : c.rewrite cmd v = some diff) :
    run { c with done := done } (n + 3) [] (fromMatcher (.rewriteFile pre cmd) []) v ks =
      .ok (some ⟨createMatch c v, (diffBindings c.text pre 0 (diffReplacements diff)).1 ++ [(str "__root", ⟨createMatch c v, .merge, .keepLast⟩)],
        (diffBindings c.text pre 0 (diffReplacements diff)).2⟩, ks) := by
  have hc : createMatch { c with done := done } v = createMatch c v := rfl
  have hv := diffBindings_values c.text pre (diffReplacements diff) 0
  have hw : (diffBindings c.text pre 0 (diffReplacements diff)).1.WF := by
    unfold Dict.WF
    rw [diffBindings_keys]
    exact diffBindings_nodup c.text pre (diffReplacements diff) 0
  have hm := mergeBindings_one (b := (diffBindings c.text pre 0 (diffReplacements diff)).1) (l := str "__root") ⟨createMatch c v, .merge, .keepLast⟩ hw
    (fun e he => by
      obtain ⟨⟨j, hj⟩, _⟩ := hv e he
      rw [hj]
      intro e2
      have := diffLabel_dot pre j
      rw [e2] at this
      revert this; decide)
  simp only [fromMatcher, run, h, hc, Option.getD_none, hm]
  have : mergeReplacements (diffBindings c.text pre 0 (diffReplacements diff)).2 [] = .ok (diffBindings c.text pre 0 (diffReplacements diff)).2 := by
    unfold mergeReplacements
    rw [if_neg]
    · rfl
    · intro hh
      obtain ⟨k, _, hk⟩ := List.any_eq_true.1 hh
      cases hk
  rw [this]

theorem rewriteFile_search {c : Ctx} {tk : TokInfo} {env : Templates} {n cmd : Nat} {pre : Label} {diff : List DiffLine}
    (hmod : IsModule c) (henv : LiteralTemplates env) (h : c.rewrite cmd c.tree = some diff) :
    ∃ sp, pySearch c tk env (n + 3) (fromMatcher (.rewriteFile pre cmd) []) = .ok [
      { matchedSpans := ((diffBindings c.text pre 0 (diffReplacements diff)).1.filterMap fun e => e.2.value.span?.map fun s => (MatchKey.name e.1, s)) ++ [(rootLabel, sp)]
        replacements := (diffBindings c.text pre 0 (diffReplacements diff)).2.map fun e => (MatchKey.name e.1, e.2)
        primaryLabel := rootLabel
        significant := false }] := by
  obtain ⟨i, fs, vs, htree, hbody, sp, htok⟩ := hmod.module
  refine ⟨sp, ?_⟩
  have hcm : createMatch c c.tree = .lexical c.tree sp := by
    rw [htree]
    simp only [createMatch, htok]
    rw [if_neg (by decide), if_neg (by decide)]
  have hrun := rewriteFile_found (n := n) (pre := pre) (done := c.done) (ks := []) h
  rw [hcm] at hrun
  have hatt : attempt c (n + 3) (fromMatcher (.rewriteFile pre cmd) []) c.done c.tree =
      .ok (some ⟨.lexical c.tree sp, (diffBindings c.text pre 0 (diffReplacements diff)).1 ++ [(str "__root", ⟨.lexical c.tree sp, .merge, .keepLast⟩)],
        (diffBindings c.text pre 0 (diffReplacements diff)).2⟩, []) := by
    unfold attempt
    have : typeFilter (n + 3) [] (fromMatcher (.rewriteFile pre cmd) []) = .ok none := rfl
    rw [this]
    exact hrun
  have hv := diffBindings_values c.text pre (diffReplacements diff) 0
  have hkeys := diffBindings_keys c.text pre (diffReplacements diff) 0
  have hn := diffBindings_nodup c.text pre (diffReplacements diff) 0
  generalize diffBindings c.text pre 0 (diffReplacements diff) = b at *
  obtain ⟨B, R⟩ := b
  simp only at *
  have hdot : ∀ e ∈ (B : List (Label × BoundValue)), '.' ∈ e.1 := by
    intro e he
    obtain ⟨⟨j, hj⟩, _⟩ := hv e he
    rw [hj]; exact diffLabel_dot pre j
  have hRB : ∀ e ∈ (R : List (Label × Str)), ∃ e' ∈ (B : List (Label × BoundValue)), e'.1 = e.1 := by
    intro e he
    have : e.1 ∈ B.keys := by rw [hkeys]; exact List.mem_map.2 ⟨e, he, rfl⟩
    obtain ⟨e', h1, h2⟩ := List.mem_map.1 this
    exact ⟨e', h1, h2⟩
  have hRdot : ∀ e ∈ (R : List (Label × Str)), '.' ∈ e.1 := by
    intro e he
    obtain ⟨e', h1, h2⟩ := hRB e he
    rw [← h2]; exact hdot e' h1
  have hfind : treeFind c (n + 3) (fromMatcher (.rewriteFile pre cmd) []) = ([⟨.lexical c.tree sp, B ++ [(str "__root", ⟨.lexical c.tree sp, .merge, .keepLast⟩)], R⟩], none) := by
    unfold treeFind
    rw [findLoop, hatt]
    simp only
    rw [findLoop]
  unfold pySearch
  rw [hfind]
  have hlex : (B ++ [(str "__root", (⟨.lexical c.tree sp, .merge, .keepLast⟩ : BoundValue))]).filterMap (fun e => (lexOf tk e.2.value).map fun m => (e.1, m)) =
      [(str "__root", { stmt := none, first := (sp.1, tk.firstEnd c.tree.ident), last := (tk.lastStart c.tree.ident, sp.2) })] := by
    rw [List.filterMap_append]
    have : B.filterMap (fun e => (lexOf tk e.2.value).map fun m => (e.1, m)) = [] := by
      rw [List.filterMap_eq_nil_iff]
      intro e he
      obtain ⟨_, s, sp, hs⟩ := hv e he
      rw [hs]; rfl
    rw [this]
    have hst : ¬ c.tree.ty ∈ stmtTypes := by rw [htree]; show ¬ str "Module" ∈ stmtTypes; decide
    simp only [List.nil_append, List.filterMap_cons, List.filterMap_nil, lexOf, if_neg hst, Option.map_some]
  have hrep : pyReport c tk env ⟨.lexical c.tree sp, B ++ [(str "__root", ⟨.lexical c.tree sp, .merge, .keepLast⟩)], R⟩ {} = .ok (some
      { matchedSpans := (B.filterMap fun e => e.2.value.span?.map fun s => (MatchKey.name e.1, s)) ++ [(rootLabel, sp)]
        replacements := R.map fun e => (MatchKey.name e.1, e.2)
        primaryLabel := rootLabel
        significant := false }, {}) := by
    unfold pyReport
    simp only
    rw [hlex, sanitize_nothing]
    · simp only
      have hts : templateDict env R (R.map fun e => (e.1, env.text e.2)) = (R.map fun e => (MatchKey.name e.1, e.2)).map fun e => (e.1, literalTemplate e.2) := by
        unfold templateDict
        rw [List.map_map]
        refine List.map_congr_left fun e he => ?_
        rw [if_neg, (henv e.2).2]
        · rfl
        · rintro ⟨h1, h2⟩
          have hm : ((e.1, env.text e.2) : Str × Str) ∈ R.map fun e => (e.1, env.text e.2) := List.mem_map.2 ⟨e, he, rfl⟩
          have hwf : Dict.WF (R.map fun e => (e.1, env.text e.2)) := by
            unfold Dict.WF Dict.keys
            rw [List.map_map]
            exact hn
          rw [Dict.get?_of_mem hwf hm, h1] at h2
          revert h2; decide
      have hms : matchDict c.text (B ++ [(str "__root", ⟨.lexical c.tree sp, .merge, .keepLast⟩)])
          [(str "__root", { stmt := none, first := (sp.1, tk.firstEnd c.tree.ident), last := (tk.lastStart c.tree.ident, sp.2) })] =
          (B.map fun e => (MatchKey.name e.1, matchVOf c.text e.2.value)) ++ [(rootLabel, ⟨some (slice c.text sp.1 sp.2), some sp, some c.tree⟩)] := by
        unfold matchDict
        rw [List.map_append]
        congr 1
        · refine List.map_congr_left fun e he => ?_
          have : str "__root" ≠ e.1 := fun h => by
            have := hdot e he
            rw [← h] at this
            revert this; decide
          simp only [Dict.get?, if_neg this]
      rw [hts, hms]
      rw [rewriteTemplates_literal]
      · simp only
        have hks : keySpanOf c (B ++ [(str "__root", ⟨.lexical c.tree sp, .merge, .keepLast⟩)]) = .ok none := by
          have hwf : Dict.WF (B ++ [(str "__root", (⟨.lexical c.tree sp, .merge, .keepLast⟩ : BoundValue))]) := by
            unfold Dict.WF
            have : Dict.keys (B ++ [(str "__root", (⟨.lexical c.tree sp, .merge, .keepLast⟩ : BoundValue))]) = B.keys ++ [str "__root"] := by
              simp [Dict.keys]
            rw [this, hkeys, List.nodup_append]
            refine ⟨hn, by simp, ?_⟩
            intro a ha b' hb e
            rw [List.mem_singleton] at hb
            obtain ⟨x, hx, rfl⟩ := List.mem_map.1 ha
            have := hRdot x hx
            rw [e, hb] at this
            revert this; decide
          unfold keySpanOf
          rw [Dict.get?_of_mem hwf (List.mem_append_right _ (List.mem_singleton.2 rfl))]
          simp only
          rw [getSimpleLoop]
          have : hasBody c.tree = true := by rw [htree]; simpa [hasBody] using hbody
          rw [if_pos this]
        rw [hks]
        simp only
        have hplain : ∀ k : Str, '.' ∉ k → Dict.erase (R.map fun e => (MatchKey.name e.1, e.2)) (MatchKey.name k) = R.map (fun e => (MatchKey.name e.1, e.2)) ∧
            Dict.get? (R.map fun e => (MatchKey.name e.1, e.2)) (MatchKey.name k) = none := by
          intro k hk
          constructor
          · unfold Dict.erase
            rw [List.filter_eq_self]
            intro e he
            obtain ⟨x, hx, rfl⟩ := List.mem_map.1 he
            refine decide_eq_true fun h => hk ?_
            injection h with h
            rw [← h]; exact hRdot x hx
          · refine Dict.get?_none_iff.2 fun v hv => hk ?_
            obtain ⟨x, hx, h⟩ := List.mem_map.1 hv
            injection h with h _
            injection h with h
            rw [← h]; exact hRdot x hx
        have hspans : ((B.map fun e => (MatchKey.name e.1, matchVOf c.text e.2.value)) ++ [(rootLabel, (⟨some (slice c.text sp.1 sp.2), some sp, some c.tree⟩ : MatchV))]).filterMap
            (fun e => e.2.span.map fun s => (e.1, s)) = (B.filterMap fun e => e.2.value.span?.map fun s => (MatchKey.name e.1, s)) ++ [(rootLabel, sp)] := by
          rw [List.filterMap_append, List.filterMap_map]
          congr 1
          refine filterMap_congr' fun e he => ?_
          obtain ⟨_, s, sp, hs⟩ := hv e he
          simp only [Function.comp, hs]
          rfl
        unfold buildFound
        rw [hspans]
        simp only [messageLabel, urlLabel, categoryLabel, significantLabel]
        rw [(hplain (str "__message") (by decide)).1, (hplain (str "__url") (by decide)).1, (hplain (str "__category") (by decide)).1,
          (hplain (str "__significant") (by decide)).1, (hplain (str "__message") (by decide)).2, (hplain (str "__url") (by decide)).2,
          (hplain (str "__category") (by decide)).2, (hplain (str "__significant") (by decide)).2]
        have hin : ∀ k, (∃ s, (k, s) ∈ ((B.filterMap fun e => e.2.value.span?.map fun s => (MatchKey.name e.1, s)) ++ [(rootLabel, sp)] : List (MatchKey × Span))) →
            Dict.has ((B.filterMap fun e => e.2.value.span?.map fun s => (MatchKey.name e.1, s)) ++ [(rootLabel, sp)]) k = true := by
          rintro k ⟨s, hs⟩
          refine Dict.has_iff.2 ?_
          cases hg : Dict.get? ((B.filterMap fun e => e.2.value.span?.map fun s => (MatchKey.name e.1, s)) ++ [(rootLabel, sp)]) k with
          | none => exact absurd hs (Dict.get?_none_iff.1 hg s)
          | some x => exact ⟨x, rfl⟩
        unfold Found.validate
        simp only [Option.any_none, Bool.false_eq_true, if_false]
        rw [if_neg (by rw [hin rootLabel ⟨sp, by simp⟩]; simp), if_pos]
        · rfl
        · rw [List.all_eq_true]
          intro k hk
          obtain ⟨e, he, rfl⟩ := List.mem_map.1 hk
          obtain ⟨x, hx, rfl⟩ := List.mem_map.1 he
          obtain ⟨e', h1, h2⟩ := hRB x hx
          obtain ⟨_, s, sp', hs⟩ := hv e' h1
          refine hin _ ⟨sp', List.mem_append_left _ (List.mem_filterMap.2 ⟨e', h1, ?_⟩)⟩
          rw [hs, h2]; rfl
      · intro e he
        obtain ⟨x, hx, rfl⟩ := List.mem_map.1 he
        obtain ⟨e', h1, h2⟩ := hRB x hx
        obtain ⟨_, s, sp', hs⟩ := hv e' h1
        have hwf : Dict.WF ((B.map fun e => (MatchKey.name e.1, matchVOf c.text e.2.value)) ++ [(rootLabel, (⟨some (slice c.text sp.1 sp.2), some sp, some c.tree⟩ : MatchV))]) := by
          unfold Dict.WF
          have : Dict.keys ((B.map fun e => (MatchKey.name e.1, matchVOf c.text e.2.value)) ++ [(rootLabel, (⟨some (slice c.text sp.1 sp.2), some sp, some c.tree⟩ : MatchV))]) =
              (B.keys.map MatchKey.name) ++ [rootLabel] := by
            simp [Dict.keys, Function.comp_def]
          rw [this, hkeys, List.nodup_append]
          refine ⟨List.pairwise_map.2 (hn.imp fun hne h => hne (MatchKey.name.inj h)), by simp, ?_⟩
          intro a ha b' hb e
          rw [List.mem_singleton] at hb
          obtain ⟨k, hk, rfl⟩ := List.mem_map.1 ha
          obtain ⟨y, hy, rfl⟩ := List.mem_map.1 hk
          have := hRdot y hy
          rw [hb] at e
          injection e with e
          rw [e] at this
          revert this; decide
        refine ⟨matchVOf c.text e'.2.value, sp', Dict.get?_of_mem hwf (List.mem_append_left _ (List.mem_map.2 ⟨e', h1, by rw [h2]⟩)), ?_⟩
        rw [hs]; rfl
    · intro e he
      obtain ⟨x, hx, rfl⟩ := List.mem_map.1 he
      refine Dict.get?_none_iff.2 fun v hv => ?_
      rw [List.mem_singleton] at hv
      have h1 : x.1 = str "__root" := congrArg Prod.fst hv
      have := hRdot x hx
      rw [h1] at this
      revert this; decide
  simp only [pyReports, hrep, Except.map, Option.toList, List.append_nil]

theorem rewriteFile_edits (spans : List (Label × Span)) (R : Replacements) (p l : Label) (sp : Span) (s : Substitution)
    (hs : s.matchedSpans = spans ++ [(l, sp)]) (hr : s.replacements = some R) (hl : R.get? l = none)
    (hsorted : spans.Pairwise fun a b => spanLe a.2 b.2 = true) (t : Substitution) (ht : t.matchedSpans = spans) (htr : t.replacements = some R) :
    sortedEdits s = sortedEdits t := by
  unfold sortedEdits rewriteToReplacements
  rw [hs, hr, ht, htr]
  simp only
  obtain ⟨l₁, l₂, e, hsn⟩ := stableSort_snoc (le := fun a b : Label × Span => spanLe a.2 b.2) spans (l, sp) hsorted
  rw [hsn, stableSort_of_sorted hsorted, List.filterMap_append, List.filterMap_cons]
  simp only [hl, Option.map_none]
  rw [← List.filterMap_append, ← e]

/-- **C107**. For every file and every text `new`, and whatever diff difflib makes of the two: if `rewrite` returns `new` for the
module, the searcher for the matcher (with no templates of its own) finds one thing in the file, which is not iterated on, and
applying it gives `new`. -/
theorem C107_found {c : Ctx} {tk : TokInfo} {env : Templates} {cmd : Nat} {new : Str} (pre : Label) (n : Nat)
    (hmod : IsModule c) (henv : LiteralTemplates env) (h : RewritesTo c cmd c.tree new) :
    ∃ f, pySearch c tk env (n + 3) (fromMatcher (.rewriteFile pre cmd) []) = .ok [f] ∧ f.keySpan = none ∧
      applySubstitutions c.text [f.substitution] = .ok new := by
  obtain ⟨diff, hd, hb⟩ := h
  obtain ⟨sp, hs⟩ := rewriteFile_search (tk := tk) (n := n) (pre := pre) hmod henv hd
  refine ⟨_, hs, rfl, ?_⟩
  rw [← C52_applied diff c.text new pre hb]
  obtain ⟨hio, _⟩ := spliced_inOrder (C52_reproduces diff c.text new hb)
  obtain ⟨h1, h2, h3, h4⟩ := diffBindings_spans c.text pre (diffReplacements diff) 0
  refine apply_congr (rewriteFile_edits ((diffBindings c.text pre 0 (diffReplacements diff)).1.filterMap fun e => e.2.value.span?.map fun s => (e.1, s))
    (diffBindings c.text pre 0 (diffReplacements diff)).2 pre (str "__root") sp _ ?_ ?_ ?_ ?_ _ rfl rfl)
  · simp only [Found.substitution, List.map_append, List.map_cons, List.map_nil]
    congr 1
    rw [List.map_filterMap]
    refine filterMap_congr' fun e _ => ?_
    cases e.2.value.span? <;> rfl
  · simp only [Found.substitution]
    rw [List.map_map]
    congr 1
    exact List.map_id' _
  · refine Dict.get?_none_iff.2 fun v hv => ?_
    obtain ⟨j, _, hj⟩ := h4 _ (List.mem_map.2 ⟨_, hv, rfl⟩)
    have := diffLabel_dot pre j
    rw [← hj] at this
    have this : '.' ∈ str "__root" := this
    revert this; decide
  · have hpw : ((diffReplacements diff).map (fun r => ((r.start, r.stop) : Span))).Pairwise (fun a b => spanLe a b = true) := by
      have hp := hio.pairwise
      have hbd := hio.bounds
      rw [List.pairwise_map] at hp ⊢
      refine List.Pairwise.imp_of_mem ?_ hp
      intro a c ha hc hac
      have ha' := hbd _ (List.mem_map.2 ⟨a, ha, rfl⟩)
      have hc' := hbd _ (List.mem_map.2 ⟨c, hc, rfl⟩)
      simp only [DiffRepl.edit] at hac ha' hc'
      rw [spanLe_iff]; simp only; omega
    rw [← h1, List.pairwise_map] at hpw
    exact hpw

/-- **C107** for `rewrite_string`: whatever the number of iterations, the result is the new text. The searcher is any that includes
the path, parses the text to the file `c`, and finds in it what the matcher does. -/
theorem C107_rewritten {c : Ctx} {tk : TokInfo} {env : Templates} {cmd : Nat} {new : Str} (pre : Label) (n : Nat)
    (hmod : IsModule c) (henv : LiteralTemplates env) (h : RewritesTo c cmd c.tree new)
    (parseAst : Str → Str → Except Exc ParsedFile) (s : Searcher) (path : Str) (p : ParsedFile) (iterations : Nat)
    (hi : s.included path = .ok ()) (hp : s.parse c.text path = .ok p)
    (hf : s.find p = (pySearch c tk env (n + 3) (fromMatcher (.rewriteFile pre cmd) [])).map (List.map Found.substitution)) :
    rewriteString parseAst s c.text path iterations = .ok new := by
  obtain ⟨f, h1, h2, h3⟩ := C107_found (tk := tk) pre n hmod henv h
  rw [h1] at hf
  have hf : s.find p = .ok [f.substitution] := hf
  have := C22_no_iteration_identity parseAst s c.text path iterations p [f.substitution]
    (.inr fun x hx => by rw [List.mem_singleton.1 hx]; exact h2) hi hp hf
  unfold rewriteString
  rw [this]
  exact h3

theorem findLoop_none {att : List Key → Val → MOut} {done : List Key} (h : ∀ v, ∃ ks, att done v = .ok (none, ks)) :
    ∀ k stack, Val.sizes stack ≤ k → findLoop att stack done = ([], none)
  | k, [], _ => by rw [findLoop]
  | 0, v :: rest, hk => by
    have := Val.size_pos v
    simp only [Val.sizes] at hk
    omega
  | k + 1, v :: rest, hk => by
    obtain ⟨ks, hv⟩ := h v
    rw [findLoop, hv]
    simp only
    refine findLoop_none h k _ ?_
    have := Val.size_children v
    simp only [Val.sizes_append, Val.sizes] at hk ⊢
    omega

/-- If `rewrite` never returns anything, nothing is found, and the text stays as it is. -/
theorem C107_nothing {c : Ctx} {tk : TokInfo} {env : Templates} {cmd : Nat} (pre : Label) (n : Nat) (h : ∀ v, c.rewrite cmd v = none) :
    pySearch c tk env (n + 3) (fromMatcher (.rewriteFile pre cmd) []) = .ok [] := by
  have : treeFind c (n + 3) (fromMatcher (.rewriteFile pre cmd) []) = ([], none) := by
    unfold treeFind
    refine findLoop_none (fun v => ⟨[], ?_⟩) _ _ (Nat.le_refl _)
    unfold attempt
    have : typeFilter (n + 3) [] (fromMatcher (.rewriteFile pre cmd) []) = .ok none := rfl
    rw [this]
    simp only [passesFilter, if_true, fromMatcher, run, h]
  unfold pySearch
  rw [this]
  rfl

/-- **C107** for external commands: the file becomes what the command writes when it is given the text of the file. All that is
asked of difflib is that its diffs lead from the one text to the other. -/
theorem C107_command {c : Ctx} {tk : TokInfo} {env : Templates} (difflib : Str → Str → List DiffLine) (command : Nat → Str → Str)
    (hdiff : ∀ a b, DiffBetween (difflib a b) a b) (cmd : Nat) (pre : Label) (n : Nat)
    (hmod : IsModule c) (henv : LiteralTemplates env)
    (parseAst : Str → Str → Except Exc ParsedFile) (s : Searcher) (path : Str) (p : ParsedFile) (iterations : Nat)
    (hi : s.included path = .ok ()) (hp : s.parse c.text path = .ok p)
    (hf : s.find p = (pySearch (c.withCommands difflib command) tk env (n + 3) (fromMatcher (.rewriteFile pre cmd) [])).map (List.map Found.substitution)) :
    rewriteString parseAst s c.text path iterations = .ok (command cmd c.text) :=
  C107_rewritten (c := c.withCommands difflib command) pre n ⟨hmod.1⟩ henv ⟨_, rfl, hdiff _ _⟩ parseAst s path p iterations hi hp hf

/-! ### A case -/

/-- The file `1\n2\n`. -/
def rfFile : Ctx where
  text := str "1\n2\n"
  tree := .node 0 (str "Module") [str "body"] [.list 1 [.node 2 (str "Expr") [str "value"] [.node 3 (str "Constant") [str "value"] [.const 4 (.int 1)]],
    .node 5 (str "Expr") [str "value"] [.node 6 (str "Constant") [str "value"] [.const 7 (.int 2)]]]]
  comment := fun _ => false
  tok := fun i => if i = 0 then some (0, 4) else if i = 2 ∨ i = 3 then some (0, 1) else if i = 5 ∨ i = 6 then some (2, 3) else none
  lineno := fun _ => none
  rxGroups := fun _ => []
  rxMatch := fun _ _ _ => none
  rxSearch := fun _ => none
  rewrite := fun _ _ => none

/-- A poor differ: everything is removed, then added. -/
def rfDiff (a b : Str) : List DiffLine := [.removed a, .added b]

/-- `sed 's/^/# /'` and `echo hello`. -/
def rfCommand : Nat → Str → Str
  | 0, s => '#' :: ' ' :: s
  | _, _ => str "hello\n"

/-- Literal templates. -/
def rfEnv : Templates := ⟨fun t => t, literalTemplate, literalTemplate passTemplate⟩

/-- The searcher. -/
def rfSearcher (cmd : Nat) : Searcher where
  included := fun _ => .ok ()
  parse := fun text path => .ok ⟨text, path, []⟩
  find := fun _ => (pySearch (rfFile.withCommands rfDiff rfCommand) ⟨fun _ => 1, fun _ => 0, fun _ => none⟩ rfEnv 3 (fromMatcher (.rewriteFile (str "x") cmd) [])).map (List.map Found.substitution)

-- The hypotheses of C107_command are met.
example : rewriteString (fun _ _ => .error .parseError) (rfSearcher 1) (str "1\n2\n") (str "a.py") 10 = .ok (str "hello\n") :=
  C107_command (c := rfFile) (env := rfEnv) rfDiff rfCommand (fun a b => by simp [DiffBetween, rfDiff, DiffLine.before, DiffLine.after]) 1 (str "x") 0
    ⟨⟨0, _, _, rfl, by decide, (0, 4), rfl⟩⟩ (fun _ => ⟨rfl, rfl⟩) _ _ _ _ 10 rfl rfl rfl
example : RewritesTo { rfFile with rewrite := fun _ _ => some [.same (str "1\n"), .removed (str "2\n"), .added (str "3\n"), .same []] } 0 rfFile.tree (str "1\n3\n") :=
  ⟨_, rfl, by decide⟩

end Refex
