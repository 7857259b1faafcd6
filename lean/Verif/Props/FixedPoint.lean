import Verif.Spec.FixedPoint
import Verif.Spec.Category
import Verif.Props.Apply
import Verif.Props.Substitution
import Verif.Lemmas.LabeledSpans
/-
Properties C20-C23: iterated fixing.
-/
namespace Refex
set_option autoImplicit false

theorem relativeAll_some {a b : Nat} {subs rels : List Substitution} (h : relativeAll a b subs = some rels) :
    subs.map (fun s => s.relativeToSpan a b) = rels.map some := by
  induction subs generalizing rels with
  | nil => simp only [relativeAll, Option.some.injEq] at h; subst h; rfl
  | cons s ss ih =>
    simp only [relativeAll] at h
    split at h
    · rename_i r rs h1 h2
      cases h
      simp [h1, ih h2]
    · cases h

theorem relativeAll_none {a b : Nat} {subs : List Substitution} :
    relativeAll a b subs = none ↔ ∃ s ∈ subs, ∃ p ∈ s.matchedSpans, ¬ (a ≤ p.2.1 ∧ p.2.2 ≤ b) := by
  induction subs with
  | nil => simp [relativeAll]
  | cons s ss ih =>
    simp only [relativeAll, List.mem_cons, exists_eq_or_imp]
    rw [← ih, ← C05_relative_none_iff]
    cases s.relativeToSpan a b <;> cases relativeAll a b ss <;> simp

theorem fixedPointLoop_rounds (parse : Str → Except Exc ParsedFile)
    (find : ParsedFile → Except Exc (List Substitution)) (n : Nat) :
    ∀ (text : Str) (new : List Substitution) (all : List Substitution) (t : Str) (tr : List Str), new ≠ [] →
    fixedPointLoop parse find n text new = .ok (all, t, tr) →
    ∃ k pending, k ≤ n ∧ Rounds parse find k text new t pending all ∧ tr.length = k ∧
      (k = n ∨ pending = [] ∨ ∃ u, applySubstitutions t pending = .ok u ∧ parse u = .error .parseError) ∧
      (k = 0 ↔ all = []) ∧ new.length ≤ all.length + (if k = 0 then new.length else 0) ∧
      (2 ≤ k ↔ new.length < all.length) := by
  induction n with
  | zero =>
    intro text new all t tr hne h
    simp only [fixedPointLoop, Except.ok.injEq, Prod.mk.injEq] at h
    obtain ⟨rfl, rfl, rfl⟩ := h
    exact ⟨0, new, Nat.le_refl _, .stop _ _, rfl, Or.inl rfl, by simp, by simp, by simp⟩
  | succ n ih =>
    intro text new all t tr hne h
    simp only [fixedPointLoop] at h
    split at h
    · cases h
    · rename_i rewritten happ
      split at h
      · rename_i hp
        simp only [Except.ok.injEq, Prod.mk.injEq] at h
        obtain ⟨rfl, rfl, rfl⟩ := h
        exact ⟨0, new, by omega, .stop _ _, rfl, Or.inr (Or.inr ⟨_, happ, hp⟩), by simp, by simp, by simp⟩
      · cases h
      · rename_i p hp
        split at h
        · cases h
        · rename_i hf
          simp only [Except.ok.injEq, Prod.mk.injEq] at h
          obtain ⟨rfl, rfl, rfl⟩ := h
          refine ⟨1, [], by omega, ?_, rfl, Or.inr (Or.inl rfl), by simp [hne], by simp, by simp⟩
          have := Rounds.round (parse := parse) (find := find) hne happ hp hf (Rounds.stop _ _)
          simpa using this
        · rename_i m ms hf
          split at h
          · cases h
          · rename_i all' t' tr' hl
            simp only [Except.ok.injEq, Prod.mk.injEq] at h
            obtain ⟨rfl, rfl, rfl⟩ := h
            obtain ⟨k, pending, h1, h2, h3, h4, h5, h6, h7⟩ := ih rewritten (m :: ms) all' t' tr' (by simp) hl
            refine ⟨k + 1, pending, by omega, .round hne happ hp hf h2, by simp [h3], ?_, by simp [hne], by simp, ?_⟩
            · rcases h4 with h4 | h4
              · exact Or.inl (by omega)
              · exact Or.inr h4
            · rw [List.length_append]
              have : all' = [] ↔ all'.length = 0 := by rw [List.length_eq_zero_iff]
              rw [this] at h5
              omega

theorem compile_merged (subs : List Substitution) (a b : Nat) (t : Str) :
    MergedInto (compileSubstitutions subs a b t) a b t := by
  have hcat : (compileSubstitutions subs a b t).category.any (fun c => !categoryOk c) = false := by
    have h1 : categoryOk (str "refex.merged." ++ str "significant") = true := by decide
    have h2 : categoryOk (str "refex.merged." ++ str "not-significant") = true := by decide
    simp only [compileSubstitutions, Option.any]
    split
    · rw [h1]; rfl
    · rw [h2]; rfl
  refine ⟨?_, ?_, rfl, rfl⟩
  · unfold Substitution.validate
    rw [hcat]
    simp [compileSubstitutions, Dict.has, Dict.get?, Dict.keys]
  · simp [compileSubstitutions, Substitution.primarySpan, Substitution.primarySpan?, Dict.get?]

/-- C20, without iteration (`max_iterations ≤ 1`) or with a substitution reaching out of the group's span, the
substitutions are returned as they are. -/
theorem C20_no_iteration (parse : Str → Except Exc ParsedFile) (find : ParsedFile → Except Exc (List Substitution))
    (text : Str) (initial : List Substitution) (a b n : Nat)
    (h : n ≤ 1 ∨ ∃ s ∈ initial, ∃ p ∈ s.matchedSpans, ¬ (a ≤ p.2.1 ∧ p.2.2 ≤ b)) :
    fixedPoint parse find text initial a b n = .ok initial := by
  unfold fixedPoint
  split
  · rfl
  · rcases h with h | h
    · omega
    · rw [relativeAll_none.2 h]

theorem map_some_inj {α : Type} {l l' : List α} (h : l.map some = l'.map some) : l = l' := by
  induction l generalizing l' with
  | nil => cases l' <;> simp_all
  | cons x xs ih => cases l' with
    | nil => simp at h
    | cons y ys => simp only [List.map_cons, List.cons.injEq, Option.some.injEq] at h; rw [h.1, ih h.2]

/-- After at least one round, the final text parses and searching it gave the pending substitutions. -/
theorem Rounds.last {parse : Str → Except Exc ParsedFile} {find : ParsedFile → Except Exc (List Substitution)}
    {k : Nat} {t t' : Str} {s s' all : List Substitution} (h : Rounds parse find k t s t' s' all) (hk : 1 ≤ k) :
    ∃ p, parse t' = .ok p ∧ find p = .ok s' := by
  induction h with
  | stop => omega
  | @round k t t1 t' s s1 s' all p hne happly hparse hfind rest ih =>
    cases rest with
    | stop => exact ⟨p, hparse, hfind⟩
    | round => exact ih (by omega)

theorem fixedPoint_core (parse : Str → Except Exc ParsedFile) (find : ParsedFile → Except Exc (List Substitution))
    (text : Str) (initial rels out : List Substitution) (a b n : Nat) (hn : 2 ≤ n) (hne : initial ≠ [])
    (hrel : initial.map (fun s => s.relativeToSpan a b) = rels.map some)
    (h : fixedPoint parse find text initial a b n = .ok out) :
    ∃ k t pending all, k ≤ n ∧ Rounds parse find k (slice text a b) rels t pending all ∧
      ((k = 0 ∧ out = []) ∨ (k = 1 ∧ out = initial) ∨ (2 ≤ k ∧ ∃ s, out = [s] ∧ MergedInto s a b t)) ∧
      (k = n ∨ pending = [] ∨ ∃ u, applySubstitutions t pending = .ok u ∧ parse u = .error .parseError) := by
  unfold fixedPoint at h
  rw [if_neg (by omega)] at h
  have hlen : rels.length = initial.length := by have := congrArg List.length hrel; simpa using this.symm
  cases hr : relativeAll a b initial with
  | none =>
    exfalso
    obtain ⟨s, hs, hp⟩ := relativeAll_none.1 hr
    have h1 := (C05_relative_none_iff s a b).2 hp
    have : (none : Option Substitution) ∈ rels.map some := by
      rw [← hrel]; exact List.mem_map.2 ⟨s, hs, h1⟩
    simp at this
  | some r =>
    have hrr : r = rels := map_some_inj ((relativeAll_some hr).symm.trans hrel)
    subst hrr
    rw [hr] at h
    simp only at h
    split at h
    · cases h
    · rename_i all t tr hl
      have hne' : r ≠ [] := by
        intro h0; rw [h0] at hlen; exact hne (List.length_eq_zero_iff.1 (by simpa using hlen.symm))
      obtain ⟨k, pending, h1, h2, h3, h4, h5, h6, h7⟩ := fixedPointLoop_rounds parse find n _ r all t tr hne' hl
      refine ⟨k, t, pending, all, h1, h2, ?_, h4⟩
      split at h
      · rename_i he
        cases h
        exact Or.inl ⟨h5.2 (List.isEmpty_iff.1 he), rfl⟩
      · rename_i he
        have hk : k ≠ 0 := fun h0 => he (List.isEmpty_iff.2 (h5.1 h0))
        rw [if_neg hk] at h6
        split at h
        · rename_i hl'
          cases h
          refine Or.inr (Or.inl ⟨?_, rfl⟩)
          have : ¬ 2 ≤ k := fun h2k => by have := h7.1 h2k; omega
          omega
        · rename_i hl'
          cases h
          refine Or.inr (Or.inr ⟨?_, _, rfl, compile_merged _ _ _ _⟩)
          exact h7.2 (by omega)

/-- C20. Iterating at most `n ≥ 2` times over a group of substitutions inside `[a, b)`: the outcome is determined by some
number `k ≤ n` of rounds of apply/parse/search on the group's text, each intermediate text being parseable (`Rounds`):
nothing for `k = 0` (the first rewrite does not parse), the initial substitutions for `k = 1`, and for more rounds one
valid substitution that replaces the group's span by the final text. -/
theorem C20_outcome (parse : Str → Except Exc ParsedFile) (find : ParsedFile → Except Exc (List Substitution))
    (text : Str) (initial rels out : List Substitution) (a b n : Nat) (hn : 2 ≤ n) (hne : initial ≠ [])
    (hrel : initial.map (fun s => s.relativeToSpan a b) = rels.map some)
    (h : fixedPoint parse find text initial a b n = .ok out) :
    ∃ k t pending all, k ≤ n ∧ Rounds parse find k (slice text a b) rels t pending all ∧
      ((k = 0 ∧ out = [] ∧ ∃ u, applySubstitutions t pending = .ok u ∧ parse u = .error .parseError) ∨
       (k = 1 ∧ out = initial) ∨ (2 ≤ k ∧ ∃ s, out = [s] ∧ MergedInto s a b t)) := by
  obtain ⟨k, t, pending, all, h1, h2, h3, h4⟩ := fixedPoint_core parse find text initial rels out a b n hn hne hrel h
  refine ⟨k, t, pending, all, h1, h2, ?_⟩
  rcases h3 with ⟨h3, h5⟩ | h3 | h3
  · refine Or.inl ⟨h3, h5, ?_⟩
    rcases h4 with h4 | h4 | h4
    · omega
    · subst h3
      cases h2
      subst h4
      exfalso
      have := congrArg List.length hrel
      simp only [List.length_map, List.length_nil] at this
      exact hne (List.length_eq_zero_iff.1 this)
    · exact h4
  · exact Or.inr (Or.inl h3)
  · exact Or.inr (Or.inr h3)

/-- C20, the searcher is run at most `n` times on a group (the third component records the texts it is run on), and only
on texts that parse. -/
theorem C20_searches_bounded (parse : Str → Except Exc ParsedFile) (find : ParsedFile → Except Exc (List Substitution))
    (n : Nat) (text : Str) (new all : List Substitution) (t : Str) (searched : List Str)
    (h : fixedPointLoop parse find n text new = .ok (all, t, searched)) :
    searched.length ≤ n ∧ ∀ x ∈ searched, ∃ p, parse x = .ok p := by
  induction n generalizing text new all t searched with
  | zero => simp only [fixedPointLoop, Except.ok.injEq, Prod.mk.injEq] at h; simp [← h.2.2]
  | succ n ih =>
    simp only [fixedPointLoop] at h
    split at h
    · cases h
    · split at h
      · simp only [Except.ok.injEq, Prod.mk.injEq] at h; simp [← h.2.2]
      · cases h
      · rename_i p hp
        split at h
        · cases h
        · simp only [Except.ok.injEq, Prod.mk.injEq] at h
          rw [← h.2.2]
          exact ⟨by simp, by intro x hx; rw [List.mem_singleton.1 hx]; exact ⟨p, hp⟩⟩
        · split at h
          · cases h
          · rename_i hl
            simp only [Except.ok.injEq, Prod.mk.injEq] at h
            obtain ⟨h1, h2⟩ := ih _ _ _ _ _ hl
            rw [← h.2.2]
            refine ⟨by simp only [List.length_cons]; omega, ?_⟩
            intro x hx
            rcases List.mem_cons.1 hx with rfl | hx
            · exact ⟨p, hp⟩
            · exact h2 x hx

theorem apply_merged (data : Str) (s : Substitution) (a b : Nat) (t : Str) (hab : a ≤ b) (h : MergedInto s a b t) :
    applySubstitutions data [s] = .ok (data.take a ++ t ++ data.drop b) := by
  obtain ⟨_, _, h1, h2⟩ := h
  have he : sortedEdits s = [⟨t, a, b⟩] := by
    unfold sortedEdits rewriteToReplacements
    rw [h1, h2]
    simp [stableSort, insertBy, Dict.get?]
  rw [apply_single, he, if_pos ⟨Nat.zero_le _, hab, trivial⟩]
  simp [splice, slice]

/-- C20, the effect on the file: unless nothing is returned, applying the returned substitutions to the whole text
replaces the group's span `[a, b)` by the text after the rounds, and changes nothing else. -/
theorem C20_effect (parse : Str → Except Exc ParsedFile) (find : ParsedFile → Except Exc (List Substitution))
    (text : Str) (initial rels out : List Substitution) (a b n : Nat) (hn : 2 ≤ n) (hne : initial ≠ []) (hab : a ≤ b)
    (hrel : initial.map (fun s => s.relativeToSpan a b) = rels.map some)
    (hw : ∀ s ∈ initial, SpansOk s) (hed : ∀ s ∈ initial, editsOf s ≠ [])
    (h : fixedPoint parse find text initial a b n = .ok out) (hout : out ≠ []) :
    ∃ k t pending all, 1 ≤ k ∧ k ≤ n ∧ Rounds parse find k (slice text a b) rels t pending all ∧
      applySubstitutions text out = .ok (text.take a ++ t ++ text.drop b) := by
  obtain ⟨k, t, pending, all, h1, h2, h3, _⟩ := fixedPoint_core parse find text initial rels out a b n hn hne hrel h
  rcases h3 with ⟨_, h3⟩ | ⟨h3, h5⟩ | ⟨h3, s, h5, h6⟩
  · exact absurd h3 hout
  · refine ⟨k, t, pending, all, by omega, h1, h2, ?_⟩
    subst h3
    rw [h5, C05_relative_commutes_list text initial rels a b hab hw hed hrel]
    cases h2 with
    | round _ happly _ _ rest => cases rest; rw [happly]; rfl
  · exact ⟨k, t, pending, all, by omega, h1, h2, by rw [h5]; exact apply_merged text s a b t hab h6⟩

/-! ### C21 -/

/-- C21. When substitutions are returned, the text they leave in the group's span is the result of `k` rounds and parses,
and if the limit `n` was not hit, then searching that text finds nothing more, or what it finds would make it
unparseable. -/
theorem C21_fixed_point_or_limit (parse : Str → Except Exc ParsedFile)
    (find : ParsedFile → Except Exc (List Substitution))
    (text : Str) (initial rels out : List Substitution) (a b n : Nat) (hn : 2 ≤ n) (hne : initial ≠ []) (hab : a ≤ b)
    (hrel : initial.map (fun s => s.relativeToSpan a b) = rels.map some)
    (hw : ∀ s ∈ initial, SpansOk s) (hed : ∀ s ∈ initial, editsOf s ≠ [])
    (h : fixedPoint parse find text initial a b n = .ok out) (hout : out ≠ []) :
    ∃ k t p more all, k ≤ n ∧ Rounds parse find k (slice text a b) rels t more all ∧
      applySubstitutions text out = .ok (text.take a ++ t ++ text.drop b) ∧
      parse t = .ok p ∧ find p = .ok more ∧
      (k < n → more = [] ∨ ∃ u, applySubstitutions t more = .ok u ∧ parse u = .error .parseError) := by
  obtain ⟨k, t, pending, all, h1, h2, h3, h4⟩ := fixedPoint_core parse find text initial rels out a b n hn hne hrel h
  have hk : 1 ≤ k := by
    rcases h3 with ⟨_, h3⟩ | ⟨h3, _⟩ | ⟨h3, _⟩
    · exact absurd h3 hout
    · omega
    · omega
  obtain ⟨p, hp, hf⟩ := h2.last hk
  refine ⟨k, t, p, pending, all, h1, h2, ?_, hp, hf, ?_⟩
  · rcases h3 with ⟨_, h3⟩ | ⟨h3, h5⟩ | ⟨h3, s, h5, h6⟩
    · exact absurd h3 hout
    · subst h3
      rw [h5, C05_relative_commutes_list text initial rels a b hab hw hed hrel]
      cases h2 with
      | round _ happly _ _ rest => cases rest; rw [happly]; rfl
    · rw [h5]; exact apply_merged text s a b t hab h6
  · intro hlt
    rcases h4 with h4 | h4
    · omega
    · exact h4

/-- Example: a searcher that turns A into B and B into C, run on the chunk `[1, 2)` of "(A)". -/
def exFind (p : ParsedFile) : Except Exc (List Substitution) :=
  match p.text with
  | ['A'] => .ok [{ matchedSpans := [(str "r", (0, 1))], primaryLabel := str "r", replacements := some [(str "r", ['B'])] }]
  | ['B'] => .ok [{ matchedSpans := [(str "r", (0, 1))], primaryLabel := str "r", replacements := some [(str "r", ['C'])] }]
  | _ => .ok []
def exInitial : Substitution :=
  { matchedSpans := [(str "r", (1, 2))], primaryLabel := str "r", replacements := some [(str "r", ['B'])], keySpan := some (1, 2) }
def exRel : Substitution := { exInitial with matchedSpans := [(str "r", (0, 1))] }
example : [exInitial].map (fun s => s.relativeToSpan 1 2) = [exRel].map some ∧ SpansOk exInitial ∧ editsOf exInitial ≠ [] ∧
    (∃ s, fixedPoint (fun t => .ok ⟨t, [], []⟩) exFind (str "(A)") [exInitial] 1 2 10 = .ok [s] ∧ MergedInto s 1 2 ['C']) :=
  ⟨by decide, by unfold SpansOk; decide, by decide, _, rfl, compile_merged _ _ _ _⟩

/-! ### C22 -/

theorem groupByKey_head {α κ : Type} [DecidableEq κ] (key : α → κ) (x : α) (xs : List α) :
    ∃ g gs, groupByKey key (x :: xs) = (key x, x :: g) :: gs := by
  simp only [groupByKey]
  cases groupByKey key xs with
  | nil => exact ⟨[], [], rfl⟩
  | cons g gs =>
    obtain ⟨k, g⟩ := g
    by_cases h : key x = k
    · exact ⟨g, gs, by simp [h]⟩
    · exact ⟨[], (k, g) :: gs, by simp [h]⟩

/-- C22, groups are exactly the maximal runs of equal key. -/
theorem C22_grouping {α κ : Type} [DecidableEq κ] (key : α → κ) (l : List α) : IsGrouping key l (groupByKey key l) := by
  induction l with
  | nil =>
    refine ⟨rfl, by simp [groupByKey], ?_⟩
    intro pre g h post he
    simp [groupByKey] at he
  | cons x xs ih =>
    obtain ⟨h1, h2, h3⟩ := ih
    simp only [groupByKey]
    cases hg : groupByKey key xs with
    | nil =>
      rw [hg] at h1
      simp only [List.flatMap_nil] at h1
      subst h1
      refine ⟨by simp, by simp, ?_⟩
      intro pre g h post he
      have := congrArg List.length he
      simp at this
      omega
    | cons g gs =>
      obtain ⟨k, g⟩ := g
      rw [hg] at h1 h2 h3
      by_cases h : key x = k
      · simp only [h, if_true]
        refine ⟨by simpa using h1, ?_, ?_⟩
        · intro q hq
          rcases List.mem_cons.1 hq with rfl | hq
          · refine ⟨by simp, ?_⟩
            intro y hy
            rcases List.mem_cons.1 hy with rfl | hy
            · exact h
            · exact (h2 (k, g) (by simp)).2 y hy
          · exact h2 q (by simp [hq])
        · intro pre q r post he
          cases pre with
          | nil =>
            simp only [List.nil_append, List.cons.injEq] at he
            obtain ⟨he1, he2⟩ := he
            have := h3 [] (k, g) r post (by simp [he2])
            rw [← he1]; exact this
          | cons y ys =>
            simp only [List.cons_append, List.cons.injEq] at he
            exact h3 ((k, g) :: ys) q r post (by simp [he.2])
      · simp only [h, if_false]
        refine ⟨by simpa using h1, ?_, ?_⟩
        · intro q hq
          rcases List.mem_cons.1 hq with rfl | hq
          · simp
          · exact h2 q hq
        · intro pre q r post he
          cases pre with
          | nil =>
            simp only [List.nil_append, List.cons.injEq] at he
            obtain ⟨he1, he2, _⟩ := he
            rw [← he1, ← he2]; exact h
          | cons y ys =>
            simp only [List.cons_append, List.cons.injEq] at he
            exact h3 ys q r post he.2

/-- What `find_iter` yields for one group. -/
def GroupOutcome (parse : Str → Except Exc ParsedFile) (find : ParsedFile → Except Exc (List Substitution))
    (text : Str) (n : Nat) (g : Option Span × List Substitution) (out : List Substitution) : Prop :=
  match g.1 with
  | none => out = g.2
  | some (a, b) => fixedPoint parse find text g.2 a b n = .ok out

theorem findIterGroups_ok (parse : Str → Except Exc ParsedFile) (find : ParsedFile → Except Exc (List Substitution))
    (text : Str) (n : Nat) (gs : List (Option Span × List Substitution)) (out : List Substitution) :
    findIterGroups parse find text n gs = .ok out →
      ∃ outs : List (List Substitution), outs.length = gs.length ∧ out = outs.flatten ∧
        ∀ go ∈ gs.zip outs, GroupOutcome parse find text n go.1 go.2 := by
  induction gs generalizing out with
  | nil => intro h; cases h; exact ⟨[], rfl, rfl, by simp⟩
  | cons g gs ih =>
    obtain ⟨k, g⟩ := g
    intro h
    cases k with
    | none =>
      simp only [findIterGroups] at h
      split at h
      · cases h
      · rename_i o ho
        cases h
        obtain ⟨outs, h1, h2, h3⟩ := ih _ ho
        refine ⟨g :: outs, by simp [h1], by simp [h2], ?_⟩
        intro go hgo
        rcases List.mem_cons.1 hgo with rfl | hgo
        · simp [GroupOutcome]
        · exact h3 go hgo
    | some s =>
      obtain ⟨a, b⟩ := s
      simp only [findIterGroups] at h
      split at h
      · cases h
      · rename_i o ho
        split at h
        · cases h
        · rename_i o' ho'
          cases h
          obtain ⟨outs, h1, h2, h3⟩ := ih _ ho'
          refine ⟨o :: outs, by simp [h1], by simp [h2], ?_⟩
          intro go hgo
          rcases List.mem_cons.1 hgo with rfl | hgo
          · exact ho
          · exact h3 go hgo

/-- C22. `find_iter` yields the concatenation, in order, of one outcome per maximal run of equal key span of the
searcher's substitutions; a run without key span is its own outcome. -/
theorem C22_find_iter_by_groups (parseAst : Str → Str → Except Exc ParsedFile) (s : Searcher) (data path : Str) (n : Nat)
    (out : List Substitution) (h : findIter parseAst s data path n = .ok out) :
    ∃ parsed subs gs, ∃ outs : List (List Substitution), s.included path = .ok () ∧ s.parse data path = .ok parsed ∧
      s.find parsed = .ok subs ∧ IsGrouping (fun x => x.keySpan) subs gs ∧ outs.length = gs.length ∧
      out = outs.flatten ∧
      ∀ go ∈ gs.zip outs, GroupOutcome (fun t => parseAst t parsed.path) s.find parsed.text n go.1 go.2 := by
  unfold findIter at h
  split at h
  · cases h
  · rename_i hi
    split at h
    · cases h
    · rename_i parsed hp
      split at h
      · cases h
      · rename_i subs hs
        obtain ⟨outs, h1, h2, h3⟩ := findIterGroups_ok _ _ _ _ _ _ h
        exact ⟨parsed, subs, _, outs, hi, hp, hs, C22_grouping _ _, h1, h2, h3⟩

/-- C22. Without iteration `find_iter` yields exactly the searcher's substitutions, in order. -/
theorem C22_no_iteration_identity (parseAst : Str → Str → Except Exc ParsedFile) (s : Searcher) (data path : Str) (n : Nat)
    (parsed : ParsedFile) (subs : List Substitution) (hn : n ≤ 1 ∨ ∀ x ∈ subs, x.keySpan = none)
    (hi : s.included path = .ok ()) (hp : s.parse data path = .ok parsed) (hf : s.find parsed = .ok subs) :
    findIter parseAst s data path n = .ok subs := by
  unfold findIter
  rw [hi, hp]
  simp only
  rw [hf]
  simp only
  obtain ⟨h1, h2, _⟩ := C22_grouping (fun x : Substitution => x.keySpan) subs
  have key : ∀ gs : List (Option Span × List Substitution), (n ≤ 1 ∨ ∀ g ∈ gs, g.1 = none) →
      findIterGroups (fun t => parseAst t parsed.path) s.find parsed.text n gs = .ok (gs.flatMap Prod.snd) := by
    intro gs
    induction gs with
    | nil => intro _; rfl
    | cons g gs ih =>
      obtain ⟨k, g⟩ := g
      intro hg
      have ih' := ih (hg.imp id fun hg q hq => hg q (by simp [hq]))
      cases k with
      | none => simp only [findIterGroups, ih', List.flatMap_cons]
      | some ab =>
        obtain ⟨a, b⟩ := ab
        rcases hg with hg | hg
        · simp only [findIterGroups, fixedPoint, hg, if_true, ih', List.flatMap_cons]
        · exact absurd (hg (some (a, b), g) (by simp)) (by simp)
  rw [key _ (hn.imp id ?_), h1]
  intro hn' g hg
  obtain ⟨hne, hk⟩ := h2 g hg
  obtain ⟨x, xs, hx⟩ := List.exists_cons_of_ne_nil hne
  rw [← hk x (by simp [hx])]
  apply hn'
  rw [← h1]
  exact List.mem_flatMap.2 ⟨g, hg, by simp [hx]⟩

example : (groupByKey (fun x : Substitution => x.keySpan) [exInitial, exInitial, exRel, { exRel with keySpan := none }]).map
    (fun g => (g.1, g.2.length)) = [(some (1, 2), 3), (none, 1)] := by decide

/-! ### C23 -/

/-- The substitutions that count for the metadata: the significant ones, or all if there are none. -/
def Counts (subs : List Substitution) (s : Substitution) : Prop :=
  s ∈ subs ∧ (s.significant = true ∨ ∀ x ∈ subs, x.significant = false)

theorem mem_sig (subs : List Substitution) (s : Substitution) :
    s ∈ sigSubs subs ↔ Counts subs s := by
  unfold Counts sigSubs
  split
  · rename_i h
    have h := List.isEmpty_iff.1 h
    rw [List.filter_eq_nil_iff] at h
    constructor
    · intro hs; exact ⟨hs, Or.inr fun x hx => by simpa using h x hx⟩
    · exact fun hs => hs.1
  · rename_i h
    rw [List.mem_filter]
    constructor
    · rintro ⟨h1, h2⟩; exact ⟨h1, Or.inl h2⟩
    · rintro ⟨h1, h2 | h2⟩
      · exact ⟨h1, h2⟩
      · exfalso
        apply h
        rw [List.isEmpty_iff, List.filter_eq_nil_iff]
        intro x hx; simp [h2 x hx]

/-- C23, significance and category: significant iff one of the parts is; the category says which. -/
theorem C23_significance (subs : List Substitution) (a b : Nat) (t : Str) :
    let r := compileSubstitutions subs a b t
    (r.significant = true ↔ ∃ s ∈ subs, s.significant = true) ∧
    r.category = some (if r.significant then str "refex.merged.significant" else str "refex.merged.not-significant") := by
  have h1 : (compileSubstitutions subs a b t).significant = !(subs.filter (fun s => s.significant)).isEmpty := rfl
  have h2 : (compileSubstitutions subs a b t).category =
    some (str "refex.merged." ++ if (compileSubstitutions subs a b t).significant then str "significant" else str "not-significant") := rfl
  refine ⟨?_, ?_⟩
  · rw [h1, Bool.not_eq_true', ← Bool.not_eq_true, List.isEmpty_iff, List.filter_eq_nil_iff]
    simp
  · rw [h2]
    cases (compileSubstitutions subs a b t).significant <;> simp <;> decide

theorem dedup_singleton {α : Type} [DecidableEq α] (l : List α) (u : α) :
    dedup l = [u] ↔ l ≠ [] ∧ ∀ x ∈ l, x = u := by
  cases l with
  | nil => simp [dedup]
  | cons y ys =>
    simp only [dedup, List.cons.injEq, ne_eq, reduceCtorEq, not_false_eq_true, true_and, List.mem_cons, forall_eq_or_imp]
    constructor
    · rintro ⟨rfl, h⟩
      refine ⟨rfl, fun x hx => ?_⟩
      rw [List.filter_eq_nil_iff] at h
      have := h x ((mem_dedup ys x).2 hx)
      simpa using this
    · rintro ⟨rfl, h⟩
      refine ⟨rfl, ?_⟩
      rw [List.filter_eq_nil_iff]
      intro x hx
      simpa using h x ((mem_dedup ys x).1 hx)

theorem sigSubs_ne (subs : List Substitution) (hne : subs ≠ []) : sigSubs subs ≠ [] := by
  unfold sigSubs
  split
  · exact hne
  · rename_i h; exact fun h' => h (List.isEmpty_iff.2 h')

theorem sig_urls (subs : List Substitution) (hne : subs ≠ []) (u : Option Str) :
    dedup ((sigSubs subs).map (fun s => s.url)) = [u] ↔ ∀ s, Counts subs s → s.url = u := by
  rw [dedup_singleton]
  constructor
  · rintro ⟨_, h⟩ s hs
    exact h _ (List.mem_map.2 ⟨s, (mem_sig subs s).2 hs, rfl⟩)
  · intro h
    refine ⟨by simpa using sigSubs_ne subs hne, ?_⟩
    intro x hx
    obtain ⟨s, hs, rfl⟩ := List.mem_map.1 hx
    exact h s ((mem_sig subs s).1 hs)

/-- C23, URL: the common URL of the substitutions that count if they all have the same, otherwise the generic page. -/
theorem C23_url (subs : List Substitution) (hne : subs ≠ []) (a b : Nat) (t : Str) :
    (∀ u, (∀ s, Counts subs s → s.url = u) → (compileSubstitutions subs a b t).url = u) ∧
    ((¬ ∃ u, ∀ s, Counts subs s → s.url = u) → (compileSubstitutions subs a b t).url =
      some (str "https://refex.readthedocs.io/en/latest/guide/fixers/merged.html")) := by
  have hurl : (compileSubstitutions subs a b t).url = (compileMessages (sigSubs subs)).1 := rfl
  rw [hurl]
  unfold compileMessages
  constructor
  · intro u hu
    rw [(sig_urls subs hne u).2 hu]
    simp only
    split <;> rfl
  · intro hno
    split
    · rename_i u hd
      exact absurd ⟨u, (sig_urls subs hne u).1 hd⟩ hno
    · rfl

/-- C23, insignificant substitutions leave no trace in the metadata when a significant one is merged. -/
theorem C23_insignificant_ignored (subs : List Substitution) (a b : Nat) (t : Str)
    (h : ∃ s ∈ subs, s.significant = true) :
    compileSubstitutions subs a b t = compileSubstitutions (subs.filter (fun s => s.significant)) a b t := by
  have h1 : (subs.filter (fun s => s.significant)).isEmpty = false := by
    rw [Bool.eq_false_iff, ne_eq, List.isEmpty_iff, List.filter_eq_nil_iff]
    obtain ⟨s, hs, hs'⟩ := h
    intro h'
    exact h' s hs hs'
  have h2 : sigSubs subs = sigSubs (subs.filter (fun s => s.significant)) := by
    unfold sigSubs
    simp only [List.filter_filter, Bool.and_self, h1, Bool.false_eq_true, if_false]
  simp only [compileSubstitutions, List.filter_filter, Bool.and_self, h1, h2]

/-- A message that counts: present and not empty. -/
def HasMessage (s : Substitution) (m : Str) : Prop := s.message = some m ∧ m ≠ []

theorem mem_truthy (subs : List Substitution) (m : Str) :
    m ∈ truthyMessages subs ↔ ∃ s ∈ subs, HasMessage s m := by
  unfold truthyMessages HasMessage
  rw [List.mem_filterMap]
  constructor
  · rintro ⟨s, hs, h⟩
    refine ⟨s, hs, ?_⟩
    split at h
    · cases h
    · cases h
    · rename_i h2 h1
      cases h
      exact ⟨h1, h2⟩
  · rintro ⟨s, hs, h1, h2⟩
    refine ⟨s, hs, ?_⟩
    rw [h1]
    cases m with
    | nil => exact absurd rfl h2
    | cons c cs => rfl

/-- C23, messages of substitutions with a common URL: none if there is none, the message itself if they all agree. -/
theorem C23_message_same_url (subs : List Substitution) (hne : subs ≠ []) (a b : Nat) (t : Str)
    (hu : ∃ u, ∀ s, Counts subs s → s.url = u) :
    ((∀ s m, Counts subs s → ¬ HasMessage s m) → (compileSubstitutions subs a b t).message = none) ∧
    (∀ m, (∃ s, Counts subs s ∧ HasMessage s m) → (∀ s m', Counts subs s → HasMessage s m' → m' = m) →
      (compileSubstitutions subs a b t).message = some m) := by
  obtain ⟨u, hu⟩ := hu
  have hm : (compileSubstitutions subs a b t).message =
      joinMessages (compileMessages (sigSubs subs)).2.1 (compileMessages (sigSubs subs)).2.2 := rfl
  rw [hm]
  unfold compileMessages
  rw [(sig_urls subs hne u).2 hu]
  simp only
  constructor
  · intro hno
    have : truthyMessages (sigSubs subs) = [] := by
      cases ht : truthyMessages (sigSubs subs) with
      | nil => rfl
      | cons m ms =>
        have hmem : m ∈ truthyMessages (sigSubs subs) := by rw [ht]; simp
        obtain ⟨s, hs, h⟩ := (mem_truthy _ m).1 hmem
        exact absurd h (hno s m ((mem_sig subs s).1 hs))
    rw [this]; rfl
  · intro m hex hall
    have h1 : dedup (truthyMessages (sigSubs subs)) = [m] := by
      rw [dedup_singleton]
      constructor
      · obtain ⟨s, hs, h⟩ := hex
        have := (mem_truthy (sigSubs subs) m).2 ⟨s, (mem_sig subs s).2 hs, h⟩
        intro h0; rw [h0] at this; cases this
      · intro x hx
        obtain ⟨s, hs, h⟩ := (mem_truthy (sigSubs subs) x).1 hx
        exact hall s x ((mem_sig subs s).1 hs) h
    rw [h1]
    have h2 := (dedup_singleton _ _).1 h1
    obtain ⟨x, xs, hx⟩ := List.exists_cons_of_ne_nil h2.1
    have : x = m := h2.2 x (by rw [hx]; simp)
    rw [hx, this]
    rfl

/-- Spec: how a message is shown when substitutions with different URLs are merged. -/
def shownMessage : Option Str → Str
  | some (c :: cs) => c :: cs
  | _ => str "(no message)"

/-- Spec: the substitutions that count, in order, as often as they occur. -/
def CountedIn (subs counted : List Substitution) : Prop :=
  ∃ p : Substitution → Bool, (∀ s ∈ subs, p s = true ↔ Counts subs s) ∧ counted = subs.filter p

theorem sigSubs_counted (subs : List Substitution) : CountedIn subs (sigSubs subs) := by
  unfold sigSubs
  split
  · rename_i h
    have h := List.filter_eq_nil_iff.1 (List.isEmpty_iff.1 h)
    refine ⟨fun _ => true, fun s hs => ⟨fun _ => ⟨hs, .inr fun x hx => by simpa using h x hx⟩, fun _ => rfl⟩, (List.filter_eq_self.2 fun _ _ => rfl).symm⟩
  · rename_i h
    refine ⟨fun s => s.significant, fun s hs => ⟨fun h1 => ⟨hs, .inl h1⟩, ?_⟩, rfl⟩
    rintro ⟨_, h1 | h1⟩
    · exact h1
    · refine absurd (List.isEmpty_iff.2 (List.filter_eq_nil_iff.2 fun x hx => ?_)) h
      simp [h1 x hx]

/-- C23, messages of substitutions with a common URL, two of which differ: each that there is (and is not empty) is listed, in order. -/
theorem C23_message_several (subs : List Substitution) (hne : subs ≠ []) (a b : Nat) (t : Str)
    (hu : ∃ u, ∀ s, Counts subs s → s.url = u)
    (hm : ∃ s s' m m', Counts subs s ∧ Counts subs s' ∧ HasMessage s m ∧ HasMessage s' m' ∧ m ≠ m') :
    ∃ counted : List Substitution, CountedIn subs counted ∧
      (compileSubstitutions subs a b t).message = some (str "There are a few findings here:\n\n" ++
        joinWith (str "\n\n") (counted.filterMap fun s => s.message.filter fun m => !m.isEmpty)) := by
  obtain ⟨u, hu⟩ := hu
  obtain ⟨s, s', m, m', hs, hs', h, h', hmm⟩ := hm
  refine ⟨sigSubs subs, sigSubs_counted subs, ?_⟩
  have hme : (compileSubstitutions subs a b t).message =
      joinMessages (compileMessages (sigSubs subs)).2.1 (compileMessages (sigSubs subs)).2.2 := rfl
  rw [hme]
  unfold compileMessages
  rw [(sig_urls subs hne u).2 hu]
  simp only
  have h1 := (mem_truthy (sigSubs subs) m).2 ⟨s, (mem_sig subs s).2 hs, h⟩
  have h2 := (mem_truthy (sigSubs subs) m').2 ⟨s', (mem_sig subs s').2 hs', h'⟩
  rw [if_neg]
  · have e : truthyMessages (sigSubs subs) = (sigSubs subs).filterMap fun s => s.message.filter fun m => !m.isEmpty := by
      unfold truthyMessages
      congr 1
      funext x
      cases x.message with
      | none => rfl
      | some m => cases m <;> rfl
    rw [← e]
    unfold joinMessages findingsHeader
    rw [if_neg]
    intro h0
    have h0 : truthyMessages (sigSubs subs) = [] := List.isEmpty_iff.1 h0
    rw [h0] at h1
    cases h1
  · intro hl
    obtain ⟨x, hx⟩ := List.length_eq_one_iff.1 hl
    have := ((dedup_singleton _ _).1 hx).2
    exact hmm ((this m h1).trans (this m' h2).symm)

/-- C23, messages of substitutions with different URLs: every one that counts is listed, in order, with its URL. -/
theorem C23_message_different_urls (subs : List Substitution) (hne : subs ≠ []) (a b : Nat) (t : Str)
    (hu : ¬ ∃ u, ∀ s, Counts subs s → s.url = u) :
    ∃ counted : List Substitution, CountedIn subs counted ∧
      (compileSubstitutions subs a b t).message = some (str "There are a few findings here:\n\n" ++
        joinWith (str "\n\n") (counted.map fun s =>
          shownMessage s.message ++ str "\n(" ++ (s.url.getD (str "None")) ++ str ")")) := by
  refine ⟨sigSubs subs, sigSubs_counted subs, ?_⟩
  · have hm : (compileSubstitutions subs a b t).message =
      joinMessages (compileMessages (sigSubs subs)).2.1 (compileMessages (sigSubs subs)).2.2 := rfl
    rw [hm]
    unfold compileMessages
    split
    · rename_i u hd
      exact absurd ⟨u, (sig_urls subs hne u).1 hd⟩ hu
    · have e1 : ∀ o, orElse o (str "(no message)") = shownMessage o := by
        intro o
        cases o with
        | none => rfl
        | some m => cases m <;> rfl
      have e2 : ∀ o, fmtOpt o = o.getD (str "None") := by intro o; cases o <;> rfl
      simp only [e1, e2]
      unfold joinMessages findingsHeader
      rw [if_neg (by simpa using sigSubs_ne subs hne)]

def exSig : Substitution := { exRel with significant := true, message := some (str "use B"), url := some (str "u") }
example : compileSubstitutions [exSig, { exRel with significant := false, message := some (str "meh") }, exSig] 1 2 ['C'] =
    { matchedSpans := [(str "fixedpoint", (1, 2))], primaryLabel := str "fixedpoint",
      replacements := some [(str "fixedpoint", ['C'])], message := some (str "use B"), url := some (str "u"),
      significant := true, category := some (str "refex.merged.significant") } := by decide
-- The hypotheses of C23_message_several are met.
example : (compileSubstitutions [exSig, { exSig with message := some (str "or D") }, { exSig with message := none }, exSig] 1 2 ['C']).message =
    some (str "There are a few findings here:\n\nuse B\n\nor D\n\nuse B") := by decide
end Refex
