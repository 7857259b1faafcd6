import Verif.Spec.Layout
import Verif.Spec.Common
import Verif.Props.Filling
/- C48 and C53 on texts: `untokenize` gives back the text it was given the tokens of, and so the text of a renamed pattern or a
filled template is the text of the pattern or template but for the `$variables`. -/
namespace Refex
set_option autoImplicit false

/-- What `untokenize` knows when it has come to a place. -/
structure UntokState.AtPlace (st : UntokState) (pos : Nat × Nat) (inds : List Nat) : Prop where
  row : st.prevRow = pos.1
  blocks : st.indents = inds.map (List.replicate · ' ')
  mid : st.startline = true → inds = [] ∨ pos.2 = 0
  first : pos.2 = 0 → pos.1 = 1 ∨ st.startline = true
  col : st.prevCol = pos.2

/-- ... after the end of blocks. -/
structure UntokState.AfterDedent (st : UntokState) (pos : Nat × Nat) (inds : List Nat) : Prop where
  row : st.prevRow = pos.1
  blocks : st.indents = inds.map (List.replicate · ' ')
  start : st.startline = true
  zero : pos.2 = 0
  late : 1 < pos.1
  col : st.prevCol = inds.headD 0

theorem spaces_append (a b : Nat) : List.replicate a ' ' ++ List.replicate b ' ' = List.replicate (a + b) ' ' :=
  List.replicate_append_replicate

theorem untok_layout {pos : Nat × Nat} {inds : List Nat} {ts : List PTok} {ps : List (Str × Str)} (h : Layout pos inds ts ps) :
    ∀ st : UntokState, (st.AtPlace pos inds ∨ (st.AfterDedent pos inds ∧
      ∀ u, ts.head? = some u → u.kind = .dedent ∨ u.kind = .endmarker ∨ (u.kind = .other ∧ u.start = (pos.1, inds.headD 0)))) →
      untokPieces st ts = some ps := by
  induction h with
  | nil => intro st _; rfl
  | stop h1 h2 => intro st _; rw [untokPieces.eq_def]; simp only [h1]
  | @indent pos inds t ts ps n h1 h2 h3 _ ih =>
    intro st hst
    rw [untokPieces.eq_def]
    simp only [h1]
    rcases hst with hst | ⟨_, hst⟩
    · refine ih _ (.inl ⟨hst.row, ?_, fun _ => .inr h3, hst.first, hst.col⟩)
      simp [hst.blocks, h2]
    · have := hst t rfl
      simp [h1] at this
  | @dedent pos inds t ts ps h1 h2 h3 h4 h5 h6 _ ih =>
    intro st hst
    rw [untokPieces.eq_def]
    simp only [h1]
    refine ih _ (.inr ⟨⟨by simp [h5], ?_, ?_, h3, h4, by simp [h5]⟩, ?_⟩)
    · rcases hst with hst | ⟨hst, _⟩ <;> simp [hst.blocks, List.map_tail]
    · rcases hst with hst | ⟨hst, _⟩
      · rcases hst.first h3 with h | h
        · omega
        · exact h
      · exact hst.start
    · intro u hu
      have := h6 u hu
      rw [h5] at this; exact this
  | @line pos inds t ts ps g h1 h2 h3 h4 _ ih =>
    intro st hst
    have hst : st.AtPlace pos inds := by
      rcases hst with hst | ⟨_, hst⟩
      · exact hst
      · have := hst t rfl
        rcases h1 with h1 | h1 <;> simp [h1] at this
    rw [untokPieces.eq_def]
    have hr : t.start.1 = st.prevRow := by rw [h3, hst.row]
    have hc : t.start.2 = st.prevCol + g := by rw [h3, hst.col]
    have key : ∀ st' : UntokState, st'.indents = st.indents → st'.startline = true → st'.prevRow = t.stop.1 + 1 → st'.prevCol = 0 →
        untokPieces st' ts = some ps := fun st' e1 e2 e3 e4 =>
      ih st' (.inl ⟨by simp [e3, h4], by rw [e1, hst.blocks], fun _ => .inr rfl, fun _ => .inr e2, by simp [e4]⟩)
    rcases h1 with h1 | h1 <;> simp only [h1] <;> simp [hr, hc] <;> rw [key] <;> simp
  | @token pos inds t ts ps g h1 h3 h4 h5 _ ih =>
    intro st hst
    rw [untokPieces.eq_def]
    simp only [h1]
    have key : ∀ st' : UntokState, st'.indents = st.indents → (st'.startline = true → inds = []) → st'.prevRow = t.stop.1 →
        st'.prevCol = t.stop.2 → st.indents = inds.map (List.replicate · ' ') → untokPieces st' ts = some ps := fun st' e1 e2 e3 e4 e5 =>
      ih st' (.inl ⟨by simp [e3], by rw [e1, e5], fun h => .inl (e2 h), fun h => by omega, by simp [e4]⟩)
    rcases hst with hst | ⟨hst, hn⟩
    · have hr : t.start.1 = st.prevRow := by rw [h3, hst.row]
      have hc : t.start.2 = st.prevCol + g := by rw [h3, hst.col]
      cases inds with
      | nil =>
        have e : st.indents = [] := hst.blocks
        simp only [e]
        cases hs : st.startline <;> simp [hr, hc] <;> rw [key] <;> simp [e, hs]
      | cons n inds =>
        have e : st.indents = List.replicate n ' ' :: inds.map (List.replicate · ' ') := hst.blocks
        simp only [e]
        cases hs : st.startline with
        | false => simp [hr, hc]; rw [key] <;> simp [e, hs]
        | true =>
          have h0 : st.prevCol = 0 := by
            rw [hst.col]
            rcases hst.mid hs with h | h
            · cases h
            · exact h
          simp only [h0, Nat.zero_add] at hc
          by_cases hg : n ≤ g
          · simp [hr, hc, h0, hg]
            rw [key] <;> simp [e, hs]
          · simp [hr, hc, h0, hg]
            rw [key] <;> simp [e, hs]
    · have hs := hn t rfl
      simp only [h1, reduceCtorEq, true_and, false_or] at hs
      have hg : g = inds.headD 0 := by
        have := h3.symm.trans hs
        simp only [hst.zero, Nat.zero_add, Prod.mk.injEq] at this; exact this.2
      have hr : t.start.1 = st.prevRow := by rw [h3, hst.row]
      have hc : t.start.2 = st.prevCol := by rw [hs, hst.col]
      cases inds with
      | nil =>
        have e : st.indents = [] := hst.blocks
        simp only [e]
        simp only [List.headD_nil] at hg
        simp [hst.start, hr, hc]; rw [key] <;> simp [e, hg]
      | cons n inds =>
        have e : st.indents = List.replicate n ' ' :: inds.map (List.replicate · ' ') := hst.blocks
        simp only [e]
        simp only [List.headD_cons] at hg
        have hk := hst.col
        simp only [List.headD_cons] at hk
        simp [hst.start, hr, hc, hk]; rw [key] <;> simp [e, hg]

/-- **C48**: making text of tokens again gives the text the tokens are of. -/
theorem C48_untokenize_text {ts : List PTok} {ps : List (Str × Str)} (h : Layout (1, 0) [] ts ps) : untokenize ts = some (textOf ps) := by
  unfold untokenize
  rw [untok_layout h {} (.inl ⟨rfl, rfl, fun _ => .inl rfl, fun _ => .inl rfl, rfl⟩)]
  rfl

/-- A token as it was read, and what it has become: only a marked one may have another string. -/
def TokAgrees (p : PTok × Bool) (u : PTok) : Prop := u = { p.1 with string := u.string } ∧ (p.2 = false → u = p.1)

/-- The marked tokens and what has become of their strings. -/
def occurrences : List (PTok × Bool) → List PTok → List (Str × Str)
  | (t, true) :: m, u :: us => (t.string, u.string) :: occurrences m us
  | (_, false) :: m, _ :: us => occurrences m us
  | _, _ => []

theorem Layout.last {pos : Nat × Nat} {inds : List Nat} {pre : List PTok} {nl em : PTok} {ps : List (Str × Str)}
    (hnl : nl.string = str "\n") (hem : em.kind = .endmarker) (hes : em.string = [])
    (h : Layout pos inds (pre ++ [nl, em]) ps) : ∃ qs g, ps = qs ++ [(g, str "\n")] ∧ Layout pos inds (pre ++ [em]) qs := by
  generalize hts : pre ++ [nl, em] = ts at h
  induction h generalizing pre with
  | nil => simp at hts
  | stop h1 h2 =>
    have := congrArg List.length hts
    simp at this
  | @indent pos inds t ts ps n h1 h2 h3 _ ih =>
    cases pre with
    | nil =>
      simp only [List.nil_append, List.cons.injEq] at hts
      obtain ⟨rfl, _⟩ := hts
      rw [hnl] at h2
      cases n with
      | zero => simp [str] at h2
      | succ n => simp [str, List.replicate_succ] at h2
    | cons p pre =>
      simp only [List.cons_append, List.cons.injEq] at hts
      obtain ⟨rfl, hts⟩ := hts
      obtain ⟨qs, g, e, hl⟩ := ih hts
      exact ⟨qs, g, e, .indent n h1 h2 h3 hl⟩
  | @dedent pos inds t ts ps h1 h2 h3 h4 h5 h6 _ ih =>
    cases pre with
    | nil =>
      simp only [List.nil_append, List.cons.injEq] at hts
      obtain ⟨rfl, _⟩ := hts
      rw [hnl] at h2; cases h2
    | cons p pre =>
      simp only [List.cons_append, List.cons.injEq] at hts
      obtain ⟨rfl, hts⟩ := hts
      obtain ⟨qs, g, e, hl⟩ := ih hts
      refine ⟨qs, g, e, .dedent h1 h2 h3 h4 h5 ?_ hl⟩
      intro u hu
      cases pre with
      | nil => cases hu; exact .inr (.inl hem)
      | cons q pre => cases hu; exact h6 _ (by rw [← hts]; rfl)
  | @line pos inds t ts ps g h1 h2 h3 h4 h5 ih =>
    cases pre with
    | nil =>
      simp only [List.nil_append, List.cons.injEq] at hts
      obtain ⟨rfl, rfl⟩ := hts
      rw [hnl]
      cases h5 with
      | stop _ _ => exact ⟨[], _, rfl, .stop hem hes⟩
      | indent n g1 => rw [hem] at g1; cases g1
      | dedent g1 => rw [hem] at g1; cases g1
      | line n g1 => rw [hem] at g1; rcases g1 with g1 | g1 <;> cases g1
      | token n g1 => rw [hem] at g1; cases g1
    | cons p pre =>
      simp only [List.cons_append, List.cons.injEq] at hts
      obtain ⟨rfl, hts⟩ := hts
      obtain ⟨qs, g', e, hl⟩ := ih hts
      exact ⟨(List.replicate g ' ', p.string) :: qs, g', by rw [e]; rfl, .line g h1 h2 h3 h4 hl⟩
  | @token pos inds t ts ps g h1 h2 h3 h4 h5 ih =>
    cases pre with
    | nil =>
      simp only [List.nil_append, List.cons.injEq] at hts
      obtain ⟨rfl, rfl⟩ := hts
      rw [hnl]
      cases h5 with
      | stop _ _ => exact ⟨[], _, rfl, .stop hem hes⟩
      | indent n g1 => rw [hem] at g1; cases g1
      | dedent g1 => rw [hem] at g1; cases g1
      | line n g1 => rw [hem] at g1; rcases g1 with g1 | g1 <;> cases g1
      | token n g1 => rw [hem] at g1; cases g1
    | cons p pre =>
      simp only [List.cons_append, List.cons.injEq] at hts
      obtain ⟨rfl, hts⟩ := hts
      obtain ⟨qs, g', e, hl⟩ := ih hts
      exact ⟨(List.replicate g ' ', p.string) :: qs, g', by rw [e]; rfl, .token g h1 h2 h3 h4 hl⟩

theorem textOf_cons (p : Str × Str) (ps : List (Str × Str)) : textOf (p :: ps) = p.1 ++ p.2 ++ textOf ps := by
  simp [textOf]

theorem not_variable_spaces (n : Nat) : isVariable (List.replicate n ' ') = false := by
  cases n with
  | zero => rfl
  | succ n => rw [List.replicate_succ]; show (isIdStart ' ' && (List.replicate n ' ').all isIdChar) = false; rw [show isIdStart ' ' = false by decide]; rfl

/-- The text of the marked tokens, some renamed. -/
theorem layout_replaces {toks : List PTok} {m : List (PTok × Bool)} (hm : Marked toks m) : ∀ (pos : Nat × Nat) (inds : List Nat)
    (ps : List (Str × Str)) (us : List PTok), Layout pos inds toks ps → Sized toks → Forall2 TokAgrees m us →
    ∃ qs kept, Layout pos inds us qs ∧ Replaces ps (occurrences m us) kept (textOf qs) ∧ (∀ s ∈ kept, ∃ t, (t, false) ∈ m ∧ t.string = s) ∧
      (∀ u, us.head? = some u → ∃ t, toks.head? = some t ∧ t.kind = u.kind ∧ t.start = u.start) := by
  induction hm with
  | nil =>
    intro pos inds ps us h _ hu
    cases hu; cases h
    exact ⟨[], [], .nil, .nil, by simp, by simp⟩
  | @plain t ts m h1 hm ih =>
    intro pos inds ps us h hz hu
    cases hu with
    | @cons _ u _ us hag hu =>
      obtain rfl : u = t := hag.2 rfl
      have hz' : Sized ts := fun v hv => hz v (List.mem_cons_of_mem _ hv)
      have head : ∀ v, (u :: us).head? = some v → ∃ t, (u :: ts).head? = some t ∧ t.kind = v.kind ∧ t.start = v.start := by
        intro v hv; cases hv; exact ⟨_, rfl, rfl, rfl⟩
      cases h with
      | stop g1 g2 =>
        cases hm
        cases hu
        exact ⟨[], [], .stop g1 g2, .nil, by simp, head⟩
      | indent n g1 g2 g3 hl =>
        obtain ⟨qs, kept, a, b, c, _⟩ := ih _ _ _ _ hl hz' hu
        exact ⟨qs, kept, .indent n g1 g2 g3 a, b, fun s hs => (c s hs).imp fun t ht => ⟨List.mem_cons_of_mem _ ht.1, ht.2⟩, head⟩
      | dedent g1 g2 g3 g4 g5 g6 hl =>
        obtain ⟨qs, kept, a, b, c, d⟩ := ih _ _ _ _ hl hz' hu
        refine ⟨qs, kept, .dedent g1 g2 g3 g4 g5 ?_ a, b, fun s hs => (c s hs).imp fun t ht => ⟨List.mem_cons_of_mem _ ht.1, ht.2⟩, head⟩
        intro v hv
        obtain ⟨t', e1, e2, e3⟩ := d v hv
        rw [← e2, ← e3]; exact g6 _ e1
      | line n g1 g2 g3 g4 hl =>
        obtain ⟨qs, kept, a, b, c, _⟩ := ih _ _ _ _ hl hz' hu
        refine ⟨_, u.string :: kept, .line n g1 g2 g3 g4 a, ?_, ?_, head⟩
        · rw [textOf_cons]; exact .keep h1 b
        · intro s hs
          rcases List.mem_cons.1 hs with rfl | hs
          · exact ⟨u, by simp, rfl⟩
          · exact (c s hs).imp fun t ht => ⟨List.mem_cons_of_mem _ ht.1, ht.2⟩
      | token n g1 g2 g3 g4 hl =>
        obtain ⟨qs, kept, a, b, c, _⟩ := ih _ _ _ _ hl hz' hu
        refine ⟨_, u.string :: kept, .token n g1 g2 g3 g4 a, ?_, ?_, head⟩
        · rw [textOf_cons]; exact .keep h1 b
        · intro s hs
          rcases List.mem_cons.1 hs with rfl | hs
          · exact ⟨u, by simp, rfl⟩
          · exact (c s hs).imp fun t ht => ⟨List.mem_cons_of_mem _ ht.1, ht.2⟩
  | @metavar d t ts m h1 h2 h3 hm ih =>
    intro pos inds ps us h hz hu
    cases hu with
    | @cons _ u _ us hag hu =>
      have hz' : Sized ts := fun v hv => hz v (List.mem_cons_of_mem _ (List.mem_cons_of_mem _ hv))
      cases h with
      | indent n g1 g2 =>
        rw [h1] at g2
        cases n with
        | zero => cases g2
        | succ n => rw [List.replicate_succ] at g2; simp [str] at g2
      | dedent g1 g2 => rw [h1] at g2; cases g2
      | line n g1 g2 => rw [h1] at g2; exact absurd g2 (by decide)
      | token n g1 g2 g3 g4 hl =>
        have hd : d.stop = (d.start.1, d.start.2 + 1) := by rw [hz d (by simp) g1, h1]; rfl
        cases hl with
        | stop e1 e2 => rw [e2] at h2; cases h2
        | indent n e1 e2 => rw [e2, not_variable_spaces] at h2; cases h2
        | dedent e1 e2 => rw [e2] at h2; cases h2
        | line n e1 e2 => rcases e2 with e2 | e2 | e2 <;> rw [e2] at h2 <;> exact absurd h2 (by decide)
        | token k e1 e2 e3 e4 hl =>
          obtain ⟨qs, kept, a, b, c, _⟩ := ih _ _ _ _ hl hz' hu
          have hk : k = 0 := by
            rw [e2, hd] at h3; simp only at h3; omega
          have hrow : t.start.1 = pos.1 := by rw [e2, hd, g2]
          have hu1 : u.kind = .other := by rw [hag.1]; exact e1
          have hu2 : u.start = d.start := by rw [hag.1, g2]; simp only [hrow]
          have hu3 : u.stop = t.stop := by rw [hag.1]
          refine ⟨(List.replicate n ' ', u.string) :: qs, kept, .token n hu1 (by rw [hu2, g2]) ?_ (by rw [hu3]; exact e4) (by rw [hu3]; exact a), ?_,
            fun s hs => (c s hs).imp fun t ht => ⟨List.mem_cons_of_mem _ ht.1, ht.2⟩, ?_⟩
          · rw [hu3]; rw [hd, g2] at e3; exact e3
          · rw [textOf_cons, hk, h1]
            exact .var h2 b
          · intro v hv; cases hv; exact ⟨d, rfl, by rw [g1, hu1], hu2.symm⟩

/-- How a pattern is read: the tokens without the `$`s and, if it had been added, the last newline. -/
theorem tokenPattern_read {body : List PTok} {em : PTok} (hes : em.string = []) {added : Bool} {out : List PTok} {idx : List Nat}
    (h : tokenPattern (body ++ [em]) added = some (out, idx)) :
    ∃ body' m, Marked body' m ∧ out = m.map (·.1) ++ [em] ∧ idx = markedAt 0 m ∧
      (body' = body ∨ added = true ∧ ∃ nl, nl.string = str "\n" ∧ body = body' ++ [nl]) := by
  unfold tokenPattern at h
  cases hl : tokenLoop (body ++ [em]) [] [] with
  | none => rw [hl] at h; cases h
  | some r =>
    obtain ⟨m0, hm0⟩ := tokenLoop_inv _ _ _ _ _ (Nat.le_refl _) hl
    obtain ⟨m, hm⟩ := marked_prefix hm0 body em [] rfl (by rw [hes]; rfl)
    have hme : Marked (body ++ [em]) (m ++ [(em, false)]) := marked_append hm (.plain (by rw [hes]; decide) .nil)
    rw [tokenLoop_marked hme] at h
    simp only [List.nil_append, List.length_nil, markedAt_append_plain, List.map_append, List.map_cons, List.map_nil, List.length_append,
      List.length_map, List.length_cons] at h
    split at h
    · rename_i hc
      simp only [Bool.and_eq_true, decide_eq_true_eq] at hc
      obtain ⟨⟨h1, h2⟩, h3⟩ := hc
      cases h
      -- the token before the end marker is a newline
      rcases List.eq_nil_or_concat m with rfl | ⟨m', q, rfl⟩
      · simp at h2
      · obtain ⟨n, b⟩ := q
        have hn : n.string = str "\n" := by
          simpa using h3
        simp only [List.concat_eq_append] at hm ⊢
        obtain ⟨pre, rfl, hb, hp⟩ : ∃ pre, body = pre ++ [n] ∧ b = false ∧ Marked pre m' := by
          clear hme h3 hl hm0 h2
          generalize hk : m' ++ [(n, b)] = k at hm
          induction hm generalizing m' with
          | nil => simp at hk
          | @plain t ts out g1 g2 ih =>
            cases m' with
            | nil =>
              simp only [List.nil_append, List.cons.injEq, Prod.mk.injEq] at hk
              obtain ⟨⟨rfl, rfl⟩, rfl⟩ := hk
              cases g2
              exact ⟨[], rfl, rfl, .nil⟩
            | cons c m' =>
              simp only [List.cons_append, List.cons.injEq] at hk
              obtain ⟨rfl, hk⟩ := hk
              obtain ⟨pre, rfl, e, hp⟩ := ih m' hk
              exact ⟨t :: pre, rfl, e, .plain g1 hp⟩
          | @metavar d t ts out g1 g2 g3 g4 ih =>
            cases m' with
            | nil =>
              simp only [List.nil_append, List.cons.injEq, Prod.mk.injEq] at hk
              obtain ⟨⟨rfl, rfl⟩, rfl⟩ := hk
              simp only at hn
              rw [hn] at g2; exact absurd g2 (by decide)
            | cons c m' =>
              simp only [List.cons_append, List.cons.injEq] at hk
              obtain ⟨rfl, hk⟩ := hk
              obtain ⟨pre, rfl, e, hp⟩ := ih m' hk
              exact ⟨d :: t :: pre, rfl, e, .metavar g1 g2 g3 hp⟩
        subst hb
        refine ⟨pre, m', hp, ?_, ?_, .inr ⟨h1, n, hn, rfl⟩⟩
        · have e : (m' ++ [(n, false)]).length + (0 + 1) - 2 = (m'.map (·.1)).length := by simp
          rw [e]
          simp only [List.map_append, List.map_cons, List.map_nil, List.append_assoc]
          rw [List.eraseIdx_append_of_length_le (Nat.le_refl _)]
          simp
        · rw [markedAt_append_plain]
    · cases h
      exact ⟨body, m, hm, rfl, rfl, .inl rfl⟩

theorem forall2_of_get {R : PTok × Bool → PTok → Prop} : ∀ (m : List (PTok × Bool)) (us : List PTok), us.length = m.length →
    (∀ (i : Nat) p u, m[i]? = some p → us[i]? = some u → R p u) → Forall2 R m us := by
  intro m
  induction m with
  | nil => intro us h _; cases us with
    | nil => exact .nil
    | cons u us => simp at h
  | cons p m ih =>
    intro us h H
    cases us with
    | nil => simp at h
    | cons u us =>
      exact .cons (H 0 p u rfl rfl) (ih us (by simpa using h) fun i q v hq hv => H (i + 1) q v (by simpa using hq) (by simpa using hv))

/-- The `k`-th occurrence is a marked token; different occurrences are different tokens. -/
theorem occurrences_get : ∀ (m : List (PTok × Bool)) (us : List PTok), us.length = m.length → ∀ (k : Nat) (x a : Str),
    (occurrences m us)[k]? = some (x, a) → ∃ i t u, m[i]? = some (t, true) ∧ us[i]? = some u ∧ t.string = x ∧ u.string = a ∧
      ((m.take i).filter (·.2)).length = k := by
  intro m
  induction m with
  | nil => intro us _ k x a h; cases us <;> simp [occurrences] at h
  | cons p m ih =>
    intro us hl k x a h
    cases us with
    | nil => simp at hl
    | cons u us =>
      have hl' : us.length = m.length := by simpa using hl
      obtain ⟨t, b⟩ := p
      cases b with
      | true =>
        rw [occurrences] at h
        cases k with
        | zero =>
          simp only [List.getElem?_cons_zero, Option.some.injEq, Prod.mk.injEq] at h
          exact ⟨0, t, u, rfl, rfl, h.1, h.2, rfl⟩
        | succ k =>
          rw [List.getElem?_cons_succ] at h
          obtain ⟨i, t', u', h1, h2, h3, h4, h5⟩ := ih us hl' k x a h
          exact ⟨i + 1, t', u', by simpa using h1, by simpa using h2, h3, h4, by simp [h5]⟩
      | false =>
        rw [occurrences] at h
        obtain ⟨i, t', u', h1, h2, h3, h4, h5⟩ := ih us hl' k x a h
        exact ⟨i + 1, t', u', by simpa using h1, by simpa using h2, h3, h4, by simp [h5]⟩

theorem occurrences_mem : ∀ (M : List (PTok × Bool)) (us : List PTok), us.length = M.length → ∀ {i : Nat} {t u : PTok},
    M[i]? = some (t, true) → us[i]? = some u → (t.string, u.string) ∈ occurrences M us
  | [], _, _, i, _, _, h, _ => by simp at h
  | _ :: _, [], hl, _, _, _, _, _ => by simp at hl
  | (t', b) :: M, u' :: us, hl, i, t, u, h1, h2 => by
    cases i with
    | zero =>
      simp only [List.getElem?_cons_zero, Option.some.injEq, Prod.mk.injEq] at h1 h2
      obtain ⟨rfl, rfl⟩ := h1
      subst h2
      simp [occurrences]
    | succ i =>
      rw [List.getElem?_cons_succ] at h1 h2
      have := occurrences_mem M us (by simpa using hl) h1 h2
      cases b with
      | true => simp [occurrences, this]
      | false => simpa [occurrences] using this

theorem Replaces.variables {ps l : List (Str × Str)} {kept : List Str} {out : Str} (h : Replaces ps l kept out) :
    ∀ p ∈ l, isVariable p.1 = true := by
  induction h with
  | nil => simp
  | keep _ _ ih => exact ih
  | var hv _ ih =>
    intro p hp
    rcases List.mem_cons.1 hp with rfl | hp
    · exact hv
    · exact ih p hp

section Text
variable {body : List PTok} {em : PTok} (hem : em.kind = .endmarker) (hes : em.string = []) (hz : Sized body)
  {ps : List (Str × Str)} (hlay : Layout (1, 0) [] (body ++ [em]) ps)
include hem hes hz hlay

/-- The text of the tokens of a pattern, some of the metavariables renamed. -/
theorem read_text {added : Bool} {out : List PTok} {idx : List Nat} (h : tokenPattern (body ++ [em]) added = some (out, idx))
    {us : List PTok} (hl : us.length = out.length) (ho : ∀ i, i ∉ idx → us[i]? = out[i]?)
    (hi : ∀ i ∈ idx, ∀ t, out[i]? = some t → ∃ s, us[i]? = some { t with string := s }) :
    ∃ qs l kept s, (qs = ps ∨ added = true ∧ ∃ g, ps = qs ++ [(g, str "\n")]) ∧ Replaces qs l kept s ∧ untokenize us = some s ∧
      (∀ c ∈ kept, ∃ i, i ∉ idx ∧ StringAt out i c) ∧
      (∀ (k : Nat) x a, l[k]? = some (x, a) → ∃ i ∈ idx, StringAt out i x ∧ StringAt us i a ∧ (idx.takeWhile (· < i)).length = k) ∧
      (∀ i ∈ idx, ∀ x a, StringAt out i x → StringAt us i a → (x, a) ∈ l) := by
  obtain ⟨body', m, hm, rfl, rfl, hb⟩ := tokenPattern_read hes h
  have hz' : Sized (body' ++ [em]) := by
    intro t ht hk
    rcases List.mem_append.1 ht with ht | ht
    · refine hz t ?_ hk
      rcases hb with rfl | ⟨_, nl, _, rfl⟩
      · exact ht
      · exact List.mem_append_left _ ht
    · rw [List.mem_singleton.1 ht, hem] at hk; cases hk
  have hlay' : ∃ qs, (qs = ps ∨ added = true ∧ ∃ g, ps = qs ++ [(g, str "\n")]) ∧ Layout (1, 0) [] (body' ++ [em]) qs := by
    rcases hb with rfl | ⟨ha, nl, hnl, rfl⟩
    · exact ⟨ps, .inl rfl, hlay⟩
    · rw [List.append_assoc] at hlay
      obtain ⟨qs, g, e, hq⟩ := hlay.last hnl hem hes
      exact ⟨qs, .inr ⟨ha, g, e⟩, hq⟩
  obtain ⟨qs, hqs, hq⟩ := hlay'
  have hme : Marked (body' ++ [em]) (m ++ [(em, false)]) := marked_append hm (.plain (by rw [hes]; decide) .nil)
  have hout : m.map (·.1) ++ [em] = (m ++ [(em, false)]).map (·.1) := by simp
  have hidx : markedAt 0 m = markedAt 0 (m ++ [(em, false)]) := (markedAt_append_plain em m 0).symm
  rw [hout] at hl ho hi ⊢
  rw [hidx] at ho hi ⊢
  clear hout hidx h
  generalize m ++ [(em, false)] = M at *
  have hspec := (markedAt_spec M 0).1
  simp only [Nat.zero_le, true_and, Nat.sub_zero] at hspec
  have hsort := (markedAt_spec M 0).2
  have hag : Forall2 TokAgrees M us := by
    refine forall2_of_get M us (by simpa using hl) fun i p u hp hu => ?_
    obtain ⟨t, b⟩ := p
    have hto : (M.map (·.1))[i]? = some t := by simp [hp]
    by_cases hb : i ∈ markedAt 0 M
    · obtain ⟨s, hs⟩ := hi i hb t hto
      rw [hu] at hs; cases hs
      refine ⟨rfl, fun hf => ?_⟩
      obtain ⟨t', ht'⟩ := (hspec i).1 hb
      rw [hp] at ht'; cases ht'; cases hf
    · have := ho i hb
      rw [hu, hto] at this; cases this
      exact ⟨rfl, fun _ => rfl⟩
  obtain ⟨rs, kept, h1, h2, h3, _⟩ := layout_replaces hme (1, 0) [] qs us hq hz' hag
  refine ⟨qs, _, kept, textOf rs, hqs, h2, C48_untokenize_text h1, fun c hc => ?_, fun k x a hk => ?_, fun i hi' x a hx ha => ?_⟩
  rotate_left 2
  · obtain ⟨t, ht⟩ := (hspec i).1 hi'
    obtain ⟨t', e1, rfl⟩ := hx
    obtain ⟨u, e2, rfl⟩ := ha
    rw [List.getElem?_map, ht] at e1
    cases e1
    exact occurrences_mem M us (by simpa using hl) ht e2
  · obtain ⟨t, ht, rfl⟩ := h3 c hc
    obtain ⟨i, hi⟩ := List.mem_iff_getElem?.1 ht
    refine ⟨i, fun hb => ?_, t, by simp [hi], rfl⟩
    obtain ⟨t', ht'⟩ := (hspec i).1 hb
    rw [hi] at ht'; cases ht'
  · obtain ⟨i, t, u, g1, g2, g3, g4, g5⟩ := occurrences_get M us (by simpa using hl) k x a hk
    refine ⟨i, (hspec i).2 ⟨t, g1⟩, ⟨t, by simp [g1], g3⟩, ⟨u, g2, g4⟩, ?_⟩
    rw [← g5]
    clear h1 h2 h3 hag hi ho hl hme hspec hsort hk g1 g2 g3 g4 g5
    suffices H : ∀ (M : List (PTok × Bool)) (j : Nat), ((markedAt j M).takeWhile (· < j + i)).length = ((M.take i).filter (·.2)).length by
      simpa using H M 0
    induction i with
    | zero =>
      intro M j
      have := fun k => ((markedAt_spec M j).1 k).1
      cases hmm : markedAt j M with
      | nil => simp
      | cons a l =>
        have := (this a (by rw [hmm]; simp)).1
        rw [List.takeWhile_cons_of_neg (by simp; omega)]; simp
    | succ i ih =>
      intro M j
      cases M with
      | nil => simp [markedAt]
      | cons p M =>
        obtain ⟨t, b⟩ := p
        have := ih M (j + 1)
        rw [show j + 1 + i = j + (i + 1) by omega] at this
        cases b with
        | true => simp [markedAt, this]
        | false => simp [markedAt, this]

/-- **C48**, on the text of a pattern: the renamed pattern is the text of the pattern with every `$x` replaced by its new name and
everything else the same, character by character (but for the newline at the end, if it had been added). The new names are
identifiers and no other tokens of the pattern; two occurrences get the same name exactly if they are of the same variable other than
`_`. The metavariables may be renamed in any order. -/
theorem C48_text {added : Bool} {out : List PTok} {idx : List Nat} (h : tokenPattern (body ++ [em]) added = some (out, idx))
    {order : List Nat} (hp : order.Perm idx) {st : RemapState} (hr : remapVariables out order = some st) :
    ∃ qs l kept s, (qs = ps ∨ added = true ∧ ∃ g, ps = qs ++ [(g, str "\n")]) ∧ Replaces qs l kept s ∧ untokenize st.toks = some s ∧
      (∀ p ∈ l, isVariable p.2 = true ∧ p.2 ∉ kept) ∧
      (∀ (j k : Nat) x y a b, j ≠ k → l[j]? = some (x, a) → l[k]? = some (y, b) → (a = b ↔ x = y ∧ x ≠ str "_")) := by
  obtain ⟨body', m, hm, ho, hi, hb⟩ := tokenPattern_read hes h
  have hspec := (markedAt_spec m 0).1
  simp only [Nat.zero_le, true_and, Nat.sub_zero] at hspec
  have hlt : ∀ i ∈ order, i < out.length := by
    intro i hio
    obtain ⟨t, ht⟩ := (hspec i).1 (hi ▸ hp.mem_iff.1 hio)
    have := (List.getElem?_eq_some_iff.1 ht).1
    rw [ho]; simp; omega
  have hnd : order.Nodup := by
    rw [hp.nodup_iff, hi]
    exact (markedAt_spec m 0).2.imp (fun h => by omega)
  obtain ⟨h1, h2, h3⟩ := C48_rest_preserved hlt hnd hr
  obtain ⟨qs, l, kept, s, g1, g2, g3, g4, g5, _⟩ := read_text hem hes hz hlay h (us := st.toks) h1
    (fun i hn => h2 i (fun hc => hn (hp.mem_iff.1 hc)))
    (fun i hc t ht => by
      obtain ⟨t', nm, e1, e2⟩ := h3 i (hp.mem_iff.2 hc)
      rw [ht] at e1; cases e1; exact ⟨nm, e2⟩)
  refine ⟨qs, l, kept, s, g1, g2, g3, ?_, ?_⟩
  · rintro ⟨x, a⟩ hpl
    obtain ⟨k, hk⟩ := List.mem_iff_getElem?.1 hpl
    obtain ⟨i, hii, e1, e2, _⟩ := g5 k x a hk
    refine ⟨C48_identifiers hlt hnd hr (hp.mem_iff.2 hii) e1 ?_ e2, fun hc => ?_⟩
    · exact g2.variables _ hpl
    · obtain ⟨j, hj, e3⟩ := g4 a hc
      exact C48_fresh hlt hnd hr (hp.mem_iff.2 hii) (fun h => hj (hp.mem_iff.1 h)) e2 e3 rfl
  · intro j k x y a b hjk hj hk
    obtain ⟨i, hii, e1, e2, e3⟩ := g5 j x a hj
    obtain ⟨i', hii', e1', e2', e3'⟩ := g5 k y b hk
    refine C48_consistent hlt hnd hr (hp.mem_iff.2 hii) (hp.mem_iff.2 hii') ?_ e1 e1' e2 e2'
    rintro rfl
    exact hjk (e3.symm.trans e3')

/-- **C53**, on the text of a template: filling in strings for the variables gives the text of the template with every `$x` replaced
by the string for `x` and everything else the same, character by character (but for the newline at the end, if it had been
added); it fails only with KeyError, if there is no string for some variable of the template. -/
theorem C53_text {added : Bool} {t : PyTemplate} (h : tokenPattern (body ++ [em]) added = some (t.toks, t.metas)) (he : t.template ≠ [])
    {map : Dict Label Str} (hw : map.WF) :
    match t.fill map with
    | .ok s => ∃ qs l kept, (qs = ps ∨ added = true ∧ ∃ g, ps = qs ++ [(g, str "\n")]) ∧ Replaces qs l kept s ∧
        ∀ p ∈ l, map.get? p.1 = some p.2
    | .error e => e = .keyError ∧ ∃ i ∈ t.metas, ∃ x, StringAt t.toks i x ∧ map.get? x = none := by
  obtain ⟨body', m, hm, ho, hi, hb⟩ := tokenPattern_read hes h
  have hspec := (markedAt_spec m 0).1
  simp only [Nat.zero_le, true_and, Nat.sub_zero] at hspec
  have hlt : ∀ i ∈ t.metas, i < t.toks.length := by
    intro i hio
    obtain ⟨t', ht⟩ := (hspec i).1 (hi ▸ hio)
    have := (List.getElem?_eq_some_iff.1 ht).1
    rw [ho]; simp; omega
  -- the marked tokens are ordinary ones
  have hkind : ∀ i ∈ t.metas, ∀ u, t.toks[i]? = some u → u.kind = .other := by
    have hmk : ∀ (toks : List PTok) (m : List (PTok × Bool)), Marked toks m → ∀ (pos : Nat × Nat) (inds : List Nat) ps, Layout pos inds toks ps →
        ∀ u, (u, true) ∈ m → u.kind = .other := by
      intro toks m hm
      induction hm with
      | nil => intro pos inds ps _ u hu; cases hu
      | plain h1 _ ih =>
        intro pos inds ps hl u hu
        have hu : (u, true) ∈ _ := (List.mem_cons.1 hu).resolve_left (by simp)
        cases hl with
        | stop _ _ => exact ih _ _ _ (.nil (pos := pos) (inds := inds)) u hu
        | indent n _ _ _ hl => exact ih _ _ _ hl u hu
        | dedent _ _ _ _ _ _ hl => exact ih _ _ _ hl u hu
        | line n _ _ _ _ hl => exact ih _ _ _ hl u hu
        | token n _ _ _ _ hl => exact ih _ _ _ hl u hu
      | @metavar d t ts m h1 h2 h3 hm ih =>
        intro pos inds ps hl u hu
        have step : ∀ pos inds ps, Layout pos inds (t :: ts) ps → t.kind = .other ∧ ∃ pos inds ps, Layout pos inds ts ps := by
          intro pos inds ps hl
          cases hl with
          | stop e1 e2 => rw [e2] at h2; cases h2
          | indent n e1 e2 => rw [e2, not_variable_spaces] at h2; cases h2
          | dedent e1 e2 => rw [e2] at h2; cases h2
          | line n e1 e2 => rcases e2 with e2 | e2 | e2 <;> rw [e2] at h2 <;> exact absurd h2 (by decide)
          | token k e1 e2 e3 e4 hl => exact ⟨e1, _, _, _, hl⟩
        have : t.kind = .other ∧ ∃ pos inds ps, Layout pos inds ts ps := by
          cases hl with
          | indent n _ _ _ hl => exact step _ _ _ hl
          | dedent _ _ _ _ _ _ hl => exact step _ _ _ hl
          | line n _ _ _ _ hl => exact step _ _ _ hl
          | token n _ _ _ _ hl => exact step _ _ _ hl
        rcases List.mem_cons.1 hu with e | hu
        · cases e; exact this.1
        · obtain ⟨_, _, _, _, hl⟩ := this
          exact ih _ _ _ hl u hu
    intro i him u hu
    obtain ⟨t', ht⟩ := (hspec i).1 (hi ▸ him)
    rw [ho] at hu
    rw [List.getElem?_append_left (by have := (List.getElem?_eq_some_iff.1 ht).1; simpa using this)] at hu
    simp [ht] at hu
    subst hu
    rcases hb with rfl | ⟨_, nl, hnl, rfl⟩
    · refine hmk _ _ (marked_append hm (.plain (t := em) (by rw [hes]; decide) .nil)) _ _ _ hlay t' (List.mem_append_left _ (List.mem_of_getElem? ht))
    · rw [List.append_assoc] at hlay
      refine hmk _ _ (marked_append hm (.plain (t := nl) (by rw [hnl]; decide) (.plain (t := em) (by rw [hes]; decide) .nil))) _ _ _ hlay t'
        (List.mem_append_left _ (List.mem_of_getElem? ht))
  have hs := C53_slots t hlt hkind he map hw
  cases hf : t.fill map with
  | ok s =>
    rw [hf] at hs
    obtain ⟨us, hfill, hu, _⟩ := hs
    obtain ⟨qs, l, kept, s', g1, g2, g3, _, g5, _⟩ := read_text hem hes hz hlay h (us := us) hfill.1 hfill.2.1
      (fun i hc v hv => by obtain ⟨s, _, e⟩ := hfill.2.2 i hc v hv; exact ⟨s, e⟩)
    rw [hu] at g3; cases g3
    refine ⟨qs, l, kept, g1, g2, ?_⟩
    rintro ⟨x, a⟩ hpl
    obtain ⟨k, hk⟩ := List.mem_iff_getElem?.1 hpl
    obtain ⟨i, hii, ⟨v, e1, e1'⟩, ⟨w, e2, e2'⟩, _⟩ := g5 k x a hk
    obtain ⟨s', f1, f2⟩ := hfill.2.2 i hii v e1
    rw [e2] at f2; cases f2
    simp only at e2' ⊢
    rw [← e1', f1, e2']
  | error e =>
    rw [hf] at hs
    rcases hs with hs | ⟨_, hs⟩
    · exact hs
    · exfalso
      obtain ⟨_, _, _, s, _, _, g3, _⟩ := read_text hem hes hz hlay h (us := t.toks) rfl (fun _ _ => rfl) (fun i _ v hv => ⟨v.string, hv⟩)
      rw [hs] at g3; cases g3

end Text

/-- The tokens of `if $x:⏎    f($x)⏎y⏎` with two blocks' ends, and where they are. -/
def exBlockTokens : List PTok :=
  [⟨.other, str "if", (1, 0), (1, 2)⟩, ⟨.other, str "$", (1, 3), (1, 4)⟩, ⟨.other, str "x", (1, 4), (1, 5)⟩, ⟨.other, str ":", (1, 5), (1, 6)⟩,
   ⟨.newline, str "\n", (1, 6), (1, 7)⟩, ⟨.indent, str "    ", (2, 0), (2, 4)⟩, ⟨.other, str "f", (2, 4), (2, 5)⟩, ⟨.other, str "(", (2, 5), (2, 6)⟩,
   ⟨.other, str "$", (2, 6), (2, 7)⟩, ⟨.other, str "x", (2, 7), (2, 8)⟩, ⟨.other, str ")", (2, 8), (2, 9)⟩, ⟨.newline, str "\n", (2, 9), (2, 10)⟩,
   ⟨.dedent, [], (3, 0), (3, 0)⟩, ⟨.other, str "y", (3, 0), (3, 1)⟩, ⟨.newline, str "\n", (3, 1), (3, 2)⟩]
def exBlockEnd : PTok := ⟨.endmarker, [], (4, 0), (4, 0)⟩

theorem exBlock_layout : ∃ ps, Layout (1, 0) [] (exBlockTokens ++ [exBlockEnd]) ps ∧ textOf ps = str "if $x:\n    f($x)\ny\n" := by
  refine ⟨_, .token 0 rfl rfl (by decide) (by decide) (.token 1 rfl rfl (by decide) (by decide) (.token 0 rfl rfl (by decide) (by decide)
    (.token 0 rfl rfl (by decide) (by decide) (.line 0 (.inl rfl) (by decide) rfl rfl (.indent 4 rfl rfl rfl (.token 4 rfl rfl (by decide) (by decide)
    (.token 0 rfl rfl (by decide) (by decide) (.token 0 rfl rfl (by decide) (by decide) (.token 0 rfl rfl (by decide) (by decide)
    (.token 0 rfl rfl (by decide) (by decide) (.line 0 (.inl rfl) (by decide) rfl rfl (.dedent rfl rfl rfl (by decide) rfl ?_
    (.token 0 rfl rfl (by decide) (by decide) (.line 0 (.inl rfl) (by decide) rfl rfl (.stop rfl rfl))))))))))))))), ?_⟩
  · intro u hu; cases hu; exact .inr (.inr ⟨rfl, rfl⟩)
  · decide

/-- The theorem applied to it: `gensym_x` for both occurrences, the layout kept. -/
example : ∃ ps, Layout (1, 0) [] (exBlockTokens ++ [exBlockEnd]) ps ∧ Sized exBlockTokens ∧
    ((tokenPattern (exBlockTokens ++ [exBlockEnd]) false).bind fun r => (remapVariables r.1 r.2).bind fun st => untokenize st.toks) =
      some (str "if gensym_x:\n    f(gensym_x)\ny\n") := by
  obtain ⟨ps, h, _⟩ := exBlock_layout
  refine ⟨ps, h, ?_, by decide⟩
  unfold Sized exBlockTokens; decide

/-- Filling a template of it. -/
example : ((tokenPattern (exBlockTokens ++ [exBlockEnd]) false).map fun r =>
      (PyTemplate.mk (str "if $x:\n    f($x)\ny\n") r.1 r.2 .anything).fill [(str "x", str "a + b")]) =
    some (.ok (str "if a + b:\n    f(a + b)\ny\n")) := rfl

end Refex
