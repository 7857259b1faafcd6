import Verif.Props.LiteralExamples
/- C111: replacing a literal text can be undone. -/
namespace Refex
set_option autoImplicit false

theorem occursAt_shift {w s t : Str} {k : Nat} : OccursAt w (s ++ t) (s.length + k) ↔ OccursAt w t k := by
  unfold OccursAt
  rw [← List.drop_drop, List.drop_left]

theorem occursAt_head {ch : Char} {w s : Str} {k : Nat} (h : OccursAt (ch :: w) s k) : s[k]? = some ch := by
  obtain ⟨t, ht⟩ := h
  rw [← Nat.add_zero k, ← List.getElem?_drop, ← ht]; rfl

theorem spliced_after {pos : Nat} {text new : Str} {es : List Repl} (h : Spliced pos text es new) : ∀ e ∈ es, pos ≤ e.start := by
  induction h with
  | done => intro e he; cases he
  | edit pos e es keep old rest out h1 h2 _ ih =>
    intro e' he'
    rcases List.mem_cons.1 he' with rfl | he'
    · omega
    · have := ih e' he'; omega

/-- Putting `a` in the place of every `b` that was put in the place of an `a` gives the text back. -/
theorem spliced_undo {a b : Str} (hb : b ≠ []) {pos : Nat} {text new : Str} {es : List Repl} (h : Spliced pos text es new) :
    (∀ ch ∈ b, ch ∉ text) → (∀ e ∈ es, e.text = b ∧ e.stop = e.start + a.length ∧ OccursAt a text (e.start - pos)) →
    ∀ (npos : Nat) (qs : List Nat), (qs.Pairwise fun p q => p + b.length ≤ q) → (∀ q ∈ qs, npos ≤ q ∧ OccursAt b new (q - npos)) →
      (∀ k, OccursAt b new k → ∃ q ∈ qs, q ≤ npos + k ∧ npos + k < q + b.length) →
      Spliced npos new (qs.map fun q => ⟨a, q, q + b.length⟩) text := by
  obtain ⟨ch, b', hcb⟩ : ∃ ch b', b = ch :: b' := by cases b with | nil => exact absurd rfl hb | cons ch b' => exact ⟨ch, b', rfl⟩
  have hfirst : ∀ {s : Str} {k : Nat}, OccursAt b s k → s[k]? = some ch := fun h => occursAt_head (by rw [hcb] at h; exact h)
  have hch : ch ∈ b := by rw [hcb]; exact List.mem_cons_self ..
  have hbl : 0 < b.length := List.length_pos_iff.2 hb
  induction h with
  | done pos rest =>
    intro hd _ npos qs _ hq _
    cases qs with
    | nil => exact .done ..
    | cons q qs => exact absurd (List.mem_of_getElem? (hfirst (hq q (List.mem_cons_self ..)).2)) (hd ch hch)
  | edit pos e es keep old rest out hkeep hold h ih =>
    intro hd hes npos qs hp hq hc
    obtain ⟨het, hestop, heocc⟩ := hes e (List.mem_cons_self ..)
    have hnot : ∀ k, k < keep.length → ¬ OccursAt b (keep ++ (e.text ++ out)) k := by
      intro k hk ho
      have := hfirst ho
      rw [List.getElem?_append_left hk] at this
      exact hd ch hch (List.mem_append_left _ (List.mem_of_getElem? this))
    have hold' : old = a := by
      have h1 : e.start - pos = keep.length + 0 := by omega
      rw [h1, occursAt_shift] at heocc
      obtain ⟨t, ht⟩ := heocc
      exact (List.append_inj ht.symm (by omega)).1
    subst hold'
    obtain ⟨q, hqm, h1, h2⟩ := hc keep.length (by
      rw [← Nat.add_zero keep.length, occursAt_shift, het]
      exact ⟨out, rfl⟩)
    cases qs with
    | nil => cases hqm
    | cons q0 qs =>
      have hq0 := hq q0 (List.mem_cons_self ..)
      have hge : npos + keep.length ≤ q0 := by
        refine Nat.le_of_not_lt fun hlt => hnot (q0 - npos) (by omega) hq0.2
      obtain ⟨hp1, hp2⟩ := List.pairwise_cons.1 hp
      have he0 : q0 = npos + keep.length := by
        rcases List.mem_cons.1 hqm with rfl | hm
        · omega
        · have := hp1 q hm; omega
      rw [het]
      refine Spliced.edit npos ⟨old, q0, q0 + b.length⟩ _ keep b out rest he0.symm rfl ?_
      refine ih (fun c hc hm => hd c hc (List.mem_append_right _ (List.mem_append_right _ hm))) (fun e' he' => ?_) (q0 + b.length) qs hp2 (fun q' hq' => ?_) (fun k hk => ?_)
      · obtain ⟨h3, h4, h5⟩ := hes e' (List.mem_cons_of_mem _ he')
        refine ⟨h3, h4, ?_⟩
        have := spliced_after h e' he'
        rw [show e'.start - pos = keep.length + (old.length + (e'.start - e.stop)) by omega, occursAt_shift, occursAt_shift] at h5
        exact h5
      · have h3 := hp1 q' hq'
        refine ⟨h3, ?_⟩
        have h4 := (hq q' (List.mem_cons_of_mem _ hq')).2
        rw [het, show q' - npos = keep.length + (b.length + (q' - (q0 + b.length))) by omega, occursAt_shift, occursAt_shift] at h4
        exact h4
      · obtain ⟨q', hq', h3, h4⟩ := hc (keep.length + (b.length + k)) (by rw [occursAt_shift, het, occursAt_shift]; exact hk)
        rcases List.mem_cons.1 hq' with rfl | hq'
        · omega
        · exact ⟨q', hq', by omega, by omega⟩

/-- **C111**, on texts: what was made of a text by putting a literal text in the place of another becomes the old text again by putting them back, if no
character of the new one was in the text. -/
theorem C111_text {py : Python} {patternA patternB a b : Str} (hla : IsLiteral py patternA a) (hlb : IsLiteral py patternB b) {c c' : Compiled}
    (hcb : FindsMatches py patternB c') (hb : b ≠ []) {text new back : Str} (hd : ∀ ch ∈ b, ch ∉ text)
    (h : ReSub c (py.finditer patternA text) [.lit b] text new) (h' : ReSub c' (py.finditer patternB new) [.lit a] new back) : back = text := by
  have hspan : ∀ regs ∈ py.finditer patternB new, regs[0]? = some (some ((((regs[0]?).join).getD (0, 0)).1, (((regs[0]?).join).getD (0, 0)).1 + b.length)) ∧
      OccursAt b new (((regs[0]?).join).getD (0, 0)).1 := by
    intro regs hr
    obtain ⟨k, hk, ho⟩ := hlb.sound new regs hr
    rw [hk]; exact ⟨rfl, ho⟩
  have key := spliced_undo (a := a) hb h hd (fun e he => by
      obtain ⟨regs, hregs, rfl⟩ := List.mem_map.1 he
      obtain ⟨k, hk, ho⟩ := hla.sound text regs hregs
      refine ⟨by simp [expandMatch], by simp [hk], ?_⟩
      simpa [hk] using ho) 0 ((py.finditer patternB new).map fun regs => (((regs[0]?).join).getD (0, 0)).1)
    (List.pairwise_map.2 ((hcb.ordered new).imp_of_mem fun {x y} hx hy hxy => (hxy _ _ (hspan x hx).1 (hspan y hy).1).1))
    (fun q hq => by
      obtain ⟨regs, hregs, rfl⟩ := List.mem_map.1 hq
      exact ⟨Nat.zero_le _, (hspan regs hregs).2⟩)
    (fun k hk => by
      obtain ⟨regs, hregs, p, hp, h1, h2⟩ := hlb.complete new k hk
      exact ⟨_, List.mem_map.2 ⟨regs, hregs, rfl⟩, by simp [hp]; omega, by simp [hp]; omega⟩)
  refine spliced_unique h' ?_
  have heq : ((py.finditer patternB new).map fun regs : List (Option Span) => (⟨expandMatch c' new regs [.lit a], (((regs[0]?).join).getD (0, 0)).1, (((regs[0]?).join).getD (0, 0)).2⟩ : Repl)) =
      ((py.finditer patternB new).map fun regs => (((regs[0]?).join).getD (0, 0)).1).map fun q => ⟨a, q, q + b.length⟩ := by
    rw [List.map_map]
    refine List.map_congr_left fun regs hregs => ?_
    obtain ⟨p, hp, _⟩ := hlb.sound new regs hregs
    simp [expandMatch, hp]
  rw [heq]
  exact key

/-- **C111**: `refex --mode=re A --sub=B -i` and later, when what it wrote is still there, `refex --mode=re B --sub=A -i` give every file that both
write its old text back (with universal newlines), if no character of `B` was in it. -/
theorem C111_undone {py : Python} {w w' : World} {o o' : Options} {r r' : Runner} {patternA templateA patternB templateB a b : Str} {c c' : Compiled}
    (hcmd : ReplacesLiteral py w o r patternA templateB a b c) (hcmd' : ReplacesLiteral py w' o' r' patternB templateA b a c') (henc : r'.enc = r.enc)
    (hb : b ≠ []) (hcr : '\r' ∉ b) {faults faults' : Faults} {fs fs' : FS} {q : Str} {bytes bytes' bytes'' : Bytes} {text : Str}
    (hq : fs q = some bytes) (ht : r.enc.decode bytes = some text) (hd : ∀ ch ∈ b, ch ∉ universalNewlines text)
    (h : Rewritten r faults fs q bytes') (hq' : fs' q = some bytes') (h' : Rewritten r' faults' fs' q bytes'') :
    r.enc.decode bytes'' = some (universalNewlines text) := by
  obtain ⟨new, h1, h2⟩ := replaces_written hcmd hq ht h
  obtain ⟨back, h3, h4⟩ := replaces_written hcmd' hq' (by rw [henc]; exact h1) h'
  rw [replaced_newlines hcr h2] at h4
  rw [← henc, h3, C111_text hcmd.literal hcmd'.literal hcmd'.fits hb hd h2 h4]

/-! ### Instances -/

/-- A Python in which the regex `a` stands for `a`, and every other for `b`. -/
def twoPy (a b : Str) : Python :=
  { litPy a with finditer := fun p t => if p = a then (litPy a).finditer p t else (litPy b).finditer p t }

theorem twoPy_literal {a b : Str} (ha : a ≠ []) : IsLiteral (twoPy a b) a a ∧ (b ≠ [] → a ≠ b → IsLiteral (twoPy a b) b b) := by
  have e1 : (twoPy a b).finditer a = (litPy a).finditer a := funext fun t => if_pos rfl
  refine ⟨⟨by rw [e1]; exact (litPy_literal ha a).sound, by rw [e1]; exact (litPy_literal ha a).complete⟩, fun hb hne => ?_⟩
  have e2 : (twoPy a b).finditer b = (litPy b).finditer b := funext fun t => if_neg fun e => hne e.symm
  exact ⟨by rw [e2]; exact (litPy_literal hb b).sound, by rw [e2]; exact (litPy_literal hb b).complete⟩

theorem twoPy_fits {a b : Str} (ha : a ≠ []) (hb : b ≠ []) (p : Str) : FindsMatches (twoPy a b) p ⟨0, []⟩ := by
  have h1 := litPy_fits ha p
  have h2 := litPy_fits hb p
  by_cases hp : p = a
  · have e : (twoPy a b).finditer p = (litPy a).finditer p := funext fun t => if_pos hp
    exact ⟨rfl, h1.names, by rw [e]; exact h1.each, by rw [e]; exact h1.inside, by rw [e]; exact h1.ordered⟩
  · have e : (twoPy a b).finditer p = (litPy b).finditer p := funext fun t => if_neg hp
    exact ⟨rfl, h1.names, by rw [e]; exact h2.each, by rw [e]; exact h2.inside, by rw [e]; exact h2.ordered⟩

/-- Not so if the text may contain some of the characters of the new one: `ab` to `cc` and back in `cab`. -/
theorem C111_characters_false : ¬ ∀ (py : Python) (patternA patternB a b : Str) (c c' : Compiled) (text new back : Str), IsLiteral py patternA a →
    IsLiteral py patternB b → FindsMatches py patternB c' → a ≠ [] → b ≠ [] → ¬ b <:+: text → ReSub c (py.finditer patternA text) [.lit b] text new →
    ReSub c' (py.finditer patternB new) [.lit a] new back → back = text := by
  intro h
  exact absurd (h (twoPy (str "ab") (str "cc")) (str "ab") (str "cc") (str "ab") (str "cc") ⟨0, []⟩ ⟨0, []⟩ (str "cab") (str "ccc") (str "abc")
    (twoPy_literal (by decide)).1 ((twoPy_literal (by decide)).2 (by decide) (by decide)) (twoPy_fits (by decide) (by decide) _) (by decide) (by decide)
    (fun h => by
      obtain ⟨s, t, h⟩ := h
      revert h
      match s with
      | [] => intro h; cases h
      | [_] => intro h; injection h with _ h; cases h
      | [_, _] => intro h; injection h with _ h; injection h with _ h; cases h
      | _ :: _ :: _ :: s => intro h; have := congrArg List.length h; simp [Refex.str] at this)
    (Spliced.edit 0 _ _ (str "c") (str "ab") [] [] rfl rfl (.done _ _))
    (Spliced.edit 0 _ _ [] (str "cc") (str "c") (str "c") rfl rfl (.done _ _))) (by decide)

theorem replaces_rewritten {py : Python} {w : World} {o : Options} {r : Runner} {pattern template old other : Str} {c : Compiled}
    (hcmd : ReplacesLiteral py w o r pattern template old other c) {faults : Faults} {fs : FS} {q : Str} {b b' : Bytes} {text new : Str}
    (hf : faults.read q = false) (hb : fs q = some b) (ht : r.enc.decode b = some text) (ha : AlsoHolds o (universalNewlines text))
    (hne : py.finditer pattern (universalNewlines text) ≠ [])
    (hnew : ReSub c (py.finditer pattern (universalNewlines text)) [.lit other] (universalNewlines text) new) (he : r.enc.encode new = some b') :
    Rewritten r faults fs q b' := by
  obtain ⟨pattern', c', tpls, h1, h2, h3, h4, h5⟩ := C94_command hcmd.runner hcmd.mode hcmd.inEffect hcmd.one (by simp [Dict.WF, Dict.keys])
    fun p hp => ⟨c, by cases hp; exact hcmd.fits⟩
  cases h1
  have : c' = c := Option.some.inj (h2.compiled.symm.trans hcmd.fits.compiled)
  subst this
  have htp : tpls = [(str "__root", [.lit other])] := by
    cases h3 with
    | @cons _ e _ l he hrest =>
      cases hrest
      obtain ⟨l, items⟩ := e
      obtain ⟨rfl, he2⟩ := he
      cases he2.symm.trans hcmd.text
      rfl
  subst htp
  obtain ⟨subs, hfind, hrep⟩ := (h5 (by intro e he; rw [List.mem_singleton.1 he]; simp) (universalNewlines text) (r.shorten q)).2 ha
  obtain ⟨new', happ, hsub⟩ := C94_is_re_sub hcmd.fits hrep
  have := spliced_unique hsub hnew
  subst this
  refine ⟨universalNewlines text, subs, _, ?_, hfind, ?_, happ, he⟩
  · unfold Runner.read; rw [hf, hb]; simp [ht]
  · rintro rfl
    cases hf : py.finditer pattern (universalNewlines text) with
    | nil => exact hne hf
    | cons x l => rw [hf] at hrep; cases hrep

/-- `refex --mode=re cc --sub=ab -i a.py` -/
def litBackOptions : Options := { litOptions with searchReplace := [⟨some (str "cc"), [(str "__root", str "ab")]⟩] }

def abPy : Python := twoPy (str "ab") (str "cc")

theorem ab_command {o : Options} {x y : Str} (hx : IsLiteral abPy x x) (ho : o = { litOptions with searchReplace := [⟨some x, [(str "__root", y)]⟩] }) :
    ∃ r, ReplacesLiteral abPy exWorld o r x y x y ⟨0, []⟩ ∧ r.enc = exAscii := by
  subst ho
  have hsm : SyntaxInEffect litOptions.mode litOptions.subMode (str "re") := .ofMode _ (by decide)
  have hss : ∃ s, Searchers abPy.modes (str "re") (str "re") [⟨some x, [(str "__root", y)]⟩] [s] :=
    ⟨_, .cons (ts := [(str "__root", reCodeTemplate y [.lit y])]) (.cons rfl .nil) rfl .nil⟩
  obtain ⟨s, hss⟩ := hss
  obtain ⟨r, hr⟩ := (C69_runner exWorld abPy.modes { litOptions with searchReplace := [⟨some x, [(str "__root", y)]⟩] } _ hsm (List.cons_ne_nil _ _)).1.2 ⟨_, hss⟩
  have henc : r.enc = exAscii := by
    unfold runnerFromOptions at hr
    split at hr
    · cases hr
    · split at hr
      · cases hr
      · cases hr; rfl
  exact ⟨r, ⟨hr, rfl, hsm, rfl, twoPy_fits (by decide) (by decide) x, hx, rfl, by rw [henc]; exact exAscii_round_trip⟩, henc⟩

/-- The hypotheses of C111_undone are met, with files that are written: `ab ab` becomes `cc cc` and `ab ab` again. -/
example : ∃ r r', ReplacesLiteral abPy exWorld litOptions r (str "ab") (str "cc") (str "ab") (str "cc") ⟨0, []⟩ ∧
    ReplacesLiteral abPy exWorld litBackOptions r' (str "cc") (str "ab") (str "cc") (str "ab") ⟨0, []⟩ ∧ r'.enc = r.enc ∧
    (∀ ch ∈ str "cc", ch ∉ universalNewlines (str "ab ab")) ∧ Rewritten r exNoFaults (exFs "ab ab") exFile (exBytes "cc cc") ∧
    Rewritten r' exNoFaults (exFs "cc cc") exFile (exBytes "ab ab") := by
  have hl := twoPy_literal (a := str "ab") (b := str "cc") (by decide)
  obtain ⟨r, hr, he⟩ := ab_command (y := str "cc") hl.1 rfl
  obtain ⟨r', hr', he'⟩ := ab_command (y := str "ab") (hl.2 (by decide) (by decide)) rfl
  refine ⟨r, r', hr, hr', by rw [he, he'], by decide, ?_, ?_⟩
  · refine replaces_rewritten hr (text := str "ab ab") (new := str "cc cc") rfl rfl (by rw [he]; decide) ⟨(by intro r h; cases h), (by intro r h; cases h)⟩ (by decide +kernel) ?_ (by rw [he]; decide)
    refine Spliced.edit 0 _ _ [] (str "ab") (str " ab") (str " cc") rfl rfl ?_
    exact Spliced.edit 2 _ _ (str " ") (str "ab") [] [] rfl rfl (.done _ _)
  · refine replaces_rewritten hr' (text := str "cc cc") (new := str "ab ab") rfl rfl (by rw [he']; decide) ⟨(by intro r h; cases h), (by intro r h; cases h)⟩ (by decide +kernel) ?_ (by rw [he']; decide)
    refine Spliced.edit 0 _ _ [] (str "cc") (str " cc") (str " ab") rfl rfl ?_
    exact Spliced.edit 2 _ _ (str " ") (str "cc") [] [] rfl rfl (.done _ _)

end Refex
