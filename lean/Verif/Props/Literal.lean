import Verif.Spec.Literal
import Verif.Props.RegexMode
/- C110: a literal text that is replaced by other characters is gone. -/
namespace Refex
set_option autoImplicit false

theorem infix_apart {w x r y : Str} (hr : r ≠ []) (hd : ∀ ch ∈ w, ch ∉ r) (h : w <:+: x ++ (r ++ y)) : w <:+: x ∨ w <:+: y := by
  obtain ⟨p, q, h⟩ := h
  cases r with
  | nil => exact absurd rfl hr
  | cons ch r =>
    rcases List.append_eq_append_iff.1 h with ⟨t, hx, _⟩ | ⟨t, hpw, ht⟩
    · exact .inl ⟨p, t, hx.symm⟩
    · -- `p ++ w = x ++ t`, `ch :: r ++ y = t ++ q`
      cases t with
      | nil => exact .inl ⟨p, [], by simpa using hpw⟩
      | cons ch' t =>
        have hch : ch' = ch := by
          simp only [List.cons_append, List.cons.injEq] at ht; exact ht.1.symm
        subst hch
        rcases List.append_eq_append_iff.1 hpw with ⟨u, hx, hw⟩ | ⟨u, hp, hw⟩
        · -- `x = p ++ u`, `w = u ++ ch :: t`
          exact absurd (List.mem_cons_self ..) (hd ch' (by rw [hw]; exact List.mem_append_right _ (List.mem_cons_self ..)))
        · -- `p = x ++ u`, `ch :: t = u ++ w`
          rw [hw, List.append_assoc] at ht
          rcases List.append_eq_append_iff.1 ht with ⟨v, hu, hy⟩ | ⟨v, hu, hy⟩
          · exact .inr ⟨v, q, by rw [List.append_assoc]; exact hy.symm⟩
          · cases w with
            | nil => exact .inl (List.nil_infix)
            | cons c0 w =>
              cases v with
              | nil => exact .inr ⟨[], q, by simpa using hy⟩
              | cons c1 v =>
                simp only [List.cons_append, List.cons.injEq] at hy
                obtain ⟨rfl, _⟩ := hy
                exact absurd (by rw [hu]; exact List.mem_append_right _ (List.mem_cons_self ..)) (hd c0 (List.mem_cons_self ..))

theorem spliced_gone {w r : Str} (hw : w ≠ []) (hr : r ≠ []) (hd : ∀ ch ∈ w, ch ∉ r) {pos : Nat} {text new : Str} {es : List Repl}
    (h : Spliced pos text es new) : (∀ e ∈ es, e.text = r ∧ e.stop = e.start + w.length) →
      (∀ k, OccursAt w text k → ∃ e ∈ es, e.start ≤ pos + k ∧ pos + k < e.stop) → ¬ w <:+: new := by
  induction h with
  | done pos rest =>
    rintro - hc ⟨p, q, hpq⟩
    obtain ⟨e, he, _⟩ := hc p.length ⟨q, by rw [← hpq, List.append_assoc, List.drop_left]⟩
    cases he
  | edit pos e es keep old rest out hkeep hold h ih =>
    intro hes hc hin
    have he := hes e (List.mem_cons_self ..)
    rw [he.1] at hin
    have hstarts : ∀ e' ∈ es, e.stop ≤ e'.start := by
      clear ih hc hin hes
      intro e' he'
      clear hkeep hold he
      revert e'
      generalize e.stop = s at h
      induction h with
      | done => intro e' he'; cases he'
      | edit pos f fs k o rs ou h1 h2 h3 ih =>
        intro e' he'
        rcases List.mem_cons.1 he' with rfl | he'
        · omega
        · have := ih e' he'; omega
    rcases infix_apart hr hd hin with ⟨p, q, hk⟩ | hin
    · -- in what is kept before the edit
      obtain ⟨e', he', h1, h2⟩ := hc p.length ⟨q ++ (old ++ rest), by
        rw [← hk, List.append_assoc, List.append_assoc, List.drop_left]⟩
      have hl : p.length + w.length + q.length = keep.length := by rw [← hk]; simp [List.length_append]; omega
      have hwl : 0 < w.length := List.length_pos_iff.2 hw
      rcases List.mem_cons.1 he' with rfl | he'
      · omega
      · have := hstarts e' he'; omega
    · refine ih (fun e he => hes e (List.mem_cons_of_mem _ he)) (fun k hk => ?_) hin
      obtain ⟨e', he', h1, h2⟩ := hc (keep.length + old.length + k) (by
        unfold OccursAt
        rw [Nat.add_assoc, ← List.drop_drop, List.drop_left, ← List.drop_drop, List.drop_left]
        exact hk)
      rcases List.mem_cons.1 he' with rfl | he'
      · omega
      · exact ⟨e', he', by omega, by omega⟩

theorem no_cr_universal (s : Str) : '\r' ∉ universalNewlines s := by
  fun_induction universalNewlines s with
  | case1 => simp
  | case2 s ih => simp [ih]
  | case3 s _ ih => simp [ih]
  | case4 c s _ h ih =>
    simp only [List.mem_cons, not_or]
    exact ⟨fun e => h e.symm, ih⟩

theorem spliced_chars {pos : Nat} {text new : Str} {es : List Repl} (h : Spliced pos text es new) {ch : Char} (hc : ch ∈ new) :
    ch ∈ text ∨ ∃ e ∈ es, ch ∈ e.text := by
  induction h with
  | done => exact .inl hc
  | edit pos e es keep old rest out _ _ _ ih =>
    rcases List.mem_append.1 hc with h | h
    · exact .inl (List.mem_append_left _ h)
    rcases List.mem_append.1 h with h | h
    · exact .inr ⟨e, List.mem_cons_self .., h⟩
    · rcases ih h with h | ⟨e', he', h⟩
      · exact .inl (List.mem_append_right _ (List.mem_append_right _ h))
      · exact .inr ⟨e', List.mem_cons_of_mem _ he', h⟩

theorem rewritten_read {r : Runner} {faults : Faults} {fs : FS} {q : Str} {b' : Bytes} (h : Rewritten r faults fs q b') :
    ∃ b text, fs q = some b ∧ r.enc.decode b = some text := by
  obtain ⟨content, ms, out, hread, _⟩ := h
  unfold Runner.read at hread
  split at hread
  · cases hread
  · cases hq : fs q with
    | none => rw [hq] at hread; cases hread
    | some b =>
      rw [hq, Option.bind_some] at hread
      cases hb : r.enc.decode b with
      | none => rw [hb] at hread; cases hread
      | some t => exact ⟨b, t, rfl, hb⟩

/-- What the command writes. -/
theorem replaces_written {py : Python} {w : World} {o : Options} {r : Runner} {pattern template old other : Str} {c : Compiled}
    (hcmd : ReplacesLiteral py w o r pattern template old other c) {faults : Faults} {fs : FS} {q : Str} {b b' : Bytes} {text : Str}
    (hb : fs q = some b) (ht : r.enc.decode b = some text) (h : Rewritten r faults fs q b') :
    ∃ new, r.enc.decode b' = some new ∧
      ReSub c (py.finditer pattern (universalNewlines text)) [.lit other] (universalNewlines text) new := by
  obtain ⟨items, hit, _, hrw⟩ := C94_rewritten hcmd.runner hcmd.mode hcmd.inEffect hcmd.one hcmd.fits hcmd.encoding
  cases hit.symm.trans hcmd.text
  exact (hrw (by simp) faults fs q b b' text hb ht h).2

/-- In what was written, line ends are newlines. -/
theorem replaced_newlines {c : Compiled} {found : List (List (Option Span))} {other text new : Str} (hcr : '\r' ∉ other)
    (h : ReSub c found [.lit other] (universalNewlines text) new) : universalNewlines new = new := by
  refine universalNewlines_id _ fun hmem => ?_
  rcases spliced_chars h hmem with h | ⟨e, he, h⟩
  · exact no_cr_universal _ h
  · obtain ⟨regs, _, rfl⟩ := List.mem_map.1 he
    exact hcr (by simpa [expandMatch] using h)

/-- **C110**, on texts: what `re.sub` makes of a text, with a literal text as the regex and a literal replacement of other characters, does not contain the
text that was replaced, and the regex finds nothing in it. -/
theorem C110_text {py : Python} {pattern w r : Str} (hl : IsLiteral py pattern w) {c : Compiled} (hw : w ≠ []) (hr : r ≠ [])
    (hd : ∀ ch ∈ w, ch ∉ r) {text new : Str} (h : ReSub c (py.finditer pattern text) [.lit r] text new) :
    ¬ w <:+: new ∧ py.finditer pattern new = [] := by
  have hgone : ¬ w <:+: new := by
    refine spliced_gone hw hr hd h ?_ ?_
    · intro e he
      obtain ⟨regs, hregs, rfl⟩ := List.mem_map.1 he
      obtain ⟨a, ha, _⟩ := hl.sound text regs hregs
      simp [expandMatch, ha]
    · intro k hk
      obtain ⟨regs, hregs, b, hb, h1, h2⟩ := hl.complete text k hk
      refine ⟨_, List.mem_map.2 ⟨regs, hregs, rfl⟩, ?_⟩
      simp [hb]; omega
  refine ⟨hgone, ?_⟩
  cases hf : py.finditer pattern new with
  | nil => rfl
  | cons regs l =>
    obtain ⟨a, _, t, ht⟩ := hl.sound new regs (by rw [hf]; exact List.mem_cons_self ..)
    exact absurd ⟨new.take a, t, by rw [List.append_assoc, ht, List.take_append_drop]⟩ hgone

/-- **C110**: after `refex --mode=re TEXT --sub=OTHER -i`, where the two have no character in common (and `OTHER` is not empty), `TEXT` is no longer in the
files that were written, and the same command run again, whenever, does not write them again. -/
theorem C110_gone {py : Python} {w : World} {o : Options} {r : Runner} {pattern template old other : Str} {c : Compiled}
    (hcmd : ReplacesLiteral py w o r pattern template old other c) (hold : old ≠ []) (hother : other ≠ []) (hd : ∀ ch ∈ old, ch ∉ other)
    (hcr : '\r' ∉ other) {faults : Faults} {fs : FS} {q : Str} {b' : Bytes} (h : Rewritten r faults fs q b') :
    ∃ new, r.enc.decode b' = some new ∧ ¬ old <:+: new ∧
      ∀ faults' fs', fs' q = some b' → ∀ b'', ¬ Rewritten r faults' fs' q b'' := by
  obtain ⟨hr, hmode, hsm, hone, hc, hl, ht, hrt⟩ := hcmd
  obtain ⟨items, hit, _, hrw⟩ := C94_rewritten hr hmode hsm hone hc hrt
  cases hit.symm.trans ht
  obtain ⟨b, text, hb, htext⟩ := rewritten_read h
  obtain ⟨_, new, hnew, hsub⟩ := hrw (by simp) faults fs q b b' text hb htext h
  obtain ⟨hgone, hnone⟩ := C110_text hl hold hother hd hsub
  refine ⟨new, hnew, hgone, fun faults' fs' hfs b'' h' => ?_⟩
  have hcrnew := replaced_newlines hcr hsub
  obtain ⟨_, new', _, hsub'⟩ := hrw (by simp) faults' fs' q b' b'' new hfs hnew h'
  obtain ⟨content, ms, out, hread, hfind, hms, _⟩ := h'
  have hcont : content = new := by
    unfold Runner.read at hread
    split at hread
    · cases hread
    · simp only [hfs, Option.bind_some, hnew, Option.map_some, Option.some.injEq, hcrnew] at hread
      exact hread.symm
  subst hcont
  obtain ⟨pattern', c', tpls, h1, h2, h3, h4, h5⟩ := C94_command hr hmode hsm hone (by simp [Dict.WF, Dict.keys]) fun p hp => ⟨c, by cases hp; exact hc⟩
  cases h1
  have h5 := h5 (by
    cases h3 with
    | cons he hrest =>
      cases hrest
      intro e he'
      rw [List.mem_singleton.1 he']
      have := he.2.symm.trans ht
      simp at this
      simp [this]) content (r.shorten q)
  by_cases ha : AlsoHolds o content
  · obtain ⟨subs, hf, hall⟩ := h5.2 ha
    rw [hnone] at hall
    cases hall
    rw [hf] at hfind
    exact hms (Except.ok.inj hfind).symm
  · rw [h5.1 ha] at hfind; cases hfind

end Refex
