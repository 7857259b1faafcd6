import Verif.Props.LiteralUndo
/- C114: two replacements of literal texts can be done in either order. -/
namespace Refex
set_option autoImplicit false

/-- The text with `r` for every `w`, from left to right, after the next `k` characters. -/
def putFrom (w r : Str) : Nat → Str → Str
  | _, [] => []
  | k + 1, _ :: t => putFrom w r k t
  | 0, ch :: t => if w.isPrefixOf (ch :: t) then r ++ putFrom w r (w.length - 1) t else ch :: putFrom w r 0 t

theorem putFrom_drop (w r : Str) : ∀ (k : Nat) (s : Str), putFrom w r k s = putFrom w r 0 (s.drop k)
  | 0, s => rfl
  | k + 1, [] => by simp [putFrom]
  | k + 1, ch :: t => by
    show putFrom w r k t = _
    rw [putFrom_drop w r k t]; rfl

/-- With `w` ahead. -/
theorem put_hit {w r : Str} (hw : w ≠ []) (s : Str) : putFrom w r 0 (w ++ s) = r ++ putFrom w r 0 s := by
  cases w with
  | nil => exact absurd rfl hw
  | cons ch w =>
    show (if (ch :: w).isPrefixOf (ch :: (w ++ s)) then _ else _) = _
    have hp : (ch :: w).isPrefixOf (ch :: (w ++ s)) = true := List.isPrefixOf_iff_prefix.2 ⟨s, rfl⟩
    rw [if_pos hp, putFrom_drop]
    show r ++ putFrom (ch :: w) r 0 ((w ++ s).drop w.length) = _
    rw [List.drop_left]

/-- Without. -/
theorem put_miss {w r : Str} {ch : Char} {s : Str} (h : ¬ w <+: ch :: s) : putFrom w r 0 (ch :: s) = ch :: putFrom w r 0 s := by
  show (if w.isPrefixOf (ch :: s) then _ else _) = _
  rw [if_neg fun e => h (List.isPrefixOf_iff_prefix.1 e)]

theorem put_pass {w r : Str} : ∀ {x s : Str}, (∀ k, k < x.length → ¬ OccursAt w (x ++ s) k) → putFrom w r 0 (x ++ s) = x ++ putFrom w r 0 s
  | [], _, _ => rfl
  | ch :: x, s, h => by
    show putFrom w r 0 (ch :: (x ++ s)) = ch :: (x ++ putFrom w r 0 s)
    have h0 : ¬ w <+: ch :: (x ++ s) := h 0 (by simp)
    rw [put_miss h0, put_pass fun k hk ho => h (k + 1) (by simpa using hk) ho]

theorem put_none {w r : Str} : ∀ {s : Str}, (∀ k, ¬ OccursAt w s k) → putFrom w r 0 s = s
  | [], _ => rfl
  | ch :: s, h => by rw [put_miss (h 0), put_none fun k => h (k + 1)]

theorem put_foreign {w r : Str} (hw : w ≠ []) {x s : Str} (h : ∀ ch ∈ w, ch ∉ x) : putFrom w r 0 (x ++ s) = x ++ putFrom w r 0 s := by
  refine put_pass fun k hk ho => ?_
  cases w with
  | nil => exact hw rfl
  | cons ch w =>
    have h1 := occursAt_head ho
    rw [List.getElem?_append_left hk] at h1
    exact h ch (List.mem_cons_self ..) (List.mem_of_getElem? h1)

/-- What is ahead afterwards, with no characters of what was put in, was ahead before. -/
theorem put_ahead {w r : Str} (hw : w ≠ []) (hr : r ≠ []) : ∀ (p s : Str), (∀ ch ∈ p, ch ∉ r) → p <+: putFrom w r 0 s → p <+: s
  | [], s, _, _ => ⟨s, rfl⟩
  | ch :: p, [], _, h => by simp [putFrom] at h
  | ch :: p, c :: s, hp, h => by
    by_cases hc : w <+: c :: s
    · obtain ⟨t, ht⟩ := hc
      rw [← ht, put_hit hw] at h
      cases r with
      | nil => exact absurd rfl hr
      | cons c' r =>
        rw [List.cons_append] at h
        have := (List.cons_prefix_cons.1 h).1
        exact absurd (List.mem_cons.2 (.inl this)) (hp ch (List.mem_cons_self ..))
    · rw [put_miss hc] at h
      obtain ⟨h1, h2⟩ := List.cons_prefix_cons.1 h
      exact List.cons_prefix_cons.2 ⟨h1, put_ahead hw hr p s (fun x hx => hp x (List.mem_cons_of_mem _ hx)) h2⟩

/-- Either order. -/
theorem put_commute {a b c d : Str} (ha : a ≠ []) (hb : b ≠ []) (hc : c ≠ []) (hd : d ≠ []) (hac : ∀ ch ∈ a, ch ∉ c) (hbc : ∀ ch ∈ c, ch ∉ b)
    (had : ∀ ch ∈ a, ch ∉ d) : ∀ (n : Nat) (s : Str), s.length ≤ n → putFrom c d 0 (putFrom a b 0 s) = putFrom a b 0 (putFrom c d 0 s) := by
  intro n
  have hla : 0 < a.length := List.length_pos_iff.2 ha
  have hlc : 0 < c.length := List.length_pos_iff.2 hc
  induction n with
  | zero => intro s hs; rw [List.length_eq_zero_iff.1 (Nat.le_zero.1 hs)]; rfl
  | succ n ih =>
    intro s hs
    cases s with
    | nil => rfl
    | cons ch s =>
      by_cases h1 : a <+: ch :: s
      · obtain ⟨t, ht⟩ := h1
        rw [← ht] at hs ⊢
        rw [put_hit ha, put_foreign hc hbc, put_foreign hc (fun x hx hx' => hac x hx' hx), put_hit ha, ih t (by simp at hs; omega)]
      · by_cases h2 : c <+: ch :: s
        · obtain ⟨t, ht⟩ := h2
          rw [← ht] at hs ⊢
          rw [put_hit hc, put_foreign ha had, put_foreign ha hac, put_hit hc, ih t (by simp at hs; omega)]
        · rw [put_miss h1, put_miss h2]
          have k1 : ¬ c <+: ch :: putFrom a b 0 s := fun h => h2 (put_ahead ha hb c (ch :: s) hbc (by rw [put_miss h1]; exact h))
          have k2 : ¬ a <+: ch :: putFrom c d 0 s := fun h => h1 (put_ahead hc hd a (ch :: s) had (by rw [put_miss h2]; exact h))
          rw [put_miss k1, put_miss k2, ih s (by simpa using hs)]

/-- Replacing the matches of a regex that stands for a literal text. -/
theorem spliced_put {w r : Str} (hw : w ≠ []) {pos : Nat} {text new : Str} {es : List Repl} (h : Spliced pos text es new) :
    (∀ e ∈ es, e.text = r ∧ e.stop = e.start + w.length ∧ OccursAt w text (e.start - pos)) →
    (∀ k, OccursAt w text k → ∃ e ∈ es, e.start ≤ pos + k ∧ pos + k < e.stop) → new = putFrom w r 0 text := by
  induction h with
  | done pos rest =>
    intro _ hc
    refine (put_none fun k ho => ?_).symm
    obtain ⟨e, he, _⟩ := hc k ho
    cases he
  | edit pos e es keep old rest out hkeep hold h ih =>
    intro hes hc
    obtain ⟨het, hestop, heocc⟩ := hes e (List.mem_cons_self ..)
    have hold' : old = w := by
      have h1 : e.start - pos = keep.length + 0 := by omega
      rw [h1, occursAt_shift] at heocc
      obtain ⟨t, ht⟩ := heocc
      exact (List.append_inj ht.symm (by omega)).1
    subst hold'
    rw [put_pass fun k hk ho => ?_, put_hit hw, het, ih (fun e' he' => ?_) fun k ho => ?_]
    · obtain ⟨h3, h4, h5⟩ := hes e' (List.mem_cons_of_mem _ he')
      refine ⟨h3, h4, ?_⟩
      have := spliced_after h e' he'
      rw [show e'.start - pos = keep.length + (old.length + (e'.start - e.stop)) by omega, occursAt_shift, occursAt_shift] at h5
      exact h5
    · obtain ⟨e', he', h3, h4⟩ := hc (keep.length + (old.length + k)) (by rw [occursAt_shift, occursAt_shift]; exact ho)
      rcases List.mem_cons.1 he' with rfl | he'
      · omega
      · exact ⟨e', he', by omega, by omega⟩
    · obtain ⟨e', he', h3, h4⟩ := hc k ho
      rcases List.mem_cons.1 he' with rfl | he'
      · omega
      · have := spliced_after h e' he'; omega

theorem reSub_put {py : Python} {pattern w r : Str} (hl : IsLiteral py pattern w) (hw : w ≠ []) {c : Compiled} {text new : Str}
    (h : ReSub c (py.finditer pattern text) [.lit r] text new) : new = putFrom w r 0 text := by
  refine spliced_put hw h (fun e he => ?_) fun k hk => ?_
  · obtain ⟨regs, hregs, rfl⟩ := List.mem_map.1 he
    obtain ⟨k, hk, ho⟩ := hl.sound text regs hregs
    refine ⟨by simp [expandMatch], by simp [hk], ?_⟩
    simpa [hk] using ho
  · obtain ⟨regs, hregs, p, hp, h1, h2⟩ := hl.complete text k hk
    exact ⟨_, List.mem_map.2 ⟨regs, hregs, rfl⟩, by simp [hp]; omega, by simp [hp]; omega⟩

/-- **C114**, on texts: putting `b` for `a` and `d` for `c` gives the same in either order, if `a` and `c`, `b` and `c`, and `a` and `d` have no characters
in common. -/
theorem C114_text {py : Python} {patternA patternC a b c d : Str} (hla : IsLiteral py patternA a) (hlc : IsLiteral py patternC c) {ca cc : Compiled}
    (ha : a ≠ []) (hb : b ≠ []) (hc : c ≠ []) (hd : d ≠ []) (hac : ∀ ch ∈ a, ch ∉ c) (hcb : ∀ ch ∈ c, ch ∉ b) (had : ∀ ch ∈ a, ch ∉ d)
    {text s1 s2 t1 t2 : Str} (h1 : ReSub ca (py.finditer patternA text) [.lit b] text s1) (h2 : ReSub cc (py.finditer patternC s1) [.lit d] s1 s2)
    (h3 : ReSub cc (py.finditer patternC text) [.lit d] text t1) (h4 : ReSub ca (py.finditer patternA t1) [.lit b] t1 t2) : s2 = t2 := by
  rw [reSub_put hlc hc h2, reSub_put hla ha h1, reSub_put hla ha h4, reSub_put hlc hc h3]
  exact put_commute ha hb hc hd hac hcb had _ _ (Nat.le_refl _)

/-- **C114**: so with the commands `refex --mode=re A --sub=B -i` and `refex --mode=re C --sub=D -i`: in both orders, a file that each of them writes has the
same text in the end. -/
theorem C114_either_order {py : Python} {w w' : World} {o o' : Options} {r r' : Runner} {patternA templateB patternC templateD a b c d : Str}
    {ca cc : Compiled} (hcmd : ReplacesLiteral py w o r patternA templateB a b ca) (hcmd' : ReplacesLiteral py w' o' r' patternC templateD c d cc)
    (henc : r'.enc = r.enc) (ha : a ≠ []) (hb : b ≠ []) (hc : c ≠ []) (hd : d ≠ []) (hac : ∀ ch ∈ a, ch ∉ c) (hcb : ∀ ch ∈ c, ch ∉ b)
    (had : ∀ ch ∈ a, ch ∉ d) (hcrb : '\r' ∉ b) (hcrd : '\r' ∉ d) {faults faults₁ faults₂ faults₃ : Faults} {fs fs₁ fs₂ fs₃ : FS} {q : Str}
    {bytes x y x' y' : Bytes} (hq : fs q = some bytes) (hq₂ : fs₂ q = some bytes)
    (h1 : Rewritten r faults fs q x) (hq₁ : fs₁ q = some x) (h2 : Rewritten r' faults₁ fs₁ q y)
    (h3 : Rewritten r' faults₂ fs₂ q x') (hq₃ : fs₃ q = some x') (h4 : Rewritten r faults₃ fs₃ q y') :
    ∃ text, r.enc.decode y = some text ∧ r.enc.decode y' = some text := by
  obtain ⟨b0, text, hb0, ht⟩ := rewritten_read h1
  rw [hq] at hb0; cases hb0
  obtain ⟨s1, e1, r1⟩ := replaces_written hcmd hq ht h1
  obtain ⟨s2, e2, r2⟩ := replaces_written hcmd' hq₁ (by rw [henc]; exact e1) h2
  obtain ⟨t1, e3, r3⟩ := replaces_written hcmd' hq₂ (by rw [henc]; exact ht) h3
  obtain ⟨t2, e4, r4⟩ := replaces_written hcmd hq₃ (by rw [← henc]; exact e3) h4
  rw [replaced_newlines hcrb r1] at r2
  rw [replaced_newlines hcrd r3] at r4
  have := C114_text hcmd.literal hcmd'.literal ha hb hc hd hac hcb had r1 r2 r3 r4
  subst this
  exact ⟨s2, by rw [← henc]; exact e2, e4⟩

/-- Not so if something is just removed: `ab` to `z` and `x` to nothing, in `axb`. -/
theorem C114_empty_false : ¬ ∀ (py : Python) (patternA patternC a b c d : Str) (ca cc : Compiled) (text s1 s2 t1 t2 : Str), IsLiteral py patternA a →
    IsLiteral py patternC c → a ≠ [] → b ≠ [] → c ≠ [] → (∀ ch ∈ a, ch ∉ c) → (∀ ch ∈ c, ch ∉ b) → (∀ ch ∈ a, ch ∉ d) →
    ReSub ca (py.finditer patternA text) [.lit b] text s1 → ReSub cc (py.finditer patternC s1) [.lit d] s1 s2 →
    ReSub cc (py.finditer patternC text) [.lit d] text t1 → ReSub ca (py.finditer patternA t1) [.lit b] t1 t2 → s2 = t2 := by
  intro h
  exact absurd (h (twoPy (str "ab") (str "x")) (str "ab") (str "x") (str "ab") (str "z") (str "x") [] ⟨0, []⟩ ⟨0, []⟩ (str "axb") (str "axb") (str "ab")
    (str "ab") (str "z") (twoPy_literal (by decide)).1 ((twoPy_literal (by decide)).2 (by decide) (by decide)) (by decide) (by decide) (by decide) (by decide)
    (by decide) (by decide) (Spliced.done _ _) (Spliced.edit 0 _ _ (str "a") (str "x") (str "b") (str "b") rfl rfl (.done _ _))
    (Spliced.edit 0 _ _ (str "a") (str "x") (str "b") (str "b") rfl rfl (.done _ _)) (Spliced.edit 0 _ _ [] (str "ab") [] [] rfl rfl (.done _ _))) (by decide)

/-- The hypotheses of C114_either_order are met, with files that are written: `ab cc` becomes `z cc` or `ab y`, and then `z y`. -/
example : ∃ r r', ReplacesLiteral abPy exWorld { litOptions with searchReplace := [⟨some (str "ab"), [(str "__root", str "z")]⟩] } r (str "ab") (str "z") (str "ab") (str "z") ⟨0, []⟩ ∧
    ReplacesLiteral abPy exWorld { litOptions with searchReplace := [⟨some (str "cc"), [(str "__root", str "y")]⟩] } r' (str "cc") (str "y") (str "cc") (str "y") ⟨0, []⟩ ∧
    r'.enc = r.enc ∧ Rewritten r exNoFaults (exFs "ab cc") exFile (exBytes "z cc") ∧ Rewritten r' exNoFaults (exFs "z cc") exFile (exBytes "z y") ∧
    Rewritten r' exNoFaults (exFs "ab cc") exFile (exBytes "ab y") ∧ Rewritten r exNoFaults (exFs "ab y") exFile (exBytes "z y") := by
  have hl := twoPy_literal (a := str "ab") (b := str "cc") (by decide)
  obtain ⟨r, hr, he⟩ := ab_command (y := str "z") hl.1 rfl
  obtain ⟨r', hr', he'⟩ := ab_command (y := str "y") (hl.2 (by decide) (by decide)) rfl
  have al : ∀ (o : Options) (t : Str), o.also = [] → o.noalso = [] → AlsoHolds o t := by
    intro o t h1 h2
    exact ⟨(by rw [h1]; intro r h; cases h), (by rw [h2]; intro r h; cases h)⟩
  refine ⟨r, r', hr, hr', by rw [he, he'], ?_, ?_, ?_, ?_⟩
  · refine replaces_rewritten hr (text := str "ab cc") (new := str "z cc") rfl rfl (by rw [he]; decide) (al _ _ rfl rfl) (by decide +kernel) ?_ (by rw [he]; decide)
    exact Spliced.edit 0 _ _ [] (str "ab") (str " cc") (str " cc") rfl rfl (.done _ _)
  · refine replaces_rewritten hr' (text := str "z cc") (new := str "z y") rfl rfl (by rw [he']; decide) (al _ _ rfl rfl) (by decide +kernel) ?_ (by rw [he']; decide)
    exact Spliced.edit 0 _ _ (str "z ") (str "cc") [] [] rfl rfl (.done _ _)
  · refine replaces_rewritten hr' (text := str "ab cc") (new := str "ab y") rfl rfl (by rw [he']; decide) (al _ _ rfl rfl) (by decide +kernel) ?_ (by rw [he']; decide)
    exact Spliced.edit 0 _ _ (str "ab ") (str "cc") [] [] rfl rfl (.done _ _)
  · refine replaces_rewritten hr (text := str "ab y") (new := str "z y") rfl rfl (by rw [he]; decide) (al _ _ rfl rfl) (by decide +kernel) ?_ (by rw [he]; decide)
    exact Spliced.edit 0 _ _ [] (str "ab") (str " y") (str " y") rfl rfl (.done _ _)

end Refex
