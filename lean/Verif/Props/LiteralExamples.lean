import Verif.Props.Literal
/- C110: instances, and why the characters must be different. -/
namespace Refex
set_option autoImplicit false

/-! ### A search for a literal text -/

/-- The offsets of the occurrences of `w` from left to right, each after the end of the one before: `skip` characters are still part of the last one, `i` is
the offset of the text. -/
def occs (w : Str) : Nat → Nat → Str → List Nat
  | _, _, [] => []
  | 0, i, ch :: s => if w.isPrefixOf (ch :: s) then i :: occs w (w.length - 1) (i + 1) s else occs w 0 (i + 1) s
  | k + 1, i, _ :: s => occs w k (i + 1) s

theorem occs_sound {w : Str} (hw : w ≠ []) : ∀ (s : Str) (k i a : Nat), a ∈ occs w k i s → i + k ≤ a ∧ w <+: s.drop (a - i)
  | [], k, i, a, h => by unfold occs at h; cases h
  | ch :: s, 0, i, a, h => by
    rw [occs] at h
    split at h
    · rename_i hp
      rcases List.mem_cons.1 h with rfl | h
      · refine ⟨Nat.le_refl _, ?_⟩
        rw [Nat.sub_self]; exact List.isPrefixOf_iff_prefix.1 hp
      · obtain ⟨h1, h2⟩ := occs_sound hw s _ _ a h
        refine ⟨by omega, ?_⟩
        rw [show a - i = (a - (i + 1)) + 1 by omega]; exact h2
    · obtain ⟨h1, h2⟩ := occs_sound hw s _ _ a h
      refine ⟨by omega, ?_⟩
      rw [show a - i = (a - (i + 1)) + 1 by omega]; exact h2
  | ch :: s, k + 1, i, a, h => by
    rw [occs] at h
    obtain ⟨h1, h2⟩ := occs_sound hw s _ _ a h
    refine ⟨by omega, ?_⟩
    rw [show a - i = (a - (i + 1)) + 1 by omega]; exact h2

theorem occs_complete {w : Str} (hw : w ≠ []) : ∀ (s : Str) (k i j : Nat), k ≤ j → w <+: s.drop j → ∃ b ∈ occs w k i s, b ≤ i + j ∧ i + j < b + w.length
  | [], k, i, j, _, h => by rw [List.drop_nil] at h; exact absurd (List.prefix_nil.1 h) hw
  | ch :: s, 0, i, j, hj, h => by
    have hwl : 0 < w.length := List.length_pos_iff.2 hw
    rw [occs]
    split
    · rename_i hp
      by_cases hlt : j < w.length
      · exact ⟨i, List.mem_cons_self .., by omega, by omega⟩
      · obtain ⟨j, rfl⟩ : ∃ n, j = n + 1 := ⟨j - 1, by omega⟩
        obtain ⟨b, hb, h1, h2⟩ := occs_complete hw s (w.length - 1) (i + 1) j (by omega) h
        exact ⟨b, List.mem_cons_of_mem _ hb, by omega, by omega⟩
    · rename_i hp
      cases j with
      | zero => exact absurd (List.isPrefixOf_iff_prefix.2 h) hp
      | succ j =>
        obtain ⟨b, hb, h1, h2⟩ := occs_complete hw s 0 (i + 1) j (Nat.zero_le _) h
        exact ⟨b, hb, by omega, by omega⟩
  | ch :: s, k + 1, i, j, hj, h => by
    rw [occs]
    cases j with
    | zero => omega
    | succ j =>
      obtain ⟨b, hb, h1, h2⟩ := occs_complete hw s k (i + 1) j (by omega) h
      exact ⟨b, hb, by omega, by omega⟩

theorem occs_apart {w : Str} (hw : w ≠ []) : ∀ (s : Str) (k i : Nat), (occs w k i s).Pairwise fun a b => a + w.length ≤ b
  | [], k, i => by unfold occs; exact .nil
  | ch :: s, 0, i => by
    rw [occs]
    split
    · refine .cons (fun b hb => ?_) (occs_apart hw s _ _)
      have := (occs_sound hw s _ _ b hb).1
      have hwl : 0 < w.length := List.length_pos_iff.2 hw
      omega
    · exact occs_apart hw s _ _
  | ch :: s, k + 1, i => by rw [occs]; exact occs_apart hw s _ _

/-- A Python whose regexes are all the text `w`, and whose templates are all literal. -/
def litPy (w : Str) : Python :=
  { rxPy with
    regex := fun _ => some ⟨0, []⟩
    finditer := fun _ t => (occs w 0 0 t).map fun a => [some (a, a + w.length)]
    reItems := fun t => some [.lit t] }

theorem litPy_literal {w : Str} (hw : w ≠ []) (pattern : Str) : IsLiteral (litPy w) pattern w where
  sound := by
    intro text regs h
    obtain ⟨a, ha, rfl⟩ := List.mem_map.1 h
    exact ⟨a, rfl, (occs_sound hw text 0 0 a ha).2⟩
  complete := by
    intro text a h
    obtain ⟨b, hb, h1, h2⟩ := occs_complete hw text 0 0 a (Nat.zero_le _) h
    exact ⟨_, List.mem_map.2 ⟨b, hb, rfl⟩, b, rfl, by omega, by omega⟩

theorem litPy_fits {w : Str} (hw : w ≠ []) (pattern : Str) : FindsMatches (litPy w) pattern ⟨0, []⟩ where
  compiled := rfl
  names := by intro n i h; cases h
  each := by
    intro text regs h
    obtain ⟨a, ha, rfl⟩ := List.mem_map.1 h
    exact ⟨by decide, (by intro n i h; cases h), rfl, _, rfl⟩
  inside := by
    intro text regs h i sp hi
    obtain ⟨a, ha, rfl⟩ := List.mem_map.1 h
    cases i with
    | succ i => cases hi
    | zero =>
      cases hi
      have := (occs_sound hw text 0 0 a ha).2.length_le
      rw [List.length_drop] at this
      have hwl : 0 < w.length := List.length_pos_iff.2 hw
      exact ⟨by omega, by simp only; omega⟩
  ordered := by
    intro text
    refine List.pairwise_map.2 ((occs_apart hw text 0 0).imp ?_)
    intro a b h sa sb ha hb
    cases ha; cases hb
    have hwl : 0 < w.length := List.length_pos_iff.2 hw
    refine ⟨h, fun e => ?_⟩
    have := congrArg Prod.fst e
    simp only at this; omega

/-! ### `refex --mode=re ab --sub=cc -i` on "aabb ab", again and again -/

/-- `refex --mode=re ab --sub=cc -i a.py` -/
def litOptions : Options where
  mode := str "re"
  searchReplace := [⟨some (str "ab"), [(str "__root", str "cc")]⟩]
  inPlace := true
  files := [exFile]

def litTemplates : Dict Str CodeTemplate := [(str "__root", reCodeTemplate (str "cc") [.lit (str "cc")])]

/-- The hypotheses of C110_gone are met, and the file is written. -/
example : ∃ r, runnerFromOptions exWorld (litPy (str "ab")).modes litOptions = .ok r ∧ SyntaxInEffect litOptions.mode litOptions.subMode (str "re") ∧
    ReplacesLiteral (litPy (str "ab")) exWorld litOptions r (str "ab") (str "cc") (str "ab") (str "cc") ⟨0, []⟩ ∧ (∀ ch ∈ str "ab", ch ∉ str "cc") ∧
    Rewritten r exNoFaults (exFs "aabb ab") exFile (exBytes "accb cc") := by
  have hsm : SyntaxInEffect litOptions.mode litOptions.subMode (str "re") := .ofMode _ (by decide)
  have hss : ∃ s, Searchers (litPy (str "ab")).modes litOptions.mode (str "re") litOptions.searchReplace [s] :=
    ⟨_, .cons (ts := litTemplates) (.cons rfl .nil) rfl .nil⟩
  obtain ⟨s, hss⟩ := hss
  obtain ⟨r, hr⟩ := (C69_runner exWorld (litPy (str "ab")).modes litOptions _ hsm (by decide)).1.2 ⟨_, hss⟩
  have henc : r.enc = exAscii := by
    unfold runnerFromOptions at hr
    split at hr
    · cases hr
    · split at hr
      · cases hr
      · cases hr; rfl
  have hfits := litPy_fits (w := str "ab") (by decide) (str "ab")
  have hfs := C94_command hr rfl hsm rfl (by decide) fun p hp => by cases hp; exact ⟨_, hfits⟩
  obtain ⟨_, c, tpls, hp, hc, ht, _, hall⟩ := hfs
  cases hp
  have : c = ⟨0, []⟩ := Option.some.inj (hc.compiled.symm.trans hfits.compiled)
  subst this
  have : tpls = [(str "__root", [.lit (str "cc")])] := by
    cases ht with
    | @cons _ e _ l he hrest =>
      cases hrest
      obtain ⟨l, items⟩ := e
      obtain ⟨rfl, he2⟩ := he
      have : (litPy (str "ab")).reItems (str "cc") = some items := he2
      cases this; rfl
  subst this
  obtain ⟨subs, hf, hrep⟩ := (hall (by intro e he; rw [List.mem_singleton.1 he]; decide) (str "aabb ab") (r.shorten exFile)).2
    ⟨(by intro r h; cases h), (by intro r h; cases h)⟩
  obtain ⟨new, h1, h2⟩ := C94_is_re_sub hfits hrep
  have hnew : new = str "accb cc" := by
    have : ReSub ⟨0, []⟩ ((litPy (str "ab")).finditer (str "ab") (str "aabb ab")) [.lit (str "cc")] (str "aabb ab") (str "accb cc") := by
      refine Spliced.edit 0 _ _ (str "a") (str "ab") (str "b ab") (str "b cc") rfl rfl ?_
      exact Spliced.edit 3 _ _ (str "b ") (str "ab") [] [] rfl rfl (.done _ _)
    exact spliced_unique h2 this
  subst hnew
  refine ⟨r, hr, hsm, ⟨hr, rfl, hsm, rfl, hfits, litPy_literal (by decide) _, rfl, by rw [henc]; exact exAscii_round_trip⟩, by decide, str "aabb ab", subs, _, ?_, hf, ?_, h1, ?_⟩
  · unfold Runner.read; rw [henc]; decide +kernel
  · have hl := forall2_length' hrep
    intro e; rw [e] at hl; exact absurd hl (by decide)
  · rw [henc]; decide

/-! ### What the conditions are for -/

/-- Not so if the replacement is empty: what stood on both sides comes together (`ab` taken out of `aabb`). -/
theorem C110_empty_false : ¬ ∀ (py : Python) (pattern old : Str) (c : Compiled) (text new : Str), IsLiteral py pattern old → old ≠ [] →
    ReSub c (py.finditer pattern text) [.lit []] text new → ¬ old <:+: new := fun h =>
  h (litPy (str "ab")) (str "ab") (str "ab") ⟨0, []⟩ (str "aabb") (str "ab") (litPy_literal (by decide) _) (by decide)
    (Spliced.edit 0 _ _ (str "a") (str "ab") (str "b") (str "b") rfl rfl (.done _ _)) (List.infix_rfl)

/-- Not so if the two have characters in common, even if the one is no part of the other: `ab` replaced by `b` in `aab`. -/
theorem C110_common_false : ¬ ∀ (py : Python) (pattern old other : Str) (c : Compiled) (text new : Str), IsLiteral py pattern old → old ≠ [] → other ≠ [] →
    ¬ old <:+: other → ReSub c (py.finditer pattern text) [.lit other] text new → ¬ old <:+: new := fun h =>
  h (litPy (str "ab")) (str "ab") (str "ab") (str "b") ⟨0, []⟩ (str "aab") (str "ab") (litPy_literal (by decide) _) (by decide) (by decide)
    (fun h => absurd h.length_le (by decide)) (Spliced.edit 0 _ _ (str "a") (str "ab") [] [] rfl rfl (.done _ _)) (List.infix_rfl)

end Refex
