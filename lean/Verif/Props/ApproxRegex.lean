import Verif.Spec.ApproxRegex
import Verif.Props.Searchers
import Verif.Lemmas.Dict
import Verif.Model.Modes
import Verif.Props.CompileText
/- C28: combined searchers and their approximate regexes. -/
namespace Refex
set_option autoImplicit false

theorem groups_opens (r : Re) : r.groups = r.opens.length := by
  induction r with
  | seq a b iha ihb | alt a b iha ihb => simp only [Re.groups, Re.opens, List.length_append, iha, ihb]
  | rep _ _ _ a ih | look _ a ih | behind _ _ a ih => simpa only [Re.groups, Re.opens] using ih
  | grp x a ih => simp only [Re.groups, Re.opens, List.length_cons, ih]
  | _ => rfl

/-! ### Matching does not depend on the numbers of groups -/

/-- The same place, and the same captures up to a shift of the numbers of groups by `d`. -/
def ShiftedBy (d : Nat) (st st' : ReState) : Prop := st'.1 = st.1 ∧ ∀ n, st'.2 (n + d) = st.2 n

theorem forall2_flatMap {α β γ δ : Type} {R : α → β → Prop} {S : γ → δ → Prop} {f : α → List γ} {g : β → List δ}
    (hfg : ∀ a b, R a b → Forall2 S (f a) (g b)) : ∀ {l : List α} {l' : List β}, Forall2 R l l' → Forall2 S (l.flatMap f) (l'.flatMap g)
  | _, _, .nil => .nil
  | _, _, .cons h t => by
    rw [List.flatMap_cons, List.flatMap_cons]
    exact forall2_append (hfg _ _ h) (forall2_flatMap hfg t)

theorem shifted_map {α β γ δ : Type} {R : α → β → Prop} {S : γ → δ → Prop} {f : α → γ} {g : β → δ} {l : List α} {l' : List β}
    (h : Forall2 R l l') (hfg : ∀ a b, R a b → S (f a) (g b)) : Forall2 S (l.map f) (l'.map g) := by
  induction h with
  | nil => exact .nil
  | cons h _ ih => exact .cons (hfg _ _ h) ih

theorem repLoop_shifted {d : Nat} {f g : ReState → List ReState} (h : ∀ st st', ShiftedBy d st st' → Forall2 (ShiftedBy d) (f st) (g st')) (lo : Nat) (hi : Option Nat)
    (greedy : Bool) (n count : Nat) (last : Option Nat) (st st' : ReState) (hs : ShiftedBy d st st') :
    Forall2 (ShiftedBy d) (repLoop f lo hi greedy n count last st) (repLoop g lo hi greedy n count last st') := by
  induction n generalizing count last st st' with
  | zero => exact .cons hs .nil
  | succ n ih =>
    unfold repLoop
    have hmore : Forall2 (ShiftedBy d)
        (if hi.all (count < ·) ∧ last ≠ some st.1 then (f st).flatMap (repLoop f lo hi greedy n (count + 1) (some st.1)) else [])
        (if hi.all (count < ·) ∧ last ≠ some st'.1 then (g st').flatMap (repLoop g lo hi greedy n (count + 1) (some st'.1)) else []) := by
      rw [hs.1]
      split
      · exact forall2_flatMap (fun a b hab => ih _ _ a b hab) (h st st' hs)
      · exact .nil
    split
    · exact forall2_flatMap (fun a b hab => ih _ _ a b hab) (h st st' hs)
    · simp only
      split
      · exact forall2_append hmore (.cons hs .nil)
      · exact .cons hs hmore

theorem reRefer_shifted {d : Nat} (text : Str) (cap : Option Str) {st st' : ReState} (hs : ShiftedBy d st st') :
    Forall2 (ShiftedBy d) (reRefer text cap st) (reRefer text cap st') := by
  unfold reRefer
  split
  · exact .nil
  · rw [hs.1]
    split
    · exact .cons ⟨rfl, hs.2⟩ .nil
    · exact .nil

theorem reAssert_shifted {d : Nat} (neg : Bool) {st st' : ReState} (hs : ShiftedBy d st st') {l l' : List ReState} (h : Forall2 (ShiftedBy d) l l') :
    Forall2 (ShiftedBy d) (reAssert neg st l) (reAssert neg st' l') := by
  cases h with
  | nil =>
    cases neg
    · exact .nil
    · exact .cons hs .nil
  | cons h _ =>
    cases neg
    · exact .cons ⟨hs.1, h.2⟩ .nil
    · exact .nil

/-- The names that a regex refers to. -/
def Re.namesUsed : Re → List Str
  | .seq a b | .alt a b => a.namesUsed ++ b.namesUsed
  | .rep _ _ _ a | .look _ a | .behind _ _ a | .grp _ a => a.namesUsed
  | .named x => [x]
  | _ => []

theorem run_shifted {d : Nat} (multi : Bool) (text : Str) {N N' : Dict Str Nat} (r : Re) (hd : d = 0 ∨ r.NoNumberRef)
    (hN : ∀ x ∈ r.namesUsed, ∃ n, N.get? x = some n ∧ N'.get? x = some (n + d)) (k : Nat) (hk : 0 < k) (st st' : ReState) (hs : ShiftedBy d st st') :
    Forall2 (ShiftedBy d) (r.run multi N text k st) (r.run multi N' text (k + d) st') := by
  induction r generalizing k st st' with
  | eps => exact .cons hs .nil
  | cls p =>
    unfold Re.run
    rw [hs.1]
    split
    · exact .nil
    · split
      · exact .cons ⟨rfl, hs.2⟩ .nil
      · exact .nil
  | seq a b iha ihb =>
    unfold Re.run
    refine forall2_flatMap (fun x y hxy => ?_) (iha (hd.imp id (·.1)) (fun x hx => hN x (List.mem_append_left _ hx)) k hk st st' hs)
    have := ihb (hd.imp id (·.2)) (fun x hx => hN x (List.mem_append_right _ hx)) (k + a.groups) (by omega) x y hxy
    rwa [Nat.add_right_comm] at this
  | alt a b iha ihb =>
    unfold Re.run
    refine forall2_append (iha (hd.imp id (·.1)) (fun x hx => hN x (List.mem_append_left _ hx)) k hk st st' hs) ?_
    have := ihb (hd.imp id (·.2)) (fun x hx => hN x (List.mem_append_right _ hx)) (k + a.groups) (by omega) st st' hs
    rwa [Nat.add_right_comm] at this
  | rep lo hi greedy a ih =>
    unfold Re.run
    exact repLoop_shifted (fun x y hxy => ih hd hN k hk x y hxy) _ _ _ _ _ _ _ _ hs
  | grp x a ih =>
    unfold Re.run
    have := ih hd hN (k + 1) (by omega) st st' hs
    rw [Nat.add_right_comm] at this
    refine shifted_map this fun r r' hr => ⟨hr.1, fun n => ?_⟩
    simp only [hr.1, hs.1]
    by_cases h : n = k
    · rw [if_pos h, if_pos (by omega)]
    · rw [if_neg h, if_neg (by omega)]; exact hr.2 n
  | backref n =>
    unfold Re.run
    rcases hd with rfl | h
    · rw [← hs.2 n]; exact reRefer_shifted _ _ hs
    · cases h
  | named x =>
    unfold Re.run
    obtain ⟨n, h1, h2⟩ := hN x (List.mem_singleton.2 rfl)
    rw [h1, h2]
    simp only
    rw [← hs.2 n]; exact reRefer_shifted _ _ hs
  | look neg a ih =>
    unfold Re.run
    exact reAssert_shifted neg hs (ih hd hN k hk st st' hs)
  | behind neg w a ih =>
    unfold Re.run
    rw [hs.1]
    split
    · split
      · exact .cons hs .nil
      · exact .nil
    · exact reAssert_shifted neg hs (ih hd hN k hk _ _ ⟨rfl, hs.2⟩)
  | bol =>
    unfold Re.run
    rw [hs.1]
    split
    · exact .cons hs .nil
    · exact .nil
  | eol =>
    unfold Re.run
    rw [hs.1]
    split
    · exact .cons hs .nil
    · exact .nil
  | test p =>
    unfold Re.run
    rw [hs.1]
    split
    · exact .cons hs .nil
    · exact .nil

/-! ### Compiling does not depend on them either -/

/-- The names with the numbers shifted. -/
def shiftNames (d : Nat) (ns : Dict Str Nat) : Dict Str Nat := ns.map fun p => (p.1, p.2 + d)

theorem get?_append (P Q : Dict Str Nat) (x : Str) : Dict.get? (P ++ Q : Dict Str Nat) x = (Dict.get? P x).or (Dict.get? Q x) := by
  induction P with
  | nil => rfl
  | cons p P ih =>
    obtain ⟨a, b⟩ := p
    show (if a = x then some b else Dict.get? (P ++ Q : Dict Str Nat) x) = Option.or (if a = x then some b else Dict.get? P x) _
    split
    · rfl
    · exact ih

theorem get?_shift (d : Nat) (ns : Dict Str Nat) (x : Str) : (shiftNames d ns).get? x = (ns.get? x).map (· + d) := by
  induction ns with
  | nil => rfl
  | cons p ns ih =>
    obtain ⟨a, b⟩ := p
    show (if a = x then some (b + d) else (shiftNames d ns).get? x) = Option.map (· + d) (if a = x then some b else Dict.get? ns x)
    split
    · rfl
    · exact ih

theorem keys_shift (d : Nat) (ns : Dict Str Nat) : (shiftNames d ns).keys = ns.keys := by
  simp [shiftNames, Dict.keys]

theorem get?_outside {P : Dict Str Nat} {x : Str} (h : x ∉ P.keys) : P.get? x = none := by
  cases hx : P.get? x with
  | none => rfl
  | some v => exact absurd (Dict.mem_keys_iff.2 ⟨v, hx⟩) h

theorem keys_append (P Q : Dict Str Nat) : Dict.keys (P ++ Q : Dict Str Nat) = P.keys ++ Q.keys := List.map_append

/-- What compiling a part of a regex adds to the names. -/
theorem check_names {r : Re} {k : Nat} {opened : List Nat} {ns ns' : Dict Str Nat} (h : r.check k opened ns = some ns') :
    (∃ l : Dict Str Nat, ns' = ns ++ l ∧ l.keys = r.groupNames) ∧ (∀ x ∈ r.namesUsed, x ∈ ns'.keys) ∧ (ns.WF → ns'.WF) := by
  induction r generalizing k opened ns ns' with
  | seq a b iha ihb | alt a b iha ihb =>
    unfold Re.check at h
    split at h
    · cases h
    · rename_i n1 h1
      obtain ⟨⟨l1, rfl, hl1⟩, hu1, hw1⟩ := iha h1
      obtain ⟨⟨l2, rfl, hl2⟩, hu2, hw2⟩ := ihb h
      refine ⟨⟨l1 ++ l2, by rw [List.append_assoc], by rw [keys_append, hl1, hl2]; rfl⟩, fun x hx => ?_, fun hw => hw2 (hw1 hw)⟩
      rcases List.mem_append.1 hx with hx | hx
      · rw [keys_append]; exact List.mem_append_left _ (hu1 x hx)
      · exact hu2 x hx
  | rep _ _ _ a ih | look _ a ih | behind _ _ a ih =>
    unfold Re.check at h
    exact ih h
  | grp x a ih =>
    cases x with
    | none => unfold Re.check at h; exact ih h
    | some x =>
      unfold Re.check at h
      split at h
      · cases h
      · rename_i hx
        obtain ⟨⟨l, rfl, hl⟩, hu, hw⟩ := ih h
        refine ⟨⟨(x, k) :: l, by simp, ?_⟩, hu, fun hns => hw ?_⟩
        · show x :: Dict.keys l = _; rw [hl]; rfl
        · show (Dict.keys _).Nodup
          rw [keys_append]
          refine List.nodup_append.2 ⟨hns, by simp [Dict.keys], ?_⟩
          intro a ha b hb
          have hb : b = x := List.mem_singleton.1 hb
          rintro rfl
          rw [hb] at ha
          exact hx (Dict.has_iff.2 (Dict.mem_keys_iff.1 ha))
  | backref n =>
    unfold Re.check at h
    split at h
    · cases h; exact ⟨⟨[], by simp, rfl⟩, fun x hx => (by cases hx), id⟩
    · cases h
  | named x =>
    unfold Re.check at h
    split at h
    · cases h
    · rename_i n hn
      split at h
      · cases h
      · cases h
        refine ⟨⟨[], by simp, rfl⟩, fun y hy => ?_, id⟩
        rw [List.mem_singleton.1 hy]
        exact Dict.mem_keys_iff.2 ⟨n, hn⟩
  | _ => cases h; exact ⟨⟨[], by simp, rfl⟩, fun x hx => (by cases hx), id⟩

theorem check_shifted {d : Nat} {r : Re} (hd : d = 0 ∨ r.NoNumberRef) {k : Nat} {opened : List Nat} {P ns ns' : Dict Str Nat} (h : r.check k opened ns = some ns')
    (hP : ∀ x ∈ ns'.keys, x ∉ P.keys) : r.check (k + d) (opened.map (· + d)) (P ++ shiftNames d ns) = some (P ++ shiftNames d ns') := by
  induction r generalizing k opened ns ns' with
  | seq a b iha ihb | alt a b iha ihb =>
    unfold Re.check at h ⊢
    split at h
    · cases h
    · rename_i n1 h1
      obtain ⟨⟨l2, rfl, _⟩, _⟩ := check_names h
      rw [iha (hd.imp id (·.1)) h1 fun x hx => hP x (by rw [keys_append]; exact List.mem_append_left _ hx)]
      simp only
      rw [Nat.add_right_comm]
      exact ihb (hd.imp id (·.2)) h hP
  | rep _ _ _ a ih | look _ a ih | behind _ _ a ih =>
    unfold Re.check at h ⊢
    exact ih hd h hP
  | grp x a ih =>
    cases x with
    | none =>
      unfold Re.check at h ⊢
      have := ih hd h hP
      rw [Nat.add_right_comm] at this
      exact this
    | some x =>
      unfold Re.check at h ⊢
      split at h
      · cases h
      · rename_i hx
        have hin : x ∈ ns'.keys := by
          obtain ⟨⟨l, rfl, _⟩, _⟩ := check_names h
          rw [keys_append, keys_append]
          simp [Dict.keys]
        have hnone : ns.get? x = none := by
          cases h0 : ns.get? x with
          | none => rfl
          | some v => exact absurd (Dict.has_iff.2 ⟨v, h0⟩) hx
        rw [if_neg (by
          unfold Dict.has
          rw [get?_append, get?_outside (hP x hin), get?_shift, hnone]; simp)]
        have := ih hd h hP
        rw [Nat.add_right_comm] at this
        rw [List.append_assoc]
        have e : shiftNames d (ns ++ [(x, k)]) = shiftNames d ns ++ [(x, k + d)] := by simp [shiftNames]
        rw [e] at this
        exact this
  | backref n =>
    rcases hd with rfl | hd
    · unfold Re.check at h ⊢
      have e : opened.map (· + 0) = opened := by simp
      rw [e, Nat.add_zero]
      split at h
      · rename_i hc
        rw [if_pos hc]; cases h; rfl
      · cases h
    · cases hd
  | named x =>
    unfold Re.check at h ⊢
    split at h
    · cases h
    · rename_i n hn
      split at h
      · cases h
      · rename_i ho
        cases h
        rw [get?_append, get?_outside (hP x (Dict.mem_keys_iff.2 ⟨n, hn⟩)), get?_shift, hn]
        simp only [Option.map_some, Option.none_or]
        rw [if_neg]
        intro hm
        obtain ⟨m, hm, he⟩ := List.mem_map.1 hm
        have : m = n := by omega
        exact ho (this ▸ hm)
  | _ => cases h; rfl

/-- Alternatives: if each compiles, none refers by number to groups that are shifted, and no two have a name in common, then so does the whole, and
matches wherever one of them does. -/
theorem joinAlt_finds {rs : List Re} (d : Nat) (P : Dict Str Nat) (hne : rs ≠ []) (hcomp : ∀ r ∈ rs, r.compiled ≠ none)
    (hb : ∀ pre r post, rs = pre ++ r :: post → r.NoNumberRef ∨ d = 0 ∧ ∀ q ∈ pre, q.groups = 0)
    (hP : ∀ r ∈ rs, ∀ x ∈ r.groupNames, x ∉ P.keys) (hap : rs.Pairwise fun p q => ∀ x ∈ p.groupNames, x ∉ q.groupNames) :
    ∃ N, (joinAlt rs).check (1 + d) [] P = some N ∧ ∀ r ∈ rs, ∀ Nr, r.compiled = some Nr → ∀ multi text i ext,
      r.run multi Nr text 1 (i, fun _ => none) ≠ [] → (joinAlt rs).run multi (N ++ ext) text (1 + d) (i, fun _ => none) ≠ [] := by
  induction rs generalizing d P with
  | nil => exact absurd rfl hne
  | cons r rs ih =>
    obtain ⟨Nr, hNr⟩ := Option.ne_none_iff_exists'.1 (hcomp r (List.mem_cons_self ..))
    obtain ⟨⟨l, hl, hkeys⟩, hused, _⟩ := check_names hNr
    have hkeys : Nr.keys = r.groupNames := by rw [hl]; exact hkeys
    have hdr : d = 0 ∨ r.NoNumberRef := by
      rcases hb [] r rs rfl with h | h
      · exact .inr h
      · exact .inl h.1
    have hPr : ∀ x ∈ Nr.keys, x ∉ P.keys := fun x hx => hP r (List.mem_cons_self ..) x (hkeys ▸ hx)
    have hcheck : r.check (1 + d) [] P = some (P ++ shiftNames d Nr) := by
      have := check_shifted hdr hNr hPr
      simpa [shiftNames] using this
    have hrun : ∀ multi text i ext, r.run multi Nr text 1 (i, fun _ => none) ≠ [] →
        r.run multi (P ++ shiftNames d Nr ++ ext) text (1 + d) (i, fun _ => none) ≠ [] := by
      intro multi text i ext h h0
      have := run_shifted (d := d) multi text (N := Nr) (N' := P ++ shiftNames d Nr ++ ext) r hdr (fun x hx => ?_) 1 (by omega) (i, fun _ => none) (i, fun _ => none)
        ⟨rfl, fun n => rfl⟩
      · rw [h0] at this
        cases hr : r.run multi Nr text 1 (i, fun _ => none) with
        | nil => exact h hr
        | cons a l => rw [hr] at this; cases this
      · have hx := hused x hx
        obtain ⟨n, hn⟩ := Dict.mem_keys_iff.1 hx
        refine ⟨n, hn, ?_⟩
        rw [get?_append, get?_append, get?_outside (hPr x hx), get?_shift, hn]
        rfl
    cases rs with
    | nil =>
      refine ⟨_, hcheck, fun q hq Nq hNq multi text i ext h => ?_⟩
      cases List.mem_singleton.1 hq
      rw [hNr] at hNq; cases hNq
      exact hrun multi text i ext h
    | cons r2 rs =>
      have hap' := List.pairwise_cons.1 hap
      obtain ⟨N, hN, hall⟩ := ih (d + r.groups) (P ++ shiftNames d Nr) (by simp) (fun q hq => hcomp q (List.mem_cons_of_mem _ hq))
        (fun pre q post e => by
          rcases hb (r :: pre) q post (by rw [e]; rfl) with h | ⟨h1, h2⟩
          · exact .inl h
          · refine .inr ⟨?_, fun q hq => h2 q (List.mem_cons_of_mem _ hq)⟩
            rw [h1, h2 r (List.mem_cons_self ..)])
        (fun q hq x hx => by
          rw [keys_append, keys_shift, hkeys]
          intro hm
          rcases List.mem_append.1 hm with hm | hm
          · exact hP q (List.mem_cons_of_mem _ hq) x hx hm
          · exact hap'.1 q hq x hm hx)
        hap'.2
      have hnum : 1 + d + r.groups = 1 + (d + r.groups) := by omega
      have hcheck2 : (joinAlt (r :: r2 :: rs)).check (1 + d) [] P = some N := by
        show (Re.alt r (joinAlt (r2 :: rs))).check (1 + d) [] P = some N
        unfold Re.check
        rw [hcheck]
        simp only
        rw [hnum]; exact hN
      refine ⟨N, hcheck2, fun q hq Nq hNq multi text i ext h => ?_⟩
      show (Re.alt r (joinAlt (r2 :: rs))).run multi (N ++ ext) text (1 + d) _ ≠ []
      unfold Re.run
      rcases List.mem_cons.1 hq with rfl | hq
      · rw [hNr] at hNq; cases hNq
        obtain ⟨⟨l2, hl2, _⟩, _⟩ := check_names hN
        have := hrun multi text i (l2 ++ ext) h
        rw [← List.append_assoc, ← hl2] at this
        intro h0
        exact this (List.append_eq_nil_iff.1 h0).1
      · have := hall q hq Nq hNq multi text i ext h
        rw [← hnum] at this
        intro h0
        exact this (List.append_eq_nil_iff.1 h0).2

theorem joinAlt_names (rs : List Re) : (joinAlt rs).groupNames = rs.flatMap Re.groupNames := by
  match rs with
  | [] => rfl
  | [r] => simp [joinAlt]
  | r :: r2 :: rs =>
    show r.groupNames ++ (joinAlt (r2 :: rs)).groupNames = _
    rw [joinAlt_names (r2 :: rs)]
    rfl

/-- For a list of regexes. -/
theorem apart_filterMap {rs : List (Option Re)} (h : NamesApart rs) : (rs.filterMap id).Pairwise fun p q => ∀ x ∈ p.groupNames, x ∉ q.groupNames := by
  induction rs with
  | nil => exact .nil
  | cons r rs ih =>
    have h' := List.pairwise_cons.1 h
    cases r with
    | none => exact ih h'.2
    | some r =>
      refine List.pairwise_cons.2 ⟨fun q hq => ?_, ih h'.2⟩
      obtain ⟨o, ho, he⟩ := List.mem_filterMap.1 hq
      cases he
      exact h'.1 _ ho r q rfl rfl

theorem filterMap_split {rs : List (Option Re)} {pre : List Re} {r : Re} {post : List Re} (h : rs.filterMap id = pre ++ r :: post) :
    ∃ p q, rs = p ++ some r :: q ∧ p.filterMap id = pre := by
  induction rs generalizing pre with
  | nil => cases pre <;> cases h
  | cons o rs ih =>
    cases o with
    | none =>
      obtain ⟨p, q, rfl, hp⟩ := ih h
      exact ⟨none :: p, q, rfl, hp⟩
    | some x =>
      cases pre with
      | nil =>
        have h : x :: rs.filterMap id = r :: post := h
        cases h
        exact ⟨[], rs, rfl, rfl⟩
      | cons y pre =>
        have h : x :: rs.filterMap id = y :: (pre ++ r :: post) := h
        injection h with h1 h2
        obtain ⟨p, q, rfl, hp⟩ := ih h2
        subst h1
        exact ⟨some x :: p, q, rfl, by show x :: p.filterMap id = _; rw [hp]⟩

theorem combined_finds {rs : List (Option Re)} (hn : BackrefsFirst rs) (hap : NamesApart rs) (hcomp : ∀ r, some r ∈ rs → r.compiled ≠ none)
    (hne : rs.filterMap id ≠ []) : ∃ N, (joinAlt (rs.filterMap id)).compiled = some N ∧ ∀ r, some r ∈ rs → ∀ multi text, r.finds multi text →
      (joinAlt (rs.filterMap id)).finds multi text := by
  have hmem : ∀ r, r ∈ rs.filterMap id ↔ some r ∈ rs := by
    intro r
    constructor
    · intro h
      obtain ⟨o, ho, he⟩ := List.mem_filterMap.1 h
      cases he; exact ho
    · intro h; exact List.mem_filterMap.2 ⟨_, h, rfl⟩
  obtain ⟨N, hN, hall⟩ := joinAlt_finds (rs := rs.filterMap id) 0 [] hne (fun r hr => hcomp r ((hmem r).1 hr))
    (fun pre r post e => by
      obtain ⟨p, q, h1, h2⟩ := filterMap_split e
      rcases hn p r q h1 with h | h
      · exact .inl h
      · refine .inr ⟨rfl, fun x hx => ?_⟩
        rw [groups_opens, h x ?_]; rfl
        rw [← h2] at hx
        obtain ⟨o, ho, he⟩ := List.mem_filterMap.1 hx
        cases he; exact ho)
    (fun r _ x _ h => by cases h) (apart_filterMap hap)
  refine ⟨N, hN, fun r hr multi text ⟨Nr, hNr, i, hi, hrun⟩ => ⟨N, hN, i, hi, ?_⟩⟩
  have := hall r ((hmem r).2 hr) Nr hNr multi text i [] hrun
  rwa [List.append_nil] at this

/-- **C28**: if every member keeps its promise, the combined searcher keeps it, if the regexes compile, members with back-references by number come before
any other member with groups, and no two have groups of the same name. (For others it is false, see `C28_combined_false` and `C28_names_clash_false`.) -/
theorem C28_combined_approximates (ss : List Searcher) (rs : List (Option Re)) (hlen : ss.length = rs.length)
    (hn : BackrefsFirst rs) (hap : NamesApart rs) (hcomp : ∀ r, some r ∈ rs → r.compiled ≠ none) (h : ∀ sr ∈ ss.zip rs, Approximates sr.1.find sr.2) :
    Approximates (combinedFind ss) (combinedApprox rs) := by
  intro re hre p out hout hne
  unfold combinedApprox at hre
  split at hre
  · cases hre
  · rename_i hany
    cases hre
    obtain ⟨per, h1, h2, ⟨sorted, h3, h4⟩, _, _⟩ := C27_find ss p out hout
    obtain ⟨x, xs, rfl⟩ := List.exists_cons_of_ne_nil hne
    have hx : x ∈ per.flatten := h3.mem_iff.1 (h4.subset (by simp))
    obtain ⟨l, hl, hxl⟩ := List.mem_flatten.1 hx
    obtain ⟨i, hi, hil⟩ := List.getElem_of_mem hl
    have hi1 : i < ss.length := by omega
    have hi2 : i < rs.length := by omega
    have hz : (ss[i], rs[i]) ∈ ss.zip rs := by
      rw [List.mem_iff_getElem]
      exact ⟨i, by simp only [List.length_zip]; omega, by simp⟩
    have hz2 : (ss[i], per[i]) ∈ ss.zip per := by
      rw [List.mem_iff_getElem]
      exact ⟨i, by simp only [List.length_zip]; omega, by simp⟩
    have hri : ∃ r, rs[i] = some r := by
      cases hr : rs[i] with
      | none =>
        exfalso
        apply hany
        rw [List.any_eq_true]
        exact ⟨rs[i], List.getElem_mem hi2, by rw [hr]; rfl⟩
      | some r => exact ⟨r, rfl⟩
    obtain ⟨r, hr⟩ := hri
    have hmem : some r ∈ rs := hr ▸ List.getElem_mem hi2
    have hfinds := h _ hz r hr p per[i] (h2 _ hz2) (by
      intro h0; rw [hil] at h0; rw [h0] at hxl; cases hxl)
    obtain ⟨N, _, hall⟩ := combined_finds hn hap hcomp (by
      intro h0
      have : r ∈ rs.filterMap id := List.mem_filterMap.2 ⟨_, hmem, rfl⟩
      rw [h0] at this; cases this)
    exact hall r hmem false p.text hfinds

/-- **C28**: the combined regex can be compiled exactly if no two members have groups of the same name (given members that can be compiled, those with back-references
by number before any others that have groups). -/
theorem C28_combined_compiles (rs : List (Option Re)) (hn : BackrefsFirst rs) (hcomp : ∀ r, some r ∈ rs → r.compiled ≠ none) (re : Re)
    (hre : combinedApprox rs = some re) : re.compiled ≠ none ↔ NamesApart rs := by
  unfold combinedApprox at hre
  split at hre
  · cases hre
  rename_i hany
  cases hre
  constructor
  · intro h
    obtain ⟨N, hN⟩ := Option.ne_none_iff_exists'.1 h
    obtain ⟨⟨l, hl, hk⟩, hu, hwf⟩ := check_names hN
    have hnd : (joinAlt (rs.filterMap id)).groupNames.Nodup := by
      have hwf : N.keys.Nodup := hwf .nil
      rw [hl] at hwf
      rw [← hk]; exact hwf
    rw [joinAlt_names] at hnd
    clear hN hl hk hwf hu h hn hcomp hany
    induction rs with
    | nil => exact .nil
    | cons o rs ih =>
      cases o with
      | none => exact List.pairwise_cons.2 ⟨fun _ _ p q h => (by cases h), ih hnd⟩
      | some r =>
        have hnd : (r.groupNames ++ (rs.filterMap id).flatMap Re.groupNames).Nodup := hnd
        obtain ⟨_, h2, h3⟩ := List.nodup_append.1 hnd
        refine List.pairwise_cons.2 ⟨fun o ho p q hp hq x hx hxq => ?_, ih h2⟩
        cases hp; cases hq
        exact h3 x hx x (List.mem_flatMap.2 ⟨q, List.mem_filterMap.2 ⟨_, ho, rfl⟩, hxq⟩) rfl
  · intro hap
    by_cases hne : rs.filterMap id = []
    · rw [hne]; intro h; cases h
    · obtain ⟨N, hN, _⟩ := combined_finds hn hap hcomp hne
      rw [hN]; intro h; cases h

/-! ### The searcher of one regex -/

theorem run_multi {names : Dict Str Nat} {text : Str} {r : Re} (h : r.NoLineAnchors) (k : Nat) (st : ReState) :
    r.run true names text k st = r.run false names text k st := by
  induction r generalizing k st with
  | seq a b iha ihb =>
    have e : b.run true names text (k + a.groups) = b.run false names text (k + a.groups) := funext fun st => ihb h.2 _ st
    unfold Re.run; rw [iha h.1, e]
  | alt a b iha ihb => unfold Re.run; rw [iha h.1, ihb h.2]
  | rep lo hi g a ih =>
    have e : a.run true names text k = a.run false names text k := funext fun st => ih h _ st
    unfold Re.run; rw [e]
  | grp x a ih => unfold Re.run; rw [ih h]
  | look neg a ih => unfold Re.run; rw [ih h]
  | behind neg w a ih => unfold Re.run; rw [ih h]
  | bol => cases h
  | eol => cases h
  | _ => rfl

/-- **C28**: the searcher for a regex (compiled with `re.M`) keeps its promise if the regex has neither `^` nor `$`: whatever is found where the regex
finds nothing must be nothing. (Otherwise it is false, see `C28_multiline_false`.) -/
theorem C28_regex (r : Re) (h : r.NoLineAnchors) (find : ParsedFile → Except Exc (List Substitution))
    (hfind : ∀ p subs, find p = .ok subs → subs ≠ [] → r.finds true p.text) : Approximates find (regexApprox r) := by
  intro re hre p subs hf hne
  cases hre
  obtain ⟨N, hN, i, hi, hrun⟩ := hfind p subs hf hne
  exact ⟨N, hN, i, hi, by rwa [run_multi h] at hrun⟩

/-- **C28**: the searcher that mode re makes of a pattern keeps the promise, if the pattern (read as `r`) has neither `^` nor `$`, and `finditer` (with `re.M`) finds
matches only where `search` does. -/
theorem C28_regex_searcher {py : Python} {pattern : Str} {ts : Dict Str CodeTemplate} {s : Searcher} (hs : py.regexSearcher pattern ts = .ok s) {r : Re}
    (hr : ∀ text, py.finditer pattern text ≠ [] → r.finds true text) (h : r.NoLineAnchors) : Approximates s.find (regexApprox r) := by
  refine C28_regex r h s.find fun p subs hf hne => hr p.text fun h0 => hne ?_
  unfold Python.regexSearcher at hs
  split at hs
  · cases hs
  · split at hs
    · cases hs
    · split at hs
      · cases hs
        simp only [h0, regexDicts, List.map_nil, findIterParsed, Except.ok.injEq] at hf
        exact hf.symm
      · cases hs

/-! ### Examples and refutations -/

/-- `c` as a regex. -/
def reChar (c : Char) : Re := .cls (fun x => x == c)
/-- The regexes `(x)` and `(a)\1`. -/
def exRe1 : Re := .grp none (reChar 'x')
def exRe2 : Re := .seq (.grp none (reChar 'a')) (.backref 1)
/-- The regexes `(?P<q>a|b)(?P=q)` and `(?P<r>c+)(?=d)`. -/
def exRe3 : Re := .seq (.grp (some (str "q")) (.alt (reChar 'a') (reChar 'b'))) (.named (str "q"))
def exRe4 : Re := .seq (.grp (some (str "r")) (.rep 1 none true (reChar 'c'))) (.look false (reChar 'd'))

/-- Whether a regex finds something, computed. -/
def Re.findsB (r : Re) (multi : Bool) (s : Str) : Bool :=
  match r.compiled with
  | none => false
  | some N => (List.range (s.length + 1)).any fun i => !(r.run multi N s 1 (i, fun _ => none)).isEmpty

theorem findsB_iff (r : Re) (multi : Bool) (s : Str) : r.findsB multi s = true ↔ r.finds multi s := by
  unfold Re.findsB Re.finds
  cases hc : r.compiled with
  | none => simp
  | some N =>
    simp only [List.any_eq_true, List.mem_range]
    constructor
    · rintro ⟨i, hi, h⟩
      exact ⟨N, rfl, i, by omega, by intro h0; rw [h0] at h; cases h⟩
    · rintro ⟨N', h', i, hi, h⟩
      cases h'
      refine ⟨i, by omega, ?_⟩
      cases hr : r.run multi N s 1 (i, fun _ => none) with
      | nil => exact absurd hr h
      | cons => rfl

/-- The hypotheses of C28_combined_approximates are met: `(a)\1`, `(x)`, `(?P<q>a|b)(?P=q)` and `(?P<r>c+)(?=d)`, in this order; the combined regex finds what the
members find, and nothing in "abxyc" without the x. -/
example : BackrefsFirst [some exRe2, some exRe1, some exRe3, some exRe4] ∧ ¬ BackrefsFirst [some exRe1, some exRe2] ∧
    NamesApart [some exRe2, some exRe1, some exRe3, some exRe4] ∧ (∀ r, some r ∈ [some exRe2, some exRe1, some exRe3, some exRe4] → r.compiled ≠ none) ∧
    ∃ re, combinedApprox [some exRe2, some exRe1, some exRe3, some exRe4] = some re ∧ re.search (str "aa") ∧ re.search (str "x") ∧ re.search (str "0bb") ∧
      re.search (str "accd") ∧ ¬ re.search (str "abcc") := by
  refine ⟨?_, ?_, ?_, ?_, _, rfl, (findsB_iff ..).1 (by decide), (findsB_iff ..).1 (by decide), (findsB_iff ..).1 (by decide), (findsB_iff ..).1 (by decide), fun h => ?_⟩
  · intro pre r post h
    match pre, h with
    | [], h => exact .inr fun q hq => (by cases hq)
    | [_], h => cases h; exact .inl trivial
    | [_, _], h => cases h; exact .inl ⟨⟨trivial, trivial⟩, trivial⟩
    | [_, _, _], h => cases h; exact .inl ⟨trivial, trivial⟩
    | _ :: _ :: _ :: _ :: pre, h => cases pre <;> cases h
  · intro h
    rcases h [some exRe1] exRe2 [] rfl with h | h
    · exact h.2
    · exact absurd (h exRe1 (by simp)) (by decide)
  · have : ∀ p ∈ [exRe2, exRe1, exRe3, exRe4], ∀ q ∈ [exRe2, exRe1, exRe3, exRe4], p.groupNames ≠ q.groupNames → ∀ x ∈ p.groupNames, x ∉ q.groupNames := by decide
    unfold NamesApart
    simp only [List.pairwise_cons]
    refine ⟨?_, ?_, ?_, ?_, .nil⟩
    · intro o _ p q hp _ x hx; cases hp; cases hx
    · intro o _ p q hp _ x hx; cases hp; cases hx
    · intro o ho p q hp hq
      cases hp; cases hq
      cases List.mem_singleton.1 ho
      decide
    · intro o ho; cases ho
  · intro r hr
    have : r ∈ [exRe2, exRe1, exRe3, exRe4] := by simpa using hr
    simp only [List.mem_cons, List.not_mem_nil, or_false] at this
    rcases this with rfl | rfl | rfl | rfl <;> decide
  · exact absurd ((findsB_iff ..).2 h) (by decide)

/-- The hypotheses of C28_regex are met by `(?P<q>a|b)(?P=q)` and a searcher that finds something in "abb". -/
example : exRe3.NoLineAnchors ∧ ∃ find : ParsedFile → Except Exc (List Substitution), (∀ p subs, find p = .ok subs → subs ≠ [] → exRe3.finds true p.text) ∧
    ∃ subs, subs ≠ [] ∧ find ⟨str "abb", [], []⟩ = .ok subs := by
  refine ⟨⟨⟨trivial, trivial⟩, trivial⟩, fun p => .ok (if exRe3.findsB true p.text then [{ matchedSpans := [], primaryLabel := [] }] else []), ?_, _, ?_, rfl⟩
  · intro p subs h hne
    cases h
    by_cases hf : exRe3.findsB true p.text = true
    · exact (findsB_iff ..).1 hf
    · rw [if_neg hf] at hne; exact absurd rfl hne
  · decide

/-- **C28** is false for back-references by number: `(a)\1` matches "aa", but in `(?:(x))|(?:(a)\1)` the reference means the first
group of the whole regex, which has not matched. -/
theorem C28_combined_false : exRe2.search (str "aa") ∧
    ∃ re, combinedApprox [some exRe1, some exRe2] = some re ∧ ¬ re.search (str "aa") :=
  ⟨(findsB_iff ..).1 (by decide), _, rfl, fun h => absurd ((findsB_iff ..).2 h) (by decide)⟩

/-- **C28** is false for members with the same name of a group: `(?P<q>a|b)(?P=q)` twice can not be compiled any more. -/
theorem C28_names_clash_false : exRe3.search (str "aa") ∧
    ∃ re, combinedApprox [some exRe3, some exRe3] = some re ∧ re.compiled = none ∧ ∀ text, ¬ re.search text := by
  refine ⟨(findsB_iff ..).1 (by decide), _, rfl, rfl, ?_⟩
  rintro text ⟨N, hN, _⟩
  cases hN

/-- **C28** is false of the searcher for a regex with `^` (or `$`): it is compiled with `re.M`, and `^b` is found in "a\nb", but the approximate regex is the mere text `^b`,
which is not. -/
theorem C28_multiline_false : (Re.seq .bol (reChar 'b')).finds true (str "a\nb") ∧
    ∃ re, regexApprox (Re.seq .bol (reChar 'b')) = some re ∧ ¬ re.search (str "a\nb") :=
  ⟨(findsB_iff ..).1 (by decide), _, rfl, fun h => absurd ((findsB_iff ..).2 h) (by decide)⟩

/-- **C28**, consequence: skipping files that the regex does not match changes no result. -/
theorem C28_filter_sound (find : ParsedFile → Except Exc (List Substitution)) (re : Re) (h : Approximates find (some re))
    (p : ParsedFile) (subs : List Substitution) (hf : find p = .ok subs) (hno : ¬ re.search p.text) : subs = [] :=
  Classical.byContradiction fun hne => hno (h re rfl p subs hf hne)

/-- **C28**, wrapping searchers only remove results, so the promise of the wrapped searcher is kept. -/
theorem C28_pragma_wrapper (s : Searcher) (r : Option Re) (h : Approximates s.find r) :
    Approximates (pragmaSuppressed s).find r := by
  intro re hre p subs hf hne
  simp only [pragmaSuppressed] at hf
  split at hf
  · cases hf
  · rename_i l hl
    cases hf
    refine h re hre p l hl ?_
    intro h0
    rw [h0] at hne
    exact hne rfl

end Refex
