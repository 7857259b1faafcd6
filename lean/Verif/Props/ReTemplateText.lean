import Verif.Spec.ReTemplateText
import Verif.Props.Templates
/- C103: the text of a regex template. -/
namespace Refex
set_option autoImplicit false

/-! ### Reading the text -/

theorem reTokens_plain {c : Char} (hc : c ≠ '\\') (s : Str) : reTokens (c :: s) = (reTokens s).map (.plain c :: ·) := by
  rw [reTokens.eq_def]; simp only [if_neg hc]

theorem reTokens_esc (c : Char) (s : Str) : reTokens ('\\' :: c :: s) = (reTokens s).map (.esc c :: ·) := by
  rw [reTokens.eq_def]; simp only [if_true]

/-- No token is a lone backslash. -/
def Escaped (toks : List RTok) : Prop := ∀ t ∈ toks, t ≠ .plain '\\'

theorem reTokens_ok : ∀ {s : Str} {toks : List RTok}, reTokens s = some toks → toks.flatMap RTok.text = s ∧ Escaped toks := by
  intro s
  induction s using reTokens.induct with
  | case1 => intro toks h; rw [reTokens] at h; cases h; exact ⟨rfl, fun _ h => by cases h⟩
  | case2 => intro toks h; rw [reTokens.eq_def] at h; simp at h
  | case3 d ds ih =>
    intro toks h
    rw [reTokens_esc] at h
    obtain ⟨ts, h1, rfl⟩ := Option.map_eq_some_iff.1 h
    obtain ⟨e1, e2⟩ := ih h1
    refine ⟨by rw [List.flatMap_cons, e1]; rfl, fun t ht => ?_⟩
    rcases List.mem_cons.1 ht with rfl | ht
    · exact fun h => by cases h
    · exact e2 t ht
  | case4 c cs hc ih =>
    intro toks h
    rw [reTokens_plain hc] at h
    obtain ⟨ts, h1, rfl⟩ := Option.map_eq_some_iff.1 h
    obtain ⟨e1, e2⟩ := ih h1
    refine ⟨by rw [List.flatMap_cons, e1]; rfl, fun t ht => ?_⟩
    rcases List.mem_cons.1 ht with rfl | ht
    · exact fun h => hc (by cases h; rfl)
    · exact e2 t ht

/-- Characters that are not backslashes are tokens of their own. -/
theorem reTokens_chars {cs : Str} (h : '\\' ∉ cs) (s : Str) : reTokens (cs ++ s) = (reTokens s).map (cs.map RTok.plain ++ ·) := by
  induction cs with
  | nil => cases hs : reTokens s <;> simp [hs]
  | cons c cs ih =>
    simp only [List.mem_cons, not_or] at h
    rw [List.cons_append, reTokens_plain (fun e => h.1 e.symm), ih h.2]
    cases reTokens s <;> simp

theorem getUntil_ok : ∀ {ts : List RTok} {name : Str} {rest : List RTok}, getUntil ts = some (name, rest) →
    ts.flatMap RTok.text = name ++ '>' :: rest.flatMap RTok.text ∧ rest.length < ts.length ∧ ∀ t ∈ rest, t ∈ ts := by
  intro ts
  induction ts with
  | nil => intro name rest h; cases h
  | cons t ts ih =>
    intro name rest h
    rw [getUntil] at h
    split at h
    · rename_i ht
      cases h
      subst ht
      exact ⟨rfl, Nat.lt_succ_self _, fun t h => List.mem_cons_of_mem _ h⟩
    · obtain ⟨r, h1, h2⟩ := Option.map_eq_some_iff.1 h
      cases h2
      obtain ⟨e1, e2, e3⟩ := ih (name := r.1) (rest := r.2) h1
      exact ⟨by rw [List.flatMap_cons, e1, List.append_assoc], Nat.lt_succ_of_lt e2, fun t h => List.mem_cons_of_mem _ (e3 t h)⟩

theorem getUntil_chars {name : Str} (h : '>' ∉ name) (rest : List RTok) : getUntil (name.map RTok.plain ++ .plain '>' :: rest) = some (name, rest) := by
  induction name with
  | nil => rw [List.map_nil, List.nil_append, getUntil, if_pos rfl]
  | cons c cs ih =>
    simp only [List.mem_cons, not_or] at h
    rw [List.map_cons, List.cons_append, getUntil, if_neg (fun e => h.1 (by cases e; rfl)), ih h.2]
    rfl

theorem angleName_ok {ts : List RTok} {name : Str} {rest : List RTok} (h : angleName ts = some (name, rest)) :
    ts.flatMap RTok.text = '<' :: (name ++ '>' :: rest.flatMap RTok.text) ∧ name ≠ [] ∧ ∀ t ∈ rest, t ∈ ts := by
  cases ts with
  | nil => cases h
  | cons t ts =>
    cases t with
    | esc d => cases h
    | plain d =>
      rw [angleName] at h
      split at h
      · rename_i hd
        subst hd
        split at h
        · cases h
        · rename_i name' rest' hg
          split at h
          · cases h
          · rename_i hne
            cases h
            obtain ⟨e1, _, e3⟩ := getUntil_ok hg
            exact ⟨by rw [List.flatMap_cons, e1]; rfl, hne, fun t h => List.mem_cons_of_mem _ (e3 t h)⟩
      · cases h

theorem takeOct_ok : ∀ (k : Nat) (ts : List RTok), ts = (takeOct k ts).1.map RTok.plain ++ (takeOct k ts).2 ∧ (∀ c ∈ (takeOct k ts).1, isOct c = true) ∧
    ((takeOct k ts).1.length = k ∨ (takeOct k ts).1.length < k ∧ ∀ c, (takeOct k ts).2.head? = some (.plain c) → isOct c = false)
  | 0, ts => by
    have e : takeOct 0 ts = ([], ts) := by rw [takeOct.eq_def]
    rw [e]; exact ⟨rfl, (fun _ h => by cases h), .inl rfl⟩
  | k + 1, [] => ⟨rfl, (fun _ h => by cases h), .inr ⟨Nat.succ_pos _, (fun _ h => by cases h)⟩⟩
  | k + 1, .esc d :: ts => ⟨rfl, (fun _ h => by cases h), .inr ⟨Nat.succ_pos _, (fun _ h => by cases h)⟩⟩
  | k + 1, .plain d :: ts => by
    rw [takeOct]
    split
    · rename_i hd
      obtain ⟨e1, e2, e3⟩ := takeOct_ok k ts
      refine ⟨?_, ?_, ?_⟩
      · simp only [List.map_cons, List.cons_append]; exact congrArg _ e1
      · intro c hc
        rcases List.mem_cons.1 hc with rfl | hc
        · exact hd
        · exact e2 c hc
      · rcases e3 with e3 | e3
        · exact .inl (by simp only [List.length_cons]; omega)
        · exact .inr ⟨by simp only [List.length_cons]; omega, e3.2⟩
    · rename_i hd
      refine ⟨rfl, (fun _ h => by cases h), .inr ⟨Nat.succ_pos _, fun c h => ?_⟩⟩
      simp only [List.head?_cons, Option.some.injEq, RTok.plain.injEq] at h
      rw [← h]; simpa using hd

theorem takeOct_chars : ∀ (k : Nat) (ds : Str) (rest : List RTok), (∀ c ∈ ds, isOct c = true) → (ds.length = k ∨ ds.length < k ∧
    ∀ c, rest.head? = some (.plain c) → isOct c = false) → takeOct k (ds.map RTok.plain ++ rest) = (ds, rest)
  | 0, [], rest, _, _ => by rw [takeOct.eq_def]; rfl
  | 0, d :: ds, rest, _, h => by rcases h with h | h <;> simp at h
  | k + 1, [], rest, _, h => by
    have h := (h.resolve_left (by simp)).2
    cases rest with
    | nil => rfl
    | cons t ts =>
      cases t with
      | esc d => rfl
      | plain d => rw [List.map_nil, List.nil_append, takeOct, if_neg (by rw [h d rfl]; decide)]
  | k + 1, d :: ds, rest, h1, h2 => by
    rw [List.map_cons, List.cons_append, takeOct, if_pos (h1 d (List.mem_cons_self ..))]
    rw [takeOct_chars k ds rest (fun c hc => h1 c (List.mem_cons_of_mem _ hc)) (by simpa using h2)]

theorem isOct_digit {c : Char} (h : isOct c = true) : c.isDigit = true := by
  unfold isOct at h
  simp only [Bool.and_eq_true, decide_eq_true_eq] at h
  have h1 : ('0' : Char).toNat ≤ c.toNat := h.1
  have h2 : c.toNat ≤ ('7' : Char).toNat := h.2
  have e0 : ('0' : Char).toNat = 48 := by decide
  have e7 : ('7' : Char).toNat = 55 := by decide
  unfold Char.isDigit
  simp only [Bool.and_eq_true, decide_eq_true_eq, ge_iff_le]
  refine ⟨h.1, ?_⟩
  show c.toNat ≤ 57
  omega

theorem digit_ne {c : Char} (h : c.isDigit = true) : c ≠ '\\' ∧ c ≠ '>' ∧ c ≠ 'g' ∧ c.isAlpha = false := by
  refine ⟨fun e => by subst e; exact absurd h (by decide), fun e => by subst e; exact absurd h (by decide), fun e => by subst e; exact absurd h (by decide), ?_⟩
  unfold Char.isDigit at h
  simp only [Bool.and_eq_true, decide_eq_true_eq, ge_iff_le] at h
  have h1 : 48 ≤ c.toNat := h.1
  have h2 : c.toNat ≤ 57 := h.2
  have h3 : c.isUpper = false := by
    cases hu : c.isUpper with
    | false => rfl
    | true =>
      unfold Char.isUpper at hu
      simp only [Bool.and_eq_true, decide_eq_true_eq, ge_iff_le] at hu
      have h : 65 ≤ c.toNat := hu.1
      omega
  have h4 : c.isLower = false := by
    cases hu : c.isLower with
    | false => rfl
    | true =>
      unfold Char.isLower at hu
      simp only [Bool.and_eq_true, decide_eq_true_eq, ge_iff_le] at hu
      have h : 97 ≤ c.toNat := hu.1
      omega
  unfold Char.isAlpha
  rw [h3, h4]; rfl

theorem reEscape_iff (c d : Char) : reEscape c = some d ↔ (c, d) ∈ templateEscapes := by
  unfold reEscape templateEscapes
  constructor
  · intro h
    repeat' split at h
    all_goals first | cases h | skip
    all_goals (rename_i hc; subst hc; decide)
  · intro h
    simp only [List.mem_cons, List.not_mem_nil, or_false, Prod.mk.injEq] at h
    rcases h with ⟨rfl, rfl⟩ | ⟨rfl, rfl⟩ | ⟨rfl, rfl⟩ | ⟨rfl, rfl⟩ | ⟨rfl, rfl⟩ | ⟨rfl, rfl⟩ | ⟨rfl, rfl⟩ | ⟨rfl, rfl⟩ <;> decide

theorem head_text {c : Char} {rest : List RTok} {s : Str} (hs : rest.flatMap RTok.text = s) (he : Escaped rest) (hc : c ≠ '\\') :
    s.head? = some c ↔ rest.head? = some (.plain c) := by
  subst hs
  cases rest with
  | nil => simp
  | cons t ts =>
    cases t with
    | plain d => simp [RTok.text]
    | esc d => simp [RTok.text]; exact fun e => hc e.symm

theorem not_next {kind : Char → Bool} (hk : ∀ c, kind c = true → c ≠ '\\') {rest : List RTok} {s : Str} (hs : rest.flatMap RTok.text = s) (he : Escaped rest) :
    NotNext kind s ↔ ∀ c, rest.head? = some (.plain c) → kind c = false := by
  constructor
  · intro h c hc
    cases hkc : kind c with
    | false => rfl
    | true => rw [← hkc]; exact h c ((head_text hs he (hk c hkc)).2 hc)
  · intro h c hc
    cases hkc : kind c with
    | false => rfl
    | true => rw [← hkc]; exact h c ((head_text hs he (hk c hkc)).1 hc)

theorem oct_ne {c : Char} (h : isOct c = true) : c ≠ '\\' := (digit_ne (isOct_digit h)).1

/-- What `backslashDigit` reads. -/
theorem backslashDigit_ok {c : Char} {ts rest : List RTok} {e : REvent} (he : Escaped ts) (h : backslashDigit c ts = some (e, rest)) :
    (ts = rest ∧ e = .group (digitsValue 10 [c]) ∧ ∀ d, rest.head? = some (.plain d) → d.isDigit = false) ∨
    (∃ d, ts = .plain d :: rest ∧ d.isDigit = true ∧ e = .group (digitsValue 10 [c, d]) ∧ (isOct c = true → isOct d = true → ∀ x, rest.head? = some (.plain x) → isOct x = false)) ∨
    (∃ d x, ts = .plain d :: .plain x :: rest ∧ isOct c = true ∧ isOct d = true ∧ isOct x = true ∧ digitsValue 8 [c, d, x] ≤ 255 ∧
      e = .char (Char.ofNat (digitsValue 8 [c, d, x]))) := by
  unfold backslashDigit at h
  split at h
  · rename_i d ts1
    split at h
    · rename_i hd
      split at h
      · rename_i x ts2
        split at h
        · rename_i ho
          simp only [Bool.and_eq_true] at ho
          split at h
          · cases h
          · rename_i hle
            cases h
            exact .inr (.inr ⟨d, x, rfl, ho.1.1, ho.1.2, ho.2, by omega, rfl⟩)
        · rename_i ho
          cases h
          refine .inr (.inl ⟨d, rfl, hd, rfl, fun h1 h2 y hy => ?_⟩)
          simp only [List.head?_cons, Option.some.injEq, RTok.plain.injEq] at hy
          subst hy
          cases hx : isOct x with
          | false => rfl
          | true => exact absurd (by simp [h1, h2, hx]) ho
      · rename_i hn
        cases h
        refine .inr (.inl ⟨d, rfl, hd, rfl, fun _ _ y hy => ?_⟩)
        cases rest with
        | nil => cases hy
        | cons t ts =>
          simp only [List.head?_cons, Option.some.injEq] at hy
          subst hy
          exact absurd rfl (hn y ts)
    · rename_i hd
      cases h
      refine .inl ⟨rfl, rfl, fun y hy => ?_⟩
      simp only [List.head?_cons, Option.some.injEq, RTok.plain.injEq] at hy
      subst hy
      simpa using hd
  · rename_i hn
    cases h
    refine .inl ⟨rfl, rfl, fun y hy => ?_⟩
    cases ts with
    | nil => cases hy
    | cons t ts =>
      simp only [List.head?_cons, Option.some.injEq] at hy
      subst hy
      exact absurd rfl (hn y ts)

/-- What is read is what the grammar says. -/
theorem reParse_sound (p : GroupNames) : ∀ (n : Nat) (toks : List RTok) (es : List REvent), Escaped toks → reParse (groupRef312 p) n toks = some es →
    TemplateText p.identifier p.maxGroups (toks.flatMap RTok.text) es := by
  intro n
  induction n with
  | zero =>
    intro toks es he h
    cases toks with
    | nil => rw [reParse] at h; cases h; exact .nil
    | cons t ts => rw [reParse] at h; cases h
  | succ n ih =>
    intro toks es he h
    cases toks with
    | nil => rw [reParse] at h; cases h; exact .nil
    | cons t ts =>
      have hts : Escaped ts := fun t h => he t (List.mem_cons_of_mem _ h)
      cases t with
      | plain c =>
        rw [reParse] at h
        obtain ⟨es', h1, rfl⟩ := Option.map_eq_some_iff.1 h
        exact .char (fun e => he _ (List.mem_cons_self ..) (by rw [e])) (ih _ _ hts h1)
      | esc c =>
        rw [reParse] at h
        split at h
        · rename_i hc
          subst hc
          split at h
          · cases h
          · rename_i name rest hg
            split at h
            · cases h
            · rename_i e href
              obtain ⟨es', h1, rfl⟩ := Option.map_eq_some_iff.1 h
              obtain ⟨e1, hne, e3⟩ := angleName_ok hg
              have hrest : Escaped rest := fun t h => hts t (e3 t h)
              have := ih _ _ hrest h1
              have etext : (RTok.esc 'g' :: ts).flatMap RTok.text = '\\' :: 'g' :: '<' :: (name ++ '>' :: rest.flatMap RTok.text) := by
                rw [List.flatMap_cons, e1]; rfl
              rw [etext]
              unfold groupRef312 at href
              split at href
              · rename_i hall
                split at href
                · cases href
                · rename_i hmax
                  cases href
                  exact .number hne (List.all_eq_true.1 hall) (by omega) this
              · rename_i hall
                split at href
                · rename_i hid
                  cases href
                  exact .named hid (fun h => hall (List.all_eq_true.2 h)) this
                · cases href
        · rename_i hg
          split at h
          · rename_i hc
            subst hc
            obtain ⟨es', h1, rfl⟩ := Option.map_eq_some_iff.1 h
            obtain ⟨e1, e2, e3⟩ := takeOct_ok 2 ts
            have hrest : Escaped (takeOct 2 ts).2 := fun t h => hts t (by rw [e1]; exact List.mem_append_right _ h)
            have etext : (RTok.esc '0' :: ts).flatMap RTok.text = '\\' :: '0' :: ((takeOct 2 ts).1 ++ (takeOct 2 ts).2.flatMap RTok.text) := by
              rw [List.flatMap_cons]
              conv => lhs; rw [e1]
              rw [List.flatMap_append, List.flatMap_map]
              have : (takeOct 2 ts).1.flatMap (fun a => (RTok.plain a).text) = (takeOct 2 ts).1 := by
                generalize (takeOct 2 ts).1 = l
                induction l with
                | nil => rfl
                | cons a l ih => rw [List.flatMap_cons, ih]; rfl
              rw [this]; rfl
            rw [etext]
            refine .zero e2 (e3.imp id fun h => ⟨h.1, (not_next (fun c => oct_ne) rfl hrest).2 h.2⟩) (ih _ _ hrest h1)
          · rename_i h0
            split at h
            · rename_i hdig
              split at h
              · cases h
              · rename_i e rest hb
                obtain ⟨es', h1, rfl⟩ := Option.map_eq_some_iff.1 h
                rcases backslashDigit_ok hts hb with ⟨rfl, rfl, hn⟩ | ⟨d, rfl, hd, rfl, hn⟩ | ⟨d, x, rfl, o1, o2, o3, hle, rfl⟩
                · exact .digit h0 hdig ((not_next (fun c h => (digit_ne h).1) rfl hts).2 hn) (ih _ _ hts h1)
                · have hrest : Escaped rest := fun t h => hts t (List.mem_cons_of_mem _ h)
                  exact .digits h0 hdig hd (fun a b => (not_next (fun c => oct_ne) rfl hrest).2 (hn a b)) (ih _ _ hrest h1)
                · have hrest : Escaped rest := fun t h => hts t (List.mem_cons_of_mem _ (List.mem_cons_of_mem _ h))
                  exact .octal h0 o1 o2 o3 hle (ih _ _ hrest h1)
            · rename_i hdig
              split at h
              · rename_i d hesc
                obtain ⟨es', h1, rfl⟩ := Option.map_eq_some_iff.1 h
                exact .escape ((reEscape_iff c d).1 hesc) (ih _ _ hts h1)
              · rename_i hesc
                split at h
                · cases h
                · rename_i halpha
                  obtain ⟨es', h1, rfl⟩ := Option.map_eq_some_iff.1 h
                  refine .other (fun e => ?_) (by simpa using halpha) (by simpa using hdig) (ih _ _ hts h1)
                  subst e
                  exact absurd hesc (by decide)

/-- What the grammar says is read. -/
theorem reParse_complete {p : GroupNames} (hp : p.Usual) {s : Str} {es : List REvent} (h : TemplateText p.identifier p.maxGroups s es) :
    ∃ toks, reTokens s = some toks ∧ ∀ n, toks.length ≤ n → reParse (groupRef312 p) n toks = some es := by
  have byName : ∀ {name s : Str} {es : List REvent} {e : REvent}, name ≠ [] → '>' ∉ name → '\\' ∉ name → groupRef312 p name = some e →
      (∃ toks, reTokens s = some toks ∧ ∀ n, toks.length ≤ n → reParse (groupRef312 p) n toks = some es) →
      ∃ toks, reTokens ('\\' :: 'g' :: '<' :: (name ++ '>' :: s)) = some toks ∧ ∀ n, toks.length ≤ n → reParse (groupRef312 p) n toks = some (e :: es) := by
    rintro name s es e hne h1 h2 href ⟨toks, ht, hn⟩
    refine ⟨.esc 'g' :: .plain '<' :: (name.map RTok.plain ++ .plain '>' :: toks), ?_, fun n hle => ?_⟩
    · rw [reTokens_esc, reTokens_plain (by decide), reTokens_chars h2, reTokens_plain (by decide), ht]; rfl
    · simp only [List.length_cons, List.length_append, List.length_map] at hle
      match n with
      | n + 1 =>
        have ea : angleName (.plain '<' :: (name.map RTok.plain ++ .plain '>' :: toks)) = some (name, toks) := by
          rw [angleName, if_pos rfl, getUntil_chars h1]
          simp only [if_neg hne]
        rw [reParse, if_pos rfl, ea]
        simp only [href]
        rw [hn n (by omega)]
        rfl
  induction h with
  | nil => exact ⟨[], rfl, fun n _ => by rw [reParse.eq_def]⟩
  | @char c s es hc _ ih =>
    obtain ⟨toks, ht, hn⟩ := ih
    refine ⟨.plain c :: toks, by rw [reTokens_plain hc, ht]; rfl, fun n hle => ?_⟩
    match n with
    | n + 1 => rw [reParse, hn n (by simpa using hle)]; rfl
  | @named name s es h1 h2 _ ih =>
    obtain ⟨k1, k2, k3, k4⟩ := hp.identifier name h1
    refine byName k1 k2 k3 ?_ ih
    unfold groupRef312
    rw [if_neg (fun h => h2 (List.all_eq_true.1 h)), if_pos h1]
  | @number ds s es h1 h2 h3 _ ih =>
    refine byName h1 (fun h => (digit_ne (h2 _ h)).2.1 rfl) (fun h => (digit_ne (h2 _ h)).1 rfl) ?_ ih
    unfold groupRef312
    rw [if_pos (List.all_eq_true.2 h2), if_neg (by omega)]
  | @zero ds s es h1 h2 _ ih =>
    obtain ⟨toks, ht, hn⟩ := ih
    obtain ⟨k1, k2⟩ := reTokens_ok ht
    refine ⟨.esc '0' :: (ds.map RTok.plain ++ toks), ?_, fun n hle => ?_⟩
    · rw [reTokens_esc, reTokens_chars (fun h => oct_ne (h1 _ h) rfl), ht]; rfl
    · simp only [List.length_cons, List.length_append, List.length_map] at hle
      match n with
      | n + 1 =>
        have e := takeOct_chars 2 ds toks h1 (h2.imp id fun h => ⟨h.1, (not_next (fun c => oct_ne) k1 k2).1 h.2⟩)
        rw [reParse, if_neg (by decide), if_pos rfl, e, hn n (by omega)]
        rfl
  | @octal c d e s es h0 h1 h2 h3 h4 _ ih =>
    obtain ⟨toks, ht, hn⟩ := ih
    refine ⟨.esc c :: .plain d :: .plain e :: toks, ?_, fun n hle => ?_⟩
    · rw [reTokens_esc, reTokens_plain (oct_ne h2), reTokens_plain (oct_ne h3), ht]; rfl
    · simp only [List.length_cons] at hle
      match n with
      | n + 1 =>
        have hd := isOct_digit h1
        have eb : backslashDigit c (.plain d :: .plain e :: toks) = some (.char (Char.ofNat (digitsValue 8 [c, d, e])), toks) := by
          unfold backslashDigit
          simp only [isOct_digit h2, if_true, h1, h2, h3, Bool.and_self]
          rw [if_neg (by omega)]
        rw [reParse, if_neg (digit_ne hd).2.2.1, if_neg h0, if_pos hd, eb]
        simp only
        rw [hn n (by omega)]
        rfl
  | @digit c s es h0 h1 h2 _ ih =>
    obtain ⟨toks, ht, hn⟩ := ih
    obtain ⟨k1, k2⟩ := reTokens_ok ht
    refine ⟨.esc c :: toks, by rw [reTokens_esc, ht]; rfl, fun n hle => ?_⟩
    simp only [List.length_cons] at hle
    match n with
    | n + 1 =>
      have hnx := (not_next (fun c h => (digit_ne h).1) k1 k2).1 h2
      have eb : backslashDigit c toks = some (.group (digitsValue 10 [c]), toks) := by
        unfold backslashDigit
        cases toks with
        | nil => rfl
        | cons t ts =>
          cases t with
          | esc _ => rfl
          | plain d => simp only; rw [if_neg (by rw [hnx d rfl]; decide)]
      rw [reParse, if_neg (digit_ne h1).2.2.1, if_neg h0, if_pos h1, eb]
      simp only
      rw [hn n (by omega)]
      rfl
  | @digits c d s es h0 h1 h2 h3 _ ih =>
    obtain ⟨toks, ht, hn⟩ := ih
    obtain ⟨k1, k2⟩ := reTokens_ok ht
    refine ⟨.esc c :: .plain d :: toks, by rw [reTokens_esc, reTokens_plain (digit_ne h2).1, ht]; rfl, fun n hle => ?_⟩
    simp only [List.length_cons] at hle
    match n with
    | n + 1 =>
      have eb : backslashDigit c (.plain d :: toks) = some (.group (digitsValue 10 [c, d]), toks) := by
        unfold backslashDigit
        simp only [h2, if_true]
        cases toks with
        | nil => rfl
        | cons t ts =>
          cases t with
          | esc _ => rfl
          | plain x =>
            simp only
            rw [if_neg ?_]
            intro ho
            simp only [Bool.and_eq_true] at ho
            have := (not_next (fun c => oct_ne) k1 k2).1 (h3 ho.1.1 ho.1.2) x rfl
            rw [this] at ho
            exact absurd ho.2 (by decide)
      rw [reParse, if_neg (digit_ne h1).2.2.1, if_neg h0, if_pos h1, eb]
      simp only
      rw [hn n (by omega)]
      rfl
  | @escape c d s es h1 _ ih =>
    obtain ⟨toks, ht, hn⟩ := ih
    refine ⟨.esc c :: toks, by rw [reTokens_esc, ht]; rfl, fun n hle => ?_⟩
    simp only [List.length_cons] at hle
    match n with
    | n + 1 =>
      have hne : c ≠ 'g' ∧ c ≠ '0' ∧ ¬ c.isDigit = true := by
        simp only [templateEscapes, List.mem_cons, List.not_mem_nil, or_false, Prod.mk.injEq] at h1
        rcases h1 with ⟨rfl, _⟩ | ⟨rfl, _⟩ | ⟨rfl, _⟩ | ⟨rfl, _⟩ | ⟨rfl, _⟩ | ⟨rfl, _⟩ | ⟨rfl, _⟩ | ⟨rfl, _⟩ <;> decide
      rw [reParse, if_neg hne.1, if_neg hne.2.1, if_neg hne.2.2, (reEscape_iff c d).2 h1]
      simp only
      rw [hn n (by omega)]
      rfl
  | @other c s es h0 h1 h2 _ ih =>
    obtain ⟨toks, ht, hn⟩ := ih
    refine ⟨.esc c :: toks, by rw [reTokens_esc, ht]; rfl, fun n hle => ?_⟩
    simp only [List.length_cons] at hle
    match n with
    | n + 1 =>
      have hesc : reEscape c = none := by
        cases he : reEscape c with
        | none => rfl
        | some d =>
          have := (reEscape_iff c d).1 he
          simp only [templateEscapes, List.mem_cons, List.not_mem_nil, or_false, Prod.mk.injEq] at this
          rcases this with ⟨rfl, _⟩ | ⟨rfl, _⟩ | ⟨rfl, _⟩ | ⟨rfl, _⟩ | ⟨rfl, _⟩ | ⟨rfl, _⟩ | ⟨rfl, _⟩ | ⟨rfl, _⟩
          all_goals first | exact absurd rfl h0 | exact absurd h1 (by decide)
      have hg : c ≠ 'g' := fun e => by subst e; exact absurd h1 (by decide)
      have hz : c ≠ '0' := fun e => by subst e; exact absurd h2 (by decide)
      rw [reParse, if_neg hg, if_neg hz, if_neg (by rw [h2]; decide), hesc]
      simp only
      rw [if_neg (by rw [h1]; decide), hn n (by omega)]
      rfl

/-- **C103**, reading: as of Python 3.12, the text of a regex template is read as the grammar says; other texts are refused. -/
theorem C103_read {p : GroupNames} (hp : p.Usual) (text : Str) (es : List REvent) :
    reRead (groupRef312 p) text = some es ↔ TemplateText p.identifier p.maxGroups text es := by
  unfold reRead
  constructor
  · intro h
    split at h
    · cases h
    · rename_i toks ht
      obtain ⟨h1, h2⟩ := reTokens_ok ht
      rw [← h1]
      exact reParse_sound p _ _ _ h2 h
  · intro h
    obtain ⟨toks, ht, hn⟩ := reParse_complete hp h
    rw [ht]
    exact hn _ (Nat.le_refl _)

end Refex
