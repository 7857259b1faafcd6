import Verif.Spec.ErrorDump
/- C90: the error dump. -/
namespace Refex
set_option autoImplicit false

/-! ### Strings -/

theorem hexValue_hexDigit : ∀ n < 16, hexValue (hexDigit n) = some n := by decide

theorem readHex4_hex4 {n : Nat} (h : n < 65536) (rest : Str) : readHex4 (hex4 n ++ rest) = some (n, rest) := by
  unfold hex4
  simp only [List.cons_append, List.nil_append, readHex4]
  rw [hexValue_hexDigit _ (Nat.mod_lt _ (by omega)), hexValue_hexDigit _ (Nat.mod_lt _ (by omega)), hexValue_hexDigit _ (Nat.mod_lt _ (by omega)),
    hexValue_hexDigit _ (Nat.mod_lt _ (by omega))]
  simp only [Option.some.injEq, Prod.mk.injEq, and_true]
  omega

theorem char_range (ch : Char) : ch.toNat < 0xd800 ∨ (0xdfff < ch.toNat ∧ ch.toNat < 0x110000) := by
  have := ch.valid
  exact this

theorem ofNat_toNat (ch : Char) : Char.ofNat ch.toNat = ch := Char.ofNat_toNat ch

theorem readChar_u {n : Nat} (h : n < 0xd800 ∨ (0xdfff < n ∧ n < 65536)) (rest : Str) : readChar (str "\\u" ++ hex4 n ++ rest) = some (Char.ofNat n, rest) := by
  have : str "\\u" ++ hex4 n ++ rest = '\\' :: 'u' :: (hex4 n ++ rest) := rfl
  rw [this, readChar, if_pos rfl]
  simp only [if_true]
  rw [readHex4_hex4 (by omega)]
  simp only
  rw [if_neg (by omega), if_neg (by omega)]

theorem readChar_pair {n m : Nat} (hn : 0xd800 ≤ n ∧ n ≤ 0xdbff) (hm : 0xdc00 ≤ m ∧ m ≤ 0xdfff) (rest : Str) :
    readChar (str "\\u" ++ hex4 n ++ (str "\\u" ++ hex4 m) ++ rest) = some (Char.ofNat (0x10000 + ((n - 0xd800) * 1024 + (m - 0xdc00))), rest) := by
  have : str "\\u" ++ hex4 n ++ (str "\\u" ++ hex4 m) ++ rest = '\\' :: 'u' :: (hex4 n ++ ('\\' :: 'u' :: (hex4 m ++ rest))) := rfl
  rw [this, readChar, if_pos rfl]
  simp only [if_true]
  rw [readHex4_hex4 (by omega)]
  simp only
  rw [if_pos hn]
  simp only [and_self, if_true]
  rw [readHex4_hex4 (by omega)]
  simp only
  rw [if_pos hm]

theorem readChar_escape (ch : Char) (rest : Str) : readChar (escapeChar ch ++ rest) = some (ch, rest) := by
  unfold escapeChar
  split
  · rename_i h; subst h; rfl
  split
  · rename_i h; subst h; rfl
  split
  · rename_i h; subst h; rfl
  split
  · rename_i h; subst h; rfl
  split
  · rename_i h; subst h; rfl
  split
  · rename_i h
    have : ch = Char.ofNat 0x0c := by rw [← h, ofNat_toNat]
    subst this; rfl
  split
  · rename_i h
    have : ch = Char.ofNat 0x08 := by rw [← h, ofNat_toNat]
    subst this; rfl
  split
  · rename_i _ h1 _ _ _ _ _ h
    rw [List.cons_append, List.nil_append, readChar.eq_def]
    simp only
    rw [if_neg h1, if_neg (by omega)]
  split
  · rename_i h
    rw [readChar_u (by have := char_range ch; omega), ofNat_toNat]
  · rename_i h
    have hr := char_range ch
    rw [readChar_pair (by omega) (by omega)]
    have : 0x10000 + ((0xd800 + (ch.toNat - 0x10000) / 1024 - 0xd800) * 1024 + (0xdc00 + (ch.toNat - 0x10000) % 1024 - 0xdc00)) = ch.toNat := by omega
    rw [this, ofNat_toNat]

theorem escapeChar_head (ch : Char) (rest : Str) : (escapeChar ch ++ rest).head? ≠ some '"' := by
  unfold escapeChar
  split
  · simp [str]
  · rename_i h
    repeat' split
    all_goals first | simpa using h | simp [str]

theorem readChars_escaped : ∀ (s : Str) (n : Nat) (rest : Str), s.length < n → readChars n (s.flatMap escapeChar ++ '"' :: rest) = some (s, rest)
  | [], n + 1, rest, _ => by rw [List.flatMap_nil, List.nil_append, readChars, if_pos (by rfl)]; rfl
  | ch :: s, n + 1, rest, h => by
    rw [List.flatMap_cons, List.append_assoc, readChars, if_neg (escapeChar_head ch _), readChar_escape]
    simp only
    rw [readChars_escaped s n rest (by simpa using h)]
    rfl

theorem escaped_length (s : Str) : s.length ≤ (s.flatMap escapeChar).length := by
  induction s with
  | nil => simp
  | cons ch s ih =>
    rw [List.flatMap_cons, List.length_append, List.length_cons]
    have : 1 ≤ (escapeChar ch).length := by
      unfold escapeChar
      repeat' split
      all_goals simp [str, hex4]
      all_goals omega
    omega

theorem readChars_string (s rest : Str) : readChars ((s.flatMap escapeChar ++ '"' :: rest).length + 1) (s.flatMap escapeChar ++ '"' :: rest) = some (s, rest) := by
  refine readChars_escaped s _ rest ?_
  have := escaped_length s
  simp only [List.length_append]
  omega

/-! ### Values -/

theorem jsonString_append (s rest : Str) : jsonString s ++ rest = '"' :: (s.flatMap escapeChar ++ '"' :: rest) := by
  unfold jsonString
  simp

theorem skipSpace_cons {ch : Char} (h : ch ∉ [' ', '\t', '\n', '\r']) (s : Str) : skipSpace (ch :: s) = ch :: s := by
  unfold skipSpace
  exact List.dropWhile_cons_of_neg (by simpa using h)

theorem skipSpace_space (s : Str) : skipSpace (' ' :: s) = skipSpace s := by
  unfold skipSpace
  exact List.dropWhile_cons_of_pos (by decide)

/-- A dumped value begins with a character that is no space, closing bracket or brace. -/
theorem dump_head (v : Json) : ∃ ch s, v.dump = ch :: s ∧ ch ∈ ['"', '[', '{', 'n'] := by
  cases v with
  | null => exact ⟨'n', str "ull", by rw [Json.dump]; rfl, by simp⟩
  | text s => exact ⟨_, _, by rw [Json.dump]; rfl, by simp⟩
  | list vs => exact ⟨_, _, by rw [Json.dump], by simp⟩
  | obj ks vs => exact ⟨_, _, by rw [Json.dump], by simp⟩

theorem skipSpace_dump (v : Json) (s : Str) : skipSpace (v.dump ++ s) = v.dump ++ s := by
  obtain ⟨ch, t, h, hc⟩ := dump_head v
  rw [h, List.cons_append]
  refine skipSpace_cons ?_ _
  revert hc
  simp only [List.mem_cons, List.not_mem_nil, or_false]
  rintro (rfl | rfl | rfl | rfl) <;> decide

/-- Reading skips leading spaces. -/
theorem readJson_space (n : Nat) (s : Str) : readJson n (' ' :: s) = readJson n s := by
  cases n with
  | zero => rfl
  | succ n => rw [readJson, readJson, skipSpace_space]

theorem readItems_space (n : Nat) (s : Str) : readItems n (' ' :: s) = readItems n s := by
  cases n with
  | zero => rfl
  | succ n => rw [readItems, readItems, readJson_space]

theorem readPairs_space (n : Nat) (s : Str) : readPairs n (' ' :: s) = readPairs n s := by
  cases n with
  | zero => rfl
  | succ n => rw [readPairs, readPairs, skipSpace_space]

theorem putJson_new {k : Str} {v : Json} : ∀ {ks : List Str} {vs : List Json}, ks.length = vs.length → k ∉ ks → putJson k v ks vs = (ks ++ [k], vs ++ [v])
  | [], [], _, _ => rfl
  | k' :: ks, v' :: vs, h, hk => by
    rw [putJson, if_neg (fun (e : k' = k) => hk (by rw [e]; exact List.mem_cons_self ..)), putJson_new (by simpa using h) fun h => hk (List.mem_cons_of_mem _ h)]
    rfl

theorem pairsDict_from : ∀ (ps : List (Str × Json)) (ks : List Str) (vs : List Json), ks.length = vs.length → (ks ++ ps.map Prod.fst).Nodup →
    ps.foldl (fun d p => putJson p.1 p.2 d.1 d.2) (ks, vs) = (ks ++ ps.map Prod.fst, vs ++ ps.map Prod.snd)
  | [], ks, vs, _, _ => by simp
  | (k, v) :: ps, ks, vs, h, hn => by
    have hk : k ∉ ks := fun hk => by
      rw [List.nodup_append] at hn
      exact hn.2.2 k hk k (by simp) rfl
    rw [List.foldl_cons, putJson_new h hk, pairsDict_from ps _ _ (by simp [h]) (by simpa using hn)]
    simp

theorem pairsDict_zip {ks : List Str} {vs : List Json} (h : ks.length = vs.length) (hn : ks.Nodup) : pairsDict (ks.zip vs) = (ks, vs) := by
  unfold pairsDict
  have e1 : (ks.zip vs).map Prod.fst = ks := List.map_fst_zip (by omega)
  have e2 : (ks.zip vs).map Prod.snd = vs := List.map_snd_zip (by omega)
  rw [pairsDict_from _ [] [] rfl (by rw [e1]; exact hn), e1, e2]
  rfl

theorem null_read (n : Nat) (s : Str) : readJson (n + 1) (str "null" ++ s) = some (.null, s) := by
  have h : str "null" ++ s = 'n' :: 'u' :: 'l' :: 'l' :: s := rfl
  rw [h, readJson, skipSpace_cons (by decide)]
  simp only
  rw [if_neg (by decide), if_neg (by decide), if_neg (by decide), if_pos (by rw [List.isPrefixOf_iff_prefix]; exact ⟨s, rfl⟩)]
  rfl

mutual
theorem readJson_dump : ∀ (v : Json), v.Proper → ∀ (n : Nat) (rest : Str), v.dump.length ≤ n → readJson n (v.dump ++ rest) = some (v, rest)
  | .null, _, n, rest, hn => by
    rw [Json.dump] at hn ⊢
    match n, hn with
    | n + 1, _ => exact null_read n rest
  | .text s, _, n, rest, hn => by
    rw [Json.dump] at hn ⊢
    match n, hn with
    | n + 1, _ =>
      rw [jsonString_append, readJson, skipSpace_cons (by decide)]
      simp only [if_true]
      rw [readChars_string]
      rfl
  | .list vs, hp, n, rest, hn => by
    rw [Json.dump] at hn ⊢
    rw [Json.Proper] at hp
    match n, hn with
    | n + 1, hn =>
      rw [List.cons_append, readJson, skipSpace_cons (by decide)]
      simp only
      rw [if_neg (by decide), if_pos trivial]
      cases vs with
      | nil =>
        have : skipSpace (Json.dumpItems [] ++ [']'] ++ rest) = ']' :: rest := by rw [Json.dumpItems]; exact skipSpace_cons (by decide) _
        rw [this]; rfl
      | cons v vs =>
        have hd : Json.dumpItems (v :: vs) ++ [']'] ++ rest = v.dump ++ (Json.dumpMore vs ++ (']' :: rest)) := by rw [Json.dumpItems]; simp
        rw [hd, skipSpace_dump]
        rw [if_neg (by
          obtain ⟨ch, t, h, hc⟩ := dump_head v
          rw [h]
          intro e
          injection e with e
          subst e
          revert hc; decide)]
        rw [Json.Propers] at hp
        rw [readItems_dump v vs hp.1 hp.2 n rest (by
          rw [Json.dumpItems] at hn
          simp only [List.length_cons, List.length_append, List.length_nil] at hn
          omega)]
        rfl
  | .obj ks vs, hp, n, rest, hn => by
    rw [Json.dump] at hn ⊢
    rw [Json.Proper] at hp
    match n, hn with
    | n + 1, hn =>
      rw [List.cons_append, readJson, skipSpace_cons (by decide)]
      simp only
      rw [if_neg (by decide), if_neg (by decide), if_pos trivial]
      match ks, vs, hp with
      | [], [], _ =>
        have : skipSpace (Json.dumpPairs [] [] ++ ['}'] ++ rest) = '}' :: rest := by
          rw [Json.dumpPairs]
          · exact skipSpace_cons (by decide) _
          · intro _ _ _ _ h; cases h
        rw [this]; rfl
      | k :: ks, v :: vs, hp =>
        have hd : Json.dumpPairs (k :: ks) (v :: vs) ++ ['}'] ++ rest = jsonString k ++ (str ": " ++ (v.dump ++ (Json.dumpMorePairs ks vs ++ ('}' :: rest)))) := by
          rw [Json.dumpPairs]; simp
        rw [hd, if_neg (by
          rw [jsonString_append, skipSpace_cons (by decide)]
          simp)]
        rw [Json.Propers] at hp
        have hl : ks.length = vs.length := by simpa using hp.2.1
        rw [readPairs_dump k ks v vs hl hp.2.2.1 hp.2.2.2 n rest (by
          rw [Json.dumpPairs] at hn
          simp only [List.length_cons, List.length_append, List.length_nil] at hn ⊢
          omega)]
        show some (Json.obj (pairsDict ((k, v) :: ks.zip vs)).1 (pairsDict ((k, v) :: ks.zip vs)).2, rest) = _
        rw [← List.zip_cons_cons, pairsDict_zip hp.2.1 hp.1]
theorem readItems_dump : ∀ (v : Json) (vs : List Json), v.Proper → Json.Propers vs → ∀ (n : Nat) (rest : Str), v.dump.length + (Json.dumpMore vs).length + 1 ≤ n →
    readItems n (v.dump ++ (Json.dumpMore vs ++ (']' :: rest))) = some (v :: vs, rest)
  | v, vs, hv, hvs, n, rest, hn => by
    match n, hn with
    | n + 1, hn =>
      rw [readItems, readJson_dump v hv n _ (by omega)]
      simp only
      match vs, hvs with
      | [], _ =>
        rw [Json.dumpMore, List.nil_append, skipSpace_cons (by decide)]
        rfl
      | w :: ws, hvs =>
        rw [Json.Propers] at hvs
        rw [Json.dumpMore] at hn ⊢
        have : str ", " ++ (w.dump ++ Json.dumpMore ws) ++ ']' :: rest = ',' :: ' ' :: (w.dump ++ (Json.dumpMore ws ++ ']' :: rest)) := by
          simp [str]
        rw [this, skipSpace_cons (by decide)]
        simp only
        rw [if_neg (by decide), if_pos trivial, readItems_space, readItems_dump w ws hvs.1 hvs.2 n rest (by
          simp only [List.length_append] at hn
          have : (str ", ").length = 2 := rfl
          omega)]
        rfl
theorem readPairs_dump : ∀ (k : Str) (ks : List Str) (v : Json) (vs : List Json), ks.length = vs.length → v.Proper → Json.Propers vs → ∀ (n : Nat) (rest : Str),
    (jsonString k).length + (v.dump.length + (Json.dumpMorePairs ks vs).length) + 1 ≤ n →
    readPairs n (jsonString k ++ (str ": " ++ (v.dump ++ (Json.dumpMorePairs ks vs ++ ('}' :: rest))))) = some ((k, v) :: ks.zip vs, rest)
  | k, ks, v, vs, hl, hv, hvs, n, rest, hn => by
    match n, hn with
    | n + 1, hn =>
      rw [jsonString_append, readPairs, skipSpace_cons (by decide)]
      simp only [if_true]
      rw [readChars_string]
      simp only
      have h1 : str ": " ++ (v.dump ++ (Json.dumpMorePairs ks vs ++ ('}' :: rest))) = ':' :: ' ' :: (v.dump ++ (Json.dumpMorePairs ks vs ++ ('}' :: rest))) := rfl
      rw [h1, skipSpace_cons (by decide)]
      simp only [if_true]
      rw [readJson_space, readJson_dump v hv n _ (by omega)]
      simp only
      match ks, vs, hl, hvs with
      | [], [], _, _ =>
        rw [Json.dumpMorePairs, List.nil_append, skipSpace_cons (by decide)]
        rfl
        intros; simp_all
      | k' :: ks, w :: ws, hl, hvs =>
        rw [Json.Propers] at hvs
        rw [Json.dumpMorePairs] at hn ⊢
        have : str ", " ++ (jsonString k' ++ (str ": " ++ (w.dump ++ Json.dumpMorePairs ks ws))) ++ '}' :: rest =
            ',' :: ' ' :: (jsonString k' ++ (str ": " ++ (w.dump ++ (Json.dumpMorePairs ks ws ++ '}' :: rest)))) := by
          simp [str]
        rw [this, skipSpace_cons (by decide)]
        simp only
        rw [if_neg (by decide), if_pos trivial, readPairs_space, readPairs_dump k' ks w ws (by simpa using hl) hvs.1 hvs.2 n rest (by
          simp only [List.length_append] at hn
          have h2 : (str ", ").length = 2 := rfl
          have h3 : (str ": ").length = 2 := rfl
          omega)]
        rfl
end

/-- C90: what is dumped is what is loaded. -/
theorem C90_round_trip {v : Json} (h : v.Proper) : jsonLoad v.dump = .ok v := by
  have := readJson_dump v h (v.dump.length + 1) [] (by omega)
  rw [List.append_nil] at this
  unfold jsonLoad
  rw [this]
  rfl

/-! ### The text is ASCII -/

theorem hexDigit_ascii : ∀ n < 16, 0x20 ≤ (hexDigit n).toNat ∧ (hexDigit n).toNat ≤ 0x7e := by decide

theorem ascii_append {a b : Str} (ha : PrintableAscii a) (hb : PrintableAscii b) : PrintableAscii (a ++ b) :=
  fun ch hc => (List.mem_append.1 hc).elim (ha ch) (hb ch)

theorem ascii_hex4 (n : Nat) : PrintableAscii (hex4 n) := by
  intro ch hc
  unfold hex4 at hc
  simp only [List.mem_cons, List.not_mem_nil, or_false] at hc
  rcases hc with rfl | rfl | rfl | rfl <;> exact hexDigit_ascii _ (Nat.mod_lt _ (by omega))

theorem ascii_check {s : Str} (h : s.all (fun ch => decide (0x20 ≤ ch.toNat ∧ ch.toNat ≤ 0x7e)) = true) : PrintableAscii s := by
  intro ch hc
  have := List.all_eq_true.1 h ch hc
  simpa using this

theorem ascii_escape (ch : Char) : PrintableAscii (escapeChar ch) := by
  unfold escapeChar
  split; exact ascii_check (by decide)
  split; exact ascii_check (by decide)
  split; exact ascii_check (by decide)
  split; exact ascii_check (by decide)
  split; exact ascii_check (by decide)
  split; exact ascii_check (by decide)
  split; exact ascii_check (by decide)
  split
  · rename_i h
    intro c hc
    rw [List.mem_singleton.1 hc]
    exact h
  split
  · exact ascii_append (ascii_check (by decide)) (ascii_hex4 _)
  · exact ascii_append (ascii_append (ascii_check (by decide)) (ascii_hex4 _)) (ascii_append (ascii_check (by decide)) (ascii_hex4 _))

theorem ascii_string (s : Str) : PrintableAscii (jsonString s) := by
  unfold jsonString
  refine ascii_append (a := ['"']) (ascii_check (by decide)) (ascii_append (fun ch hc => ?_) (ascii_check (by decide)))
  obtain ⟨c, _, hc⟩ := List.mem_flatMap.1 hc
  exact ascii_escape c ch hc

mutual
theorem ascii_dump : ∀ (v : Json), PrintableAscii v.dump
  | .null => by rw [Json.dump]; exact ascii_check (by decide)
  | .text s => by rw [Json.dump]; exact ascii_string s
  | .list vs => by
    rw [Json.dump]
    exact ascii_append (a := ['[']) (ascii_check (by decide)) (ascii_append (ascii_items vs) (ascii_check (by decide)))
  | .obj ks vs => by
    rw [Json.dump]
    exact ascii_append (a := ['{']) (ascii_check (by decide)) (ascii_append (ascii_pairs ks vs) (ascii_check (by decide)))
theorem ascii_items : ∀ (vs : List Json), PrintableAscii (Json.dumpItems vs)
  | [] => by rw [Json.dumpItems]; exact fun _ h => (by cases h)
  | v :: vs => by rw [Json.dumpItems]; exact ascii_append (ascii_dump v) (ascii_more vs)
theorem ascii_more : ∀ (vs : List Json), PrintableAscii (Json.dumpMore vs)
  | [] => by rw [Json.dumpMore]; exact fun _ h => (by cases h)
  | v :: vs => by rw [Json.dumpMore]; exact ascii_append (ascii_check (by decide)) (ascii_append (ascii_dump v) (ascii_more vs))
theorem ascii_pairs : ∀ (ks : List Str) (vs : List Json), PrintableAscii (Json.dumpPairs ks vs)
  | [], _ => by rw [Json.dumpPairs]; exact fun _ h => (by cases h); intro _ _ _ _ h; cases h
  | _ :: _, [] => by rw [Json.dumpPairs]; exact fun _ h => (by cases h); intro _ _ _ _ _ h; cases h
  | k :: ks, v :: vs => by
    rw [Json.dumpPairs]
    exact ascii_append (ascii_string k) (ascii_append (ascii_check (by decide)) (ascii_append (ascii_dump v) (ascii_morePairs ks vs)))
theorem ascii_morePairs : ∀ (ks : List Str) (vs : List Json), PrintableAscii (Json.dumpMorePairs ks vs)
  | [], _ => by rw [Json.dumpMorePairs]; exact fun _ h => (by cases h); intro _ _ _ _ h; cases h
  | _ :: _, [] => by rw [Json.dumpMorePairs]; exact fun _ h => (by cases h); intro _ _ _ _ _ h; cases h
  | k :: ks, v :: vs => by
    rw [Json.dumpMorePairs]
    exact ascii_append (ascii_check (by decide)) (ascii_append (ascii_string k) (ascii_append (ascii_check (by decide)) (ascii_append (ascii_dump v) (ascii_morePairs ks vs))))
end

/-- C90: the dump is printable ASCII, so any encoding reads it alike. -/
theorem C90_ascii (v : Json) : PrintableAscii v.dump := ascii_dump v

/-! ### The command -/

theorem safe_bare {ch : Char} (h : isSafeChar ch = true) : ch.isAlphanum = true ∨ ch ∈ str "_@%+=:,./-" := by
  unfold isSafeChar at h
  simp only [Bool.or_eq_true, decide_eq_true_eq] at h
  rcases h with ((h | h) | h) | h
  · left
    have : ch.isDigit = true := by
      unfold Char.isDigit
      simp only [ge_iff_le, Bool.and_eq_true, decide_eq_true_eq, UInt32.le_iff_toNat_le]
      exact h
    simp [Char.isAlphanum, this]
  · left
    have : ch.isUpper = true := by
      unfold Char.isUpper
      simp only [ge_iff_le, Bool.and_eq_true, decide_eq_true_eq, UInt32.le_iff_toNat_le]
      exact h
    simp [Char.isAlphanum, Char.isAlpha, this]
  · left
    have : ch.isLower = true := by
      unfold Char.isLower
      simp only [ge_iff_le, Bool.and_eq_true, decide_eq_true_eq, UInt32.le_iff_toNat_le]
      exact h
    simp [Char.isAlphanum, Char.isAlpha, this]
  · exact .inr h

theorem safe_plain {ch : Char} (h : isSafeChar ch = true) : ch ≠ ' ' ∧ ch ≠ '\'' ∧ ch ≠ '"' := by
  refine ⟨?_, ?_, ?_⟩ <;> (rintro rfl; revert h; decide)

theorem bare_word : ∀ (s : Str) (w : Str) (rest : Str), s.all isSafeChar = true → s ≠ [] → 
    shellWords .bare (some w) (s ++ rest) = shellWords .bare (some (w ++ s)) rest
  | [], _, _, _, h => absurd rfl h
  | ch :: s, w, rest, h, _ => by
    rw [List.all_cons, Bool.and_eq_true] at h
    obtain ⟨h1, h2, h3⟩ := safe_plain h.1
    rw [List.cons_append, shellWords, if_neg h1, if_neg h2, if_neg h3, if_pos (safe_bare h.1)]
    cases s with
    | nil => rfl
    | cons d s =>
      have := bare_word (d :: s) (w ++ [ch]) rest h.2 (by simp)
      rw [List.append_assoc] at this
      exact this

theorem bare_start {s : Str} (rest : Str) (h : s.all isSafeChar = true) (hs : s ≠ []) : shellWords .bare none (s ++ rest) = shellWords .bare (some s) rest := by
  cases s with
  | nil => exact absurd rfl hs
  | cons ch s =>
    rw [List.all_cons, Bool.and_eq_true] at h
    obtain ⟨h1, h2, h3⟩ := safe_plain h.1
    rw [List.cons_append, shellWords, if_neg h1, if_neg h2, if_neg h3, if_pos (safe_bare h.1)]
    cases s with
    | nil => rfl
    | cons d s => exact bare_word (d :: s) [ch] rest h.2 (by simp)

theorem single_word : ∀ (s w rest : Str), shellWords .single (some w) ((s.flatMap fun ch => if ch = '\'' then str "'\"'\"'" else [ch]) ++ '\'' :: rest) =
    shellWords .bare (some (w ++ s)) rest
  | [], w, rest => by
    rw [List.flatMap_nil, List.nil_append, shellWords, if_pos rfl, List.append_nil]
  | ch :: s, w, rest => by
    rw [List.flatMap_cons, List.append_assoc]
    have ih := single_word s (w ++ [ch]) rest
    rw [List.append_assoc] at ih
    split
    · rename_i h
      subst h
      have : str "'\"'\"'" ++ ((s.flatMap fun ch => if ch = '\'' then str "'\"'\"'" else [ch]) ++ '\'' :: rest) =
        '\'' :: '"' :: '\'' :: '"' :: '\'' :: ((s.flatMap fun ch => if ch = '\'' then str "'\"'\"'" else [ch]) ++ '\'' :: rest) := rfl
      rw [this, shellWords, if_pos rfl, shellWords, if_neg (by decide), if_neg (by decide), if_pos rfl, shellWords, if_neg (by decide), if_neg (by decide), shellWords, if_pos rfl,
        shellWords, if_neg (by decide), if_pos rfl]
      exact ih
    · rename_i h
      rw [List.cons_append, List.nil_append, shellWords, if_neg h]
      exact ih

theorem quote_start (s rest : Str) : shellWords .bare none (shellQuote s ++ rest) = shellWords .bare (some s) rest := by
  unfold shellQuote
  split
  · rename_i h
    rw [List.isEmpty_iff] at h
    subst h
    have : str "''" ++ rest = '\'' :: '\'' :: rest := rfl
    rw [this, shellWords, if_neg (by decide), if_pos rfl, shellWords, if_pos rfl]
    rfl
  · rename_i h
    split
    · rename_i h'
      exact bare_start rest h' (fun e => h (by rw [e]; rfl))
    · have : '\'' :: (s.flatMap fun ch => if ch = '\'' then str "'\"'\"'" else [ch]) ++ ['\''] ++ rest =
          '\'' :: ((s.flatMap fun ch => if ch = '\'' then str "'\"'\"'" else [ch]) ++ '\'' :: rest) := by simp
      rw [this, shellWords, if_neg (by decide), if_pos rfl]
      exact single_word s [] rest

/-- C90: the command that is shown gives a shell the arguments of the program. -/
theorem C90_command : ∀ (argv : List Str), shellWords .bare none (joinWith (str " ") (argv.map shellQuote)) = some argv
  | [] => rfl
  | [a] => by
    rw [List.map_cons, List.map_nil, joinWith]
    have := quote_start a []
    rw [List.append_nil] at this
    rw [this]
    rfl
  | a :: b :: as => by
    have ih := C90_command (b :: as)
    rw [List.map_cons] at ih ⊢
    rw [List.map_cons, joinWith, List.append_assoc, quote_start]
    have : str " " ++ joinWith (str " ") (shellQuote b :: as.map shellQuote) = ' ' :: joinWith (str " ") (shellQuote b :: as.map shellQuote) := rfl
    rw [this, shellWords, if_pos rfl, ih]
    rfl

/-! ### The report -/

theorem propers_of {vs : List Json} (h : ∀ v ∈ vs, v.Proper) : Json.Propers vs := by
  induction vs with
  | nil => exact trivial
  | cons v vs ih => exact ⟨h v (List.mem_cons_self ..), ih fun w hw => h w (List.mem_cons_of_mem _ hw)⟩

theorem failuresJson_proper {failures : Dict Str Failure} (h : failures.WF) : (failuresJson failures).Proper := by
  unfold failuresJson
  rw [Json.Proper]
  refine ⟨h, by simp [Dict.keys], propers_of fun v hv => ?_⟩
  obtain ⟨f, _, rfl⟩ := List.mem_map.1 hv
  rw [Json.Proper]
  refine ⟨by decide, rfl, propers_of fun v hv => ?_⟩
  simp only [List.mem_cons, List.not_mem_nil, or_false] at hv
  rcases hv with rfl | rfl <;> simp [Json.Proper]

theorem errorBlob_proper {failures : Dict Str Failure} (h : failures.WF) (argv : List Str) (version : Option Str) : (errorBlob failures argv version).Proper := by
  unfold errorBlob
  rw [Json.Proper]
  refine ⟨by decide, rfl, propers_of fun v hv => ?_⟩
  simp only [List.mem_cons, List.not_mem_nil, or_false] at hv
  rcases hv with rfl | rfl | rfl
  · exact failuresJson_proper h
  · rw [Json.Proper]
    exact propers_of fun v hv => by
      obtain ⟨f, _, rfl⟩ := List.mem_map.1 hv
      simp [Json.Proper]
  · split <;> simp [Json.Proper]

/-- C90: loading the dump of a report gives back the failures, the arguments and the version. -/
theorem C90_dump {failures : Dict Str Failure} (h : failures.WF) {argv : List Str} {version : Option Str} {verbose : Bool} {url name count stderr text : Str}
    (hr : reportFailuresText failures argv version verbose url name count = (stderr, some text)) :
    PrintableAscii text ∧ jsonLoad text = .ok (errorBlob failures argv version) := by
  unfold reportFailuresText at hr
  split at hr
  · cases hr
  · cases hr
    exact ⟨C90_ascii _, C90_round_trip (errorBlob_proper h argv version)⟩

/-- C90: a report says, with `--verbose`, for each failure the file and the traceback; then how many there are and where the dump is. Nothing without failures. -/
theorem C90_report (failures : Dict Str Failure) (argv : List Str) (version : Option Str) (verbose : Bool) (url name count : Str) :
    (failures = [] → reportFailuresText failures argv version verbose url name count = ([], none)) ∧
    (failures ≠ [] → ∃ text, reportFailuresText failures argv version verbose url name count =
      ((if verbose then failures.flatMap fun f => str "Error processing " ++ f.1 ++ str "\n" ++ f.2.traceback ++ str "\n\n" else []) ++
        str "Encountered " ++ count ++ str " error(s). Report bugs to " ++ url ++ str ", and attach " ++ name ++ str "\n" ++
        str "NOTE: the error dump file above contains reproduction instructions, including source code and program arguments.\n", some text)) := by
  constructor
  · rintro rfl; rfl
  · intro h
    unfold reportFailuresText
    rw [if_neg (by simpa [List.isEmpty_iff] using h)]
    refine ⟨(errorBlob failures argv version).dump, ?_⟩
    have : ∀ f : Str × Failure, str "Error processing " ++ f.1 ++ str "\n" ++ f.2.traceback ++ str "\n" ++ str "\n" = str "Error processing " ++ f.1 ++ str "\n" ++ f.2.traceback ++ str "\n\n" := by
      intro f
      rw [List.append_assoc (str "Error processing " ++ f.1 ++ str "\n" ++ f.2.traceback)]
      rfl
    simp only [this]

theorem strings_texts (as : List Str) : Json.strings (as.map .text) = .ok as := by
  induction as with
  | nil => rfl
  | cons a as ih => rw [List.map_cons, Json.strings, ih]; rfl

theorem debugFailures_failures (highlight : Str → Str) : ∀ (failures : Dict Str Failure) (tmp : Nat → Str),
    ∃ o, debugFailures highlight tmp failures.keys (failures.map fun f => .obj [str "content", str "traceback"] [.text f.2.content, .text f.2.traceback]) = .ok o ∧
      o.files = (failures.zipIdx).map (fun f => (tmp f.2, f.1.2.content)) ∧
      o.out = (failures.zipIdx).flatMap (fun f => str "\n\nFile: " ++ f.1.1 ++ str "\nContent: " ++ tmp f.2 ++ str "\n" ++ highlight f.1.2.traceback ++ str "\n")
  | [], tmp => ⟨_, rfl, rfl, rfl⟩
  | (k, f) :: fs, tmp => by
    obtain ⟨o, h1, h2, h3⟩ := debugFailures_failures highlight fs (fun n => tmp (n + 1))
    have hk : Dict.keys ((k, f) :: fs) = k :: Dict.keys fs := rfl
    have hz : ∀ {β : Type} (g : (Str × Failure) × Nat → β), (fs.zipIdx 1).map g = fs.zipIdx.map fun p => g (p.1, p.2 + 1) := by
      intro β g
      rw [List.zipIdx_succ]
      simp [Function.comp_def]
    refine ⟨{ out := str "\n\n" ++ (str "File: " ++ k ++ str "\n") ++ (str "Content: " ++ tmp 0 ++ str "\n") ++ (highlight f.traceback ++ str "\n") ++ o.out,
              files := [(tmp 0, f.content)] ++ o.files }, by
      rw [hk, List.map_cons, debugFailures]
      have e1 : Json.get? (.obj [str "content", str "traceback"] [.text f.content, .text f.traceback]) (str "content") = some (.text f.content) := rfl
      have e2 : Json.get? (.obj [str "content", str "traceback"] [.text f.content, .text f.traceback]) (str "traceback") = some (.text f.traceback) := rfl
      simp only [e1, e2, h1], ?_, ?_⟩
    · rw [List.zipIdx_cons, List.map_cons, hz, h2]
      rfl
    · rw [List.zipIdx_cons, List.flatMap_cons, h3]
      rw [show (fs.zipIdx (0 + 1)) = fs.zipIdx.map fun p => (p.1, p.2 + 1) from by rw [List.zipIdx_succ], List.flatMap_map]
      simp only [List.append_assoc]
      rfl

/-- C90: from a dump, `rxerr_debug` shows the command and, for each failure in order, the file's name, the name of a file in which it has put the content, and the traceback. -/
theorem C90_debug (highlight : Str → Str) (tmp : Nat → Str) {failures : Dict Str Failure} (h : failures.WF) {argv : List Str} (hargv : argv ≠ []) {version : Option Str} {verbose : Bool}
    {url name count stderr text : Str} (hr : reportFailuresText failures argv version verbose url name count = (stderr, some text)) :
    ∃ o command, rxerrDebug highlight tmp text = .ok o ∧ shellWords .bare none command = some argv ∧
      o.files = (failures.zipIdx).map (fun f => (tmp f.2, f.1.2.content)) ∧
      o.out = str "Command: " ++ command ++ str " \n\n" ++
        (failures.zipIdx).flatMap (fun f => str "\n\nFile: " ++ f.1.1 ++ str "\nContent: " ++ tmp f.2 ++ str "\n" ++ highlight f.1.2.traceback ++ str "\n") := by
  obtain ⟨_, hl⟩ := C90_dump h hr
  obtain ⟨o, h1, h2, h3⟩ := debugFailures_failures highlight failures tmp
  unfold rxerrDebug
  rw [hl]
  have e1 : (errorBlob failures argv version).get? (str "argv") = some (.list (argv.map Json.text)) := rfl
  have e2 : (errorBlob failures argv version).get? (str "failures") = some (failuresJson failures) := rfl
  have e3 : debugCommand (errorBlob failures argv version) = .ok (str "Command: " ++ joinWith (str " ") (argv.map shellQuote) ++ str " \n\n") := by
    unfold debugCommand
    rw [e1]
    cases argv with
    | nil => exact absurd rfl hargv
    | cons a as =>
      have := strings_texts (a :: as)
      rw [List.map_cons] at this ⊢
      simp only [this]
      rfl
  refine ⟨⟨str "Command: " ++ joinWith (str " ") (argv.map shellQuote) ++ str " \n\n" ++ o.out, o.files⟩, joinWith (str " ") (argv.map shellQuote), ?_, C90_command argv, h2, by rw [← h3]⟩
  simp only [e3, e2, failuresJson, h1]

/-- Non-vacuity of C90: a failure of a file with quotes and non-ASCII characters. -/
def exFailures : Dict Str Failure := [(str "it's.py", ⟨str "x = \"é😀\"\n\t'", str "Traceback\\n"⟩), (str "b.py", ⟨[], str "Error"⟩)]

example : exFailures.WF ∧ (reportFailuresText exFailures [str "refex", str "it's.py", [], str "a b"] none true (str "url") (str "/tmp/x") (str "2")).2 =
    some (str "{\"failures\": {\"it's.py\": {\"content\": \"x = \\\"\\u00e9\\ud83d\\ude00\\\"\\n\\t'\", \"traceback\": \"Traceback\\\\n\"}, \"b.py\": {\"content\": \"\", \"traceback\": \"Error\"}}, \"argv\": [\"refex\", \"it's.py\", \"\", \"a b\"], \"version\": null}") ∧
    joinWith (str " ") ([str "refex", str "it's.py", [], str "a b"].map shellQuote) = str "refex 'it'\"'\"'s.py' '' 'a b'" := by decide +kernel

end Refex
