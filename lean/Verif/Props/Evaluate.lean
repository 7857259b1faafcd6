import Verif.Spec.Evaluate
/- C54: evaluating matcher expressions. -/
namespace Refex
set_option autoImplicit false

/-- The calls made are the named ones, all of them when there is a value, otherwise the first ones. -/
def Accounts {α : Type} (x : EOut α) (ns : List Str) : Prop :=
  x.1.map ECall.name <+: ns ∧ ∀ a, x.2 = .ok a → x.1.map ECall.name = ns

theorem accounts_pure {α : Type} (r : Except EErr α) : Accounts (([], r) : EOut α) [] := ⟨List.prefix_refl _, fun _ _ => rfl⟩

theorem accounts_error {α : Type} (e : EErr) (ns : List Str) : Accounts (([], .error e) : EOut α) ns :=
  ⟨List.nil_prefix, fun _ h => by cases h⟩

theorem accounts_andThen {α β : Type} {x : EOut α} {f : α → EOut β} {ns ms : List Str} (hx : Accounts x ns)
    (hf : ∀ a, x.2 = .ok a → Accounts (f a) ms) : Accounts (x.andThen f) (ns ++ ms) := by
  unfold EOut.andThen
  cases h : x.2 with
  | error e => exact ⟨hx.1.trans (List.prefix_append _ _), fun _ h => by cases h⟩
  | ok a =>
    have e := hx.2 a h
    have g := hf a h
    simp only
    refine ⟨?_, fun b hb => ?_⟩
    · rw [List.map_append, e]; exact (List.prefix_append_right_inj _).2 g.1
    · rw [List.map_append, e, g.2 b hb]

theorem dottedName_text : ∀ (e : EExpr) (n : Str), dottedName e = .ok (some n) → dottedText e = n := by
  intro e n h
  match e with
  | .name s => simp [dottedName] at h; simp [dottedText, h]
  | .attribute v a =>
    rw [dottedName] at h
    cases hv : dottedName v with
    | error e => rw [hv] at h; cases h
    | ok o =>
      rw [hv] at h
      cases o with
      | none => cases h
      | some l =>
        cases h
        rw [dottedText, dottedName_text v l hv]
  | .const _ => cases h
  | .usub _ => cases h
  | .tuple _ => cases h
  | .list _ => cases h
  | .dict _ => cases h
  | .set _ => cases h
  | .call _ _ _ _ => cases h
  | .starred _ => cases h
  | .other => cases h

theorem dottedName_iff : ∀ (e : EExpr) (n : Str), dottedName e = .ok (some n) ↔ Dotted e n := by
  intro e n
  constructor
  · intro h
    match e with
    | .name s => simp [dottedName] at h; subst h; exact .name
    | .attribute v a =>
      rw [dottedName] at h
      cases hv : dottedName v with
      | error e => rw [hv] at h; cases h
      | ok o =>
        rw [hv] at h
        cases o with
        | none => cases h
        | some l => cases h; exact .attribute ((dottedName_iff v l).1 hv)
    | .const _ => cases h
    | .usub _ => cases h
    | .tuple _ => cases h
    | .list _ => cases h
    | .dict _ => cases h
    | .set _ => cases h
    | .call _ _ _ _ => cases h
    | .starred _ => cases h
    | .other => cases h
  · intro h
    induction h with
    | name => rfl
    | «attribute» _ ih => rw [dottedName, ih]

theorem accounts_name (env : EvalEnv) (e : EExpr) (ns : List Str) (h : ns = []) : Accounts (convertName env e) ns := by
  subst h
  unfold convertName
  split
  · exact accounts_pure _
  · exact accounts_pure _
  · split <;> exact accounts_pure _

mutual
theorem accounts_convert (env : EvalEnv) : ∀ e, Accounts (convert env e) (callNames e)
  | .const c => by simp only [convert, callNames]; exact accounts_pure _
  | .usub e => by
    have : ∃ r, convert env (.usub e) = ([], r) := by
      cases e with
      | const c => simp only [convert]; split <;> exact ⟨_, rfl⟩
      | _ => exact ⟨_, rfl⟩
    obtain ⟨r, h⟩ := this
    rw [h]; simp only [callNames]; exact accounts_pure _
  | .tuple es => by
    simp only [convert, callNames]
    have := accounts_andThen (accounts_all env es) (fun a _ => accounts_pure (.ok (PVal.tuple a)))
    rwa [List.append_nil] at this
  | .list es => by
    simp only [convert, callNames]
    have := accounts_andThen (accounts_all env es) (fun a _ => accounts_pure (.ok (PVal.list a)))
    rwa [List.append_nil] at this
  | .dict es => by simp only [convert, callNames]; exact accounts_dict env es []
  | .set es => by simp only [convert, callNames]; exact accounts_set env es []
  | .call f args kns kvs => by
    simp only [convert, callNames]
    split
    · exact accounts_error _ _
    · split
      · exact accounts_error _ _
      · exact accounts_error _ _
      · rename_i n hn
        split
        · rw [List.append_assoc]
          refine accounts_andThen (accounts_all env args) (fun as _ => accounts_andThen (accounts_all env kvs) (fun ks _ => ?_))
          rw [dottedName_text f n hn]
          exact ⟨List.prefix_refl _, fun _ _ => rfl⟩
        · exact accounts_error _ _
  | .starred e => by simp only [convert, callNames]; exact accounts_pure _
  | .name s => by simp only [convert, callNames]; exact accounts_name _ _ _ rfl
  | .attribute v a => by simp only [convert, callNames]; exact accounts_name _ _ _ rfl
  | .other => by simp only [convert, callNames]; exact accounts_pure _
theorem accounts_all (env : EvalEnv) : ∀ es, Accounts (convertAll env es) (callNamesAll es)
  | [] => by simp only [convertAll, callNamesAll]; exact accounts_pure _
  | e :: es => by
    simp only [convertAll, callNamesAll]
    refine accounts_andThen (accounts_convert env e) (fun v _ => ?_)
    have := accounts_andThen (accounts_all env es) (fun a _ => accounts_pure (.ok (v :: a)))
    rwa [List.append_nil] at this
theorem accounts_dict (env : EvalEnv) : ∀ es acc, Accounts (convertDict env es acc) (callNamesAll es)
  | [], acc => by simp only [convertDict, callNamesAll]; exact accounts_pure _
  | [e], acc => by simp only [convertDict]; exact accounts_error _ _
  | k :: e :: es, acc => by
    simp only [convertDict, callNamesAll]
    refine accounts_andThen (accounts_convert env k) (fun a _ => accounts_andThen (accounts_convert env e) (fun b _ => ?_))
    split
    · exact accounts_dict env es _
    · exact accounts_error _ _
theorem accounts_set (env : EvalEnv) : ∀ es acc, Accounts (convertSet env es acc) (callNamesAll es)
  | [], acc => by simp only [convertSet, callNamesAll]; exact accounts_pure _
  | e :: es, acc => by
    simp only [convertSet, callNamesAll]
    refine accounts_andThen (accounts_convert env e) (fun v _ => ?_)
    split
    · exact accounts_set env es _
    · exact accounts_error _ _
end

/-- **C54**: only callables of the namespace are called, and only where the expression calls them: the calls made are, in
order, those of the expression, inner before outer, each once; all of them if there is a value, the first ones if there
is an error. -/
theorem C54_calls (env : EvalEnv) (e : EExpr) :
    (convert env e).1.map ECall.name <+: callNames e ∧ (∀ v, (convert env e).2 = .ok v → (convert env e).1.map ECall.name = callNames e) :=
  accounts_convert env e

/-! ### Which names are called -/

/-- Every call made is of a callable in the namespace. -/
def Listed {α : Type} (env : EvalEnv) (x : EOut α) : Prop := ∀ c ∈ x.1, c.name ∈ env.callables

theorem listed_nil {α : Type} (env : EvalEnv) (r : Except EErr α) : Listed env (([], r) : EOut α) := by
  intro c hc; cases hc

theorem listed_andThen {α β : Type} {env : EvalEnv} {x : EOut α} {f : α → EOut β} (hx : Listed env x) (hf : ∀ a, Listed env (f a)) :
    Listed env (x.andThen f) := by
  unfold EOut.andThen
  cases x.2 with
  | error e => exact hx
  | ok a =>
    intro c hc
    rcases List.mem_append.1 hc with h | h
    · exact hx c h
    · exact hf a c h

mutual
theorem listed_convert (env : EvalEnv) : ∀ e, Listed env (convert env e)
  | .const c => by simp only [convert]; exact listed_nil _ _
  | .usub e => by
    cases e with
    | const c => simp only [convert]; split <;> exact listed_nil _ _
    | _ => simp only [convert]; exact listed_nil _ _
  | .tuple es => by simp only [convert]; exact listed_andThen (listed_all env es) (fun _ => listed_nil _ _)
  | .list es => by simp only [convert]; exact listed_andThen (listed_all env es) (fun _ => listed_nil _ _)
  | .dict es => by simp only [convert]; exact listed_dict env es []
  | .set es => by simp only [convert]; exact listed_set env es []
  | .call f args kns kvs => by
    simp only [convert]
    split
    · exact listed_nil _ _
    · split
      · exact listed_nil _ _
      · exact listed_nil _ _
      · split
        · rename_i n _ hn
          refine listed_andThen (listed_all env args) (fun as => listed_andThen (listed_all env kvs) (fun ks => ?_))
          intro c hc
          simp only [List.mem_singleton] at hc
          subst hc; exact hn
        · exact listed_nil _ _
  | .starred e => by simp only [convert]; exact listed_nil _ _
  | .name s => by simp only [convert, convertName]; split <;> try split
                  all_goals exact listed_nil _ _
  | .attribute v a => by simp only [convert, convertName]; split <;> try split
                         all_goals exact listed_nil _ _
  | .other => by simp only [convert]; exact listed_nil _ _
theorem listed_all (env : EvalEnv) : ∀ es, Listed env (convertAll env es)
  | [] => by simp only [convertAll]; exact listed_nil _ _
  | e :: es => by
    simp only [convertAll]
    exact listed_andThen (listed_convert env e) (fun _ => listed_andThen (listed_all env es) (fun _ => listed_nil _ _))
theorem listed_dict (env : EvalEnv) : ∀ es acc, Listed env (convertDict env es acc)
  | [], acc => by simp only [convertDict]; exact listed_nil _ _
  | [e], acc => by simp only [convertDict]; exact listed_nil _ _
  | k :: e :: es, acc => by
    simp only [convertDict]
    refine listed_andThen (listed_convert env k) (fun a => listed_andThen (listed_convert env e) (fun b => ?_))
    split
    · exact listed_dict env es _
    · exact listed_nil _ _
theorem listed_set (env : EvalEnv) : ∀ es acc, Listed env (convertSet env es acc)
  | [], acc => by simp only [convertSet]; exact listed_nil _ _
  | e :: es, acc => by
    simp only [convertSet]
    refine listed_andThen (listed_convert env e) (fun a => ?_)
    split
    · exact listed_set env es _
    · exact listed_nil _ _
end

/-- **C54**: no callable outside the namespace is ever called. -/
theorem C54_only_whitelisted (env : EvalEnv) (e : EExpr) : ∀ c ∈ (convert env e).1, c.name ∈ env.callables :=
  listed_convert env e

/-! ### Literals -/

/-- The keys of a dict given as keys and values in turn. -/
def flatKeys : List PVal → List PVal
  | k :: _ :: d => k :: flatKeys d
  | _ => []

theorem dictPut_new : ∀ (acc : List PVal) (a v : PVal), acc.length % 2 = 0 → (∀ b ∈ flatKeys acc, b.keyEq a = false) →
    dictPut acc a v = acc ++ [a, v]
  | [], a, v, _, _ => rfl
  | [_], _, _, h, _ => by simp at h
  | k :: w :: d, a, v, h, hk => by
    have h1 := hk k (by simp [flatKeys])
    rw [dictPut, h1]
    simp only [Bool.false_eq_true, if_false]
    rw [dictPut_new d a v (by simp at h; omega) (fun b hb => hk b (by simp [flatKeys, hb]))]
    rfl

theorem flatKeys_append : ∀ (acc : List PVal) (a v : PVal), acc.length % 2 = 0 → flatKeys (acc ++ [a, v]) = flatKeys acc ++ [a]
  | [], a, v, _ => rfl
  | [_], _, _, h => by simp at h
  | k :: w :: d, a, v, h => by
    simp only [List.cons_append, flatKeys]
    rw [flatKeys_append d a v (by simp at h; omega)]

theorem andThen_ok {α β : Type} {x : EOut α} {a : α} (h : x = ([], .ok a)) (f : α → EOut β) : x.andThen f = f a := by
  subst h; simp [EOut.andThen]

theorem set_literals (env : EvalEnv) : ∀ (es : List EExpr) (vs acc : List PVal), convertAll env es = ([], .ok vs) →
    (∀ v ∈ vs, v.hashable = true) → (∀ a ∈ acc, ∀ v ∈ vs, a.keyEq v = false) → vs.Pairwise (fun a b => a.keyEq b = false) →
    convertSet env es acc = ([], .ok (.set (acc ++ vs)))
  | [], vs, acc, h, _, _, _ => by
    simp only [convertAll, Prod.mk.injEq, Except.ok.injEq, true_and] at h
    subst h; simp [convertSet]
  | e :: es, vs, acc, h, hh, ha, hp => by
    simp only [convertAll] at h
    cases hc : (convert env e).2 with
    | error err =>
      simp only [EOut.andThen, hc] at h
      simp at h
    | ok v =>
      simp only [EOut.andThen, hc] at h
      cases hr : (convertAll env es).2 with
      | error err => simp only [hr] at h; simp at h
      | ok ws =>
        simp only [hr, Prod.mk.injEq, List.append_nil, List.append_eq_nil_iff, Except.ok.injEq] at h
        obtain ⟨⟨h1, h2⟩, rfl⟩ := h
        have e1 : convert env e = ([], .ok v) := Prod.ext h1 hc
        have e2 : convertAll env es = ([], .ok ws) := Prod.ext h2 hr
        rw [convertSet, andThen_ok e1, if_pos (hh v (by simp))]
        simp only [List.pairwise_cons] at hp
        have hput : setPut acc v = acc ++ [v] := by
          unfold setPut
          rw [if_neg]
          simp only [List.any_eq_true, not_exists, not_and, Bool.not_eq_true]
          intro a haa; exact ha a haa v (by simp)
        rw [hput, set_literals env es ws _ e2 (fun w hw => hh w (by simp [hw])) ?_ hp.2]
        · simp
        · intro a haa w hw
          rcases List.mem_append.1 haa with h | h
          · exact ha a h w (by simp [hw])
          · simp only [List.mem_singleton] at h; subst h; exact hp.1 w hw

mutual
theorem literal_convert (env : EvalEnv) : ∀ {e v}, Literal e v → convert env e = ([], .ok v)
  | _, _, .const => by simp only [convert]
  | _, _, .negative => by simp [convert, Const.isNum, EvalEnv.zeroMinus]
  | _, _, .tuple h => by simp only [convert]; rw [andThen_ok (literals_convert env h)]
  | _, _, .list h => by simp only [convert]; rw [andThen_ok (literals_convert env h)]
  | _, _, .set h h1 h2 => by
    simp only [convert]
    rw [set_literals env _ _ [] (literals_convert env h) h1 (by simp) h2]; rfl
  | _, _, .dict h => by
    simp only [convert]
    rw [items_convert env h [] rfl rfl]; rfl
theorem literals_convert (env : EvalEnv) : ∀ {es vs}, Literals es vs → convertAll env es = ([], .ok vs)
  | _, _, .nil => by simp only [convertAll]
  | _, _, .cons h hs => by
    simp only [convertAll]
    rw [andThen_ok (literal_convert env h), andThen_ok (literals_convert env hs)]
theorem items_convert (env : EvalEnv) : ∀ {es vs seen}, LiteralItems es vs seen → ∀ acc, acc.length % 2 = 0 → flatKeys acc = seen →
    convertDict env es acc = ([], .ok (.dict (acc ++ vs)))
  | _, _, _, .nil, acc, _, _ => by simp [convertDict]
  | _, _, _, .cons h h' hh hk hs, acc, he, hf => by
    simp only [convertDict]
    rw [andThen_ok (literal_convert env h), andThen_ok (literal_convert env h'), if_pos hh,
      dictPut_new acc _ _ he (hf ▸ hk), items_convert env hs _ (by simp; omega) (by rw [flatKeys_append _ _ _ he, hf])]
    simp
end

/-- **C54**: a literal evaluates to its value, whatever the namespace, without any call. -/
theorem C54_literals (env : EvalEnv) {e : EExpr} {v : PVal} (h : Literal e v) : convert env e = ([], .ok v) := literal_convert env h

/-! ### What is accepted -/

theorem andThen_inv {α β : Type} {x : EOut α} {f : α → EOut β} {b : β} (h : (x.andThen f).2 = .ok b) :
    ∃ a, x.2 = .ok a ∧ (f a).2 = .ok b := by
  unfold EOut.andThen at h
  cases hx : x.2 with
  | error e => rw [hx] at h; cases h
  | ok a => rw [hx] at h; exact ⟨a, rfl, h⟩

theorem andThen_error {α β : Type} {x : EOut α} {f : α → EOut β} {e : EErr} (h : (x.andThen f).2 = .error e) :
    x.2 = .error e ∨ ∃ a, x.2 = .ok a ∧ (f a).2 = .error e := by
  unfold EOut.andThen at h
  cases hx : x.2 with
  | error e' => rw [hx] at h; cases h; exact Or.inl rfl
  | ok a => rw [hx] at h; exact Or.inr ⟨a, rfl, h⟩

theorem name_supported (env : EvalEnv) (e : EExpr) {v : PVal} (h : (convertName env e).2 = .ok v) : Supported env e := by
  unfold convertName at h
  cases hd : dottedName e with
  | error err => rw [hd] at h; cases h
  | ok o =>
    rw [hd] at h
    cases o with
    | none => cases h
    | some n =>
      simp only at h
      cases hg : env.constants.get? n with
      | none => rw [hg] at h; cases h
      | some w => exact .constant ((dottedName_iff e n).1 hd) (by simp [Dict.has, hg])

theorem not_starred {args : List EExpr} {kns : List (Option Str)} (h : ¬ hasStarArgs args kns = true) :
    (∀ e ∈ args, ∀ x, e ≠ .starred x) ∧ (∀ n ∈ kns, n ≠ none) := by
  simp only [hasStarArgs, Bool.or_eq_true, List.any_eq_true, not_or, not_exists, not_and] at h
  constructor
  · rintro e he x rfl; exact h.1 _ he rfl
  · rintro n hn rfl; exact h.2 _ hn rfl

theorem starred_iff {args : List EExpr} {kns : List (Option Str)} :
    hasStarArgs args kns = true ↔ ¬ ((∀ e ∈ args, ∀ x, e ≠ .starred x) ∧ (∀ n ∈ kns, n ≠ none)) := by
  constructor
  · rintro h ⟨h1, h2⟩
    simp only [hasStarArgs, Bool.or_eq_true, List.any_eq_true] at h
    rcases h with ⟨e, he, h⟩ | ⟨n, hn, h⟩
    · cases e <;> simp [EExpr.isStarred] at h
      exact h1 _ he _ rfl
    · cases n <;> simp at h
      exact h2 _ hn rfl
  · intro h
    apply Classical.byContradiction
    intro hn
    exact h (not_starred hn)

mutual
theorem ok_supported (env : EvalEnv) : ∀ e v, (convert env e).2 = .ok v → Supported env e
  | .const c, _, _ => .const
  | .usub e, v, h => by
    cases e with
    | const c =>
      by_cases hc : c.isNum = true
      · exact .minus hc
      · simp [convert, hc] at h
    | _ => simp [convert] at h
  | .tuple es, v, h => by
    simp only [convert] at h
    obtain ⟨vs, h1, _⟩ := andThen_inv h
    exact .tuple (ok_supported_all env es vs h1)
  | .list es, v, h => by
    simp only [convert] at h
    obtain ⟨vs, h1, _⟩ := andThen_inv h
    exact .list (ok_supported_all env es vs h1)
  | .dict es, v, h => by
    simp only [convert] at h
    have := ok_supported_dict env es [] v h
    exact .dict this.1 this.2
  | .set es, v, h => by
    simp only [convert] at h
    exact .set (ok_supported_set env es [] v h)
  | .call f args kns kvs, v, h => by
    simp only [convert] at h
    split at h
    · cases h
    · rename_i hs
      split at h
      · cases h
      · cases h
      · rename_i n hn
        split at h
        · rename_i hm
          obtain ⟨as, h1, h2⟩ := andThen_inv h
          obtain ⟨ks, h3, _⟩ := andThen_inv h2
          exact .call ((dottedName_iff f n).1 hn) hm (ok_supported_all env args as h1) (ok_supported_all env kvs ks h3)
            (not_starred hs).1 (not_starred hs).2
        · cases h
  | .starred e, v, h => by simp [convert] at h
  | .name s, v, h => by simp only [convert] at h; exact name_supported env _ h
  | .attribute w a, v, h => by simp only [convert] at h; exact name_supported env _ h
  | .other, v, h => by simp [convert] at h
theorem ok_supported_all (env : EvalEnv) : ∀ es vs, (convertAll env es).2 = .ok vs → ∀ e ∈ es, Supported env e
  | [], _, _ => by simp
  | e :: es, vs, h => by
    simp only [convertAll] at h
    obtain ⟨v, h1, h2⟩ := andThen_inv h
    obtain ⟨ws, h3, _⟩ := andThen_inv h2
    intro x hx
    rcases List.mem_cons.1 hx with hx | hx
    · rw [hx]; exact ok_supported env e v h1
    · exact ok_supported_all env es ws h3 x hx
theorem ok_supported_dict (env : EvalEnv) : ∀ es acc v, (convertDict env es acc).2 = .ok v → es.length % 2 = 0 ∧ ∀ e ∈ es, Supported env e
  | [], _, _, _ => by simp
  | [_], _, _, h => by simp [convertDict] at h
  | k :: e :: es, acc, v, h => by
    simp only [convertDict] at h
    obtain ⟨a, h1, h2⟩ := andThen_inv h
    obtain ⟨b, h3, h4⟩ := andThen_inv h2
    split at h4
    · have := ok_supported_dict env es _ v h4
      refine ⟨by simp; omega, fun x hx => ?_⟩
      rcases List.mem_cons.1 hx with hx | hx
      · rw [hx]; exact ok_supported env k a h1
      · rcases List.mem_cons.1 hx with hx | hx
        · rw [hx]; exact ok_supported env e b h3
        · exact this.2 x hx
    · cases h4
theorem ok_supported_set (env : EvalEnv) : ∀ es acc v, (convertSet env es acc).2 = .ok v → ∀ e ∈ es, Supported env e
  | [], _, _, _ => by simp
  | e :: es, acc, v, h => by
    simp only [convertSet] at h
    obtain ⟨a, h1, h2⟩ := andThen_inv h
    split at h2
    · intro x hx
      rcases List.mem_cons.1 hx with hx | hx
      · rw [hx]; exact ok_supported env e a h1
      · exact ok_supported_set env es _ v h2 x hx
    · cases h2
end

/-- **C54**: a value is returned only for supported syntax with known names, all the way down. Not so: that the error is
SyntaxError (`C54_type_error_false`) and that nothing was called before (`C54_side_effects_false`). -/
theorem C54_unsupported_refused (env : EvalEnv) (e : EExpr) (h : ¬ Supported env e) : ∃ err, (convert env e).2 = .error err := by
  cases hc : (convert env e).2 with
  | error err => exact ⟨err, rfl⟩
  | ok v => exact absurd (ok_supported env e v hc) h

theorem dotted_not {e : EExpr} {n : Str} (h : Dotted e n) : (∃ s, e = .name s) ∨ ∃ v a, e = .attribute v a := by
  cases h with
  | name => exact Or.inl ⟨_, rfl⟩
  | «attribute» _ => exact Or.inr ⟨_, _, rfl⟩

theorem name_no_syntaxError (env : EvalEnv) (e : EExpr) {n : Str} (h : Dotted e n) (hc : env.constants.has n = true) :
    (convertName env e).2 ≠ .error .syntaxError := by
  unfold convertName
  rw [(dottedName_iff e n).2 h]
  simp only [Dict.has] at hc
  cases hg : env.constants.get? n with
  | none => rw [hg] at hc; cases hc
  | some v => simp [hg]

section
variable (env : EvalEnv) (hcall : ∀ n as ks, env.call n as ks ≠ .error .syntaxError)
include hcall
mutual
theorem supported_no_syntaxError : ∀ e, Supported env e → (convert env e).2 ≠ .error .syntaxError
  | .const c, _ => by simp [convert]
  | .usub e, h => by
    cases h with
    | minus hc => simp [convert, hc]
    | constant hd _ => rcases dotted_not hd with ⟨s, h⟩ | ⟨v, a, h⟩ <;> cases h
  | .tuple es, h => by
    have : ∀ e ∈ es, Supported env e := by
      cases h with
      | tuple h => exact h
      | constant hd _ => rcases dotted_not hd with ⟨s, h⟩ | ⟨v, a, h⟩ <;> cases h
    intro hx
    simp only [convert] at hx
    rcases andThen_error hx with h1 | ⟨_, _, h1⟩
    · exact supported_no_syntaxError_all es this h1
    · cases h1
  | .list es, h => by
    have : ∀ e ∈ es, Supported env e := by
      cases h with
      | list h => exact h
      | constant hd _ => rcases dotted_not hd with ⟨s, h⟩ | ⟨v, a, h⟩ <;> cases h
    intro hx
    simp only [convert] at hx
    rcases andThen_error hx with h1 | ⟨_, _, h1⟩
    · exact supported_no_syntaxError_all es this h1
    · cases h1
  | .dict es, h => by
    have : es.length % 2 = 0 ∧ ∀ e ∈ es, Supported env e := by
      cases h with
      | dict h1 h2 => exact ⟨h1, h2⟩
      | constant hd _ => rcases dotted_not hd with ⟨s, h⟩ | ⟨v, a, h⟩ <;> cases h
    simp only [convert]
    exact supported_no_syntaxError_dict es [] this.1 this.2
  | .set es, h => by
    have : ∀ e ∈ es, Supported env e := by
      cases h with
      | set h => exact h
      | constant hd _ => rcases dotted_not hd with ⟨s, h⟩ | ⟨v, a, h⟩ <;> cases h
    simp only [convert]
    exact supported_no_syntaxError_set es [] this
  | .call f args kns kvs, h => by
    cases h with
    | constant hd _ => rcases dotted_not hd with ⟨s, h⟩ | ⟨v, a, h⟩ <;> cases h
    | @call _ n _ _ _ h1 h2 h3 h4 h5 h6 =>
      intro hx
      simp only [convert] at hx
      rw [if_neg (fun hs => starred_iff.1 hs ⟨h5, h6⟩), (dottedName_iff f n).2 h1] at hx
      simp only at hx
      rw [if_pos h2] at hx
      rcases andThen_error hx with g | ⟨_, _, g⟩
      · exact supported_no_syntaxError_all args h3 g
      · rcases andThen_error g with g | ⟨_, _, g⟩
        · exact supported_no_syntaxError_all kvs h4 g
        · exact hcall _ _ _ g
  | .starred e, h => by
    cases h with
    | constant hd _ => rcases dotted_not hd with ⟨s, h⟩ | ⟨v, a, h⟩ <;> cases h
  | .name s, h => by
    cases h with
    | constant hd hc => simp only [convert]; exact name_no_syntaxError env _ hd hc
  | .attribute v a, h => by
    cases h with
    | constant hd hc => simp only [convert]; exact name_no_syntaxError env _ hd hc
  | .other, h => by
    cases h with
    | constant hd _ => rcases dotted_not hd with ⟨s, h⟩ | ⟨v, a, h⟩ <;> cases h
theorem supported_no_syntaxError_all : ∀ es, (∀ e ∈ es, Supported env e) → (convertAll env es).2 ≠ .error .syntaxError
  | [], _ => by simp [convertAll]
  | e :: es, h => by
    intro hx
    simp only [convertAll] at hx
    rcases andThen_error hx with g | ⟨_, _, g⟩
    · exact supported_no_syntaxError e (h e (by simp)) g
    · rcases andThen_error g with g | ⟨_, _, g⟩
      · exact supported_no_syntaxError_all es (fun x hx => h x (by simp [hx])) g
      · cases g
theorem supported_no_syntaxError_dict : ∀ es acc, es.length % 2 = 0 → (∀ e ∈ es, Supported env e) →
    (convertDict env es acc).2 ≠ .error .syntaxError
  | [], _, _, _ => by simp [convertDict]
  | [_], _, h, _ => by simp at h
  | k :: e :: es, acc, hl, h => by
    intro hx
    simp only [convertDict] at hx
    rcases andThen_error hx with g | ⟨_, _, g⟩
    · exact supported_no_syntaxError k (h k (by simp)) g
    · rcases andThen_error g with g | ⟨_, _, g⟩
      · exact supported_no_syntaxError e (h e (by simp)) g
      · split at g
        · exact supported_no_syntaxError_dict es _ (by simp at hl; omega) (fun x hx => h x (by simp [hx])) g
        · cases g
theorem supported_no_syntaxError_set : ∀ es acc, (∀ e ∈ es, Supported env e) → (convertSet env es acc).2 ≠ .error .syntaxError
  | [], _, _ => by simp [convertSet]
  | e :: es, acc, h => by
    intro hx
    simp only [convertSet] at hx
    rcases andThen_error hx with g | ⟨_, _, g⟩
    · exact supported_no_syntaxError e (h e (by simp)) g
    · split at g
      · exact supported_no_syntaxError_set es _ (fun x hx => h x (by simp [hx])) g
      · cases g
end
end

/-- **C54**: supported expressions are never refused for their syntax. (The callables not raising SyntaxError themselves.) -/
theorem C54_supported_accepted (env : EvalEnv) (hcall : ∀ n as ks, env.call n as ks ≠ .error .syntaxError) (e : EExpr)
    (h : Supported env e) : (convert env e).2 ≠ .error .syntaxError := supported_no_syntaxError env hcall e h

/-! ### Examples and refutations -/

/-- A namespace with the callable `f` and the constants `m.c` and `n`. -/
def exEvalEnv : EvalEnv where
  callables := [str "f", str "m.g"]
  constants := [(str "m.c", .obj 1), (str "n", .obj 2)]
  call := fun n as ks => if n = str "f" then .ok (.list (as ++ ks.map Prod.snd)) else .error (.callee 7)
  minus := fun t r => .other t (str "-" ++ r) none

/-- `f({1: -2, 'a': (m.c,)}, k=f())`. -/
def exEvalExpr : EExpr :=
  .call (.name (str "f"))
    [.dict [.const (.int 1), .usub (.const (.int 2)), .const (.str (str "a")), .tuple [.attribute (.name (str "m")) (str "c")]]]
    [some (str "k")] [.call (.name (str "f")) [] [] []]

/-- It is supported, and calls `f` twice. -/
example : Supported exEvalEnv exEvalExpr := by
  refine .call .name (by decide) ?_ ?_ ?_ ?_
  · intro e he
    simp only [List.mem_singleton] at he
    subst he
    refine .dict rfl ?_
    intro e he
    simp only [List.mem_cons, List.not_mem_nil, or_false] at he
    rcases he with rfl | rfl | rfl | rfl
    · exact .const
    · exact .minus rfl
    · exact .const
    · refine .tuple (fun e he => ?_)
      simp only [List.mem_singleton] at he
      subst he
      exact .constant (.attribute .name) (by decide)
  · intro e he
    simp only [List.mem_singleton] at he
    subst he
    exact .call .name (by decide) (by simp) (by simp) (by simp) (by simp)
  · simp
  · simp
example : callNames exEvalExpr = [str "f", str "f"] := by decide
example : (convert exEvalEnv exEvalExpr).1.map ECall.name = [str "f", str "f"] := by decide
/-- A literal: `{1: -2, 'a': (True,)}`. -/
example : Literal (.dict [.const (.int 1), .usub (.const (.int 2)), .const (.str (str "a")), .tuple [.const (.bool true)]])
    (.dict [.const (.int 1), .const (.int (-2)), .const (.str (str "a")), .tuple [.const (.bool true)]]) :=
  .dict (.cons .const .negative rfl (by simp) (.cons .const (.tuple (.cons .const .nil)) rfl (by decide) .nil))

/-- **C54** fails: unsupported syntax is not always reported as such: an attribute of something that is no dotted name, as in
`f().x`, raises TypeError, which `compile_matcher` does not turn into a user error. -/
theorem C54_type_error_false : ¬ Supported exEvalEnv (.attribute (.call (.name (str "f")) [] [] []) (str "x")) ∧
    compileMatcher exEvalEnv (.attribute (.call (.name (str "f")) [] [] []) (str "x")) = .error .typeError := by
  constructor
  · intro h
    cases h with
    | constant hd _ =>
      cases hd with
      | «attribute» hd => rcases dotted_not hd with ⟨s, h⟩ | ⟨v, a, h⟩ <;> cases h
  · rfl

/-- **C54** fails: an expression with unsupported syntax can have effects before it is refused: in `[f(), 1 + 1]` the callable
is called. -/
theorem C54_side_effects_false : (convert exEvalEnv (.list [.call (.name (str "f")) [] [] [], .other])).1.map ECall.name = [str "f"] ∧
    (convert exEvalEnv (.list [.call (.name (str "f")) [] [] [], .other])).2 = .error .syntaxError := ⟨rfl, rfl⟩

end Refex
