import Verif.Props.Construct
/- C92: calls of matcher classes, all classes together. -/
namespace Refex
set_option autoImplicit false

theorem params_nodup (cls : Cls) (h : ∀ ty fs, cls = .node ty fs → fs.Nodup) : (cls.params.2.map Prod.fst).Nodup := by
  cases cls with
  | node ty fs =>
    show ((fs.map fun f => (f, false)).map Prod.fst).Nodup
    rw [List.map_map]
    have : (Prod.fst ∘ fun f : Str => (f, false)) = id := rfl
    rw [this, List.map_id]
    exact h ty fs rfl
  | _ => decide

/-- The name of a class. -/
def Cls.name : Cls → Str
  | .anything => Refex.str "Anything"
  | .testOnlyRaise => Refex.str "TestOnlyRaise"
  | .allOf => Refex.str "AllOf"
  | .anyOf => Refex.str "AnyOf"
  | .unless => Refex.str "Unless"
  | .once => Refex.str "Once"
  | .bind => Refex.str "Bind"
  | .rebind => Refex.str "Rebind"
  | .stringMatch => Refex.str "StringMatch"
  | .maybeWrapped => Refex.str "MaybeWrapped"
  | .recursivelyWrapped => Refex.str "RecursivelyWrapped"
  | .equals => Refex.str "Equals"
  | .typeIs => Refex.str "TypeIs"
  | .matchesRegex => Refex.str "MatchesRegex"
  | .fileMatchesRegex => Refex.str "FileMatchesRegex"
  | .hasItem => Refex.str "HasItem"
  | .itemsAre => Refex.str "ItemsAre"
  | .contains => Refex.str "Contains"
  | .inLines => Refex.str "InLines"
  | .num => Refex.str "Num"
  | .bytes => Refex.str "Bytes"
  | .str => Refex.str "Str"
  | .nameConstant => Refex.str "NameConstant"
  | .ellipsis => Refex.str "Ellipsis"
  | .exprPattern => Refex.str "ExprPattern"
  | .stmtPattern => Refex.str "StmtPattern"
  | .hasParent => Refex.str "HasParent"
  | .isOrHasAncestor => Refex.str "IsOrHasAncestor"
  | .hasAncestor => Refex.str "HasAncestor"
  | .hasChild => Refex.str "HasChild"
  | .isOrHasDescendant => Refex.str "IsOrHasDescendant"
  | .hasDescendant => Refex.str "HasDescendant"
  | .hasPrevSibling => Refex.str "HasPrevSibling"
  | .hasNextSibling => Refex.str "HasNextSibling"
  | .namedFunctionDefinition => Refex.str "NamedFunctionDefinition"
  | .inNamedFunction => Refex.str "InNamedFunction"
  | .withTopLevelImport => Refex.str "WithTopLevelImport"
  | .hasComments => Refex.str "HasComments"
  | .noComments => Refex.str "NoComments"
  | .node ty _ => ty

/-- A class that takes its arguments by parameter, and makes a matcher of them. -/
theorem made_with {E : MakeEnv} {self : Nat} {d : Dict Str PVal} {m : Matcher} {args : List PVal} {kws : List (Str × PVal)} {cls : Cls}
    (hv : cls.signature ≠ .variadic) (hnode : ∀ ty fs, cls ≠ .node ty fs) (hp : Passes cls.params.1 cls.params.2 args kws d.get?)
    (h : makeMatcher E self cls d = .ok (some m)) : Makes E self cls.name args kws m := by
  cases cls with
  | allOf => exact absurd rfl hv
  | anyOf => exact absurd rfl hv
  | node ty fs => exact absurd rfl (hnode ty fs)
  | anything => exact .special (make_anything hp h)
  | testOnlyRaise => exact .special (make_testOnlyRaise hp h)
  | «unless» => exact .special (make_unless hp h)
  | once => exact .special (make_once hp h)
  | bind => exact .special (make_bind hp h)
  | rebind => exact .special (make_rebind hp h)
  | stringMatch => exact .special (make_stringMatch hp h)
  | maybeWrapped => exact .special (make_maybeWrapped hp h)
  | recursivelyWrapped => exact .special (make_recursivelyWrapped hp h)
  | equals => exact .special (make_equals hp h)
  | typeIs => exact .special (make_typeIs hp h)
  | matchesRegex => exact .special (make_matchesRegex hp h)
  | fileMatchesRegex => exact .special (make_fileMatchesRegex hp h)
  | hasItem => exact .special (make_hasItem hp h)
  | itemsAre => exact .special (make_itemsAre hp h)
  | contains => exact .special (make_contains hp h)
  | inLines => exact .special (make_inLines hp h)
  | num => exact .special (make_num hp h)
  | bytes => exact .special (make_bytes hp h)
  | str => exact .special (make_str hp h)
  | nameConstant => exact .special (make_nameConstant hp h)
  | ellipsis => exact .special (make_ellipsis hp h)
  | exprPattern => exact .special (make_exprPattern hp h)
  | stmtPattern => exact .special (make_stmtPattern hp h)
  | hasParent => exact .special (make_hasParent hp h)
  | isOrHasAncestor => exact .special (make_isOrHasAncestor hp h)
  | hasAncestor => exact .special (make_hasAncestor hp h)
  | hasChild => exact .special (make_hasChild hp h)
  | isOrHasDescendant => exact .special (make_isOrHasDescendant hp h)
  | hasDescendant => exact .special (make_hasDescendant hp h)
  | hasPrevSibling => exact .special (make_hasPrevSibling hp h)
  | hasNextSibling => exact .special (make_hasNextSibling hp h)
  | namedFunctionDefinition => exact .special (make_namedFunctionDefinition hp h)
  | inNamedFunction => exact .special (make_inNamedFunction hp h)
  | withTopLevelImport => exact .special (make_withTopLevelImport hp h)
  | hasComments => exact .special (make_hasComments hp h)
  | noComments => exact .special (make_noComments hp h)

theorem make_node {E : MakeEnv} {self : Nat} {d : Dict Str PVal} {m : Matcher} {ty : Str} {fs : List Str}
    : makeMatcher E self (.node ty fs) d = .ok (some m) ↔ ∃ ms, Forall2 (fun f m => Sub E (d.get? f) m) fs ms ∧ m = .node ty fs ms := by
  have hf : ∀ (f : Str) (m : Matcher), (match d.get? f with
      | some v => coerce E v
      | none => some .anything) = some m ↔ Sub E (d.get? f) m := by
    intro f m
    cases h : d.get? f with
    | some v => exact coerce_iff
    | none =>
      constructor
      · intro e; cases e; exact .default
      · intro e; cases e; rfl
  show Except.ok (Option.map (Matcher.node ty fs) (fs.mapM _)) = Except.ok (some m) ↔ _
  rw [Except.ok.injEq, Option.map_eq_some_iff]
  constructor
  · rintro ⟨ms, h, rfl⟩
    exact ⟨ms, (mapM_option hf _ _).1 h, rfl⟩
  · rintro ⟨ms, h, rfl⟩
    exact ⟨ms, (mapM_option hf _ _).2 h, rfl⟩

theorem plainMatchers_iff {E : MakeEnv} {vs : List PVal} {ms : List Matcher} :
    plainMatchers E vs = some ms ↔ Forall2 (fun v m => ∃ i, v = .obj i ∧ E.thing i = .matcher m) vs ms := by
  refine mapM_option (R := fun v m => ∃ i, v = .obj i ∧ E.thing i = .matcher m) (fun v m => ?_) vs ms
  constructor
  · intro h
    split at h
    · rename_i i
      split at h
      · rename_i hm; cases h; exact ⟨i, rfl, hm⟩
      · cases h
    · cases h
  · rintro ⟨i, rfl, h⟩
    simp only [h]

/-- What `classNamed` finds: the class of the last part of the name. -/
theorem classNamed_name {E : MakeEnv} {n : Str} {cls : Cls} (h : classNamed E n = some cls) : RefersTo n cls.name ∧
    ((∀ ty fs, cls ≠ .node ty fs) ∨ ∃ fs, cls = .node cls.name fs ∧ E.fields cls.name = some fs ∧ ∀ s ∈ specialClasses, cls.name ≠ str s) := by
  obtain ⟨name, h1, h2, h3⟩ := lastPart_shape n
  simp only [classNamed, h1] at h
  split at h
  · rename_i e he
    cases h
    have hm := List.mem_of_find?_eq_some he
    have hn := List.find?_some he
    simp only [decide_eq_true_eq] at hn
    have hc : ∀ e ∈ classTable, e.2.name = Refex.str e.1 := by decide
    have hd : ∀ e ∈ classTable, ∀ ty fs, e.2 ≠ .node ty fs := by
      intro e he ty fs hh
      have : classTable.all (fun e => match e.2 with
        | .node .. => false
        | _ => true) = true := by decide
      have := List.all_eq_true.1 this e he
      rw [hh] at this
      cases this
    refine ⟨?_, .inl (hd e hm)⟩
    rw [hc e hm, hn]
    exact ⟨h3, h2⟩
  · rename_i he
    obtain ⟨fs, hf, rfl⟩ := Option.map_eq_some_iff.1 h
    refine ⟨⟨h3, h2⟩, .inr ⟨fs, rfl, hf, ?_⟩⟩
    intro s hs e
    have hsame : specialClasses = classTable.map Prod.fst := by decide
    rw [hsame] at hs
    obtain ⟨e', he', rfl⟩ := List.mem_map.1 hs
    have := List.find?_eq_none.1 he e' he'
    simp only [decide_eq_true_eq] at this
    exact this e.symm

theorem classNamed_special {E : MakeEnv} {n : Str} {s : String} {cls : Cls} (h : RefersTo n (str s))
    (hf : classTable.find? (fun e => decide (Refex.str e.1 = Refex.str s)) = some (s, cls)) : classNamed E n = some cls := by
  unfold classNamed
  rw [lastPart_of h.2 h.1]
  show (match classTable.find? (fun e => decide (Refex.str e.1 = Refex.str s)) with
    | some e => some e.2
    | none => (E.fields (str s)).map (Cls.node (str s))) = some cls
  rw [hf]

theorem call_of {E : MakeEnv} {self : Nat} {n : Str} {s : String} {cls : Cls} {k : Bool} {ps : List (Str × Bool)} {args : List PVal} {kws : List (Str × PVal)}
    {got : Str → Option PVal} {r : Option Matcher} (h : RefersTo n (str s))
    (hf : classTable.find? (fun e => decide (Refex.str e.1 = Refex.str s)) = some (s, cls)) (hsig : cls.signature = .fixed k ps)
    (hn : (ps.map Prod.fst).Nodup) (hp : Passes k ps args kws got) (hm : ∀ d : Dict Str PVal, d.get? = got → makeMatcher E self cls d = .ok r) :
    callClass E self n args kws = .ok r := by
  obtain ⟨d, hd, hg⟩ := (C92_arguments hn args kws).2.1 got hp
  unfold callClass
  rw [classNamed_special h hf]
  simp only [hsig, hd]
  exact hm d hg

theorem called_with {E : MakeEnv} {self : Nat} {n : Str} {s : String} {args : List PVal} {kws : List (Str × PVal)} {m : Matcher}
    (href : RefersTo n (str s)) (h : MakesWith E self s args kws m) : callClass E self n args kws = .ok (some m) := by
  cases h with
  | anything hp => exact call_of (cls := .anything) href rfl rfl (by decide) hp (fun d hd => rfl)
  | testOnlyRaise hp => exact call_of (cls := .testOnlyRaise) href rfl rfl (by decide) hp (fun d hd => rfl)
  | ellipsis hp => exact call_of (cls := .ellipsis) href rfl rfl (by decide) hp (fun d hd => rfl)
  | «unless» hp hs => exact call_of (cls := .unless) href rfl rfl (by decide) hp (fun d hd => by subst hd; exact subArg_map.2 ⟨_, hs, rfl⟩)
  | contains hp hs => exact call_of (cls := .contains) href rfl rfl (by decide) hp (fun d hd => by subst hd; exact subArg_map.2 ⟨_, hs, rfl⟩)
  | hasParent hp hs => exact call_of (cls := .hasParent) href rfl rfl (by decide) hp (fun d hd => by subst hd; exact subArg_map.2 ⟨_, hs, rfl⟩)
  | isOrHasAncestor hp hs => exact call_of (cls := .isOrHasAncestor) href rfl rfl (by decide) hp (fun d hd => by subst hd; exact subArg_map.2 ⟨_, hs, rfl⟩)
  | hasAncestor hp hs => exact call_of (cls := .hasAncestor) href rfl rfl (by decide) hp (fun d hd => by subst hd; exact subArg_map.2 ⟨_, hs, rfl⟩)
  | hasChild hp hs => exact call_of (cls := .hasChild) href rfl rfl (by decide) hp (fun d hd => by subst hd; exact subArg_map.2 ⟨_, hs, rfl⟩)
  | isOrHasDescendant hp hs => exact call_of (cls := .isOrHasDescendant) href rfl rfl (by decide) hp (fun d hd => by subst hd; exact subArg_map.2 ⟨_, hs, rfl⟩)
  | hasDescendant hp hs => exact call_of (cls := .hasDescendant) href rfl rfl (by decide) hp (fun d hd => by subst hd; exact subArg_map.2 ⟨_, hs, rfl⟩)
  | hasPrevSibling hp hs => exact call_of (cls := .hasPrevSibling) href rfl rfl (by decide) hp (fun d hd => by subst hd; exact subArg_map.2 ⟨_, hs, rfl⟩)
  | hasNextSibling hp hs => exact call_of (cls := .hasNextSibling) href rfl rfl (by decide) hp (fun d hd => by subst hd; exact subArg_map.2 ⟨_, hs, rfl⟩)
  | inNamedFunction hp hs => exact call_of (cls := .inNamedFunction) href rfl rfl (by decide) hp (fun d hd => by subst hd; exact subArg_map.2 ⟨_, hs, rfl⟩)
  | hasComments hp hs => exact call_of (cls := .hasComments) href rfl rfl (by decide) hp (fun d hd => by subst hd; exact subArg_map.2 ⟨_, hs, rfl⟩)
  | noComments hp hs => exact call_of (cls := .noComments) href rfl rfl (by decide) hp (fun d hd => by subst hd; exact subArg_map.2 ⟨_, hs, rfl⟩)
  | num hp hs => exact call_of (cls := .num) href rfl rfl (by decide) hp (fun d hd => by subst hd; exact subArg_map.2 ⟨_, hs, rfl⟩)
  | bytes hp hs => exact call_of (cls := .bytes) href rfl rfl (by decide) hp (fun d hd => by subst hd; exact subArg_map.2 ⟨_, hs, rfl⟩)
  | str hp hs => exact call_of (cls := .str) href rfl rfl (by decide) hp (fun d hd => by subst hd; exact subArg_map.2 ⟨_, hs, rfl⟩)
  | nameConstant hp hs => exact call_of (cls := .nameConstant) href rfl rfl (by decide) hp (fun d hd => by subst hd; exact subArg_map.2 ⟨_, hs, rfl⟩)
  | once hp hs hk =>
    refine call_of (cls := .once) href rfl rfl (by decide) hp (fun d hd => ?_)
    subst hd
    simp only [makeMatcher, hk, subArg_iff.2 hs]
    rfl
  | onceKey hp hs hk hh =>
    refine call_of (cls := .once) href rfl rfl (by decide) hp (fun d hd => ?_)
    subst hd
    simp only [makeMatcher, hk, hh, if_true, subArg_iff.2 hs]
    rfl
  | bind hp hx hw hs hc hm =>
    refine call_of (cls := .bind) href rfl rfl (by decide) hp (fun d hd => ?_)
    subst hd
    simp only [makeMatcher, hx, bindNameOk_iff.2 hw, if_true, conflictArg_iff.2 hc, mergeArg_iff.2 hm, subArg_iff.2 hs]
    rfl
  | rebind hp hs hc hm =>
    refine call_of (cls := .rebind) href rfl rfl (by decide) hp (fun d hd => ?_)
    subst hd
    simp only [makeMatcher, conflictArg_iff.2 hc, mergeArg_iff.2 hm, subArg_iff.2 hs]
    rfl
  | stringMatch hp hx =>
    refine call_of (cls := .stringMatch) href rfl rfl (by decide) hp (fun d hd => ?_)
    subst hd
    simp only [makeMatcher, strArg_iff.2 hx]
    rfl
  | equals hp hx =>
    refine call_of (cls := .equals) href rfl rfl (by decide) hp (fun d hd => ?_)
    subst hd
    simp only [makeMatcher, hx]
    rfl
  | matchesRegex hp hx hs =>
    refine call_of (cls := .matchesRegex) href rfl rfl (by decide) hp (fun d hd => ?_)
    subst hd
    simp only [makeMatcher, strArg_iff.2 hx, subArg_iff.2 hs]
    rfl
  | fileMatchesRegex hp hx =>
    refine call_of (cls := .fileMatchesRegex) href rfl rfl (by decide) hp (fun d hd => ?_)
    subst hd
    simp only [makeMatcher, strArg_iff.2 hx]
    rfl
  | hasItem hp hx hi hs =>
    refine call_of (cls := .hasItem) href rfl rfl (by decide) hp (fun d hd => ?_)
    subst hd
    simp only [makeMatcher, indexArg_iff.2 ⟨_, hx, hi⟩, subArg_iff.2 hs]
    rfl
  | itemsAre hp hx hi hs =>
    refine call_of (cls := .itemsAre) href rfl rfl (by decide) hp (fun d hd => ?_)
    subst hd
    simp only [makeMatcher, hx, Option.bind_some, iterate_iff.2 hi, coerceAll]
    rw [(mapM_option (fun _ _ => coerce_iff) _ _).2 hs]
    rfl
  | inLines hp hx hc hi hs =>
    refine call_of (cls := .inLines) href rfl rfl (by decide) hp (fun d hd => ?_)
    subst hd
    simp only [makeMatcher, linesArg_iff.2 ⟨_, _, hx, hc, hi, hs⟩]
    rfl
  | exprPattern hp hx he =>
    refine call_of (cls := .exprPattern) href rfl rfl (by decide) hp (fun d hd => ?_)
    subst hd
    simp only [makeMatcher, hx, he]
  | stmtPattern hp hx he =>
    refine call_of (cls := .stmtPattern) href rfl rfl (by decide) hp (fun d hd => ?_)
    subst hd
    simp only [makeMatcher, hx, he]
  | namedFunctionDefinition hp hb hr =>
    refine call_of (cls := .namedFunctionDefinition) href rfl rfl (by decide) hp (fun d hd => ?_)
    subst hd
    simp only [makeMatcher, subArg_iff.2 hb, subArg_iff.2 hr]
    rfl
  | imported hp hs hm ha h1 h2 =>
    refine call_of (cls := .withTopLevelImport) href rfl rfl (by decide) hp (fun d hd => ?_)
    subst hd
    simp only [makeMatcher, ha, strArg_iff.2 hm, subArg_iff.2 hs, defaultAsName_iff.2 ⟨h1, h2⟩]
    rfl
  | importedAs hp hs hm ha =>
    refine call_of (cls := .withTopLevelImport) href rfl rfl (by decide) hp (fun d hd => ?_)
    subst hd
    simp only [makeMatcher, ha, strArg_iff.2 hm, subArg_iff.2 hs]
    rfl

/-- **C92**: what a call of a matcher class makes. A call with a name that may be called makes exactly the matchers that the class of that name
(with or without a module in front) stands for, with the arguments passed by Python's calling convention, values that are no matchers standing for
what is equal to them, and what is left out for anything. (The `_fields` of a class of `ast` are different names.) -/
theorem C92_made {E : MakeEnv} (hE : ∀ ty fs, E.fields ty = some fs → fs.Nodup) (self : Nat) (n : Str) (args : List PVal) (kws : List (Str × PVal)) (m : Matcher) :
    callClass E self n args kws = .ok (some m) ↔ ∃ cls, RefersTo n cls ∧ Makes E self cls args kws m := by
  constructor
  · intro h
    unfold callClass at h
    split at h
    · cases h
    · rename_i cls hc
      obtain ⟨href, hkind⟩ := classNamed_name hc
      refine ⟨cls.name, href, ?_⟩
      have hnd : (cls.params.2.map Prod.fst).Nodup := by
        refine params_nodup cls (fun ty fs e => ?_)
        rcases hkind with hk | ⟨fs', hk, hf, _⟩
        · exact absurd e (hk ty fs)
        · rw [hk] at e; cases e
          exact hE _ _ hf
      split at h
      · rename_i hsig
        split at h
        · rename_i hkw
          have hkw : kws = [] := by simpa using hkw
          subst hkw
          rw [Except.ok.injEq] at h
          obtain ⟨ms, hms, h⟩ := Option.map_eq_some_iff.1 h
          have hms := plainMatchers_iff.1 hms
          cases cls with
          | allOf => cases h; exact .allOf hms
          | anyOf => cases h; exact .anyOf hms
          | _ => cases hsig
        · cases h
      · rename_i k ps hsig
        have hpar : cls.params = (k, ps) := by simp only [Cls.params, hsig]
        split at h
        · cases h
        · rename_i d hd
          have hp := (C92_arguments (kwOnly := k) (by rw [hpar] at hnd; exact hnd) args kws).1 d hd
          rcases hkind with hk | ⟨fs', hk, hf, hs⟩
          · exact made_with (by rw [hsig]; intro e; cases e) hk (by rw [hpar]; exact hp) h
          · rw [hk] at h
            obtain ⟨ms, h1, rfl⟩ := make_node.1 h
            rw [hk] at hsig
            cases hsig
            exact .node hs hf hp h1
  · rintro ⟨cls, href, h⟩
    cases h with
    | special h => exact called_with href h
    | allOf h =>
      unfold callClass
      rw [classNamed_special (cls := .allOf) href rfl]
      simp only [Cls.signature, plainMatchers_iff.2 h]
      rfl
    | anyOf h =>
      unfold callClass
      rw [classNamed_special (cls := .anyOf) href rfl]
      simp only [Cls.signature, plainMatchers_iff.2 h]
      rfl
    | node hs hf hp hm =>
      rename_i fields got ms
      have hnd := params_nodup (.node cls fields) (fun ty fs e => by cases e; exact hE _ _ hf)
      obtain ⟨d, hd, hg⟩ := (C92_arguments (kwOnly := true) hnd args kws).2.1 got hp
      have hc : classNamed E n = some (.node cls fields) := by
        unfold classNamed
        rw [lastPart_of href.2 href.1]
        have hnone : classTable.find? (fun e => decide (Refex.str e.1 = cls)) = none := by
          rw [List.find?_eq_none]
          intro e he
          have hsame : ∀ e ∈ classTable, e.1 ∈ specialClasses := by decide
          have := hs e.1 (hsame e he)
          simpa using fun e' => this e'.symm
        show (match classTable.find? (fun e => decide (Refex.str e.1 = cls)) with
          | some e => some e.2
          | none => (E.fields cls).map (Cls.node cls)) = _
        rw [hnone, hf]
        rfl
      unfold callClass
      rw [hc]
      show (match bindArgs true (fields.map fun f => (f, false)) args kws with
        | .error e => Except.error e
        | .ok d => makeMatcher E self (.node cls fields) d) = _
      have hd : bindArgs true (fields.map fun f => (f, false)) args kws = .ok d := hd
      rw [hd]
      subst hg
      exact make_node.2 ⟨ms, hm, rfl⟩

end Refex
