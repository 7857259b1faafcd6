import Verif.Props.PatternBuild
/- C71: statement patterns made from functions. -/
namespace Refex
set_option autoImplicit false

theorem isDocstring_iff (s : Val) : isDocstring s = true ↔ Docstring s := by
  unfold isDocstring Docstring
  rw [Bool.and_eq_true, decide_eq_true_eq]
  constructor
  · rintro ⟨h1, h2⟩
    refine ⟨h1, ?_⟩
    split at h2
    · rename_i i ty ns vs he
      rw [Bool.and_eq_true, decide_eq_true_eq] at h2
      obtain ⟨h2, h3⟩ := h2
      split at h3
      · rename_i j x hx
        refine ⟨.node i ty ns vs, j, x, ?_, h2, ?_⟩
        · cases s with
          | const k c => simp [Val.getattr, Val.pyNone] at he
          | list k us => simp [Val.getattr, Val.pyNone] at he
          | node k ty' ns' us =>
            refine ⟨k, ty', ns', us, rfl, ?_⟩
            simp only [Val.getattr] at he
            cases hl : Val.lookup ns' us (str "value") with
            | none => rw [hl] at he; simp [Val.pyNone] at he
            | some w => rw [hl] at he; simpa using he
        · refine ⟨i, ty, ns, vs, rfl, ?_⟩
          simp only [Val.getattr] at hx
          cases hl : Val.lookup ns vs (str "value") with
          | none => rw [hl] at hx; simp [Val.pyNone] at hx
          | some w => rw [hl] at hx; simpa using hx
      · cases h3
    · cases h2
  · rintro ⟨h1, e, i, x, h2, h3, h4⟩
    refine ⟨h1, ?_⟩
    rw [h2.getattr]
    have hg := h4.getattr
    obtain ⟨j, ty, ns, vs, rfl, h4⟩ := h4
    simp only
    rw [hg]
    have h3' : ty = str "Constant" := h3
    simp [h3']

theorem FieldIs.hasBody {f w : Val} (h : FieldIs f (str "body") w) : hasBody f = true := by
  obtain ⟨i, ty, ns, vs, rfl, h⟩ := h
  simp only [Refex.hasBody, decide_eq_true_eq]
  induction ns generalizing vs with
  | nil => simp [Val.lookup] at h
  | cons n ns ih =>
    cases vs with
    | nil => simp [Val.lookup] at h
    | cons u us =>
      rw [Val.lookup] at h
      split at h
      · rename_i e; simp [e]
      · exact List.mem_cons_of_mem _ (ih us h)

theorem functionStmt_eq {tree : Val} {ss : List Val} (h : FunctionSource tree ss) (hne : ss ≠ []) :
    (∃ s, FirstStatement ss s ∧ s.ty ≠ str "Pass" ∧ functionStmt tree = .ok s) ∨
    ((¬ ∃ s, FirstStatement ss s ∧ s.ty ≠ str "Pass") ∧ functionStmt tree = .error .valueError) := by
  obtain ⟨i, f, fs, j, h1, h2⟩ := h
  unfold functionStmt
  rw [h1.getattr]
  simp only [Val.children, h2.hasBody, Bool.not_true, Bool.false_eq_true, if_false]
  rw [h2.getattr]
  simp only [Val.children]
  cases ss with
  | nil => exact absurd rfl hne
  | cons s rest =>
    simp only
    by_cases hd : isDocstring s = true
    · have hd' := (isDocstring_iff s).1 hd
      rw [if_pos hd]
      cases rest with
      | nil =>
        right
        refine ⟨?_, rfl⟩
        rintro ⟨t, ht, _⟩
        cases ht with
        | plain hn => exact hn hd'
      | cons t rest =>
        simp only
        by_cases hp : t.ty = str "Pass"
        · right
          rw [if_pos hp]
          refine ⟨?_, rfl⟩
          rintro ⟨u, hu, hup⟩
          cases hu with
          | plain hn => exact hn hd'
          | docstring _ => exact hup hp
        · left
          rw [if_neg hp]
          exact ⟨t, .docstring hd', hp, rfl⟩
    · have hd' : ¬ Docstring s := fun h => hd ((isDocstring_iff s).2 h)
      rw [if_neg hd]
      simp only
      by_cases hp : s.ty = str "Pass"
      · right
        rw [if_pos hp]
        refine ⟨?_, rfl⟩
        rintro ⟨u, hu, hup⟩
        cases hu with
        | plain _ => exact hup hp
        | docstring h => exact hd' h
      · left
        rw [if_neg hp]
        exact ⟨s, .plain hd', hp, rfl⟩

theorem argBindings_eq (args : List Label) : argBindings args = submatchers [] (args.map fun a => (a, a)) [] := by
  unfold argBindings submatchers
  rw [List.foldl_map]
  rfl

theorem metaNames_args (args : List Label) : metaNames [] (args.map fun a => (a, a)) = parametersMean args := by
  funext s
  unfold metaNames parametersMean
  induction args with
  | nil => simp
  | cons a args ih =>
    simp only [List.map_cons, List.find?_cons, List.mem_cons]
    by_cases h : a = s
    · subst h; simp
    · have h' : ¬ s = a := fun e => h e.symm
      simp only [h, decide_false, h', false_or]
      exact ih

/-- **C71**: a function whose source parses makes a pattern iff there is a first statement after the docstring, it is not `pass`,
and the parameters have names that can be bound; otherwise ValueError. The matcher finds the instances of that statement, in which the parameters (and nothing else) stand for anything. -/
theorem C71_outcome (word : Char → Bool) (args : List Label) (ha : args.Nodup) {tree : Val} {ss : List Val} (h : FunctionSource tree ss) (hne : ss ≠ []) :
    (∃ s m, FirstStatement ss s ∧ s.ty ≠ str "Pass" ∧ (∀ a ∈ args, BindName word a) ∧ fromFunction word args (some tree) = .ok m ∧
      MatchesInstances m (parametersMean args) [] s) ∨
    (¬ ((∃ s, FirstStatement ss s ∧ s.ty ≠ str "Pass") ∧ ∀ a ∈ args, BindName word a) ∧ fromFunction word args (some tree) = .error .valueError) := by
  rcases functionStmt_eq h hne with ⟨s, h1, h2, h3⟩ | ⟨h1, h2⟩
  · cases hb : args.any (fun a => !bindNameOk word a) with
    | true =>
      right
      refine ⟨fun hc => ?_, by simp only [fromFunction, h3, hb, if_true]⟩
      obtain ⟨a, ha, hn⟩ := List.any_eq_true.1 hb
      rw [bindNameOk_iff.2 (hc.2 a ha)] at hn
      cases hn
    | false =>
    left
    have hb' : ∀ a ∈ args, BindName word a := fun a ha => by
      have := List.any_eq_false.1 hb a ha
      exact bindNameOk_iff.1 (by simpa using this)
    refine ⟨s, _, h1, h2, hb', by simp only [fromFunction, h3, hb, Bool.false_eq_true, if_false]; rfl, ?_⟩
    intro c env N allowed hal g hg ht b v hv n hn ks
    rw [argBindings_eq, ← metaNames_args]
    have hnd : ((args.map fun a => (a, a)).map Prod.snd).Nodup := by
      rw [List.map_map]; simpa [Function.comp_def] using ha
    obtain ⟨k, rfl⟩ : ∃ k, n = k + 1 := ⟨n - 1, by omega⟩
    have e : run c (k + 1) env (.delegate (.rebind (astPattern (submatchers [] (args.map fun a => (a, a)) []) s) (some .merge) (some .keepLast)) false) v ks =
        run c (k + 1) env (patternMatcher (submatchers [] (args.map fun a => (a, a)) []) s) v ks := by
      simp [patternMatcher, run]
    rw [e]
    exact ⟨C59_match_is_instance hnd hal g hg s ht b v hv _ hn ks,
      fun occ hi ha => C59_instance_matches hnd hal g hg s ht b v hv _ hn ks occ hi ha⟩
  · exact .inr ⟨fun hc => h1 hc.1, by simp only [fromFunction, h2]⟩

/-- **C71**: source that does not parse (a lambda, say) is a ValueError. -/
theorem C71_syntax (word : Char → Bool) (args : List Label) : fromFunction word args none = .error .valueError := rfl

/-- **C71**: statements after the first one do not matter (and are not matched). -/
theorem C71_rest_ignored_false (word : Char → Bool) (args : List Label) {tree tree' : Val} {s : Val} {rest rest' : List Val} (hd : ¬ Docstring s)
    (h : FunctionSource tree (s :: rest)) (h' : FunctionSource tree' (s :: rest')) : fromFunction word args (some tree) = fromFunction word args (some tree') := by
  have key : ∀ {r : List Val}, ∀ {t : Val}, FirstStatement (s :: r) t → t = s := by
    intro r t ht
    cases ht with
    | plain _ => rfl
    | docstring hx => exact absurd hx hd
  simp only [fromFunction]
  rcases functionStmt_eq h (by simp) with ⟨t, h1, h2, h3⟩ | ⟨h1, h2⟩ <;>
  rcases functionStmt_eq h' (by simp) with ⟨t', h1', h2', h3'⟩ | ⟨h1', h2'⟩
  · rw [h3, h3', key h1, key h1']
  · exact absurd ⟨s, .plain hd, by rw [← key h1]; exact h2⟩ h1'
  · exact absurd ⟨s, .plain hd, by rw [← key h1']; exact h2'⟩ h1
  · rw [h2, h2']

/-! ### The same as a statement pattern -/

section Renaming
variable {l : List (Label × Str)} (hk : (l.map Prod.fst).Nodup) (hv : (l.map Prod.snd).Nodup)

theorem submatchers_get? (l : List (Label × Str)) (hv : (l.map Prod.snd).Nodup) (y : Str) :
    (submatchers [] l []).get? y = (l.find? fun p => decide (p.2 = y)).map fun p => metaBind p.1 .anything := by
  unfold submatchers
  simp only [List.foldl_nil]
  suffices H : ∀ (d : Dict Str Matcher), (l.foldl (fun d e => d.set e.2 (metaBind e.1 (((Dict.get? ([] : Dict Label Matcher)) e.1).getD .anything))) d).get? y =
      ((l.find? fun p => decide (p.2 = y)).map fun p => metaBind p.1 .anything).or (d.get? y) by
    rw [H []]; simp [Dict.get?]
  induction l with
  | nil => intro d; simp
  | cons e l ih =>
    intro d
    simp only [List.map_cons, List.nodup_cons] at hv
    rw [List.foldl_cons, ih hv.2, Dict.get?_set, List.find?_cons]
    by_cases h : e.2 = y
    · subst h
      have : l.find? (fun p => decide (p.2 = e.2)) = none := by
        rw [List.find?_eq_none]
        intro p hp hc
        exact hv.1 (List.mem_map.2 ⟨p, hp, by simpa using hc⟩)
      rw [this]
      simp [Dict.get?]
    · have h' : ¬ y = e.2 := fun e => h e.symm
      simp [h, h']

theorem find_pair {l : List (Label × Str)} (hk : (l.map Prod.fst).Nodup) (hv : (l.map Prod.snd).Nodup) {x : Label} {y : Str} :
    newName l x = some y ↔ l.find? (fun p => decide (p.2 = y)) = some (x, y) := by
  unfold newName
  induction l with
  | nil => simp
  | cons e l ih =>
    obtain ⟨a, b⟩ := e
    simp only [List.map_cons, List.nodup_cons] at hk hv
    simp only [List.find?_cons]
    by_cases ha : a = x <;> by_cases hb : b = y
    · subst ha; subst hb; simp
    · subst ha
      simp only [decide_true, hb, decide_false, Option.map_some, Option.some.injEq, false_iff]
      intro h
      exact hk.1 (List.mem_map.2 ⟨_, List.mem_of_find?_eq_some h, rfl⟩)
    · subst hb
      simp only [ha, decide_false, decide_true, Option.some.injEq, Prod.mk.injEq, false_and, iff_false]
      intro h
      rw [Option.map_eq_some_iff] at h
      obtain ⟨p, hp, rfl⟩ := h
      exact hv.1 (List.mem_map.2 ⟨_, List.mem_of_find?_eq_some hp, rfl⟩)
    · simp only [ha, hb, decide_false]
      exact ih hk.2 hv.2

theorem lookup_renamed {ρ : Str → Option Str} : ∀ (ns : List Str) (vs ws : List Val) (a : Str), vs.length = ws.length →
    (∀ (k : Nat) v w, vs[k]? = some v → ws[k]? = some w → RenamedTree ρ v w) →
    (Val.lookup ns vs a = none ∧ Val.lookup ns ws a = none) ∨
    ∃ v w, Val.lookup ns vs a = some v ∧ Val.lookup ns ws a = some w ∧ RenamedTree ρ v w
  | [], vs, ws, a, _, _ => by simp [Val.lookup]
  | n :: ns, [], ws, a, hl, _ => by
    cases ws with
    | nil => simp [Val.lookup]
    | cons w ws => simp at hl
  | n :: ns, v :: vs, [], a, hl, _ => by simp at hl
  | n :: ns, v :: vs, w :: ws, a, hl, h => by
    simp only [Val.lookup]
    by_cases e : n = a
    · rw [if_pos e, if_pos e]
      exact .inr ⟨v, w, rfl, rfl, h 0 v w rfl rfl⟩
    · rw [if_neg e, if_neg e]
      exact lookup_renamed ns vs ws a (by simpa using hl) (fun k v' w' h1 h2 => h (k + 1) v' w' h1 h2)

theorem strField_renamed {ρ : Str → Option Str} {i : Nat} {t : Str} {ns : List Str} {vs ws : List Val} (hl : vs.length = ws.length)
    (h : ∀ (k : Nat) v w, vs[k]? = some v → ws[k]? = some w → RenamedTree ρ v w) (a : Str) :
    strField (.node i t ns vs) a = strField (.node i t ns ws) a := by
  unfold strField Val.getattr
  simp only
  rcases lookup_renamed ns vs ws a hl h with ⟨h1, h2⟩ | ⟨v, w, h1, h2, hr⟩
  · rw [h1, h2]
  · rw [h1, h2]
    cases hr <;> rfl

theorem astPatterns_ext {A B : Dict Str Matcher} : ∀ (vs ws : List Val), vs.length = ws.length →
    (∀ (k : Nat) v w, vs[k]? = some v → ws[k]? = some w → astPattern A v = astPattern B w) → astPatterns A vs = astPatterns B ws
  | [], [], _, _ => rfl
  | [], w :: ws, hl, _ => by simp at hl
  | v :: vs, [], hl, _ => by simp at hl
  | v :: vs, w :: ws, hl, h => by
    rw [astPatterns, astPatterns, h 0 v w rfl rfl, astPatterns_ext vs ws (by simpa using hl) (fun k v' w' h1 h2 => h (k + 1) v' w' h1 h2)]

theorem fieldPatterns_ext {A B : Dict Str Matcher} (b : Bool) : ∀ (ns : List Str) (vs ws : List Val), vs.length = ws.length →
    (∀ (k : Nat) v w, vs[k]? = some v → ws[k]? = some w → astPattern A v = astPattern B w) → fieldPatterns A b ns vs = fieldPatterns B b ns ws
  | [], _, _, _, _ => by rw [fieldPatterns, fieldPatterns] <;> simp
  | n :: ns, [], [], _, _ => rfl
  | n :: ns, [], w :: ws, hl, _ => by simp at hl
  | n :: ns, v :: vs, [], hl, _ => by simp at hl
  | n :: ns, v :: vs, w :: ws, hl, h => by
    rw [fieldPatterns, fieldPatterns, h 0 v w rfl rfl, fieldPatterns_ext b ns vs ws (by simpa using hl) (fun k v' w' h1 h2 => h (k + 1) v' w' h1 h2)]

omit hk hv in
theorem argBindings_get? (args : List Label) (x : Str) :
    (argBindings args).get? x = if x ∈ args then some (metaBind x .anything) else none := by
  unfold argBindings
  suffices H : ∀ (d : Dict Str Matcher), (args.foldl (fun d a => d.set a (metaBind a .anything)) d).get? x =
      if x ∈ args then some (metaBind x .anything) else d.get? x by
    rw [H []]; simp [Dict.get?]
  induction args with
  | nil => intro d; simp
  | cons a args ih =>
    intro d
    rw [List.foldl_cons, ih, Dict.get?_set]
    by_cases h : x ∈ args
    · simp [h]
    · by_cases e : x = a
      · subst e; simp
      · simp [h, e]

include hk hv in
theorem astPattern_renamed {t t' : Val} (h : RenamedTree (newName l) t t') : (∀ p ∈ l, ¬ NameIn t p.2) →
    astPattern (argBindings (l.map Prod.fst)) t = astPattern (submatchers [] l []) t' := by
  have hmem : ∀ x, x ∈ l.map Prod.fst ↔ newName l x ≠ none := by
    intro x
    unfold newName
    constructor
    · intro hx hn
      obtain ⟨p, hp, rfl⟩ := List.mem_map.1 hx
      rw [Option.map_eq_none_iff, List.find?_eq_none] at hn
      have := hn p hp
      simp at this
    · intro hn
      cases hf : l.find? (fun p => decide (p.1 = x)) with
      | none => rw [hf] at hn; simp at hn
      | some p =>
        have h2 : p.1 = x := by simpa using List.find?_some hf
        exact List.mem_map.2 ⟨p, List.mem_of_find?_eq_some hf, h2⟩
  induction h with
  | const => intro _; rw [astPattern, astPattern]
  | list hl _ ih =>
    rename_i i vs ws _
    intro hf
    rw [astPattern, astPattern]
    congr 1
    refine astPatterns_ext _ _ hl fun k v w h1 h2 => ih k v w h1 h2 fun p hp hn => hf p hp ?_
    exact (nameIn_cases _ _).2 (.inr ⟨v, List.mem_of_getElem? h1, hn⟩)
  | name h1 h2 h3 =>
    rename_i i vs ws x y ns
    intro _
    have e1 : nameId (.node i (str "Name") ns vs) = some x := by
      unfold nameId; rw [if_pos (show (Val.node i (str "Name") ns vs).ty = str "Name" from rfl)]; exact h1
    have e2 : nameId (.node i (str "Name") ns ws) = some y := by
      unfold nameId; rw [if_pos (show (Val.node i (str "Name") ns ws).ty = str "Name" from rfl)]; exact h3
    rw [astPattern, astPattern, e1, e2]
    simp only [Option.bind_some]
    rw [argBindings_get?, if_pos ((hmem x).2 (by rw [h2]; simp)), submatchers_get? l hv, (find_pair hk hv).1 h2]
    rfl
  | node h1 hl hr ih =>
    rename_i i t ns vs ws
    intro hf
    have e0 := strField_renamed (i := i) (t := t) (ns := ns) hl hr (str "id")
    have e1 : (nameId (.node i t ns vs)).bind (argBindings (l.map Prod.fst)).get? = none := by
      unfold nameId
      by_cases ht : t = str "Name"
      · cases hx : strField (.node i t ns vs) (str "id") with
        | none => simp
        | some x =>
          have := h1 x ht hx
          split
          · rw [Option.bind_some, argBindings_get?, if_neg (fun hm => (hmem x).1 hm this)]
          · rfl
      · rw [if_neg (show (Val.node i t ns vs).ty ≠ str "Name" from ht)]; rfl
    have e2 : (nameId (.node i t ns ws)).bind (submatchers [] l []).get? = none := by
      unfold nameId
      by_cases ht : t = str "Name"
      · rw [← e0]
        cases hx : strField (.node i t ns vs) (str "id") with
        | none => simp
        | some x =>
          split
          · rw [Option.bind_some, submatchers_get? l hv, Option.map_eq_none_iff, List.find?_eq_none]
            intro p hp hc
            have hc : p.2 = x := by simpa using hc
            exact hf p hp ((nameIn_cases _ _).2 (.inl ⟨ht, by rw [hx, hc]⟩))
          · rfl
      · rw [if_neg (show (Val.node i t ns ws).ty ≠ str "Name" from ht)]; rfl
    rw [astPattern, astPattern, e1, e2]
    simp only
    congr 1
    refine fieldPatterns_ext _ _ _ _ hl fun k v w h1 h2 => ih k v w h1 h2 fun p hp hn => hf p hp ?_
    exact (nameIn_cases _ _).2 (.inr ⟨v, List.mem_of_getElem? h1, hn⟩)

include hk hv in
/-- **C71**: the pattern made from a function does the same as the statement pattern in which each parameter is a metavariable of the same
name: whatever the metavariables were renamed to (`l`), so long as the new names are not those of other variables of the statement. -/
theorem C71_same_as_statement_pattern {word : Char → Bool} (hb : ∀ p ∈ l, BindName word p.1) {tree : Val} {ss : List Val} {s s' : Val} (h : FunctionSource tree ss) (hs : FirstStatement ss s)
    (hp : s.ty ≠ str "Pass") (hr : RenamedTree (newName l) s s') (hf : ∀ p ∈ l, ¬ NameIn s p.2) :
    ∃ m, fromFunction word (l.map Prod.fst) (some tree) = .ok m ∧
      ∀ c n env v ks, run c n env m v ks = run c n env (patternMatcher (submatchers [] l []) s') v ks := by
  have hne : ss ≠ [] := by cases hs <;> simp
  have huniq : ∀ {t}, FirstStatement ss t → t = s := by
    intro t ht
    cases hs with
    | docstring h1 =>
      cases ht with
      | docstring _ => rfl
      | plain h2 => exact absurd h1 h2
    | plain h1 =>
      cases ht with
      | docstring h2 => exact absurd h2 h1
      | plain _ => rfl
  rcases functionStmt_eq h hne with ⟨t, h1, h2, h3⟩ | ⟨h1, h2⟩
  · cases huniq h1
    have hb : ((l.map Prod.fst).any fun a => !bindNameOk word a) = false := by
      rw [List.any_eq_false]
      intro a ha
      obtain ⟨p, hp, rfl⟩ := List.mem_map.1 ha
      simp [bindNameOk_iff.2 (hb p hp)]
    refine ⟨_, by simp only [fromFunction, h3, hb, Bool.false_eq_true, if_false]; rfl, fun c n env v ks => ?_⟩
    rw [astPattern_renamed hk hv hr hf]
    cases n <;> simp [patternMatcher, run]
  · exact absurd ⟨s, hs, hp⟩ h1

end Renaming

/-! ### Examples -/

/-- `def f(x):⏎  'doc'⏎  return x + y⏎  pass`. -/
def exFunction : Val :=
  .node 1 (str "Module") [str "body"] [.list 2 [.node 3 (str "FunctionDef") [str "name", str "body"] [.const 4 (.str (str "f")), .list 5
    [.node 6 (str "Expr") [str "value"] [.node 7 (str "Constant") [str "value"] [.const 8 (.str (str "doc"))]],
     exReturn 10 (exPlus 20 (exName 30 "x" "Load") (exName 40 "y" "Load")),
     .node 50 (str "Pass") [] []]]]]

/-- It meets the hypotheses, with its second statement; the parameter alone stands for anything. -/
example : ∃ ss m, FunctionSource exFunction ss ∧ FirstStatement ss (exReturn 10 (exPlus 20 (exName 30 "x" "Load") (exName 40 "y" "Load"))) ∧
    fromFunction (fun _ => true) [str "x"] (some exFunction) = .ok m ∧
    holeAt (parametersMean [str "x"]) (exName 30 "x" "Load") = .named (str "x") ∧ holeAt (parametersMean [str "x"]) (exName 40 "y" "Load") = .none := by
  refine ⟨_, _, ⟨2, _, [], 5, ⟨1, _, _, _, rfl, rfl⟩, ⟨3, _, _, _, rfl, rfl⟩⟩, .docstring ⟨rfl, _, 8, str "doc", ⟨6, _, _, _, rfl, rfl⟩, rfl, ⟨7, _, _, _, rfl, rfl⟩⟩,
    rfl, by decide, by decide⟩

/-- The renaming of the statement that a pattern `return $x + y` would have. -/
example : RenamedTree (newName [(str "x", str "gensym_x")]) (exPlus 20 (exName 30 "x" "Load") (exName 40 "y" "Load"))
    (exPlus 20 (exName 30 "gensym_x" "Load") (exName 40 "y" "Load")) := by
  refine .node (fun x h => absurd h (by decide)) rfl fun k v w h1 h2 => ?_
  match k, h1, h2 with
  | 0, h1, h2 => cases h1; cases h2; exact .name (x := str "x") rfl (y := str "gensym_x") (by decide) rfl
  | 1, h1, h2 =>
    cases h1; cases h2
    refine .node (fun x _ h => ?_) rfl fun k v w h1 h2 => ?_
    · have : x = str "y" := by simpa [exName, strField, Val.getattr, Val.lookup] using h.symm
      subst this; decide
    · match k, h1, h2 with
      | 0, h1, h2 => cases h1; cases h2; exact .const
      | 1, h1, h2 =>
        cases h1; cases h2
        exact .node (fun x h => absurd h (by decide)) rfl fun k v w h1 h2 => by simp at h1

/-- **C71** fails for the variable `_`, which is anonymous in a pattern (it is bound here), and a parameter that is not used is not
noticed: both functions are accepted, where `StmtPattern` would not bind `_` and reject the other. -/
theorem C71_unused_parameter_false :
    (∃ m, fromFunction (fun _ => true) [str "x", str "z"] (some exFunction) = .ok m) ∧ parametersMean [str "_"] (str "_") = .named (str "_") ∧
    verifyVariables exFunction [(str "x", str "x"), (str "z", str "z")] = false := by
  refine ⟨⟨_, rfl⟩, by decide, by decide⟩

/-- **C71**, refutation: a function whose source is a statement without a body (`f = lambda x: ...`) ends in an AttributeError, not in a
ValueError. -/
theorem C71_lambda_false (word : Char → Bool) (args : List Label) {tree : Val} {i : Nat} {ty : Str} {ns : List Str} {vs rest : List Val}
    (h : (tree.getattr (str "body")).children = .node i ty ns vs :: rest) (hb : str "body" ∉ ns) :
    fromFunction word args (some tree) = .error .attributeError := by
  have hf : hasBody (.node i ty ns vs) = false := by simp [hasBody, hb]
  simp only [fromFunction, functionStmt, h, hf]
  rfl

/-- Non-vacuity: the tree of `f = lambda: 0`. -/
example : fromFunction (fun _ => true) [] (some (.node 1 (str "Module") [str "body"] [.list 2 [.node 3 (str "Assign") [str "targets", str "value"]
    [.list 4 [], .node 5 (str "Lambda") [str "args", str "body"] [.const 6 .none, .const 7 (.int 0)]]]])) = .error .attributeError :=
  C71_lambda_false _ [] (i := 3) (ty := str "Assign") (ns := [str "targets", str "value"]) rfl (by decide)

/-- A parameter that begins with two underscores is refused. -/
example : fromFunction (fun _ => true) [str "__x"] (some exFunction) = .error .valueError ∧ ¬ BindName (fun _ => true) (str "__x") :=
  ⟨rfl, fun h => h.user (by decide)⟩

end Refex
