import Verif.Model.NamedFunctions
import Verif.Spec.NamedFunctions
import Verif.Props.SpecialFixers
import Verif.Props.PySearch
import Verif.Props.Patterns
/- C91: NamedFunctionDefinition and InNamedFunction. -/
namespace Refex
set_option autoImplicit false

instance (v : Val) : Decidable (IsFunction v) := inferInstanceAs (Decidable (_ ∨ _))

theorem updateFrom_self (src : Bindings) : ∀ (l acc : Bindings), (∀ e ∈ l, src.get? e.1 = some e.2) →
    updateFrom acc src l.keys = l.foldl (fun d e => d.set e.1 e.2) acc
  | [], _, _ => rfl
  | e :: l, acc, h => by
    have h1 := h e (by simp)
    have ih := updateFrom_self src l (acc.set e.1 e.2) (fun e he => h e (by simp [he]))
    simp only [updateFrom, Dict.keys, List.map_cons, List.foldl_cons, h1] at ih ⊢
    exact ih

theorem updateFrom_all {d : Bindings} (hd : d.WF) : updateFrom [] d d.keys = d := by
  rw [updateFrom_self d d [] (fun e he => Dict.get?_of_mem hd he), foldl_set_append d [] hd (fun _ _ => rfl)]
  rfl

theorem mergeBindings_nil_left {d : Bindings} (hd : d.WF) : mergeBindings [] d = .ok (some d) := by
  have h : d.keys.filter (fun k => !Dict.has ([] : Bindings) k) = d.keys := by
    rw [List.filter_eq_self]; intro k _; rfl
  have : mergeBindings [] d = .ok (some (updateFrom (updateFrom [] [] []) d (d.keys.filter (fun k => !Dict.has ([] : Bindings) k)))) := rfl
  rw [this, h]
  exact congrArg (fun x => Except.ok (some x)) (updateFrom_all hd)

theorem mergeBindings_onto_nil {d : Bindings} (hd : d.WF) : mergeBindings d [] = .ok (some d) := by
  have h1 : d.keys.filter (fun k => Dict.has ([] : Bindings) k) = [] := by
    rw [List.filter_eq_nil_iff]; intro k _ h; cases h
  have h2 : d.keys.filter (fun k => !Dict.has ([] : Bindings) k) = d.keys := by
    rw [List.filter_eq_self]; intro k _; rfl
  unfold mergeBindings mergeBindingsIn
  rw [h1, h2]
  exact congrArg (fun x => Except.ok (some x)) (updateFrom_all hd)

theorem mergeReplacements_onto_nil (r : Replacements) : mergeReplacements r [] = .ok r := by
  unfold mergeReplacements
  rw [if_neg]
  · rfl
  · intro h
    obtain ⟨k, _, h⟩ := List.any_eq_true.1 h
    cases h

/-- What the two conditions on a function definition come to together. -/
def functionAnswer (c : Ctx) (v : Val) (a b : Option MatchInfo) (ks : List Key) : MOut :=
  match a with
  | none => .ok (none, ks)
  | some a =>
    match b with
    | none => .ok (none, ks)
    | some b =>
      match mergeBindings a.bindings b.bindings with
      | .error e => .error e
      | .ok none => .ok (none, ks)
      | .ok (some bs) =>
        match mergeReplacements a.replacements b.replacements with
        | .error e => .error e
        | .ok rs => .ok (some ⟨createMatch c v, bs, rs⟩, ks)

theorem functionWith_run {c : Ctx} {env : Env} {body returns : Matcher} {d : Nat} {accB accR : Val → Option MatchInfo} (hB : Answers c env body d accB)
    (hR : Answers c env returns d accR) (hwB : ∀ w a, accB w = some a → a.bindings.WF ∧ a.replacements.WF)
    (ty : String) (n : Nat) (hn : d + 2 ≤ n) (v : Val) (ks : List Key) :
    run c n env (functionWith ty body returns) v ks =
      if v.ty = str ty then functionAnswer c v (accB (v.getattr (str "body"))) (accR (v.getattr (str "returns"))) ks else .ok (none, ks) := by
  obtain ⟨n, rfl⟩ : ∃ k, n = k + 2 := ⟨n - 2, by omega⟩
  unfold functionWith
  rw [run]
  by_cases h : v.ty = str ty
  · rw [if_neg (by simp [h]), if_pos h]
    have hany : ∀ w ks, run c (n + 1) env .anything w ks = .ok (some ⟨createMatch c w, [], []⟩, ks) := fun _ _ => rfl
    have hm : mergeBindings [] [] = .ok (some []) := rfl
    have hr : mergeReplacements [] [] = .ok [] := rfl
    simp only [functionFields, List.zip_cons_cons, List.zip_nil_right, List.map_cons, List.map_nil, accumulate, accumLoop, hany, hm, hr,
      hB.answers (n + 1) (by omega), hR.answers (n + 1) (by omega)]
    unfold functionAnswer
    cases ha : accB (v.getattr (str "body")) with
    | none => rfl
    | some a =>
      obtain ⟨w1, w2⟩ := hwB _ _ ha
      simp only [mergeBindings_nil_left w1, mergeReplacements_nil_wf w2, mergeBindings_onto_nil w1, mergeReplacements_onto_nil]
      cases hb : accR (v.getattr (str "returns")) with
      | none => rfl
      | some b =>
        simp only
        cases hm2 : mergeBindings a.bindings b.bindings with
        | error e => rfl
        | ok o =>
          cases o with
          | none => rfl
          | some bs =>
            simp only
            cases hr2 : mergeReplacements a.replacements b.replacements with
            | error e => rfl
            | ok rs => simp only [mergeBindings_onto_nil (mergeBindings_wf hm2)]
  · rw [if_pos h, if_neg h]

theorem functionWith_filter (n : Nat) (env : Env) (body returns : Matcher) (ty : String) :
    typeFilter (n + 1) env (functionWith ty body returns) = .ok (some [str ty]) := rfl

/-- **C91**, `NamedFunctionDefinition(body, returns)`: it accepts a `def` or `async def` statement and nothing else; the one matcher
must accept the body and the other the annotation of what it returns; the bindings of the two are merged. -/
theorem C91_definition {c : Ctx} {env : Env} {body returns : Matcher} {d : Nat} {accB accR : Val → Option MatchInfo} (hB : Answers c env body d accB)
    (hR : Answers c env returns d accR) (hwB : ∀ w a, accB w = some a → a.bindings.WF ∧ a.replacements.WF)
    (n : Nat) (hn : d + 4 ≤ n) (v : Val) (ks : List Key) :
    (¬ IsFunction v → run c n env (namedFunctionDefinition body returns) v ks = .ok (none, ks)) ∧
    (IsFunction v →
      (accB (v.getattr (str "body")) = none ∨ accR (v.getattr (str "returns")) = none →
        run c n env (namedFunctionDefinition body returns) v ks = .ok (none, ks)) ∧
      ∀ a b, accB (v.getattr (str "body")) = some a → accR (v.getattr (str "returns")) = some b →
        (∀ bs rs, mergeBindings a.bindings b.bindings = .ok (some bs) → mergeReplacements a.replacements b.replacements = .ok rs →
          run c n env (namedFunctionDefinition body returns) v ks = .ok (some ⟨createMatch c v, bs, rs⟩, ks)) ∧
        (mergeBindings a.bindings b.bindings = .ok none → run c n env (namedFunctionDefinition body returns) v ks = .ok (none, ks)) ∧
        ∀ e, mergeBindings a.bindings b.bindings = .error e → run c n env (namedFunctionDefinition body returns) v ks = .error e) := by
  have main : run c n env (namedFunctionDefinition body returns) v ks =
      if IsFunction v then functionAnswer c v (accB (v.getattr (str "body"))) (accR (v.getattr (str "returns"))) ks else .ok (none, ks) := by
    obtain ⟨n, rfl⟩ : ∃ k, n = k + 3 := ⟨n - 3, by omega⟩
    unfold namedFunctionDefinition
    rw [run, run]
    have hf : [functionWith "AsyncFunctionDef" body returns, functionWith "FunctionDef" body returns].mapM (typeFilter (n + 1) env) =
      .ok [some [str "AsyncFunctionDef"], some [str "FunctionDef"]] := rfl
    simp only [hf]
    rw [dispatch_eq]
    · have e1 := functionWith_run hB hR hwB "AsyncFunctionDef" (n + 1) (by omega) v
      have e2 := functionWith_run hB hR hwB "FunctionDef" (n + 1) (by omega) v
      have hfin : ∀ r : MOut, (match r with
          | .error e => .error e
          | .ok (none, ks) => firstMatch [] ks
          | .ok (some mi, ks) => .ok (some mi, ks)) = r := by
        intro r; rcases r with e | ⟨_ | mi, ks⟩ <;> rfl
      by_cases h1 : v.ty = str "AsyncFunctionDef"
      · have hne : str "AsyncFunctionDef" ≠ str "FunctionDef" := by decide
        have : [(functionWith "AsyncFunctionDef" body returns, some [str "AsyncFunctionDef"]), (functionWith "FunctionDef" body returns, some [str "FunctionDef"])].filter
            (fun p => admits p.2 v.ty) = [(functionWith "AsyncFunctionDef" body returns, some [str "AsyncFunctionDef"])] := by
          rw [h1]; rfl
        simp only [List.zip_cons_cons, List.zip_nil_right]
        rw [this, if_pos (.inr h1)]
        simp only [List.map_cons, List.map_nil, firstMatch]
        rw [e1 ks, if_pos h1]
        exact hfin _
      · by_cases h2 : v.ty = str "FunctionDef"
        · have : [(functionWith "AsyncFunctionDef" body returns, some [str "AsyncFunctionDef"]), (functionWith "FunctionDef" body returns, some [str "FunctionDef"])].filter
              (fun p => admits p.2 v.ty) = [(functionWith "FunctionDef" body returns, some [str "FunctionDef"])] := by
            rw [h2]; rfl
          simp only [List.zip_cons_cons, List.zip_nil_right]
          rw [this, if_pos (.inl h2)]
          simp only [List.map_cons, List.map_nil, firstMatch]
          rw [e2 ks, if_pos h2]
          exact hfin _
        · have : [(functionWith "AsyncFunctionDef" body returns, some [str "AsyncFunctionDef"]), (functionWith "FunctionDef" body returns, some [str "FunctionDef"])].filter
              (fun p => admits p.2 v.ty) = [] := by
            simp [admits, h1, h2]
          simp only [List.zip_cons_cons, List.zip_nil_right]
          rw [this, if_neg (by unfold IsFunction; simp [h1, h2])]
          rfl
    · intro p hp s hs
      simp only [List.zip_cons_cons, List.zip_nil_right, List.mem_cons, List.not_mem_nil, or_false] at hp
      rcases hp with rfl | rfl <;> (cases hs; simp)
  rw [main]
  refine ⟨fun h => if_neg h, fun h => ⟨fun h2 => ?_, fun a b ha hb => ?_⟩⟩
  · rw [if_pos h]
    unfold functionAnswer
    rcases h2 with h2 | h2
    · rw [h2]
    · rw [h2]; cases accB (v.getattr (str "body")) <;> rfl
  · rw [if_pos h, ha, hb]
    unfold functionAnswer
    exact ⟨fun bs rs h1 h2 => by simp only [h1, h2], fun h1 => by simp only [h1], fun e h1 => by simp only [h1]⟩

/-- **C91**, the types it announces are those of the two statements. -/
theorem C91_filter (n : Nat) (env : Env) (body returns : Matcher) (ty : Str) :
    ∃ f, typeFilter (n + 3) env (namedFunctionDefinition body returns) = .ok (some f) ∧
      (ty ∈ f ↔ ty = str "FunctionDef" ∨ ty = str "AsyncFunctionDef") := by
  refine ⟨[str "AsyncFunctionDef", str "FunctionDef"], rfl, ?_⟩
  simp only [List.mem_cons, List.not_mem_nil, or_false]
  exact ⟨fun h => h.symm, fun h => h.symm⟩

theorem answers_anything (c : Ctx) (env : Env) : Answers c env .anything 1 (fun w => some ⟨createMatch c w, [], []⟩) := by
  refine ⟨fun n hn v ks => ?_, fun n hn => ?_⟩ <;> obtain ⟨n, rfl⟩ : ∃ k, n = k + 1 := ⟨n - 1, by omega⟩
  · rfl
  · exact ⟨_, rfl⟩

theorem answers_function (c : Ctx) (env : Env) :
    Answers c env (namedFunctionDefinition .anything .anything) 5 (fun w => if IsFunction w then some ⟨createMatch c w, [], []⟩ else none) := by
  refine ⟨fun n hn v ks => ?_, fun n hn => ?_⟩
  · have h := C91_definition (answers_anything c env) (answers_anything c env) (by intro w a h; cases h; exact ⟨List.nodup_nil, List.nodup_nil⟩) n (by omega) v ks
    by_cases hf : IsFunction v
    · rw [if_pos hf]
      exact ((h.2 hf).2 _ _ rfl rfl).1 [] [] rfl rfl
    · rw [if_neg hf]
      exact h.1 hf
  · obtain ⟨n, rfl⟩ : ∃ k, n = k + 3 := ⟨n - 3, by omega⟩
    exact ⟨_, rfl⟩

theorem createMatch_whole (c : Ctx) {w : Val} (hw : w.isInner) : (createMatch c w).matched? = some w := by
  unfold createMatch
  cases w with
  | const i x => exact absurd rfl (hw i x)
  | list _ _ => rfl
  | node i t ns vs =>
    simp only
    split
    · rfl
    · split
      · split <;> rfl
      · split <;> rfl

/-- **C91**, `InNamedFunction(m)`: what is in no function is not matched; anything else is matched iff `m` accepts the innermost function
definition around it, with the bindings `m` makes there. -/
theorem C91_inside {c : Ctx} {env : Env} {m : Matcher} {d : Nat} {acc : Val → Option MatchInfo} (hu : Unshared c.tree) (hA : Answers c env m d acc)
    (hw : ∀ w a, acc w = some a → a.bindings.WF) {p : Path} {v : Val} (hp : c.tree.at? p = some v) (hv : v.isInner) (n : Nat) (hn : d + 7 ≤ n)
    (ks : List Key) :
    ((¬ ∃ f, DirectlyIn c.tree p f) → run c n env (inNamedFunction m) v ks = .ok (none, ks)) ∧
    ∀ f, DirectlyIn c.tree p f →
      (acc f = none → run c n env (inNamedFunction m) v ks = .ok (none, ks)) ∧
      ∀ a, acc f = some a → run c n env (inNamedFunction m) v ks = .ok (some ⟨createMatch c v, a.bindings, []⟩, ks) := by
  obtain ⟨n, rfl⟩ : ∃ k, n = k + 1 := ⟨n - 1, by omega⟩
  have hF : Answers c env (namedFunctionDefinition .anything .anything) (d + 5) (fun w => if IsFunction w then some ⟨createMatch c w, [], []⟩ else none) :=
    ⟨fun n hn => (answers_function c env).answers n (by omega), fun n hn => (answers_function c env).filter n (by omega)⟩
  have hA' : Answers c env m (d + 5) acc := ⟨fun n hn => hA.answers n (by omega), fun n hn => hA.filter n (by omega)⟩
  have hacc : ∀ q, ((c.tree.at? q).bind fun w => if IsFunction w then some (⟨createMatch c w, [], []⟩ : MatchInfo) else none) = none ↔
      ∀ u, c.tree.at? q = some u → ¬ IsFunction u := by
    intro q
    cases c.tree.at? q with
    | none => simp
    | some u => simp
  have uniq : ∀ f g, DirectlyIn c.tree p f → DirectlyIn c.tree p g → f = g := by
    rintro f g ⟨q, a1, a2, a3, a4, a5⟩ ⟨q', b1, b2, b3, b4, b5⟩
    have hl : q.length = q'.length := by
      rcases Nat.lt_trichotomy q.length q'.length with h | h | h
      · exact absurd b4 (a5 q' g b1 b2 h b3)
      · exact h
      · exact absurd a4 (b5 q f a1 a2 h a3)
    have : q = q' := by
      obtain ⟨t, rfl⟩ := a1
      obtain ⟨t', e⟩ := b1
      exact (List.append_inj e hl.symm).1.symm
    subst this
    rw [a3] at b3
    exact Option.some.inj b3
  have hrun : run c (n + 1) env (inNamedFunction m) v ks = run c n env (.hasFirstAncestor (namedFunctionDefinition .anything .anything) m) v ks := rfl
  rw [hrun]
  rcases C61_first_ancestor hu hF hA' (by intro w a h hi; split at h; cases h; exact createMatch_whole c hi; cases h) hp hv n (by omega) ks
    with ⟨h1, h2⟩ | ⟨q0, i, q, w, a, e, hq, hw', hr⟩
  · refine ⟨fun _ => h2, ?_⟩
    rintro f ⟨q, a1, a2, a3, a4, _⟩
    exfalso
    rcases List.eq_nil_or_concat p with rfl | ⟨p', i, rfl⟩
    · exact a2 (List.prefix_nil.1 a1)
    · rw [List.concat_eq_append] at *
      have hq' : q <+: p' := by
        rcases prefix_snoc a1 with h | h
        · exact h
        · exact absurd h a2
      exact (hacc q).1 (h1 p' i rfl q hq') f a3 a4
  · have hacc' := hq.accepted
    rw [hw'] at hacc'
    simp only [Option.bind_some] at hacc'
    split at hacc'
    case isFalse => cases hacc'
    rename_i hf
    cases hacc'
    have hin : DirectlyIn c.tree p w := by
      refine ⟨q, ?_, ?_, hw', hf, ?_⟩
      · rw [e]; exact hq.above.trans (List.prefix_append ..)
      · intro h
        have := hq.above.length_le
        rw [h, e] at this
        simp at this
        omega
      · intro q' u h1 h2 h3 h4
        have hq' : q' <+: q0 := by
          rw [e] at h1 h2
          rcases prefix_snoc h1 with h | h
          · exact h
          · exact absurd h h2
        exact (hacc q').1 (hq.nearest q' hq' h3) u h4
    refine ⟨fun h => absurd ⟨w, hin⟩ h, fun f hf' => ?_⟩
    cases uniq _ _ hf' hin
    rw [hr]
    refine ⟨fun h => by rw [h], fun a h => ?_⟩
    simp only [h, mergeBindings_nil_left (hw _ _ h)]

/-- `InNamedFunction` announces no types. -/
theorem inNamedFunction_filter (n : Nat) (env : Env) (m : Matcher) : typeFilter (n + 1) env (inNamedFunction m) = .ok none := rfl

/-- `async def f(): (lambda: g)`, in a class, in a module. -/
def nfTree : Val :=
  .node 1 (str "Module") [str "body"] [.list 2 [
    .node 3 (str "ClassDef") [str "name", str "body"] [.const 4 (.str (str "A")), .list 5 [
      .node 6 (str "AsyncFunctionDef") functionFields [.const 7 (.str (str "f")), .node 8 (str "arguments") [str "args"] [.list 9 []],
        .list 10 [.node 11 (str "Expr") [str "value"] [.node 12 (str "Lambda") [str "body"] [
          .node 13 (str "Name") [str "id", str "ctx"] [.const 14 (.str (str "g")), .node 15 (str "Load") [] []]]]],
        .list 16 [], .const 17 .none, .const 18 .none]]]]]

/-- A file with that tree. -/
def nfCtx : Ctx where
  text := []
  tree := nfTree
  tok := fun _ => none
  comment := fun _ => false
  lineno := fun _ => none
  rxGroups := fun _ => []
  rxMatch := fun _ _ _ => none
  rxSearch := fun _ => none
  rewrite := fun _ _ => none

/-- The position of the name `g` and the function it is in. -/
def nfName : Val := .node 13 (str "Name") [str "id", str "ctx"] [.const 14 (.str (str "g")), .node 15 (str "Load") [] []]

theorem nfTree_inside : ∃ f, DirectlyIn nfTree [0, 0, 1, 0, 2, 0, 0, 0] f ∧ f.ident = 6 := by
  refine ⟨_, ⟨[0, 0, 1, 0], ⟨[2, 0, 0, 0], rfl⟩, by decide, rfl, .inr rfl, ?_⟩, rfl⟩
  intro q' u h1 h2 h3 h4
  obtain ⟨t, ht⟩ := h1
  have hlen : q'.length + t.length = 8 := by rw [← List.length_append, ht]; rfl
  have hq : q' = List.take q'.length [0, 0, 1, 0, 2, 0, 0, 0] := by rw [← ht]; simp
  have hne : q'.length ≠ 8 := by
    intro h
    apply h2
    rw [hq, h]; rfl
  have : q'.length = 5 ∨ q'.length = 6 ∨ q'.length = 7 := by
    simp only [List.length_cons, List.length_nil] at h3
    omega
  rcases this with h | h | h <;> (rw [h] at hq; subst hq; cases h4; rintro (h | h) <;> revert h <;> decide)

/-- The hypotheses are met: the name in the lambda is in the function, though not in the class or the lambda, and is reported. -/
example : ∃ f : Val, f.ident = 6 ∧ run nfCtx 20 [] (inNamedFunction (namedFunctionDefinition .anything (.bind (str "r") .anything none none))) nfName [] =
    .ok (some ⟨createMatch nfCtx nfName, [(str "r", ⟨createMatch nfCtx (f.getattr (str "returns")), .merge, .keepLast⟩)], []⟩, []) := by
  have hu : Unshared nfCtx.tree := unshared_of_check (by decide +kernel)
  have hA : Answers nfCtx [] (namedFunctionDefinition .anything (.bind (str "r") .anything none none)) 6
      (fun w => if IsFunction w then some ⟨createMatch nfCtx w, [(str "r", ⟨createMatch nfCtx (w.getattr (str "returns")), .merge, .keepLast⟩)], []⟩ else none) := by
    have hb : Answers nfCtx [] (.bind (str "r") .anything none none) 2
        (fun w => some ⟨createMatch nfCtx w, [(str "r", ⟨createMatch nfCtx w, .merge, .keepLast⟩)], []⟩) := by
      refine ⟨fun n hn v ks => ?_, fun n hn => ?_⟩ <;> obtain ⟨n, rfl⟩ : ∃ k, n = k + 2 := ⟨n - 2, by omega⟩
      · rfl
      · exact ⟨_, rfl⟩
    have ha : Answers nfCtx [] .anything 2 (fun w => some ⟨createMatch nfCtx w, [], []⟩) :=
      ⟨fun n hn => (answers_anything nfCtx []).answers n (by omega), fun n hn => (answers_anything nfCtx []).filter n (by omega)⟩
    refine ⟨fun n hn v ks => ?_, fun n hn => ?_⟩
    · have h := C91_definition ha hb (by intro w a h; cases h; exact ⟨List.nodup_nil, List.nodup_nil⟩) n (by omega) v ks
      by_cases hf : IsFunction v
      · rw [if_pos hf]; exact ((h.2 hf).2 _ _ rfl rfl).1 _ [] rfl rfl
      · rw [if_neg hf]; exact h.1 hf
    · obtain ⟨n, rfl⟩ : ∃ k, n = k + 3 := ⟨n - 3, by omega⟩
      exact ⟨_, rfl⟩
  obtain ⟨f, hf, hid⟩ := nfTree_inside
  have hfn : IsFunction f := by obtain ⟨_, _, _, _, h, _⟩ := hf; exact h
  refine ⟨f, hid, ((C91_inside hu hA ?_ (p := [0, 0, 1, 0, 2, 0, 0, 0]) rfl (by intro i x h; cases h) 20 (by omega) []).2 f hf).2 _ (if_pos hfn)⟩
  intro w a h
  split at h
  · cases h; simp [Dict.WF, Dict.keys]
  · cases h

end Refex
