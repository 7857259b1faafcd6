import Verif.Props.FixEditsMain
import Verif.Props.FixTextsExamples
import Verif.Props.Examples
/- C104: `refex --mode=fix unittest` with patterns and templates made of their texts. -/
namespace Refex
set_option autoImplicit false

/-- The patterns and templates of the fixers are made of their texts. -/
def fePy : Python := tfPy.withTextFixers fun _ => []

theorem feReads : ReadsPatterns fePy := withTextFixers_reads _ tfReads

theorem feReplacements : ReadsReplacements fePy where
  rules := fun r hr => by
    have h := tf_reads (e := (r.kind.asPattern, r.new)) (List.mem_append_left _ (List.mem_append_right _ (List.mem_map.2 ⟨r, hr, rfl⟩)))
    exact ⟨h.tokens, h.tree⟩
  logging := by
    have h := tf_reads (e := (.stmt, .expr (.attr (.name (str "logging")) (str "exception")))) (List.mem_append_right _ (List.mem_singleton.2 rfl))
    exact ⟨h.tokens, h.tree⟩
  ends := fun s toks h => by
    have h : some (lineTokens s) = some toks := h
    cases h
    exact ⟨_, _, rfl, rfl⟩

/-- The value of an expression statement. -/
def feValue : Val → Bool
  | .node _ _ _ [e] => parsedCheck false e
  | _ => false

/-- What is checked of the trees of patterns. -/
def feCheck (e : PatternKind × Code) : Bool :=
  parsedCheck false (tfModule ((tfStatement e).val gensymName)) && parsedCheck false ((tfStatement e).val gensymName) &&
    (!decide (((tfStatement e).val gensymName).ty = str "Expr") || feValue ((tfStatement e).val gensymName))

theorem fePatterns_check : tfPatterns.all feCheck = true := by decide +kernel

theorem fe_parsed {s : Str} {tree : Val} (h : tfParse s = some tree) : ∃ e ∈ tfPatterns, tree = tfModule ((tfStatement e).val gensymName) := by
  unfold tfParse at h
  cases hf : tfPatterns.find? fun e => decide ((e.2.named gensymName).text = s) with
  | none => rw [hf] at h; cases h
  | some e => rw [hf] at h; cases h; exact ⟨e, List.mem_of_find?_eq_some hf, rfl⟩

theorem feFits : PythonFits exPython fePy where
  modules := mdModules
  tokens := feReplacements.ends
  parse := by
    intro s tree h
    obtain ⟨e, he, rfl⟩ := fe_parsed h
    have hs := Bool.and_eq_true_iff.1 (List.all_eq_true.1 (show tfPatterns.all (fun e => syntacticCheck ((tfStatement e).val gensymName) &&
      ((tfStatement e).val gensymName).isNode) = true by decide +kernel) e he)
    exact tfModule_parser (syntactic_of_check hs.1) hs.2 (code_expr _)
  grammar := by
    intro s tree t kind h hi
    obtain ⟨e, he, rfl⟩ := fe_parsed h
    have hc := List.all_eq_true.1 fePatterns_check e he
    unfold feCheck at hc
    have hex := code_expr (tfStatement e)
    generalize (tfStatement e).val gensymName = st at hi hc hex
    simp only [Bool.and_eq_true, Bool.or_eq_true, Bool.not_eq_true', decide_eq_false_iff_not] at hc
    obtain ⟨⟨h1, h2⟩, h3⟩ := hc
    cases hi with
    | module => exact parsed_of_check _ _ h1
    | stmt _ hb =>
      obtain ⟨_, _, _, _, hx, hl⟩ := hb
      cases hx; cases hl
      exact parsed_of_check _ _ h2
    | expr _ hb ht hv =>
      obtain ⟨_, _, _, _, hx, hl⟩ := hb
      cases hx; cases hl
      rcases h3 with h3 | h3
      · exact absurd ht h3
      · obtain ⟨_, _, rfl⟩ := hex ht
        obtain ⟨_, _, _, _, hx, hl⟩ := hv
        cases hx; cases hl
        exact parsed_of_check _ _ h3
  iter := fun l => List.reverse_perm l
  file := by
    intro s c h
    have h : fxFile s = some c := h
    obtain ⟨ss, hc⟩ := fxFile_python s c h
    refine ⟨?_, hc.parsed, ?_⟩
    case refine_2 =>
      have hf := hc.file
      generalize c.tree = t at hf ⊢
      cases hf; rfl
    unfold fxFile at h
    split at h
    · rename_i e; cases h; exact e.symm
    split at h
    · cases h; rfl
    split at h
    · cases h; rfl
    · cases h
  expr := by
    intro v h
    have h : (v.isNode && decide (v.ty ∈ [str "BinOp", str "Call", str "Name"])) = true := h
    rw [Bool.and_eq_true] at h
    exact h.1

theorem feFile_python : ∀ s c, fePy.file s = some c → ∃ ss, PythonFile gensymName (fun ch => ch.isDigit = true) exPython ss c := fxFile_python

/-- The world. -/
def feWorld : World := { exWorld with parseAst := fePy.parseAst }

theorem feFinds : commandEdits feWorld fePy.modes fxOptions (str "self.assertTrue(x == y)\n") exFile =
    some ([⟨str "self.assertEqual(x, y)", 0, 23⟩], str "self.assertEqual(x, y)\n") := by decide +kernel

/-- The hypotheses of C104_accepted are met. -/
example : ∀ name ∈ [str "*", str "correctness", str "idiom", str "unittest"], ∃ s, fePy.factory (str "fix") (some name) [] = .ok s := fun name h =>
  (C104_accepted (groups := fun _ => []) feReads feReplacements (withTextFixers_fixer _ _) (by decide) _ _).1.2 ⟨rfl, name, h, rfl⟩

/-- The hypotheses of C104_command are met, and `self.assertTrue(x == y)` becomes `self.assertEqual(x, y)`. -/
example : ∃ r fss out, runnerFromOptions feWorld fePy.modes fxOptions = .ok r ∧ Forall2 (FixersOf gensymName) fxOptions.searchReplace fss ∧
    r.find (str "self.assertTrue(x == y)\n") exFile = .ok out ∧ allEdits out = [⟨str "self.assertEqual(x, y)", 0, 23⟩] ∧
    IteratedResult (fun t => fePy.file t ≠ none) (FoundBy false fePy.pragmas (fss.map (FixEdits fePy gensymName (fun ch => ch.isDigit = true) exPython)))
      10 (str "self.assertTrue(x == y)\n") out := by
  obtain ⟨r, out, hr, hfind, hedits, _⟩ := commandEdits_sound feFinds
  obtain ⟨fss, h1, h2⟩ := C104_command (groups := fun _ => []) feFits feReplacements exPython_ok feReads (withTextFixers_fixer _ _) feFile_python (by decide) rfl hr rfl (by decide)
  exact ⟨r, fss, out, hr, h1, hfind, hedits, (h2 _ _ _ hfind).2.2.2⟩

/-- The rule `self.assertTrue($lhs == $rhs)` → `self.assertEqual($lhs, $rhs)`. -/
def feRule : Rule :=
  assertRule "self.assertTrue($lhs == $rhs)" (assertCmp "assertTrue" "Eq") "self.assertEqual($lhs, $rhs)" (selfCall "assertEqual" [vLhs, vRhs]) "assertEqual"

/-- The edit of the example. -/
theorem feEdit : RuleEdit fePy (fun ch => ch.isDigit = true) exPython bsFile [.other] feRule bsCall (str "self.assertEqual(x, y)") := by
  have hold : feRule.old.Reads bsCall [(str "lhs", exNameAt 29 (str "x")), (str "rhs", exNameAt 35 (str "y"))] :=
    .call (o := []) (o2 := []) (.attr .name ⟨26, rfl⟩) (.cons (occ := []) (.compare (o := [_]) (o1 := [_]) .var ⟨32, rfl⟩ ⟨33, rfl⟩ ⟨34, rfl⟩ .var) .nil) .nil
  have hnew : feRule.new.Reads (fxEqual 20 (exNameAt 30 (str "x")) (exNameAt 40 (str "y"))) [(str "lhs", exNameAt 30 (str "x")), (str "rhs", exNameAt 40 (str "y"))] :=
    .call (o := []) (o2 := []) (.attr .name ⟨26, rfl⟩) (.cons (o := [_]) .var (.cons (o := [_]) (occ := []) .var .nil)) .nil
  have hsame : ∀ i j s, SameTree (exNameAt i s) (exNameAt j s) := fun i j s => .node rfl (fun k n t v hn ht hv hne => by
    match k with
    | 0 => cases ht; cases hv; exact .const (by simp [Const.pyEq, Const.whole?])
    | 1 => cases hn; exact absurd ⟨rfl, rfl⟩ hne
    | k + 2 => cases hn)
  refine ⟨str "self.assertEqual(x, y)", _, _, _, _, .inl rfl, rfl, ?_, ⟨hold, ?_, ?_, trivial⟩, hnew, ?_⟩
  · exact ⟨_, .node 3 (str "Expr") [str "value"] [fxEqual 20 (exNameAt 30 (str "x")) (exNameAt 40 (str "y"))], rfl, rfl, rfl, rfl⟩
  · intro x i j a b hij hi hj
    by_cases hx : x = str "lhs"
    · subst hx
      have hof : Occs.of [(str "lhs", exNameAt 29 (str "x")), (str "rhs", exNameAt 35 (str "y"))] (str "lhs") = [exNameAt 29 (str "x")] := rfl
      rw [hof] at hi hj
      match i, j with
      | i, 0 => omega
      | i, j + 1 => cases hj
    by_cases hy : x = str "rhs"
    · subst hy
      have hof : Occs.of [(str "lhs", exNameAt 29 (str "x")), (str "rhs", exNameAt 35 (str "y"))] (str "rhs") = [exNameAt 35 (str "y")] := rfl
      rw [hof] at hi hj
      match i, j with
      | i, 0 => omega
      | i, j + 1 => cases hj
    · rw [occs_of_absent (by simp [hx, hy])] at hi
      cases hi
  · intro x w _ k hk
    cases hk
  · intro x w' h
    simp only [List.mem_cons, Prod.mk.injEq, List.not_mem_nil, or_false] at h
    rcases h with ⟨rfl, rfl⟩ | ⟨rfl, rfl⟩
    · refine ⟨exNameAt 29 (str "x"), rfl, fun w1 sp h _ _ => ?_⟩
      have e : createMatch bsFile (exNameAt 29 (str "x")) = .lexical (exNameAt 29 (str "x")) (16, 17) := rfl
      rw [e] at h
      cases h
      exact hsame ..
    · refine ⟨exNameAt 35 (str "y"), rfl, fun w1 sp h _ _ => ?_⟩
      have e : createMatch bsFile (exNameAt 35 (str "y")) = .lexical (exNameAt 35 (str "y")) (21, 22) := rfl
      rw [e] at h
      cases h
      exact hsame ..

/-- A world in which the value of a node is its type. -/
def feValues : ValueWorld := { exValues with value := fun v => if v.isNode then v.ty else [] }

theorem feValues_pythonic : feValues.Pythonic where
  isNot := exValues_pythonic.isNot
  notIn := exValues_pythonic.notIn
  zero a i j k c _ := rfl

/-- The hypotheses of C104_assertions are met by the edit of the example. -/
example : ∃ text cc e b, Wrapped text (str "self.assertEqual(x, y)") ∧ fePy.file text = some cc ∧ OneExpr cc.tree e ∧
    Succeeds feValues bsCall b ∧ Succeeds feValues e b := by
  have hr : feRule ∈ unittestRules := by unfold unittestRules feRule; simp
  refine C104_assertions feValues_pythonic (fun a b h => ?_) hr (fun e a h => Code.noConfusion h) (fun occ x a h hx => ?_) feEdit
  · cases h with
    | const => rfl
    | list => rfl
    | node => rfl
  · have : occ = [(str "lhs", exNameAt 29 (str "x")), (str "rhs", exNameAt 35 (str "y"))] :=
      reads_det (rule_codeOk (r := feRule) (by simp [builtinRules, hr]) (exMangle_rules feRule (by simp [builtinRules, hr])).1) h
        (.call (o := []) (o2 := []) (.attr .name ⟨26, rfl⟩) (.cons (occ := []) (.compare (o := [_]) (o1 := [_]) .var ⟨32, rfl⟩ ⟨33, rfl⟩ ⟨34, rfl⟩ .var) .nil) .nil)
    subst this
    simp only [List.mem_cons, Prod.mk.injEq, List.not_mem_nil, or_false] at hx
    rcases hx with ⟨rfl, rfl⟩ | ⟨rfl, rfl⟩
    · exact ⟨(16, 17), rfl, rfl, parsed_of_check _ _ (by decide)⟩
    · exact ⟨(21, 22), rfl, rfl, parsed_of_check _ _ (by decide)⟩

end Refex
