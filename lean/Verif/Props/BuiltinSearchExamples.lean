import Verif.Props.BuiltinSearchTotal
import Verif.Props.BuiltinRulesExamples
/- A file that is searched with the built-in fixers. -/
namespace Refex
set_option autoImplicit false

/-- The call `self.assertTrue(x == y)`. -/
def bsCall : Val :=
  .node 20 (str "Call") [str "func", str "args", str "keywords"]
    [.node 21 (str "Attribute") [str "value", str "attr", str "ctx"] [exNameAt 22 (str "self"), .const 25 (.str (str "assertTrue")), .node 26 (str "Load") [] []],
     .list 27 [.node 28 (str "Compare") [str "left", str "ops", str "comparators"]
       [exNameAt 29 (str "x"), .list 32 [.node 33 (str "Eq") [] []], .list 34 [exNameAt 35 (str "y")]]],
     .list 38 []]

/-- The file `self.assertTrue(x == y)`, each object of which has an identity of its own. -/
def bsModule : Val := .node 10 (str "Module") [str "body", str "type_ignores"] [.list 11 [.node 12 (str "Expr") [str "value"] [bsCall]], .list 13 []]

/-- The file. -/
def bsFile : Ctx := { brCtx (str "self.assertTrue(x == y)\n") bsModule with
  tok := fun i => if i = 20 then some (0, 23) else if i = 12 then some (0, 23) else if i = 29 then some (16, 17) else if i = 35 then some (21, 22) else none }

mutual
/-- A check of the grammar. -/
def parsedCheck : Bool → Val → Bool
  | b, .const i c => !b && decide ((Val.const i c).ty ∉ codeTypes.map Prod.fst)
  | b, .list _ vs => b && parsedChecks (vs.map fun _ => false) vs
  | b, .node _ t ns vs => !b && decide (t ∈ codeTypes.map Prod.fst) && decide (ns = (exPython.fields t).map Prod.fst) && decide ns.Nodup &&
      decide (vs.length = ns.length) && parsedChecks ((exPython.fields t).map Prod.snd) vs
/-- One after the other. -/
def parsedChecks : List Bool → List Val → Bool
  | [], _ => true
  | _, [] => true
  | b :: bs, v :: vs => parsedCheck b v && parsedChecks bs vs
end

mutual
theorem parsed_of_check : ∀ (b : Bool) (v : Val), parsedCheck b v = true → Parsed exPython b v
  | b, .const i c, h => by
    rw [parsedCheck] at h
    simp only [Bool.and_eq_true, Bool.not_eq_true', decide_eq_true_eq] at h
    rw [h.1]
    exact .const h.2
  | b, .list i vs, h => by
    rw [parsedCheck] at h
    simp only [Bool.and_eq_true] at h
    rw [h.1]
    refine .list fun v hv => ?_
    obtain ⟨k, hk⟩ := List.mem_iff_getElem?.1 hv
    exact parsed_of_checks _ vs h.2 k false v (by rw [List.getElem?_map, hk]; rfl) hk
  | b, .node i t ns vs, h => by
    rw [parsedCheck] at h
    simp only [Bool.and_eq_true, Bool.not_eq_true', decide_eq_true_eq] at h
    obtain ⟨⟨⟨⟨⟨h1, h2⟩, h3⟩, h4⟩, h5⟩, h6⟩ := h
    rw [h1]
    exact .node h2 h3 h4 h5 fun k f v hf hv => parsed_of_checks _ vs h6 k f.2 v (by rw [List.getElem?_map, hf]; rfl) hv
theorem parsed_of_checks : ∀ (bs : List Bool) (vs : List Val), parsedChecks bs vs = true → ∀ (k : Nat) b v, bs[k]? = some b → vs[k]? = some v → Parsed exPython b v
  | [], _, _, k, b, v, hb, _ => by simp at hb
  | _ :: _, [], _, k, b, v, _, hv => by simp at hv
  | b' :: bs, v' :: vs, h, k, b, v, hb, hv => by
    rw [parsedChecks, Bool.and_eq_true] at h
    match k with
    | 0 => simp at hb hv; subst hb hv; exact parsed_of_check _ _ h.1
    | k + 1 => exact parsed_of_checks bs vs h.2 k b v (by simpa using hb) (by simpa using hv)
end

theorem bsFile_python : PythonFile exMangle (fun ch => ch.isDigit = true) exPython [.other] bsFile where
  grammar := exPython_ok
  parsed := parsed_of_check _ _ (by decide +kernel)
  file := .mk (.cons (.other (by decide) (by decide)) .nil)
  unshared := unshared_of_check (by decide +kernel)
  names := pythonNames_of_check (by decide +kernel)
  regex := ⟨(brCtx_regex (str "self.assertTrue(x == y)\n") bsModule).1, (brCtx_regex (str "self.assertTrue(x == y)\n") bsModule).2, ⟨rfl, rfl⟩⟩
  mangles := fun r hr => (exMangle_rules r hr).1
  argument := by decide

theorem rule_no_expr : ∀ r ∈ builtinRules, r.old.nodeType ≠ some (str "Expr") := by decide +kernel

theorem bsShows (tok : Nat → Option Span) : exAssertRule.Shows (fun ch => ch.isDigit = true) { bsFile with tok := tok } [.other] bsCall [(str "lhs", exNameAt 29 (str "x")), (str "rhs", exNameAt 35 (str "y"))] := by
  refine ⟨?_, fun x => allAlike_short ?_, fun x w _ k hk => (by cases hk), trivial⟩
  · exact .call (o := []) (o1 := [(str "lhs", exNameAt 29 (str "x")), (str "rhs", exNameAt 35 (str "y"))]) (o2 := []) (.attr .name ⟨26, rfl⟩)
      (.cons (o := [(str "lhs", exNameAt 29 (str "x")), (str "rhs", exNameAt 35 (str "y"))]) (occ := [])
        (.compare (o := [(str "lhs", exNameAt 29 (str "x"))]) (o1 := [(str "rhs", exNameAt 35 (str "y"))]) .var ⟨32, rfl⟩ ⟨33, rfl⟩ ⟨34, rfl⟩ .var) .nil) .nil
  · rw [occs_of_length]
    exact count_le_of (l := [str "lhs", str "rhs"]) (k := 1) (by decide) x

/-- Non-vacuity of C86: a file that meets the hypotheses, with a place to report. -/
theorem bsFile_site (tok : Nat → Option Span) : Site exMangle (fun ch => ch.isDigit = true) { bsFile with tok := tok } [.other] (unittestFixers exMangle) [0, 0, 0] := by
  refine ⟨⟨bsCall, rfl, exAssertRule.fixer exMangle, ?_, .rule brRule_mem (bsShows tok)⟩, ?_⟩
  · exact List.mem_map.2 ⟨exAssertRule, by unfold unittestRules exAssertRule; simp, rfl⟩
  · intro q u hq hne hu F _ ha
    obtain ⟨t, ht, hty, _⟩ := applies_type ha
    rcases prefix_cases hq with rfl | ⟨q, rfl, hq1⟩
    · cases hu; cases hty; exact absurd ht (show str "Module" ∉ fixerTypes by decide)
    · rcases prefix_cases hq1 with rfl | ⟨q, rfl, hq2⟩
      · cases hu; cases hty; revert ht; decide
      · rcases prefix_cases hq2 with rfl | ⟨q, rfl, hq3⟩
        · cases hu
          cases ha with
          | rule hr hs =>
            obtain ⟨t, h1, h2⟩ := rule_nodeType _ hr
            have h3 := (reads_nodeType hs.reads h2).1
            cases h3
            exact rule_no_expr _ hr h2
          | attrib _ h => obtain ⟨f, args, ks, ⟨i, j, k, h⟩, _⟩ := h; cases h
          | loggingError h => obtain ⟨args, ks, ⟨i, j, k, h⟩, _⟩ := h; cases h
          | loggingException h =>
            have h := h.1
            generalize [(str "arg", _)] = occ at h
            cases h with | expr h => cases h with | call h _ _ => cases h
        · have := List.prefix_nil.1 hq3
          subst this
          exact hne rfl

theorem unittest_group {registry : Registry Fixer} {fs : List Fixer} (h1 : refexRegistry exMangle = .ok registry)
    (h2 : registry.fromPattern (str "unittest") = .ok fs) : fs = unittestFixers exMangle := by
  obtain ⟨r, k1, _, k3⟩ := C66_builtin (correctnessFixers exMangle) (idiomFixers exMangle) (unittestFixers exMangle)
  have : registry = r := by
    have := h1.symm.trans k1
    cases this; rfl
  subst this
  unfold Registry.fromPattern at h2
  rw [k3, if_neg (by decide), if_neg (by decide), if_neg (by decide), if_pos rfl] at h2
  cases h2; rfl

/-- The search of the file reports that place. -/
example : ∃ registry fs heap, refexRegistry exMangle = .ok registry ∧ registry.fromPattern (str "unittest") = .ok fs ∧
    combineFixers exTemplates bsFile.rxGroups 58 fs builtinHeap = .ok heap ∧ (treeFind bsFile 58 (combinedMatcher fs heap)).1 ≠ [] := by
  obtain ⟨registry, fs, heap, h1, h2, h3, _, ps, _, hp, hf⟩ := C86_search bsFile_python exTemplates_variables (name := str "unittest") (by decide) (Nat.le_refl 58)
  refine ⟨registry, fs, heap, h1, h2, h3, fun h => ?_⟩
  rw [h] at hf
  cases hf
  have hfs := unittest_group h1 h2
  exact absurd ((hp [0, 0, 0]).2 (hfs ▸ bsFile_site bsFile.tok)) (by simp)

theorem exTemplates_quiet (s : Str) (m : MatchV) (ms : Dict MatchKey MatchV) : ∃ out, (exTemplates.sem s).substitute m ms = .ok out := by
  unfold exTemplates
  simp only
  split
  · exact ⟨_, rfl⟩
  · split <;> exact ⟨_, rfl⟩
  · split <;> exact ⟨_, rfl⟩

theorem templateCode_nonempty (k : RuleKind) (s : Str) : templateCode k s ≠ [] := by
  unfold templateCode
  cases k <;> exact fun h => (by cases h)

/-- Non-vacuity of `C86_no_exception`: the templates. -/
theorem exTemplates_good : GoodTemplates exMangle exTemplates := by
  intro F hF l t h
  refine ⟨?_, fun m ms e _ he => ?_⟩
  · show t ≠ []
    rcases group_kinds hF with ⟨r, hr, rfl⟩ | ⟨i, d, text, hi, rfl⟩ | rfl | rfl
    · obtain ⟨_, rfl⟩ := get?_single h; exact templateCode_nonempty _ _
    · have : i = 0 ∨ i = 1 ∨ i = 2 := by
        have := (List.getElem?_eq_some_iff.1 hi).1
        have e : attribDefaults.length = 3 := rfl
        omega
      rcases this with rfl | rfl | rfl
      all_goals
        obtain ⟨_, rfl⟩ := get?_single h
        decide
    · obtain ⟨_, rfl⟩ := get?_single h; decide
    · obtain ⟨_, rfl⟩ := get?_single h; decide
  · obtain ⟨out, ho⟩ := exTemplates_quiet t m ms
    rw [ho] at he
    cases he

theorem bsFile_located : NodesLocated { bsFile with tok := fun _ => some (0, 23) } := fun _ _ _ _ _ _ _ => ⟨_, rfl⟩

/-- The file without positions: as if in an f-string. -/
def bsNowhere : Ctx := { bsFile with tok := fun _ => none }

theorem bsNowhere_python : PythonFile exMangle (fun ch => ch.isDigit = true) exPython [.other] bsNowhere where
  grammar := exPython_ok
  parsed := bsFile_python.parsed
  file := bsFile_python.file
  unshared := bsFile_python.unshared
  names := bsFile_python.names
  regex := ⟨bsFile_python.regex.1, bsFile_python.regex.2, bsFile_python.regex.3⟩
  mangles := bsFile_python.mangles
  argument := bsFile_python.argument

/-- Non-vacuity of `C86_unlocated`: without the position of the call, the search raises. -/
example (tk : TokInfo) : ∃ registry fs heap, refexRegistry exMangle = .ok registry ∧ registry.fromPattern (str "unittest") = .ok fs ∧
    combineFixers exTemplates bsNowhere.rxGroups 58 fs builtinHeap = .ok heap ∧ ∃ e, pySearch bsNowhere tk exTemplates 58 (combinedMatcher fs heap) = .error e := by
  obtain ⟨registry, fs, heap, h1, h2, h3, _⟩ := C86_search bsNowhere_python exTemplates_variables (name := str "unittest") (by decide) (Nat.le_refl 58)
  have hfs := unittest_group h1 h2
  refine ⟨registry, fs, heap, h1, h2, h3, C86_unlocated bsNowhere_python exTemplates_variables h1 h2 h3 (Nat.le_refl 58) tk (hfs ▸ bsFile_site fun _ => none) rfl rfl ?_⟩
  intro F hF _
  rw [hfs] at hF
  obtain ⟨r, hr, rfl⟩ := List.mem_map.1 hF
  exact ⟨r, by unfold builtinRules; simp [hr], rfl⟩

end Refex
