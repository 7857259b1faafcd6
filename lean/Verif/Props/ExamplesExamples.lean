import Verif.Props.Examples
import Verif.Props.BuiltinSearchExamples
/- C88: an example of a fixer that the fixer finds and replaces. -/
namespace Refex
set_option autoImplicit false

/-- Non-vacuity of `C88_fragment` and `C88_replacement`: the texts of a rule. -/
theorem exAssert_writable : Writable exAssertRule.old ∧ Writable exAssertRule.new := by
  have ho : (∀ x ∈ exAssertRule.old.vars, x = str "lhs" ∨ x = str "rhs") ∧ ∀ x ∈ exAssertRule.new.vars, x = str "lhs" ∨ x = str "rhs" := by decide +kernel
  have hn : IsName (str "lhs") ∧ IsName (str "rhs") :=
    ⟨⟨'l', str "hs", rfl, by decide, by decide⟩, ⟨'r', str "hs", rfl, by decide, by decide⟩⟩
  refine ⟨⟨fun x hx => ?_, by decide +kernel⟩, ⟨fun x hx => ?_, by decide +kernel⟩⟩
  · rcases ho.1 x hx with rfl | rfl
    · exact hn.1
    · exact hn.2
  · rcases ho.2 x hx with rfl | rfl
    · exact hn.1
    · exact hn.2

example : exAssertRule.old.text = str "self.assertTrue($lhs == $rhs)" ∧ exAssertRule.old.sample.text = str "self.assertTrue(lhs == rhs)" ∧
    exAssertRule.new.sample.text = str "self.assertEqual(lhs, rhs)" := by decide +kernel

/-- `self.assertTrue(lhs == rhs)` -/
def xeCall : Val :=
  .node 20 (str "Call") [str "func", str "args", str "keywords"]
    [.node 21 (str "Attribute") [str "value", str "attr", str "ctx"] [exNameAt 22 (str "self"), .const 25 (.str (str "assertTrue")), .node 26 (str "Load") [] []],
     .list 27 [.node 28 (str "Compare") [str "left", str "ops", str "comparators"]
       [exNameAt 29 (str "lhs"), .list 32 [.node 33 (str "Eq") [] []], .list 34 [exNameAt 35 (str "rhs")]]],
     .list 38 []]

/-- The file. -/
def xeFile : Ctx := { brCtx (str "self.assertTrue(lhs == rhs)\n") (brModule xeCall) with
  tok := fun i => if i = 22 then some (0, 4) else if i = 29 then some (16, 19) else if i = 35 then some (23, 26) else none }

/-- `self.assertEqual(lhs, rhs)` -/
def xeNew : Val := (selfCall "assertEqual" [.name (str "lhs"), .name (str "rhs")]).val exMangle

/-- Python, as far as the example goes. -/
def xeEnv : PyEnv where
  isExpr v := decide (v.ty ∈ [str "Name", str "Call"])
  isStmt _ := false
  parse s := if s ∈ [str "self.assertEqual((lhs), (rhs))", str "self.assertEqual(lhs, (rhs))", str "self.assertEqual(lhs, rhs)"] then some (brCtx s (brModule xeNew)) else none
  template _ := none

theorem xeEnv_fits : xeEnv.Fits exPython where
  parsed s c h := by
    simp only [xeEnv] at h
    split at h
    · cases h; exact brModule_parsed (parsed_code exPython_ok exMangle _ (by decide))
    · cases h
  module s c h := by
    simp only [xeEnv] at h
    split at h
    · cases h; rfl
    · cases h
  template s t h := by cases h

/-- What the metavariables stand for, with their texts. -/
def xeMatches : Dict Label PyMatch :=
  [(str "lhs", ⟨.lexical (exNameAt 29 (str "lhs")) (16, 19), some (str "lhs")⟩), (str "rhs", ⟨.lexical (exNameAt 35 (str "rhs")) (23, 26), some (str "rhs")⟩)]

theorem xeResult : brTemplate.substituteMatch 80 xeEnv (some xeFile) (createMatch xeFile xeCall) xeMatches = .ok (str "self.assertEqual(lhs, rhs)") := by
  have h : (match brTemplate.substituteMatch 80 xeEnv (some xeFile) (createMatch xeFile xeCall) xeMatches with
    | .ok s => decide (s = str "self.assertEqual(lhs, rhs)")
    | .error _ => false) = true := by decide +kernel
  generalize brTemplate.substituteMatch 80 xeEnv (some xeFile) (createMatch xeFile xeCall) xeMatches = r at h
  match r, h with
  | .ok s, h => rw [of_decide_eq_true h]

theorem xeReads : exAssertRule.old.sample.Reads xeCall [] :=
  .call (o := []) (o1 := []) (o2 := []) (.attr .name ⟨26, rfl⟩)
    (.cons (o := []) (occ := []) (.compare (o := []) (o1 := []) .name ⟨32, rfl⟩ ⟨33, rfl⟩ ⟨34, rfl⟩ .name) .nil) .nil

theorem xeNames {p : Path} {w : Val} (hp : xeCall.at? p = some w) (hw : w.ty = str "Name") :
    w ∈ [exNameAt 22 (str "self"), exNameAt 29 (str "lhs"), exNameAt 35 (str "rhs")] := by
  have h : ((allPos xeCall).filter fun pw => decide (pw.2.ty = str "Name")).map Prod.snd = [exNameAt 22 (str "self"), exNameAt 29 (str "lhs"), exNameAt 35 (str "rhs")] := by rfl
  rw [← h]
  exact List.mem_map.2 ⟨(p, w), List.mem_filter.2 ⟨mem_allPos _ _ _ hp, decide_eq_true hw⟩, rfl⟩

/-- Non-vacuity of `C88_found` and `C88_fixed`: the fixer finds its example and makes `self.assertEqual(lhs, rhs)` of it. -/
example (ks : List Key) : ∃ mi, run xeFile 200 [] (exAssertRule.fixer exMangle).matcher xeCall ks = .ok (some mi, ks) ∧
    ∃ replacement cc e o', (str "self.assertEqual(lhs, rhs)" = replacement ∨ str "self.assertEqual(lhs, rhs)" = str "(" ++ replacement ++ str ")") ∧
      xeEnv.parse replacement = some cc ∧ OneExpr cc.tree e ∧ exAssertRule.new.sample.Reads e o' := by
  have hr : exAssertRule ∈ unittestRules ++ idiomRules ++ datetimeRules := by unfold unittestRules exAssertRule; simp
  have hv : Parsed exPython false xeCall := parsed_of_check _ _ (by decide +kernel)
  have hc : NameContexts xeCall := fun p w hp hw => by
    have := xeNames hp hw
    simp only [List.mem_cons, List.not_mem_nil, or_false] at this
    rcases this with rfl | rfl | rfl <;> exact ⟨_, _, _, _, rfl, List.mem_cons_self ..⟩
  obtain ⟨mi, a1, a2⟩ := C88_fixed (c := xeFile) (env := []) hr (exMangle_rules _ brRule_mem).1 (exMangle_rules _ brRule_mem).2 exPython_ok (m := 80) xeEnv_fits (t := brTemplate) rfl
    hv hc xeReads (fun w ⟨p, hp⟩ hw => by
      have := xeNames hp hw
      simp only [List.mem_cons, List.not_mem_nil, or_false] at this
      rcases this with rfl | rfl | rfl <;> exact ⟨_, rfl, rfl, parsed_of_check _ _ (by decide +kernel)⟩) (n := 200) (by decide) ks
  obtain ⟨mi', b1, b2, b3, b4⟩ := C88_found (c := xeFile) (env := []) exPython_ok (rule_codeOk brRule_mem (exMangle_rules _ brRule_mem).1) hv hc xeReads (n := 200) (by decide) ks
  have e : mi' = mi := by
    have h : (exAssertRule.fixer exMangle).matcher = exAssertRule.old.pattern exMangle [] := rfl
    rw [h, b1] at a1
    cases a1; rfl
  subst e
  refine ⟨mi', a1, a2 xeMatches (by decide) (fun x bd hx => ?_) _ (by rw [b2]; exact xeResult)⟩
  have hnames : ∀ {w : Val} {y : Label}, PartOf xeCall w → IsNameNode w y → w ∈ [exNameAt 22 (str "self"), exNameAt 29 (str "lhs"), exNameAt 35 (str "rhs")] := by
    rintro w y ⟨p, hp⟩ hw
    have hty : w.ty = str "Name" := by obtain ⟨_, _, _, rfl⟩ := hw; rfl
    exact xeNames hp hty
  have hid : ∀ {i : Nat} {s y : Label}, IsNameNode (exNameAt i s) y → s = y := by
    rintro i s y ⟨_, _, _, h⟩; cases h; rfl
  by_cases hx1 : x ∈ exAssertRule.old.vars
  · obtain ⟨w, hp, hw, hb⟩ := b3 x hx1
    rw [hb] at hx
    cases hx
    have h1 : ∀ x ∈ exAssertRule.old.vars, x = str "lhs" ∨ x = str "rhs" := by decide +kernel
    have := hnames hp hw
    simp only [List.mem_cons, List.not_mem_nil, or_false] at this
    rcases this with rfl | rfl | rfl
    · have := hid hw
      subst this
      exact absurd (h1 _ hx1) (by decide)
    · have := hid hw
      subst this
      exact ⟨_, rfl, rfl⟩
    · have := hid hw
      subst this
      exact ⟨_, rfl, rfl⟩
  · rw [b4 x hx1] at hx; cases hx

end Refex
