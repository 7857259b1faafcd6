import Verif.Props.BuiltinRules
/- A file in which a built-in rule replaces an assertion. -/
namespace Refex
set_option autoImplicit false

/-- A name with an identity of its own. -/
def brName (i : Nat) (s : String) : Val := .node i (str "Name") [str "id", str "ctx"] [.const 0 (.str (str s)), loadNode]

/-- The tree of `self.assertTrue(x == y)`. -/
def brTree : Val :=
  codeNode (str "Call") [(str "func", (Code.attr (.name (str "self")) (str "assertTrue")).val exMangle),
    (str "args", .list 0 [codeNode (str "Compare") [(str "left", brName 1 "x"), (str "ops", .list 0 [codeNode (str "Eq") []]), (str "comparators", .list 0 [brName 2 "y"])]]),
    (str "keywords", .list 0 [])]

/-- Upper case letters, underscores and digits only. -/
def exConstantName (s : Str) : Bool := !s.isEmpty && s.all fun ch => (decide ('A'.toNat ≤ ch.toNat) && decide (ch.toNat ≤ 'Z'.toNat)) || decide (ch = '_') || ch.isDigit

/-- A character other than `(`, something on one line, and `)`. -/
def exEndsInParenthesis : Str → Bool
  | [] => false
  | ch :: rest => decide (ch ≠ '(') && decide (rest.getLast? = some ')') && decide (2 ≤ rest.length) && decide ('\n' ∉ rest.dropLast)

/-- Python's regular expressions, as far as the rules use them. -/
def exRegex (text rx : Str) (a b : Nat) : Option (Label → Option Span) :=
  if rx = constantRegex then (if exConstantName (slice text a b) then some (fun _ => none) else none)
  else if rx = parensRegex then (if exEndsInParenthesis (slice text a b) then some (fun _ => none) else none) else none

theorem exConstantName_iff (s : Str) : exConstantName s = true ↔ ConstantName (fun ch => ch.isDigit = true) s := by
  unfold exConstantName ConstantName
  simp only [Bool.and_eq_true, Bool.not_eq_true', List.isEmpty_eq_false_iff, List.all_eq_true, Bool.or_eq_true, decide_eq_true_eq, ne_eq, or_assoc]

theorem exEndsInParenthesis_iff (s : Str) : exEndsInParenthesis s = true ↔ EndsInParenthesis s := by
  unfold EndsInParenthesis
  cases s with
  | nil => exact ⟨fun h => (by cases h), fun ⟨_, _, h, _⟩ => (by cases h)⟩
  | cons ch rest =>
    simp only [exEndsInParenthesis, Bool.and_eq_true, decide_eq_true_eq]
    constructor
    · rintro ⟨⟨⟨h1, h2⟩, h3⟩, h4⟩
      have hne : rest ≠ [] := fun h => by rw [h] at h3; simp at h3
      refine ⟨ch, rest.dropLast, ?_, h1, fun h => ?_, h4⟩
      · rw [List.getLast?_eq_some_getLast hne] at h2
        injection h2 with h2
        rw [← h2, List.dropLast_concat_getLast]
      · have := congrArg List.length h
        simp at this; omega
    · rintro ⟨ch', mid, h, h1, h2, h3⟩
      injection h with e1 e2
      subst e1 e2
      refine ⟨⟨⟨h1, by simp⟩, ?_⟩, by simpa using h3⟩
      have : 0 < mid.length := List.length_pos_iff.2 h2
      simp; omega

/-- A context with just the places of `x` and `y`. -/
def brCtx (text : Str) (tree : Val) : Ctx where
  text := text
  tree := tree
  comment := fun _ => false
  tok := fun i => if i = 1 then some (16, 17) else if i = 2 then some (21, 22) else none
  lineno := fun _ => none
  rxGroups := fun _ => []
  rxMatch := exRegex text
  rxSearch := fun _ => none
  rewrite := fun _ _ => none

theorem brCtx_regex (text : Str) (tree : Val) : RegexFits (fun ch => ch.isDigit = true) (brCtx text tree) where
  constant a b := by
    show (exRegex text constantRegex a b).isSome = true ↔ ConstantName _ (slice text a b)
    unfold exRegex
    rw [if_pos rfl, ← exConstantName_iff]
    split <;> simp_all
  parens a b := by
    show (exRegex text parensRegex a b).isSome = true ↔ EndsInParenthesis (slice text a b)
    unfold exRegex
    rw [if_neg (by decide), if_pos rfl, ← exEndsInParenthesis_iff]
    split <;> simp_all
  groups := ⟨rfl, rfl⟩

/-- A module with one expression. -/
def brModule (e : Val) : Val := codeNode (str "Module") [(str "body", .list 0 [codeNode (str "Expr") [(str "value", e)]]), (str "type_ignores", .list 0 [])]

/-- `self.assertEqual(x, y)` -/
def brNew : Val := (selfCall "assertEqual" [.name (str "x"), .name (str "y")]).val exMangle

/-- Python, as far as the example goes. -/
def brEnv : PyEnv where
  isExpr v := decide (v.ty ∈ [str "Name", str "Call"])
  isStmt _ := false
  parse s := if s ∈ [str "self.assertEqual((x), (y))", str "self.assertEqual(x, (y))", str "self.assertEqual(x, y)"] then some (brCtx s (brModule brNew)) else none
  template _ := none

/-- The template `self.assertEqual($lhs, $rhs)`. -/
def brTemplate : PyTemplate where
  template := str "self.assertEqual($lhs, $rhs)"
  toks := [⟨.other, str "self", (1, 0), (1, 4)⟩, ⟨.other, str ".", (1, 4), (1, 5)⟩, ⟨.other, str "assertEqual", (1, 5), (1, 16)⟩, ⟨.other, str "(", (1, 16), (1, 17)⟩,
    ⟨.other, str "lhs", (1, 17), (1, 21)⟩, ⟨.other, str ",", (1, 21), (1, 22)⟩, ⟨.other, str "rhs", (1, 23), (1, 27)⟩, ⟨.other, str ")", (1, 27), (1, 28)⟩,
    ⟨.newline, str "", (1, 28), (1, 29)⟩, ⟨.endmarker, str "", (2, 0), (2, 0)⟩]
  metas := [4, 6]
  astMatcher := exprTemplate (exAssertRule.new.pattern exMangle [])

/-- The file. -/
def brFile : Ctx := brCtx (str "self.assertTrue(x == y)\n") (brModule brTree)

/-- What the metavariables stand for, with their texts. -/
def brMatches : Dict Label PyMatch :=
  [(str "lhs", ⟨.lexical (brName 1 "x") (16, 17), some (str "x")⟩), (str "rhs", ⟨.lexical (brName 2 "y") (21, 22), some (str "y")⟩)]

theorem brResult : brTemplate.substituteMatch 80 brEnv (some brFile) (createMatch brFile brTree) brMatches = .ok (str "self.assertEqual(x, y)") := by
  have h : (match brTemplate.substituteMatch 80 brEnv (some brFile) (createMatch brFile brTree) brMatches with
    | .ok s => decide (s = str "self.assertEqual(x, y)")
    | .error _ => false) = true := by decide +kernel
  generalize brTemplate.substituteMatch 80 brEnv (some brFile) (createMatch brFile brTree) brMatches = r at h
  match r, h with
  | .ok s, h => rw [of_decide_eq_true h]

theorem brModule_parsed {e : Val} (h : Parsed exPython false e) : Parsed exPython false (brModule e) :=
  parsed_node2 exPython_ok (b1 := true) (b2 := true) (by decide) (by decide)
    (parsed_single exPython_ok (parsed_node1 exPython_ok (b1 := false) (by decide) h)) parsed_empty

theorem brName_parsed (i : Nat) (s : String) : Parsed exPython false (brName i s) := by
  have h := parsed_nameNode exPython_ok (str s)
  cases h with
  | node h1 h2 h3 h4 h5 => exact .node h1 h2 h3 h4 h5

theorem brTree_parsed : Parsed exPython false brTree :=
  parsed_node3 exPython_ok (b1 := false) (b2 := true) (b3 := true) (by decide) (by decide)
    (parsed_code exPython_ok exMangle _ (by decide))
    (parsed_single exPython_ok (parsed_node3 exPython_ok (b1 := false) (b2 := true) (b3 := true) (by decide) (by decide) (brName_parsed ..)
      (parsed_single exPython_ok (parsed_plain exPython_ok (by decide))) (parsed_single exPython_ok (brName_parsed ..)))) parsed_empty

theorem brEnv_fits : brEnv.Fits exPython where
  parsed s c h := by
    simp only [brEnv] at h
    split at h
    · cases h; exact brModule_parsed (parsed_code exPython_ok exMangle _ (by decide))
    · cases h
  module s c h := by
    simp only [brEnv] at h
    split at h
    · cases h; rfl
    · cases h
  template s t h := by cases h

theorem brRule_mem : exAssertRule ∈ builtinRules := by unfold builtinRules unittestRules exAssertRule; simp

theorem brFile_tree : FileTree brFile.tree [.other] := .mk (.cons (.other (by decide) (by decide)) .nil)

theorem brShows : exAssertRule.Shows (fun ch => ch.isDigit = true) brFile [.other] brTree [(str "lhs", brName 1 "x"), (str "rhs", brName 2 "y")] := by
  refine ⟨?_, fun x => allAlike_short ?_, fun x w _ k hk => (by cases hk), trivial⟩
  · exact .call (o := []) (o1 := [(str "lhs", brName 1 "x"), (str "rhs", brName 2 "y")]) (o2 := []) (.attr .name ⟨0, rfl⟩)
      (.cons (o := [(str "lhs", brName 1 "x"), (str "rhs", brName 2 "y")]) (occ := [])
        (.compare (o := [(str "lhs", brName 1 "x")]) (o1 := [(str "rhs", brName 2 "y")]) .var ⟨0, rfl⟩ ⟨0, rfl⟩ ⟨0, rfl⟩ .var) .nil) .nil
  · rw [occs_of_length]
    exact count_le_of (l := [str "lhs", str "rhs"]) (k := 1) (by decide) x

/-- Non-vacuity of `C81_replaces`: in the file `self.assertTrue(x == y)` the rule gives `self.assertEqual(x, y)`. -/
example : ∃ replacement cc occ e occ', (str "self.assertEqual(x, y)" = replacement ∨ str "self.assertEqual(x, y)" = str "(" ++ replacement ++ str ")") ∧
      brEnv.parse replacement = some cc ∧ OneExpr cc.tree e ∧ exAssertRule.Shows (fun ch => ch.isDigit = true) brFile [.other] brTree occ ∧ exAssertRule.new.Reads e occ' ∧
      ∀ x w', (x, w') ∈ occ' → ∃ w, (occ.of x).getLast? = some w ∧
        ∀ w1 sp, createMatch brFile w = .lexical w1 sp → brEnv.isExpr w1 = true → Parsed exPython false w1 → SameTree w1 w' := by
  obtain ⟨h1, _⟩ := C81_finds (c := brFile) (env := []) brRule_mem (exMangle_rules _ brRule_mem).1 exPython_ok (brCtx_regex _ _) brFile_tree brTree_parsed (n := 200) (by decide) []
  obtain ⟨mi, occ, hrun, hs, hobj, hb⟩ := h1 ⟨_, brShows⟩
  have hocc : occ = [(str "lhs", brName 1 "x"), (str "rhs", brName 2 "y")] := by
    have hr := fun occ => reads_iff (allowed := fun _ _ => True) exAssertRule.old (v := brTree) (occ := occ)
      (holesAre (exMangle_rules _ brRule_mem).1) (fun x h => h) (fun x h => h) (opsOk (builtin_ops _ brRule_mem).1)
    exact instance_det _ _ _ _ ((hr _).2 ⟨hs.1, fun _ _ => trivial⟩) ((hr _).2 ⟨brShows.1, fun _ _ => trivial⟩)
  subst hocc
  refine C81_replaces brRule_mem (exMangle_rules _ brRule_mem).1 (exMangle_rules _ brRule_mem).2 exPython_ok (brCtx_regex _ _) brFile_tree brEnv_fits (t := brTemplate) rfl
    brTree_parsed (by decide) hrun (ms := brMatches) (by decide) (fun x bd hx => ?_) (by rw [hobj]; exact brResult)
  rw [hb x] at hx
  unfold Occs.of at hx
  by_cases h1 : x = str "lhs"
  · subst h1; cases hx; exact ⟨_, rfl, rfl⟩
  · by_cases h2 : x = str "rhs"
    · subst h2; cases hx; exact ⟨_, rfl, rfl⟩
    · rw [List.filter_cons_of_neg (by simpa using fun h => h1 h.symm), List.filter_cons_of_neg (by simpa using fun h => h2 h.symm)] at hx
      cases hx

/-- The tree of `"%s" % (x)` (or `"%s" % x`). -/
def brFormat : Val :=
  .node 3 (str "BinOp") [str "left", str "op", str "right"]
    [.node 4 (str "Constant") [str "value", str "kind"] [.const 0 (.str (str "%s")), .const 0 .none], codeNode (str "Mod") [], brName 1 "x"]

/-- A file with it; `span` is its place. -/
def brFormatFile (text : Str) (span : Span) : Ctx := { brCtx text (brModule brFormat) with tok := fun i => if i = 3 then some span else none }

theorem brFormatFile_regex (text : Str) (span : Span) : RegexFits (fun ch => ch.isDigit = true) (brFormatFile text span) :=
  ⟨(brCtx_regex text (brModule brFormat)).constant, (brCtx_regex text (brModule brFormat)).parens, rfl, rfl⟩

theorem brFormatFile_tree (text : Str) (span : Span) : FileTree (brFormatFile text span).tree [.other] := .mk (.cons (.other (by decide) (by decide)) .nil)

theorem brFormat_parsed : Parsed exPython false brFormat := by
  have h1 : Parsed exPython false (.node 4 (str "Constant") [str "value", str "kind"] [.const 0 (.str (str "%s")), .const 0 .none]) := by
    have h := parsed_node2 exPython_ok (ty := str "Constant") (n1 := str "value") (n2 := str "kind") (b1 := false) (b2 := false) (by decide) (by decide)
      (parsed_str exPython_ok (str "%s")) (parsed_none exPython_ok)
    cases h with
    | node h1 h2 h3 h4 h5 => exact .node h1 h2 h3 h4 h5
  have h := parsed_node3 exPython_ok (ty := str "BinOp") (n1 := str "left") (n2 := str "op") (n3 := str "right") (b1 := false) (b2 := false) (b3 := false) (by decide) (by decide)
    h1 (parsed_plain exPython_ok (ty := str "Mod") (by decide)) (brName_parsed 1 "x")
  cases h with
  | node h1 h2 h3 h4 h5 => exact .node h1 h2 h3 h4 h5

/-- Non-vacuity of C81 for guarded and restricted rules: `"%s" % (x)` is found by the rule for superfluous parentheses, -/
example (r : Rule) (hr : r ∈ parensRules) (ks : List Key) :
    ∃ mi, run (brFormatFile (str "\"%s\" % (x)") (0, 10)) 200 [] (r.fixer exMangle).matcher brFormat ks = .ok (some mi, ks) := by
  have hb : r ∈ builtinRules := by unfold builtinRules; simp only [List.mem_append]; simp [hr]
  have hm := (exMangle_rules r hb).1
  cases List.mem_singleton.1 hr
  obtain ⟨h1, _⟩ := C81_finds (env := []) hb hm exPython_ok (brFormatFile_regex (str "\"%s\" % (x)") (0, 10)) (brFormatFile_tree _ _) brFormat_parsed (n := 200) (by decide) ks
  obtain ⟨mi, _, h, _⟩ := h1 ⟨_, .mod .var ⟨0, rfl⟩ .var, fun x => allAlike_short (by
      rw [occs_of_length]; exact count_le_of (l := [str "a", str "b"]) (k := 1) (by decide) x), fun x w hx k hk => by
        simp only [List.cons_append, List.nil_append, List.mem_cons, Prod.mk.injEq, List.not_mem_nil, or_false] at hx
        rcases hx with ⟨rfl, rfl⟩ | ⟨rfl, rfl⟩
        · cases hk; exact ⟨rfl, by decide⟩
        · cases hk; exact .inr rfl,
    ⟨_, ⟨0, 10, rfl, rfl⟩, (exEndsInParenthesis_iff _).1 (by decide)⟩⟩
  exact ⟨mi, h⟩

/-- and `"%s" % x` is not. -/
example (r : Rule) (hr : r ∈ parensRules) (ks : List Key) :
    run (brFormatFile (str "\"%s\" % x") (0, 8)) 200 [] (r.fixer exMangle).matcher brFormat ks = .ok (none, ks) := by
  have hb : r ∈ builtinRules := by unfold builtinRules; simp only [List.mem_append]; simp [hr]
  have hm := (exMangle_rules r hb).1
  cases List.mem_singleton.1 hr
  obtain ⟨_, h2⟩ := C81_finds (env := []) hb hm exPython_ok (brFormatFile_regex (str "\"%s\" % x") (0, 8)) (brFormatFile_tree _ _) brFormat_parsed (n := 200) (by decide) ks
  refine h2 fun ⟨occ, h⟩ => ?_
  obtain ⟨s, ⟨a, b, hs, rfl⟩, hp⟩ := h.guarded
  have hs : some ((0, 8) : Span) = some (a, b) := hs
  cases hs
  exact absurd ((exEndsInParenthesis_iff _).2 hp) (by decide)

end Refex
