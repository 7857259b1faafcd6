import Verif.Props.FixTexts
import Verif.Props.FixModeExamples
/- C101: a bit of Python that reads the patterns of the fixers, and mode `fix` with it. -/
namespace Refex
set_option autoImplicit false

/-- What a syntax tree has to be, as a check. -/
def syntacticCheck (tree : Val) : Bool := (allPos tree).all fun a => match a.2 with
  | .list _ vs => vs.all fun w => !w.isList
  | .node i ty ns vs => decide (ty ≠ str "Name") || (allPos (.node i ty ns vs)).all fun b => b.1.isEmpty || decide (b.2.ty ≠ str "Name")
  | .const _ _ => true

theorem syntactic_of_check {tree : Val} (h : syntacticCheck tree = true) : Syntactic tree := by
  have h := List.all_eq_true.1 h
  refine ⟨fun p i vs hp w hw => ?_, fun p v hp hn ht i q w hq => ?_⟩
  · have := h _ (mem_allPos _ _ _ hp)
    simp only at this
    simpa using List.all_eq_true.1 this w hw
  · have := h _ (mem_allPos _ _ _ hp)
    cases v with
    | const => cases hn
    | list => cases hn
    | node j ty ns vs =>
      have ht : ty = str "Name" := ht
      simp only [ht, ne_eq, not_true_eq_false, decide_false, Bool.false_or] at this
      rw [ht] at hq
      have := List.all_eq_true.1 this _ (mem_allPos _ _ _ hq)
      simpa using this

/-- The file with this statement. -/
def tfModule (s : Val) : Val := .node 0 (str "Module") [str "body", str "type_ignores"] [.list 0 [s], .list 0 []]

theorem tfModule_parser {s : Val} (hs : Syntactic s) (hn : s.isNode = true) (he : s.ty = str "Expr" → ∃ i e, s = .node i (str "Expr") [str "value"] [e]) :
    ParserTree (tfModule s) := by
  refine ⟨?_, rfl, ⟨0, _, ⟨0, _, _, _, rfl, rfl⟩, fun w hw => ?_⟩, fun n hn' => ?_⟩
  · refine syntactic_of (fun w hw => ?_) (by intro i vs e; cases e) (fun _ h => absurd h (by show ¬ str "Module" = str "Name"; decide))
    simp only [tfModule, Val.children, List.mem_cons, List.not_mem_nil, or_false] at hw
    rcases hw with rfl | rfl
    · refine syntactic_of (fun w hw => ?_) (fun i vs e w hw => ?_) (by intro h; cases h)
      · rw [List.mem_singleton.1 hw]; exact hs
      · cases e
        rw [List.mem_singleton.1 hw]
        cases s with
        | list => cases hn
        | _ => rfl
    · exact syntactic_of (fun w hw => (by cases hw)) (fun i vs e w hw => (by cases e; cases hw)) (by intro h; cases h)
  · rw [List.mem_singleton.1 hw]
    exact ⟨hn, fun h => by obtain ⟨i, e, rfl⟩ := he h; exact ⟨e, i, _, _, _, rfl, rfl⟩⟩
  · have hsub : ∀ {v w : Val}, v.children = [w] → v.ty ≠ str "Name" → NameIn v n → NameIn w n := by
      intro v w h1 h2 h3
      rw [nameIn_cases, h1] at h3
      rcases h3 with ⟨h, _⟩ | ⟨u, hu, h⟩
      · exact absurd h h2
      · rw [List.mem_singleton.1 hu] at h; exact h
    have h1 : NameIn (.list 0 [s]) n := by
      rw [nameIn_cases] at hn'
      rcases hn' with ⟨h, _⟩ | ⟨u, hu, h⟩
      · exact absurd h (by show ¬ str "Module" = str "Name"; decide)
      · simp only [tfModule, Val.children, List.mem_cons, List.not_mem_nil, or_false] at hu
        rcases hu with rfl | rfl
        · exact h
        · rw [nameIn_cases] at h
          rcases h with ⟨h, _⟩ | ⟨u, hu, h⟩
          · exact absurd h (by show ¬ str "list" = str "Name"; decide)
          · cases hu
    have h2 := hsub (w := s) rfl (by show ¬ str "list" = str "Name"; decide) h1
    refine ⟨0, _, _, ⟨0, _, _, _, rfl, rfl⟩, List.mem_singleton.2 rfl, h2, fun e' ht he' => ?_⟩
    obtain ⟨i, e, rfl⟩ := he ht
    have h3 := hsub (w := e) rfl (by show ¬ str "Expr" = str "Name"; decide) h2
    have := he'.getattr
    subst this
    exact h3

mutual
/-- A check that two trees read alike. -/
def alikeCheck : Val → Val → Bool
  | .const _ c, .const _ d => decide (c = d)
  | .list _ vs, .list _ ws => alikeChecks vs ws
  | .node _ ty ns vs, .node _ ty' ns' ws => decide (ty = ty') && decide (ns = ns') && alikeChecks vs ws
  | _, _ => false
/-- The same for lists. -/
def alikeChecks : List Val → List Val → Bool
  | [], [] => true
  | v :: vs, w :: ws => alikeCheck v w && alikeChecks vs ws
  | _, _ => false
end

mutual
theorem alike_of_check : ∀ v w : Val, alikeCheck v w = true → ReadAlike v w
  | .const _ c, .const _ d, h => by
    rw [alikeCheck, decide_eq_true_eq] at h; subst h; exact .const
  | .list _ vs, .list _ ws, h => by
    rw [alikeCheck] at h
    exact .list (alikes_of_check vs ws h).1 (alikes_of_check vs ws h).2
  | .node _ ty ns vs, .node _ ty' ns' ws, h => by
    simp only [alikeCheck, Bool.and_eq_true, decide_eq_true_eq] at h
    obtain ⟨⟨h1, h2⟩, h3⟩ := h
    subst h1; subst h2
    exact .node (alikes_of_check vs ws h3).1 fun k v w hv hw _ => (alikes_of_check vs ws h3).2 k v w hv hw
  | .const _ _, .list _ _, h => by simp [alikeCheck] at h
  | .const _ _, .node _ _ _ _, h => by simp [alikeCheck] at h
  | .list _ _, .const _ _, h => by simp [alikeCheck] at h
  | .list _ _, .node _ _ _ _, h => by simp [alikeCheck] at h
  | .node _ _ _ _, .const _ _, h => by simp [alikeCheck] at h
  | .node _ _ _ _, .list _ _, h => by simp [alikeCheck] at h
theorem alikes_of_check : ∀ vs ws : List Val, alikeChecks vs ws = true →
    vs.length = ws.length ∧ ∀ (k : Nat) v w, vs[k]? = some v → ws[k]? = some w → ReadAlike v w
  | [], [], _ => ⟨rfl, by intro k v w h; simp at h⟩
  | v :: vs, w :: ws, h => by
    simp only [alikeChecks, Bool.and_eq_true] at h
    obtain ⟨h1, h2⟩ := alikes_of_check vs ws h.2
    refine ⟨by simp [h1], fun k x y hx hy => ?_⟩
    cases k with
    | zero => cases hx; cases hy; exact alike_of_check v w h.1
    | succ k => exact h2 k x y (by simpa using hx) (by simpa using hy)
  | [], _ :: _, h => by simp [alikeChecks] at h
  | _ :: _, [], h => by simp [alikeChecks] at h
end

/-- All patterns of the fixers, and their templates. -/
def tfPatterns : List (PatternKind × Code) := builtinRules.map (fun r => (r.kind.asPattern, r.old)) ++ otherPatterns.map (fun e => (e.1, e.2.2)) ++
  builtinRules.map (fun r => (r.kind.asPattern, r.new)) ++ [(.stmt, .expr (.attr (.name (str "logging")) (str "exception")))]

/-- A statement pattern, or an expression as a statement. -/
def tfStatement (e : PatternKind × Code) : Code := if e.1 = .expr then .expr e.2 else e.2

/-- A parser that knows the patterns. -/
def tfParse (s : Str) : Option Val :=
  (tfPatterns.find? fun e => decide ((e.2.named gensymName).text = s)).map fun e => tfModule ((tfStatement e).val gensymName)

/-- Just enough of Python: sets of indices are iterated backwards. -/
def tfPy : Python := { fxPy with tokens := fun s => some (lineTokens s), parse := tfParse, iter := List.reverse }

/-- What is checked of each pattern. -/
def tfCheck (e : PatternKind × Code) : Bool :=
  match tfPatterns.find? fun d => decide ((d.2.named gensymName).text = (e.2.named gensymName).text) with
  | none => false
  | some d => syntacticCheck ((tfStatement d).val gensymName) && ((tfStatement d).val gensymName).isNode && decide (d.1 = e.1) && decide (d.1 ≠ .module) &&
      alikeCheck (d.2.val gensymName) ((e.2.named gensymName).val fun x => x)

theorem tfPatterns_check : tfPatterns.all tfCheck = true := by decide +kernel

theorem code_expr (p : Code) (h : (p.val gensymName).ty = str "Expr") : ∃ i e, p.val gensymName = .node i (str "Expr") [str "value"] [e] := by
  cases p with
  | expr e => exact ⟨0, _, rfl⟩
  | comp set e t i =>
    have h : (if set then str "SetComp" else str "ListComp") = str "Expr" := h
    cases set <;> exact absurd h (by decide)
  | «var» => exact absurd (show str "Name" = str "Expr" from h) (by decide)
  | «name» => exact absurd (show str "Name" = str "Expr" from h) (by decide)
  | «int» => exact absurd (show str "Constant" = str "Expr" from h) (by decide)
  | «attr» => exact absurd (show str "Attribute" = str "Expr" from h) (by decide)
  | «call» => exact absurd (show str "Call" = str "Expr" from h) (by decide)
  | «keyword» => exact absurd (show str "keyword" = str "Expr" from h) (by decide)
  | «compare» => exact absurd (show str "Compare" = str "Expr" from h) (by decide)
  | «tuple1» => exact absurd (show str "Tuple" = str "Expr" from h) (by decide)
  | «emptyList» => exact absurd (show str "List" = str "Expr" from h) (by decide)
  | «emptyDict» => exact absurd (show str "Dict" = str "Expr" from h) (by decide)
  | «assign» => exact absurd (show str "Assign" = str "Expr" from h) (by decide)
  | «mod» => exact absurd (show str "BinOp" = str "Expr" from h) (by decide)
  | «not» => exact absurd (show str "UnaryOp" = str "Expr" from h) (by decide)

theorem tf_reads {e : PatternKind × Code} (he : e ∈ tfPatterns) : ReadsCode tfPy e.1 e.2 := by
  have h := List.all_eq_true.1 tfPatterns_check e he
  refine ⟨rfl, ?_⟩
  unfold tfCheck at h
  show ∃ tree t, tfParse _ = some tree ∧ _
  unfold tfParse
  cases hf : tfPatterns.find? fun d => decide ((d.2.named gensymName).text = (e.2.named gensymName).text) with
  | none => rw [hf] at h; cases h
  | some d =>
    rw [hf] at h
    simp only [Bool.and_eq_true, decide_eq_true_eq] at h
    obtain ⟨⟨⟨⟨h1, h2⟩, h3⟩, h4⟩, h5⟩ := h
    refine ⟨_, d.2.val gensymName, rfl, tfModule_parser (syntactic_of_check h1) h2 (code_expr _), ?_, alike_of_check _ _ h5⟩
    rw [← h3]
    obtain ⟨kind, p⟩ := d
    cases kind with
    | module => exact absurd rfl h4
    | stmt => exact .stmt rfl ⟨0, _, _, _, rfl, rfl⟩
    | expr => exact .expr rfl ⟨0, _, _, _, rfl, rfl⟩ rfl ⟨0, _, _, _, rfl, rfl⟩

/-- The hypotheses of the theorems can be met. -/
theorem tfReads : ReadsPatterns tfPy where
  iter := fun l => List.reverse_perm l
  rules := fun r hr => tf_reads (e := (r.kind.asPattern, r.old)) (List.mem_append_left _ (List.mem_append_left _ (List.mem_append.2 (.inl (List.mem_map.2 ⟨r, hr, rfl⟩)))))
  others := fun e he => tf_reads (e := (e.1, e.2.2)) (List.mem_append_left _ (List.mem_append_left _ (List.mem_append.2 (.inr (List.mem_map.2 ⟨e, he, rfl⟩)))))

/-- So the pattern of the rule for `self.assertTrue($lhs == $rhs)` is made. -/
example : tfPy.restricted .expr (str "self.assertTrue($lhs == $rhs)") [] = .ok ((assertCmp "assertTrue" "Eq").pattern gensymName []) :=
  C101_pattern (r := assertRule "self.assertTrue($lhs == $rhs)" (assertCmp "assertTrue" "Eq") "self.assertEqual($lhs, $rhs)" (selfCall "assertEqual" [vLhs, vRhs]) "assertEqual")
    tfReads (by simp [builtinRules, unittestRules])

/-- Python with mode `fix` made of texts. -/
def Python.withTextFixers (py : Python) (groups : Str → List Label) : Python := { py with fixer := py.textFixer groups }

theorem withTextFixers_fixer (py : Python) (groups : Str → List Label) : (py.withTextFixers groups).fixer = (py.withTextFixers groups).textFixer groups := by
  have h1 : ∀ kind text rs, (py.withTextFixers groups).restricted kind text rs = py.restricted kind text rs := fun _ _ _ => rfl
  have h2 : ∀ cs is us pattern, (py.withTextFixers groups).groupsFixer cs is us groups pattern = py.groupsFixer cs is us groups pattern := by
    intro cs is us pattern
    have h : ∀ names, (py.withTextFixers groups).makeTemplates names = py.makeTemplates names := by
      intro names
      induction names with
      | nil => rfl
      | cons n names ih =>
        have e : (py.withTextFixers groups).fixTemplate n = py.fixTemplate n := rfl
        rw [Python.makeTemplates, Python.makeTemplates, ih, e]
    unfold Python.groupsFixer
    rw [h]
    rfl
  have h3 : ∀ rs, (py.withTextFixers groups).ruleFixers rs = py.ruleFixers rs := by
    intro rs
    induction rs with
    | nil => rfl
    | cons r rs ih => rw [Python.ruleFixers, Python.ruleFixers, ih]; unfold Python.ruleFixer; rw [h1]
  show py.textFixer groups = _
  funext pattern
  unfold Python.textFixer Python.correctnessFixers Python.idiomFixers Python.unittestFixers Python.attribFixer Python.loggingErrorFixer Python.loggingExceptionFixer
  simp only [h1, h2, h3]

theorem withTextFixers_reads {py : Python} (groups : Str → List Label) (h : ReadsPatterns py) : ReadsPatterns (py.withTextFixers groups) where
  iter := h.iter
  rules := fun r hr => ⟨(h.rules r hr).tokens, (h.rules r hr).tree⟩
  others := fun e he => ⟨(h.others e he).tokens, (h.others e he).tree⟩

/-- So it is mode `fix` as in C97. -/
example : (tfPy.withTextFixers fun _ => []).fixer = (tfPy.withTextFixers fun _ => []).builtinFixer gensymName fun _ => [] :=
  (C101_command (withTextFixers_reads _ tfReads) (withTextFixers_fixer _ _)).1

end Refex
