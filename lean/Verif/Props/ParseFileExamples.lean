import Verif.Props.ParseFile
import Verif.Props.FixEditsExamples
/- C105: `ast.parse` shares `Load()` among the names of `self.assertTrue(x == y)`. -/
namespace Refex
set_option autoImplicit false

/-- A name; all names share the object 100. -/
def pfName (i : Nat) (s : Str) : Val := .node i (str "Name") [str "id", str "ctx"] [.const (i + 1) (.str s), .node 100 (str "Load") [] []]

/-- The tree of `ast.parse`. -/
def pfTree : Val := .node 10 (str "Module") [str "body", str "type_ignores"]
  [.list 11 [.node 12 (str "Expr") [str "value"] [.node 20 (str "Call") [str "func", str "args", str "keywords"]
    [.node 21 (str "Attribute") [str "value", str "attr", str "ctx"] [pfName 22 (str "self"), .const 25 (.str (str "assertTrue")), .node 100 (str "Load") [] []],
     .list 27 [.node 28 (str "Compare") [str "left", str "ops", str "comparators"]
       [pfName 29 (str "x"), .list 32 [.node 33 (str "Eq") [] []], .list 34 [pfName 35 (str "y")]]],
     .list 38 []]]], .list 13 []]

/-- Its objects. -/
def pfStore : Nat → Obj
  | 10 => .node (str "Module") [str "body", str "type_ignores"] [11, 13]
  | 11 => .list [12]
  | 12 => .node (str "Expr") [str "value"] [20]
  | 13 => .list []
  | 20 => .node (str "Call") [str "func", str "args", str "keywords"] [21, 27, 38]
  | 21 => .node (str "Attribute") [str "value", str "attr", str "ctx"] [22, 25, 100]
  | 22 => .node (str "Name") [str "id", str "ctx"] [23, 100]
  | 23 => .const (.str (str "self"))
  | 25 => .const (.str (str "assertTrue"))
  | 27 => .list [28]
  | 28 => .node (str "Compare") [str "left", str "ops", str "comparators"] [29, 32, 34]
  | 29 => .node (str "Name") [str "id", str "ctx"] [30, 100]
  | 30 => .const (.str (str "x"))
  | 32 => .list [33]
  | 33 => .node (str "Eq") [] []
  | 34 => .list [35]
  | 35 => .node (str "Name") [str "id", str "ctx"] [36, 100]
  | 36 => .const (.str (str "y"))
  | 38 => .list []
  | _ => .node (str "Load") [] []

/-- The tree of `self.assertEqual(x, y)`. -/
def pfTree2 : Val := .node 10 (str "Module") [str "body", str "type_ignores"]
  [.list 11 [.node 12 (str "Expr") [str "value"] [.node 20 (str "Call") [str "func", str "args", str "keywords"]
    [.node 21 (str "Attribute") [str "value", str "attr", str "ctx"] [pfName 22 (str "self"), .const 25 (.str (str "assertEqual")), .node 100 (str "Load") [] []],
     .list 27 [pfName 29 (str "x"), pfName 35 (str "y")], .list 38 []]]], .list 13 []]

/-- Its objects. -/
def pfStore2 : Nat → Obj
  | 25 => .const (.str (str "assertEqual"))
  | 27 => .list [29, 35]
  | i => pfStore i

/-- Where the objects are. -/
def pfMarks (s : Str) (i : Nat) : Option Span :=
  if s = str "self.assertTrue(x == y)\n" then (if i = 12 then some (0, 23) else if i = 20 then some (0, 23) else if i = 29 then some (16, 17) else if i = 35 then some (21, 22) else none)
  else if s = str "self.assertEqual(x, y)" then (if i = 20 then some (0, 22) else if i = 29 then some (17, 18) else if i = 35 then some (20, 21) else none)
  else none

/-- Python, as far as these files go. -/
def pfFront : FrontEnd where
  ast s := if s = str "self.assertTrue(x == y)\n" then some ⟨pfStore, 101, 10⟩
    else if s ∈ [str "self.assertEqual(x, y)", str "self.assertEqual((x), (y))", str "self.assertEqual(x, (y))", str "self.assertEqual((x), y)"] then some ⟨pfStore2, 101, 10⟩
    else none
  marks s tree := { brCtx s tree with tok := pfMarks s }
  depth := 100

theorem pfParses : ParsesTo pfFront (str "self.assertTrue(x == y)\n") pfTree where
  result := ⟨⟨pfStore, 101, 10⟩, rfl, rfl, by simp [pfTree, pfName, Val.Reads, Val.ReadsAll, pfStore, Val.ident], by decide⟩
  module := ⟨_, _, _, rfl⟩
  once := by decide
  flat := by decide
  shaped := by decide
  depth := by decide

theorem pfParses2 {s : Str} (h1 : s ≠ str "self.assertTrue(x == y)\n")
    (h2 : s ∈ [str "self.assertEqual(x, y)", str "self.assertEqual((x), (y))", str "self.assertEqual(x, (y))", str "self.assertEqual((x), y)"]) : ParsesTo pfFront s pfTree2 where
  result := ⟨⟨pfStore2, 101, 10⟩, by show (if _ then _ else if _ then _ else _) = _; rw [if_neg h1, if_pos h2], rfl,
    by simp [pfTree2, pfName, Val.Reads, Val.ReadsAll, pfStore2, pfStore, Val.ident], by show ∀ j ∈ pfTree2.ids, j < 101; decide⟩
  module := ⟨_, _, _, rfl⟩
  once := by decide
  flat := by decide
  shaped := by decide
  depth := by decide

theorem pfFits : FrontEndFits (fun ch => ch.isDigit = true) exPython pfFront where
  grammar := exPython_ok
  trees := by
    intro s a h
    have h : (if s = str "self.assertTrue(x == y)\n" then some (AstResult.mk pfStore 101 10)
      else if s ∈ [str "self.assertEqual(x, y)", str "self.assertEqual((x), (y))", str "self.assertEqual(x, (y))", str "self.assertEqual((x), y)"] then some ⟨pfStore2, 101, 10⟩
      else none) = some a := h
    split at h
    · rename_i e
      subst e
      exact ⟨pfTree, [.other], pfParses, parsed_of_check false pfTree (by decide +kernel), .mk (.cons (.other (by decide) (by decide)) .nil),
        pythonNames_of_check (tree := pfTree) (by decide +kernel)⟩
    rename_i e
    split at h
    · rename_i e2
      exact ⟨pfTree2, [.other], pfParses2 e e2, parsed_of_check false pfTree2 (by decide +kernel), .mk (.cons (.other (by decide) (by decide)) .nil),
        pythonNames_of_check (tree := pfTree2) (by decide +kernel)⟩
    · cases h
  regex := fun s tree => ⟨(brCtx_regex s bsModule).1, (brCtx_regex s bsModule).2, ⟨rfl, rfl⟩⟩

/-- So the file has a tree of its own for each place, although the tree of `ast.parse` has not. -/
example : ¬ Unshared pfTree ∧ ∃ c, pfFront.parseAst (str "self.assertTrue(x == y)\n") = some c ∧ SameShape c.tree pfTree ∧ Unshared c.tree := by
  refine ⟨fun h => ?_, ?_⟩
  · have := h.distinct [0, 0, 0, 0, 0, 1] [0, 0, 0, 0, 2] (.node 100 (str "Load") [] []) (.node 100 (str "Load") [] []) rfl rfl rfl (by intro i c e; cases e)
    exact absurd this (by decide)
  · obtain ⟨c, h1, _, h2, h3, _⟩ := C105_tree pfParses
    exact ⟨c, h1, h2, h3⟩

/-- Python with these files. -/
def pfPy : Python := ({ tfPy with file := pfFront.parseAst } : Python).withTextFixers fun _ => []

theorem pfReads : ReadsPatterns pfPy where
  iter := feReads.iter
  rules := fun r hr => ⟨(feReads.rules r hr).tokens, (feReads.rules r hr).tree⟩
  others := fun e he => ⟨(feReads.others e he).tokens, (feReads.others e he).tree⟩

theorem pfReplacements : ReadsReplacements pfPy where
  rules := fun r hr => ⟨(feReplacements.rules r hr).tokens, (feReplacements.rules r hr).tree⟩
  logging := ⟨feReplacements.logging.tokens, feReplacements.logging.tree⟩
  ends := feReplacements.ends

theorem pfPyFits : PythonFits exPython pfPy where
  modules := feFits.modules
  tokens := feFits.tokens
  parse := feFits.parse
  grammar := feFits.grammar
  iter := feFits.iter
  file := fun s c h => by
    obtain ⟨h1, h2, h3, _⟩ := (C105_file pfFits (s := s)).2 c h
    exact ⟨h1, h2, h3⟩
  expr := feFits.expr

/-- The world. -/
def pfWorld : World := { exWorld with parseAst := pfPy.parseAst }

theorem pfFinds : commandEdits pfWorld pfPy.modes fxOptions (str "self.assertTrue(x == y)\n") exFile =
    some ([⟨str "self.assertEqual(x, y)", 0, 23⟩], str "self.assertEqual(x, y)\n") := by decide +kernel

/-- The hypotheses of C105_command are met, and `self.assertTrue(x == y)` becomes `self.assertEqual(x, y)`. -/
example : ∃ r fss out, runnerFromOptions pfWorld pfPy.modes fxOptions = .ok r ∧ Forall2 (FixersOf gensymName) fxOptions.searchReplace fss ∧
    r.find (str "self.assertTrue(x == y)\n") exFile = .ok out ∧ allEdits out = [⟨str "self.assertEqual(x, y)", 0, 23⟩] ∧
    IteratedResult (fun t => pfFront.ast t ≠ none) (FoundBy false pfPy.pragmas (fss.map (FixEdits pfPy gensymName (fun ch => ch.isDigit = true) exPython)))
      10 (str "self.assertTrue(x == y)\n") out := by
  obtain ⟨r, out, hr, hfind, hedits, _⟩ := commandEdits_sound pfFinds
  obtain ⟨fss, h1, h2⟩ := C105_command (groups := fun _ => []) pfFits pfPyFits pfReplacements pfReads (withTextFixers_fixer _ _) rfl (by decide) rfl hr rfl (by decide)
  exact ⟨r, fss, out, hr, h1, hfind, hedits, (h2 _ _ _ hfind).2.2.2⟩

end Refex
