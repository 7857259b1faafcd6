import Verif.Props.PyTemplate
/- Examples for C53: `-$x` with `a + b` for `$x`, and a base of a class replaced by a tuple. -/
namespace Refex
set_option autoImplicit false

/-- The node types of the examples. -/
def tplTypes : List Str := [str "Module", str "Expr", str "UnaryOp", str "USub", str "BinOp", str "Add", str "Name", str "Load", str "Tuple",
  str "ClassDef", str "Pass"]

/-- Their fields. -/
def tplFields (t : Str) : List (Str × Bool) :=
  if t = str "Module" then [(str "body", true), (str "type_ignores", true)]
  else if t = str "Expr" then [(str "value", false)]
  else if t = str "UnaryOp" then [(str "op", false), (str "operand", false)]
  else if t = str "BinOp" then [(str "left", false), (str "op", false), (str "right", false)]
  else if t = str "Name" then [(str "id", false), (str "ctx", false)]
  else if t = str "Tuple" then [(str "elts", true), (str "ctx", false)]
  else if t = str "ClassDef" then [(str "name", false), (str "bases", true), (str "body", true)]
  else []

/-- The grammar of the examples. -/
def tplGrammar : Grammar := ⟨fun t => t ∈ tplTypes, tplFields⟩

theorem tplGrammar_modules : HasModules tplGrammar where
  list := by show str "list" ∉ tplTypes; decide
  module := by show str "Module" ∈ tplTypes; decide
  moduleFields := rfl
  expr := by show str "Expr" ∈ tplTypes; decide
  exprFields := rfl

/-- A node. -/
def tplNode (i : Nat) (t : Str) (vs : List Val) : Val := .node i t ((tplFields t).map Prod.fst) vs

/-- A name. -/
def tplName (i : Nat) (s : Str) : Val := tplNode i (str "Name") [.const (i + 1) (.str s), tplNode (i + 2) (str "Load") []]

/-- `a + b`. -/
def tplSum (i : Nat) : Val := tplNode i (str "BinOp") [tplName (i + 1) (str "a"), tplNode (i + 4) (str "Add") [], tplName (i + 5) (str "b")]

/-- `-v`. -/
def tplNeg (i : Nat) (v : Val) : Val := tplNode i (str "UnaryOp") [tplNode (i + 1) (str "USub") [], v]

/-- A module with one statement. -/
def tplModule (i : Nat) (s : Val) : Val := tplNode i (str "Module") [.list (i + 1) [s], .list (i + 2) []]

/-- An expression statement. -/
def tplExpr (i : Nat) (v : Val) : Val := tplNode i (str "Expr") [v]

/-- A parsed file without anything special. -/
def tplCtx (text : Str) (tree : Val) (tok : Nat → Option Span) : Ctx where
  text := text
  tree := tree
  tok := tok
  comment := fun _ => false
  lineno := fun _ => none
  rxGroups := fun _ => []
  rxMatch := fun _ _ _ => none
  rxSearch := fun _ => none
  rewrite := fun _ _ => none

/-- A parser for the texts of the examples. `-a + b` is `(-a) + b`. -/
def tplParse (s : Str) : Option Ctx :=
  if s = str "-(a + b)" then some (tplCtx s (tplModule 100 (tplExpr 103 (tplNeg 104 (tplSum 106)))) (fun _ => none))
  else if s = str "-a + b" then some (tplCtx s (tplModule 100 (tplExpr 103 (tplNode 104 (str "BinOp")
    [tplNeg 105 (tplName 107 (str "a")), tplNode 110 (str "Add") [], tplName 111 (str "b")]))) (fun _ => none))
  else if s = str "T1, T2" then some (tplCtx s (tplModule 100 (tplExpr 103 (tplNode 104 (str "Tuple")
    [.list 105 [tplName 106 (str "T1"), tplName 109 (str "T2")], tplNode 112 (str "Load") []]))) (fun _ => none))
  else none

/-- The template `-$x`. -/
def tplMinus : PyTemplate where
  template := str "-$x"
  toks := [⟨.other, str "-", (1, 0), (1, 1)⟩, ⟨.other, str "x", (1, 1), (1, 3)⟩, ⟨.newline, str "", (1, 3), (1, 4)⟩, ⟨.endmarker, str "", (2, 0), (2, 0)⟩]
  metas := [1]
  astMatcher := patternMatcher (submatchers [] [(str "x", str "gensym_x")] []) (tplModule 1 (tplExpr 4 (tplNeg 5 (tplName 7 (str "gensym_x")))))

/-- `a + b` substituted into `-$x` gives `-(a + b)`, and not `-a + b`: the hypotheses of `C53_structure` are met. -/
theorem tplMinus_result : tplMinus.parenthesized 60 tplParse [(str "x", exactMatcher (tplSum 200))] [(str "x", str "a + b")] =
    .ok (str "-(a + b)", [(str "x", str "(a + b)")]) := by
  rfl

/-! The trees are trees of the grammar. -/

theorem tplNode_parsed {i : Nat} {t : Str} {vs : List Val} (ht : t ∈ tplTypes) (hn : ((tplFields t).map Prod.fst).Nodup)
    (h : Each (fun f v => Parsed tplGrammar f.2 v) (tplFields t) vs) : Parsed tplGrammar false (tplNode i t vs) := by
  refine .node ht rfl hn ?_ ?_
  · rw [List.length_map]; exact h.length.symm
  · intro k f v hf hv
    obtain ⟨f', hf', hp⟩ := h.getElem? hv
    have hf : (tplFields t)[k]? = some f := hf
    rw [hf'] at hf; cases hf; exact hp

theorem tplStr_parsed (i : Nat) (s : Str) : Parsed tplGrammar false (.const i (.str s)) :=
  .const (by show ¬ (Val.const i (.str s)).ty ∈ tplTypes; show ¬ (str "str") ∈ tplTypes; decide)

theorem tplName_parsed (i : Nat) (s : Str) : Parsed tplGrammar false (tplName i s) :=
  tplNode_parsed (by decide) (by decide) (.cons (tplStr_parsed ..) (.cons (tplNode_parsed (by decide) (by decide) .nil) .nil))

theorem tplBin_parsed {i j : Nat} {a b : Val} (ha : Parsed tplGrammar false a) (hb : Parsed tplGrammar false b) :
    Parsed tplGrammar false (tplNode i (str "BinOp") [a, tplNode j (str "Add") [], b]) :=
  tplNode_parsed (by decide) (by decide) (.cons ha (.cons (tplNode_parsed (by decide) (by decide) .nil) (.cons hb .nil)))

theorem tplNeg_parsed {i : Nat} {v : Val} (h : Parsed tplGrammar false v) : Parsed tplGrammar false (tplNeg i v) :=
  tplNode_parsed (by decide) (by decide) (.cons (tplNode_parsed (by decide) (by decide) .nil) (.cons h .nil))

theorem tplModule_parsed {i j : Nat} {v : Val} (h : Parsed tplGrammar false v) : Parsed tplGrammar false (tplModule i (tplExpr j v)) :=
  tplNode_parsed (by decide) (by decide) (.cons (.list (by
    intro w hw; simp at hw; subst hw
    exact tplNode_parsed (by decide) (by decide) (.cons h .nil))) (.cons (.list (by simp)) .nil))

theorem tplParse_parsed (s : Str) (c : Ctx) (h : tplParse s = some c) : Parsed tplGrammar false c.tree := by
  unfold tplParse at h
  split at h
  · cases h; exact tplModule_parsed (tplNeg_parsed (tplBin_parsed (tplName_parsed ..) (tplName_parsed ..)))
  · split at h
    · cases h; exact tplModule_parsed (tplBin_parsed (tplNeg_parsed (tplName_parsed ..)) (tplName_parsed ..))
    · split at h
      · cases h
        refine tplModule_parsed (tplNode_parsed (by decide) (by decide) (.cons (.list ?_) (.cons (tplNode_parsed (by decide) (by decide) .nil) .nil)))
        intro w hw
        simp at hw
        rcases hw with rfl | rfl
        · exact tplName_parsed ..
        · exact tplName_parsed ..
      · cases h

theorem tplMinus_template : TemplateOf tplGrammar tplMinus .module [] [(str "x", str "gensym_x")]
    (tplModule 1 (tplExpr 4 (tplNeg 5 (tplName 7 (str "gensym_x"))))) :=
  ⟨rfl, by simp, tplModule_parsed (tplNeg_parsed (tplName_parsed ..))⟩

/-- What `C53_structure` says in this case. -/
example : ∃ c occ, tplParse (str "-(a + b)") = some c ∧ Substituted tplGrammar .module [] [(str "x", str "gensym_x")]
    (tplModule 1 (tplExpr 4 (tplNeg 5 (tplName 7 (str "gensym_x"))))) [(str "x", exactMatcher (tplSum 200))] c occ :=
  let ⟨_, _, c, occ, h1, h2, _⟩ := C53_structure tplGrammar_modules tplParse_parsed tplMinus_template (by simp [Dict.WF, Dict.keys]) tplMinus_result
  ⟨c, occ, h1, h2⟩

/-! ### A base of a class -/

/-- `class A(T): pass`. -/
def tplClass : Ctx :=
  tplCtx (str "class A(T): pass\n") (tplModule 1 (tplNode 10 (str "ClassDef") [.const 11 (.str (str "A")), .list 12 [tplName 13 (str "T")],
    .list 20 [tplNode 21 (str "Pass") []]])) (fun i => if i = 13 then some (8, 9) else if i = 10 then some (0, 16) else none)

/-- The template `T1, T2`, for an expression. -/
def tplPair : PyTemplate where
  template := str "T1, T2"
  toks := [⟨.other, str "T1", (1, 0), (1, 2)⟩, ⟨.other, str ",", (1, 2), (1, 3)⟩, ⟨.other, str "T2", (1, 4), (1, 6)⟩,
    ⟨.newline, str "", (1, 6), (1, 7)⟩, ⟨.endmarker, str "", (2, 0), (2, 0)⟩]
  metas := []
  astMatcher := exprTemplate (patternMatcher [] (tplNode 104 (str "Tuple")
    [.list 105 [tplName 106 (str "T1"), tplName 109 (str "T2")], tplNode 112 (str "Load") []]))

/-- Python, as far as the example goes. -/
def tplEnv : PyEnv where
  isExpr v := decide (v.ty ∈ [str "Name", str "Tuple", str "BinOp", str "UnaryOp"])
  isStmt v := decide (v.ty ∈ [str "ClassDef", str "Expr", str "Pass"])
  parse := tplParse
  template := fun _ => none

theorem tplClass_parents : getParent tplClass.tree (tplName 13 (str "T")) = some (.list 12 [tplName 13 (str "T")]) ∧
    getParent tplClass.tree (.list 12 [tplName 13 (str "T")]) = some (tplNode 10 (str "ClassDef") [.const 11 (.str (str "A")), .list 12 [tplName 13 (str "T")],
      .list 20 [tplNode 21 (str "Pass") []]]) := by
  have n13 : tplName 13 (str "T") = .node 13 (str "Name") [str "id", str "ctx"] [.const 14 (.str (str "T")), .node 15 (str "Load") [] []] := rfl
  have n10 : tplNode 10 (str "ClassDef") [.const 11 (.str (str "A")), .list 12 [tplName 13 (str "T")], .list 20 [tplNode 21 (str "Pass") []]] =
    .node 10 (str "ClassDef") [str "name", str "bases", str "body"] [.const 11 (.str (str "A")),
      .list 12 [.node 13 (str "Name") [str "id", str "ctx"] [.const 14 (.str (str "T")), .node 15 (str "Load") [] []]],
      .list 20 [.node 21 (str "Pass") [] []]] := rfl
  have tree : tplClass.tree = .node 1 (str "Module") [str "body", str "type_ignores"] [.list 2 [.node 10 (str "ClassDef") [str "name", str "bases", str "body"]
      [.const 11 (.str (str "A")),
        .list 12 [.node 13 (str "Name") [str "id", str "ctx"] [.const 14 (.str (str "T")), .node 15 (str "Load") [] []]],
        .list 20 [.node 21 (str "Pass") [] []]]], .list 3 []] := rfl
  rw [tree, n10, n13]
  constructor <;>
  simp [getParent, breadcrumbs, breadcrumbLoop, crumbsOf, attrCrumbs, itemCrumbs, recordCrumbs, Val.isNone, Val.ident, Dict.set, Dict.get?]

/-- **C53**, refutation: below a statement with a body the replacement is not checked in its place: replacing the base `T` of
`class A(T): pass` by the one expression `T1, T2` gives the text `T1, T2`, without parentheses, and so a class with two
bases. -/
theorem C53_class_base_false : tplPair.substituteMatch 60 tplEnv (some tplClass) (createMatch tplClass (tplName 13 (str "T"))) [] = .ok (str "T1, T2") ∧
    createMatch tplClass (tplName 13 (str "T")) = .lexical (tplName 13 (str "T")) (8, 9) := by
  refine ⟨?_, rfl⟩
  have hp : tplPair.parenthesized 60 tplEnv.parse (matchersFor tplEnv.isExpr []) (stringified []) = .ok (str "T1, T2", []) := rfl
  have hm : createMatch tplClass (tplName 13 (str "T")) = .lexical (tplName 13 (str "T")) (8, 9) := rfl
  have hr : reparseParent tplEnv tplClass (tplClass.tree.size + 1) (.list 12 [tplName 13 (str "T")]) = .ok none := by
    rw [reparseParent, show ownSpan tplEnv tplClass (.list 12 [tplName 13 (str "T")]) = none from rfl]
    simp only [tplClass_parents.2]
    rfl
  rw [hm]
  unfold PyTemplate.substituteMatch
  simp only [hp, tplClass_parents.1, hr]
  rfl

end Refex
