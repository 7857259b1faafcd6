import Verif.Props.Surroundings
import Verif.Props.PyTemplateExamples
/- Examples for C80: the operand of `-T` and the base of `class A(T)`. -/
namespace Refex
set_option autoImplicit false

/-- `-T`. -/
def tplNegT : Ctx :=
  tplCtx (str "-T") (tplModule 1 (tplExpr 4 (tplNeg 5 (tplName 7 (str "T")))))
    (fun i => if i = 7 then some (1, 2) else if i = 5 then some (0, 2) else if i = 4 then some (0, 2) else none)

/-- The template `a + b`, for an expression. -/
def tplPlus : PyTemplate where
  template := str "a + b"
  toks := [⟨.other, str "a", (1, 0), (1, 1)⟩, ⟨.other, str "+", (1, 2), (1, 3)⟩, ⟨.other, str "b", (1, 4), (1, 5)⟩,
    ⟨.newline, str "", (1, 5), (1, 6)⟩, ⟨.endmarker, str "", (2, 0), (2, 0)⟩]
  metas := []
  astMatcher := exprTemplate (patternMatcher [] (tplSum 300))

/-- The template `(-$current_expr)`. -/
def tplPseudo : PyTemplate where
  template := str "(-$current_expr)"
  toks := [⟨.other, str "(", (1, 0), (1, 1)⟩, ⟨.other, str "-", (1, 1), (1, 2)⟩, ⟨.other, str "current_expr", (1, 2), (1, 15)⟩,
    ⟨.other, str ")", (1, 15), (1, 16)⟩, ⟨.newline, str "", (1, 16), (1, 17)⟩, ⟨.endmarker, str "", (2, 0), (2, 0)⟩]
  metas := [2]
  astMatcher := patternMatcher (submatchers [] [(str "current_expr", str "gensym")] []) (tplModule 1 (tplExpr 4 (tplNeg 5 (tplName 7 (str "gensym")))))

/-- Python, as far as the example goes. -/
def tplEnv2 : PyEnv where
  isExpr v := decide (v.ty ∈ [str "Name", str "Tuple", str "BinOp", str "UnaryOp"])
  isStmt v := decide (v.ty ∈ [str "ClassDef", str "Expr", str "Pass"])
  parse s :=
    if s = str "a + b" then some (tplCtx s (tplModule 100 (tplExpr 103 (tplSum 104))) (fun _ => none))
    else if s = str "(-(a + b))" then some (tplCtx s (tplModule 100 (tplExpr 103 (tplNeg 104 (tplSum 106)))) (fun _ => none))
    else if s = str "(-a + b)" then some (tplCtx s (tplModule 100 (tplExpr 103 (tplNode 104 (str "BinOp")
      [tplNeg 105 (tplName 107 (str "a")), tplNode 110 (str "Add") [], tplName 111 (str "b")]))) (fun _ => none))
    else none
  template s := if s = str "(-$current_expr)" then some tplPseudo else none

theorem tplNegT_unshared : Unshared tplNegT.tree := unshared_of_check (by decide)
theorem tplClass_unshared : Unshared tplClass.tree := unshared_of_check (by decide)

/-- The operand of `-T` is to fit into the whole of `-T`. -/
theorem tplNegT_fits : FitsInto tplEnv2 tplNegT [0, 0, 0, 1] (tplNeg 5 (tplName 7 (str "T"))) (0, 2) := by
  refine ⟨3, by decide, rfl, ⟨.inl rfl, _, .node (sp := (0, 2)) rfl (by decide) (by decide), .lexical ..⟩, fun h => ?_, fun j h1 h2 => ?_⟩
  · have := (hasBody_iff ..).2 h
    cases this
  · simp at h2; omega

/-- Replacing `T` in `-T` by `a + b` gives `(a + b)`. -/
example : tplPlus.substituteMatch 60 tplEnv2 (some tplNegT) (.lexical (tplName 7 (str "T")) (1, 2)) [] = .ok (str "(a + b)") := by
  rw [C80_checked (p := [0, 0, 0, 1]) (replacement := str "a + b") (map := []) tplNegT_unshared rfl (by intro i c h; cases h) rfl rfl ?_ tplNegT_fits]
  · rfl
  · rintro ⟨v, _, h1, h2⟩
    have h1 : tplNegT.tree.at? [0, 0, 0] = some v := h1
    have : v = tplNeg 5 (tplName 7 (str "T")) := (Option.some.inj h1).symm
    subst this
    exact absurd h2 (by decide)

/-- Nothing but the class itself is around the base of `class A(T)`. -/
theorem tplClass_only : OnlyCompoundAround tplEnv tplClass [0, 0, 1, 0] := by
  refine ⟨2, _, by decide, rfl, (hasBody_iff ..).1 rfl, fun j h1 h2 v hv => ?_⟩
  have : j = 3 := by simp at h2; omega
  subst this
  have : v = .list 12 [tplName 13 (str "T")] := (Option.some.inj hv).symm
  subst this
  refine ⟨(ownSpan_none ..).1 rfl, fun h => ?_⟩
  have := (hasBody_iff ..).2 h
  cases this

example : tplPair.substituteMatch 60 tplEnv (some tplClass) (.lexical (tplName 13 (str "T")) (8, 9)) [] = .ok (str "T1, T2") :=
  C80_verbatim (p := [0, 0, 1, 0]) (map := []) tplClass_unshared rfl (by intro i c h; cases h) rfl (.inr (.inr tplClass_only))

end Refex
