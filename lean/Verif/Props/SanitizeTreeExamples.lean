import Verif.Props.SanitizeTree
import Verif.Props.Uniqueify
import Verif.Props.SelfReport
/-
C31: a concrete file to which `C31_search` applies.
-/
namespace Refex
set_option autoImplicit false

mutual
/-- All positions of a tree, with the objects there. -/
def Val.positions : Val → List (Path × Val)
  | .const i c => [([], .const i c)]
  | .list i vs => ([], .list i vs) :: Val.positionsFrom 0 vs
  | .node i t ns vs => ([], .node i t ns vs) :: Val.positionsFrom 0 vs
/-- All positions below a list of children, the first of which has number `k`. -/
def Val.positionsFrom : Nat → List Val → List (Path × Val)
  | _, [] => []
  | k, v :: vs => (v.positions.map fun e => (k :: e.1, e.2)) ++ Val.positionsFrom (k + 1) vs
end

mutual
theorem mem_positions : ∀ (t : Val) (p : Path) (v : Val), t.at? p = some v → (p, v) ∈ t.positions
  | .const i c, p, v, h => by
    cases p with
    | nil => simp only [Val.at?, Option.some.injEq] at h; subst h; simp [Val.positions]
    | cons k p => simp [Val.at?, Val.children] at h
  | .list i vs, p, v, h => by
    cases p with
    | nil => simp only [Val.at?, Option.some.injEq] at h; subst h; simp [Val.positions]
    | cons k p =>
      rw [at?_cons] at h
      simp only [Val.children] at h
      cases hk : vs[k]? with
      | none => rw [hk] at h; cases h
      | some w =>
        rw [hk] at h
        have := mem_positionsFrom vs 0 k p w v hk h
        rw [Nat.zero_add] at this
        simp only [Val.positions, List.mem_cons]
        exact .inr this
  | .node i t ns vs, p, v, h => by
    cases p with
    | nil => simp only [Val.at?, Option.some.injEq] at h; subst h; simp [Val.positions]
    | cons k p =>
      rw [at?_cons] at h
      simp only [Val.children] at h
      cases hk : vs[k]? with
      | none => rw [hk] at h; cases h
      | some w =>
        rw [hk] at h
        have := mem_positionsFrom vs 0 k p w v hk h
        rw [Nat.zero_add] at this
        simp only [Val.positions, List.mem_cons]
        exact .inr this
theorem mem_positionsFrom : ∀ (vs : List Val) (n k : Nat) (p : Path) (w v : Val), vs[k]? = some w → w.at? p = some v →
    ((n + k) :: p, v) ∈ Val.positionsFrom n vs
  | [], n, k, p, w, v, hk, h => by simp at hk
  | x :: vs, n, k, p, w, v, hk, h => by
    simp only [Val.positionsFrom, List.mem_append, List.mem_map]
    cases k with
    | zero =>
      simp only [List.getElem?_cons_zero, Option.some.injEq] at hk
      subst hk
      exact .inl ⟨(p, v), mem_positions x p v h, rfl⟩
    | succ k =>
      right
      rw [List.getElem?_cons_succ] at hk
      have := mem_positionsFrom vs (n + 1) k p w v hk h
      rwa [show n + 1 + k = n + (k + 1) by omega] at this
end

/-- `break` -/
def exBreak (i : Nat) : Val := .node i (str "Break") [] []

/-- `if x: break; break` over three lines. -/
def exIfBreaks : Val := .node 3 (str "If") [str "test", str "body"]
  [.node 4 (str "Name") [str "id"] [.const 5 (.str (str "x"))], .list 6 [exBreak 7, exBreak 8]]

/-- The tree of the file. -/
def exBreaksTree : Val := .node 1 (str "Module") [str "body"] [.list 2 [exIfBreaks]]

/-- The file. -/
def exBreaksCtx : Ctx := { exCtx with
  text := str "if x:\n  break\n  break\n"
  tree := exBreaksTree
  tok := fun i => if i = 3 then some (0, 21) else if i = 4 then some (3, 4) else if i = 7 then some (8, 13)
    else if i = 8 then some (16, 21) else none }

def exBreakMatcher : Matcher := .node (str "Break") [] []

theorem exBreaks_ordinary : Ordinary exBreaksCtx exBreakMatcher :=
  ⟨rfl, by intro l hl; simp [exBreakMatcher, Matcher.bindVars, Matcher.bindVarsList] at hl⟩

theorem exBreaks_itself : ReportsItself exBreaksCtx 5 exBreakMatcher := reportsItself_of rfl

theorem exBreaks_removing : Removing exTpls [] :=
  ⟨rfl, fun _ _ => rfl, fun _ _ => rfl⟩

theorem exBreaks_unshared : Unshared exBreaksTree :=
  unshared_of_reads (st := fun i => if i = 1 then .node (str "Module") [str "body"] [2] else if i = 2 then .list [3]
    else if i = 3 then .node (str "If") [str "test", str "body"] [4, 6] else if i = 4 then .node (str "Name") [str "id"] [5]
    else if i = 5 then .const (.str (str "x")) else if i = 6 then .list [7, 8] else .node (str "Break") [] [])
    (by unfold exBreaksTree exIfBreaks exBreak; refine ⟨rfl, ⟨rfl, ⟨rfl, ⟨rfl, rfl, trivial⟩, ⟨rfl, ⟨rfl, trivial⟩, ⟨rfl, trivial⟩, trivial⟩, trivial⟩, trivial⟩, trivial⟩) (by decide) (by decide)

theorem exBreaks_stmts {p : Path} {v : Val} (h : exBreaksTree.at? p = some v) (hv : v.IsStmt) :
    (p = [0, 0] ∧ v = exIfBreaks) ∨ (p = [0, 0, 1, 0] ∧ v = exBreak 7) ∨ (p = [0, 0, 1, 1] ∧ v = exBreak 8) := by
  have hm := mem_positions _ _ _ h
  obtain ⟨i, t, ns, vs, rfl, ht⟩ := hv
  simp only [exBreaksTree, exIfBreaks, exBreak, Val.positions, Val.positionsFrom, List.map_cons, List.map_nil, List.append_nil,
    List.cons_append, List.nil_append, List.mem_cons, List.not_mem_nil, or_false, Prod.mk.injEq, Val.node.injEq, reduceCtorEq, and_false,
    false_or] at hm
  rcases hm with ⟨_, _, rfl, _⟩ | ⟨rfl, rfl, rfl, rfl, rfl⟩ | ⟨_, _, rfl, _⟩ | ⟨rfl, rfl, rfl, rfl, rfl⟩ | ⟨rfl, rfl, rfl, rfl, rfl⟩
  · exact absurd ht (by decide)
  · exact .inl ⟨rfl, rfl⟩
  · exact absurd ht (by decide)
  · exact .inr (.inl ⟨rfl, rfl⟩)
  · exact .inr (.inr ⟨rfl, rfl⟩)

theorem exBreaks_laidOut : LaidOut exBreaksCtx exTokInfo := by
  have t1 : exBreaksCtx.tok exIfBreaks.ident = some (0, 21) := rfl
  have t2 : exBreaksCtx.tok (exBreak 7).ident = some (8, 13) := rfl
  have t3 : exBreaksCtx.tok (exBreak 8).ident = some (16, 21) := rfl
  constructor
  · intro p v h hv
    rcases exBreaks_stmts h hv with ⟨rfl, rfl⟩ | ⟨rfl, rfl⟩ | ⟨rfl, rfl⟩
    · exact ⟨_, t1, by decide⟩
    · exact ⟨_, t2, by decide⟩
    · exact ⟨_, t3, by decide⟩
  · intro p q v w sv sw hp hq hv hw hb h1 h2
    rcases exBreaks_stmts hp hv with ⟨rfl, rfl⟩ | ⟨rfl, rfl⟩ | ⟨rfl, rfl⟩ <;>
    rcases exBreaks_stmts hq hw with ⟨rfl, rfl⟩ | ⟨rfl, rfl⟩ | ⟨rfl, rfl⟩ <;>
    simp only [t1, t2, t3, Option.some.injEq] at h1 h2 <;> subst h1 <;> subst h2 <;> revert hb <;> decide
  · intro p q v w sv sw hp hq hv hw hb h1 h2
    rcases exBreaks_stmts hp hv with ⟨rfl, rfl⟩ | ⟨rfl, rfl⟩ | ⟨rfl, rfl⟩ <;>
    rcases exBreaks_stmts hq hw with ⟨rfl, rfl⟩ | ⟨rfl, rfl⟩ | ⟨rfl, rfl⟩ <;>
    simp only [t1, t2, t3, Option.some.injEq] at h1 h2 <;> subst h1 <;> subst h2 <;> revert hb <;> decide
  · intro p v sp s _ _ _ h; cases h
  · intro p q v w sw s _ _ _ _ _ h; cases h

theorem exBreaks_crumbs : breadcrumbs exBreaksTree =
    [(2, (exBreaksTree, .attr (str "body"))), (3, (.list 2 [exIfBreaks], .item 0)),
     (4, (exIfBreaks, .attr (str "test"))), (6, (exIfBreaks, .attr (str "body"))),
     (7, (.list 6 [exBreak 7, exBreak 8], .item 0)), (8, (.list 6 [exBreak 7, exBreak 8], .item 1)),
     (5, (.node 4 (str "Name") [str "id"] [.const 5 (.str (str "x"))], .attr (str "id")))] := by
  simp [exBreaksTree, exIfBreaks, exBreak, breadcrumbs, breadcrumbLoop, crumbsOf, attrCrumbs, itemCrumbs, recordCrumbs, Val.isNone,
    Val.ident, Dict.set]

/-- The match of a `break`, as the searcher sees it. -/
def exBreakMi (i : Nat) (sp : Span) : MatchInfo := ⟨.lexical (exBreak i) sp,
  [(str "__root", ⟨.lexical (exBreak i) sp, .merge, .keepLast⟩)], [(str "__root", [])]⟩

theorem exBreaks_found : treeFind exBreaksCtx 7 (fromMatcher exBreakMatcher [(str "__root", [])]) =
    ([exBreakMi 7 (8, 13), exBreakMi 8 (16, 21)], none) := by
  unfold treeFind
  have ed : exBreaksCtx.done = [] := rfl
  have et : exBreaksCtx.tree = .node 1 (str "Module") [str "body"] [.list 2 [exIfBreaks]] := rfl
  have e7 : attempt exBreaksCtx 7 (fromMatcher exBreakMatcher [(str "__root", [])]) [] (exBreak 7) = .ok (some (exBreakMi 7 (8, 13)), []) := rfl
  have e8 : attempt exBreaksCtx 7 (fromMatcher exBreakMatcher [(str "__root", [])]) [] (exBreak 8) = .ok (some (exBreakMi 8 (16, 21)), []) := rfl
  rw [ed, et]
  rw [findLoop_miss (ks := []) rfl]
  simp only [Val.children, List.append_nil]
  rw [findLoop_miss (ks := []) rfl]
  simp only [Val.children, List.append_nil]
  rw [findLoop_miss (ks := []) rfl]
  simp only [exIfBreaks, Val.children, List.cons_append, List.nil_append]
  rw [findLoop_miss (ks := []) rfl]
  simp only [Val.children, List.cons_append, List.nil_append]
  rw [findLoop_miss (ks := []) rfl]
  simp only [Val.children, List.cons_append, List.nil_append]
  rw [findLoop_miss (ks := []) rfl]
  simp only [Val.children, List.cons_append, List.nil_append]
  rw [findLoop_hit e7, List.append_nil, findLoop_hit e8]
  simp [findLoop]

theorem exBreaks_nav7 : navOfTree exBreaksCtx exTokInfo 7 =
    { inList := true, moduleLevel := false, prev := none, next := some 8, first := (8, 0), last := (0, 13), semi := none } := by
  have e : exBreaksCtx.tree = exBreaksTree := rfl
  unfold navOfTree getParent getPrevSibling getNextSibling
  simp only [e, exBreaks_crumbs]
  rfl

theorem exBreaks_nav8 : navOfTree exBreaksCtx exTokInfo 8 =
    { inList := true, moduleLevel := false, prev := some 7, next := none, first := (16, 0), last := (0, 21), semi := none } := by
  have e : exBreaksCtx.tree = exBreaksTree := rfl
  unfold navOfTree getParent getPrevSibling getNextSibling
  simp only [e, exBreaks_crumbs]
  rfl

theorem exBreaks_simple (i : Nat) (hi : i = 7 ∨ i = 8) : getSimpleLoop exBreaksCtx.tree (exBreaksCtx.tree.size + 1) none (exBreak i) = some (some (exBreak i)) := by
  have e : exBreaksCtx.tree = exBreaksTree := rfl
  have hs : exBreaksTree.size + 1 = 9 := rfl
  have hp1 : getParent exBreaksTree (exBreak 7) = some (.list 6 [exBreak 7, exBreak 8]) := by unfold getParent; rw [exBreaks_crumbs]; rfl
  have hp2 : getParent exBreaksTree (exBreak 8) = some (.list 6 [exBreak 7, exBreak 8]) := by unfold getParent; rw [exBreaks_crumbs]; rfl
  have hp3 : getParent exBreaksTree (.list 6 [exBreak 7, exBreak 8]) = some exIfBreaks := by unfold getParent; rw [exBreaks_crumbs]; rfl
  have hb : hasBody exIfBreaks = true := rfl
  have hn : ∀ i, hasBody (exBreak i) = false := fun _ => rfl
  have hl : hasBody (.list 6 [exBreak 7, exBreak 8]) = false := rfl
  have il : Val.isList (.list 6 [exBreak 7, exBreak 8]) = true := rfl
  have ib : ∀ i, Val.isList (exBreak i) = false := fun _ => rfl
  rw [e, hs]
  rcases hi with rfl | rfl <;> simp [getSimpleLoop, hn, hl, hb, hp1, hp2, hp3, il, ib]

/-- The findings: the first `break` is deleted up to the second, the second is replaced by `pass`. -/
def exBreaksFound : List Found :=
  [{ matchedSpans := [(.name (str "__root"), (8, 16))], replacements := [(.name (str "__root"), [])],
     primaryLabel := .name (str "__root"), significant := false, keySpan := some (8, 13) },
   { matchedSpans := [(.name (str "__root"), (16, 21))], replacements := [(.name (str "__root"), str "pass")],
     primaryLabel := .name (str "__root"), significant := false, keySpan := some (16, 21) }]

theorem exBreaks_search : pySearch exBreaksCtx exTokInfo exTpls 7 (fromMatcher exBreakMatcher [(str "__root", [])]) = .ok exBreaksFound := by
  unfold pySearch
  rw [exBreaks_found]
  have k7 : keySpanOf exBreaksCtx (exBreakMi 7 (8, 13)).bindings = .ok (some (8, 13)) := by
    unfold keySpanOf
    have : (exBreakMi 7 (8, 13)).bindings.get? (str "__root") = some ⟨.lexical (exBreak 7) (8, 13), .merge, .keepLast⟩ := rfl
    rw [this]
    simp only [exBreaks_simple 7 (.inl rfl)]
    rfl
  have k8 : keySpanOf exBreaksCtx (exBreakMi 8 (16, 21)).bindings = .ok (some (16, 21)) := by
    unfold keySpanOf
    have : (exBreakMi 8 (16, 21)).bindings.get? (str "__root") = some ⟨.lexical (exBreak 8) (16, 21), .merge, .keepLast⟩ := rfl
    rw [this]
    simp only [exBreaks_simple 8 (.inr rfl)]
    rfl
  have r7 : removeStmt (navOfTree exBreaksCtx exTokInfo) {} 7 { stmt := some 7, first := (8, 0), last := (0, 13) } =
      .ok ({ stmt := some 7, first := (8, 0), last := (16, 0), includeLast := false }, [], { nodes := [7], suitePrefix := [7] }) := by
    simp only [removeStmt, exBreaks_nav7, exBreaks_nav8]
    rfl
  have r8 : removeStmt (navOfTree exBreaksCtx exTokInfo) { nodes := [7], suitePrefix := [7] } 8 { stmt := some 8, first := (16, 0), last := (0, 21) } =
      .ok ({ stmt := some 8, first := (16, 0), last := (0, 21) }, passTemplate, { nodes := [8, 7], suitePrefix := [7] }) := by
    simp only [removeStmt, exBreaks_nav7, exBreaks_nav8]
    rfl
  have s7 : pyReport exBreaksCtx exTokInfo exTpls (exBreakMi 7 (8, 13)) {} =
      .ok (some { matchedSpans := [(.name (str "__root"), (8, 16))], replacements := [(.name (str "__root"), [])],
                  primaryLabel := .name (str "__root"), significant := false, keySpan := some (8, 13) },
        { nodes := [7], suitePrefix := [7] }) := by
    unfold pyReport
    rw [k7]
    have : sanitizeLoop (navOfTree exBreaksCtx exTokInfo) [(str "__root", [])]
        [(str "__root", { stmt := some 7, first := (8, 0), last := (0, 13) })] [(str "__root", [])] {} =
        .ok ([(str "__root", { stmt := some 7, first := (8, 0), last := (16, 0), includeLast := false })], [(str "__root", [])],
          { nodes := [7], suitePrefix := [7] }) := by
      simp only [sanitizeLoop, Dict.get?, if_true, ne_eq, not_true_eq_false, if_false, r7]
      rfl
    have e1 : ((exBreakMi 7 (8, 13)).bindings.filterMap fun e => (lexOf exTokInfo e.2.value).map fun m => (e.1, m)) =
      [(str "__root", { stmt := some 7, first := (8, 0), last := (0, 13) })] := rfl
    have e2 : ((exBreakMi 7 (8, 13)).replacements.map fun e => (e.1, exTpls.text e.2)) = [(str "__root", [])] := rfl
    simp only [e1, e2, this]
    rfl
  have s8 : pyReport exBreaksCtx exTokInfo exTpls (exBreakMi 8 (16, 21)) { nodes := [7], suitePrefix := [7] } =
      .ok (some { matchedSpans := [(.name (str "__root"), (16, 21))], replacements := [(.name (str "__root"), str "pass")],
                  primaryLabel := .name (str "__root"), significant := false, keySpan := some (16, 21) },
        { nodes := [8, 7], suitePrefix := [7] }) := by
    unfold pyReport
    rw [k8]
    have : sanitizeLoop (navOfTree exBreaksCtx exTokInfo) [(str "__root", [])]
        [(str "__root", { stmt := some 8, first := (16, 0), last := (0, 21) })] [(str "__root", [])] { nodes := [7], suitePrefix := [7] } =
        .ok ([(str "__root", { stmt := some 8, first := (16, 0), last := (0, 21) })], [(str "__root", passTemplate)],
          { nodes := [8, 7], suitePrefix := [7] }) := by
      simp only [sanitizeLoop, Dict.get?, if_true, ne_eq, not_true_eq_false, if_false, r8]
      rfl
    have e1 : ((exBreakMi 8 (16, 21)).bindings.filterMap fun e => (lexOf exTokInfo e.2.value).map fun m => (e.1, m)) =
      [(str "__root", { stmt := some 8, first := (16, 0), last := (0, 21) })] := rfl
    have e2 : ((exBreakMi 8 (16, 21)).replacements.map fun e => (e.1, exTpls.text e.2)) = [(str "__root", [])] := rfl
    simp only [e1, e2, this]
    rfl
  simp only [pyReports, s7, s8]
  rfl

-- `C31_search` applies to this search.
example : ∃ L : List (Report × Option Found), Outermost (attempt exBreaksCtx 5 exBreakMatcher) exBreaksCtx.tree exBreaksCtx.done (L.map Prod.fst) ∧
    exBreaksFound = L.filterMap Prod.snd := by
  obtain ⟨L, h1, h2, _⟩ := C31_search exBreaksCtx exTokInfo exTpls 5 exBreakMatcher [] exBreaks_ordinary exBreaks_itself
    exBreaks_unshared exBreaks_laidOut exBreaks_removing _ exBreaks_search
  exact ⟨L, h1, h2⟩

-- The suite of the `if` is one, and not the module body.
example : SuiteAt exBreaksCtx.tree [0, 0, 1] [exBreak 7, exBreak 8] := by
  refine ⟨⟨6, rfl⟩, ?_⟩
  intro v hv
  simp only [List.mem_cons, List.not_mem_nil, or_false] at hv
  rcases hv with rfl | rfl <;> exact ⟨_, _, _, _, rfl, by decide⟩

end Refex
