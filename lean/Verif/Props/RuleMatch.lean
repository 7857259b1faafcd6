import Verif.Props.CodeReads
import Verif.Props.PyTemplate
import Verif.Lemmas.LabeledSpans
/- C81: the built-in rules find and produce the code they show. -/
namespace Refex
set_option autoImplicit false

/-! ### The metavariables of the tree of some code -/

theorem holeAt_nameNode (what : Str → Hole) (s : Str) : holeAt what (nameNode s) = what s := by
  unfold holeAt nameNode codeNode
  simp only [if_true]
  rfl

/-- The names of the metavariables of the code. -/
def codeVariables (mangle : Label → Str) (p : Code) : List (Label × Str) := (dedup p.vars).map fun x => (x, mangle x)

theorem metaNames_var {mangle : Label → Str} {p : Code} (h : Mangles mangle p) {x : Label} (hx : x ∈ p.vars) :
    metaNames [] (codeVariables mangle p) (mangle x) = .named x := by
  unfold metaNames codeVariables
  cases hf : ((dedup p.vars).map fun x => (x, mangle x)).find? (fun e => decide (e.2 = mangle x)) with
  | none =>
    have := List.find?_eq_none.1 hf (x, mangle x) (List.mem_map.2 ⟨x, (mem_dedup _ _).2 hx, rfl⟩)
    simp at this
  | some e =>
    have h1 := List.find?_some hf
    obtain ⟨y, hy, rfl⟩ := List.mem_map.1 (List.mem_of_find?_eq_some hf)
    simp only [decide_eq_true_eq] at h1
    simp only [h.inj y ((mem_dedup _ _).1 hy) x hx h1]

theorem metaNames_name {mangle : Label → Str} {p : Code} (h : Mangles mangle p) {s : Str} (hs : s ∈ p.names) :
    metaNames [] (codeVariables mangle p) s = .none := by
  unfold metaNames codeVariables
  cases hf : ((dedup p.vars).map fun x => (x, mangle x)).find? (fun e => decide (e.2 = s)) with
  | none => simp
  | some e =>
    have h1 := List.find?_some hf
    obtain ⟨y, hy, rfl⟩ := List.mem_map.1 (List.mem_of_find?_eq_some hf)
    simp only [decide_eq_true_eq] at h1
    exact absurd h1 (h.fresh y ((mem_dedup _ _).1 hy) s hs)

theorem holesAre {mangle : Label → Str} {p : Code} (h : Mangles mangle p) :
    HolesAre mangle (holeAt (metaNames [] (codeVariables mangle p))) p.vars p.names where
  var x hx := by rw [holeAt_nameNode]; exact metaNames_var h hx
  name s hs := by rw [holeAt_nameNode]; exact metaNames_name h hs
  node i ty ns vs hty := by unfold holeAt; simp only [if_neg hty]
  list i vs := rfl
  const i k := rfl

theorem codeVariables_nodup {mangle : Label → Str} {p : Code} (h : Mangles mangle p) : ((codeVariables mangle p).map Prod.snd).Nodup := by
  unfold codeVariables
  rw [List.map_map]
  have h1 := nodup_dedup p.vars
  have h2 : ∀ x ∈ dedup p.vars, x ∈ p.vars := fun x => (mem_dedup _ x).1
  revert h1 h2
  generalize dedup p.vars = l
  intro h1 h2
  induction l with
  | nil => exact .nil
  | cons x l ih =>
    rw [List.nodup_cons] at h1
    rw [List.map_cons, List.nodup_cons]
    refine ⟨fun hx => ?_, ih h1.2 (fun y hy => h2 y (by simp [hy]))⟩
    obtain ⟨y, hy, e⟩ := List.mem_map.1 hx
    have := h.inj y (h2 y (by simp [hy])) x (h2 x (by simp)) e
    exact h1.1 (this ▸ hy)

/-! ### The tree of code is one of the grammar -/

theorem parsed_codeNode {g : Grammar} {ty : Str} {fs : List (Str × Val)} {bs : List Bool} (hn : g.nodeType ty)
    (hf : g.fields ty = (fs.map Prod.fst).zip bs) (hl : bs.length = fs.length) (hd : (fs.map Prod.fst).Nodup)
    (hv : ∀ (k : Nat) f b, fs[k]? = some f → bs[k]? = some b → Parsed g b f.2) : Parsed g false (codeNode ty fs) := by
  refine .node hn ?_ hd (by simp) fun k f v h1 h2 => ?_
  · rw [hf, List.map_fst_zip (by simp [hl])]
  · rw [hf] at h1
    rw [List.getElem?_zip_eq_some] at h1
    rw [List.getElem?_map] at h2
    cases hk : fs[k]? with
    | none => rw [hk] at h2; cases h2
    | some e =>
      rw [hk] at h2
      simp only [Option.map_some, Option.some.injEq] at h2
      rw [← h2]
      exact hv k e f.2 hk h1.2

section
variable {g : Grammar} (hg : PythonGrammar g)
include hg

theorem parsed_str (s : Str) : Parsed g false (.const 0 (.str s)) := .const (show ¬ g.nodeType (str "str") from hg.leaves (str "str") (by decide))
theorem parsed_none : Parsed g false (.const 0 .none) := .const (show ¬ g.nodeType (str "NoneType") from hg.leaves (str "NoneType") (by decide))
theorem parsed_int (i : Int) : Parsed g false (.const 0 (.int i)) := .const (show ¬ g.nodeType (str "int") from hg.leaves (str "int") (by decide))

theorem python_type {ty : Str} {fs : List (Str × Bool)} (h : (ty, fs) ∈ codeTypes) : g.nodeType ty ∧ g.fields ty = fs := hg.types _ h

theorem parsed_plain {ty : Str} (h : (ty, []) ∈ codeTypes) : Parsed g false (codeNode ty []) := by
  obtain ⟨h1, h2⟩ := python_type hg h
  exact parsed_codeNode (bs := []) h1 h2 rfl .nil (fun k f b h => by simp at h)

theorem parsed_single {v : Val} (h : Parsed g false v) : Parsed g true (.list 0 [v]) :=
  .list fun w hw => by rw [List.mem_singleton.1 hw]; exact h

omit hg in
theorem parsed_empty : Parsed g true (.list 0 []) := .list fun w hw => by cases hw

theorem parsed_node1 {ty n1 : Str} {v1 : Val} {b1 : Bool} (h : (ty, [(n1, b1)]) ∈ codeTypes) (h1 : Parsed g b1 v1) :
    Parsed g false (codeNode ty [(n1, v1)]) := by
  obtain ⟨ht, hf⟩ := python_type hg h
  refine parsed_codeNode (bs := [b1]) ht (by rw [hf]; rfl) rfl (by simp) fun k f b hk hb => ?_
  match k with
  | 0 => simp at hk hb; subst hk hb; exact h1
  | k + 1 => simp at hb

theorem parsed_node2 {ty n1 n2 : Str} {v1 v2 : Val} {b1 b2 : Bool} (h : (ty, [(n1, b1), (n2, b2)]) ∈ codeTypes) (hd : [n1, n2].Nodup)
    (h1 : Parsed g b1 v1) (h2 : Parsed g b2 v2) : Parsed g false (codeNode ty [(n1, v1), (n2, v2)]) := by
  obtain ⟨ht, hf⟩ := python_type hg h
  refine parsed_codeNode (bs := [b1, b2]) ht (by rw [hf]; rfl) rfl hd fun k f b hk hb => ?_
  match k with
  | 0 => simp at hk hb; subst hk hb; exact h1
  | 1 => simp at hk hb; subst hk hb; exact h2
  | k + 2 => simp at hb

theorem parsed_node3 {ty n1 n2 n3 : Str} {v1 v2 v3 : Val} {b1 b2 b3 : Bool} (h : (ty, [(n1, b1), (n2, b2), (n3, b3)]) ∈ codeTypes) (hd : [n1, n2, n3].Nodup)
    (h1 : Parsed g b1 v1) (h2 : Parsed g b2 v2) (h3 : Parsed g b3 v3) : Parsed g false (codeNode ty [(n1, v1), (n2, v2), (n3, v3)]) := by
  obtain ⟨ht, hf⟩ := python_type hg h
  refine parsed_codeNode (bs := [b1, b2, b3]) ht (by rw [hf]; rfl) rfl hd fun k f b hk hb => ?_
  match k with
  | 0 => simp at hk hb; subst hk hb; exact h1
  | 1 => simp at hk hb; subst hk hb; exact h2
  | 2 => simp at hk hb; subst hk hb; exact h3
  | k + 3 => simp at hb

theorem parsed_node4 {ty n1 n2 n3 n4 : Str} {v1 v2 v3 v4 : Val} {b1 b2 b3 b4 : Bool} (h : (ty, [(n1, b1), (n2, b2), (n3, b3), (n4, b4)]) ∈ codeTypes)
    (hd : [n1, n2, n3, n4].Nodup)
    (h1 : Parsed g b1 v1) (h2 : Parsed g b2 v2) (h3 : Parsed g b3 v3) (h4 : Parsed g b4 v4) : Parsed g false (codeNode ty [(n1, v1), (n2, v2), (n3, v3), (n4, v4)]) := by
  obtain ⟨ht, hf⟩ := python_type hg h
  refine parsed_codeNode (bs := [b1, b2, b3, b4]) ht (by rw [hf]; rfl) rfl hd fun k f b hk hb => ?_
  match k with
  | 0 => simp at hk hb; subst hk hb; exact h1
  | 1 => simp at hk hb; subst hk hb; exact h2
  | 2 => simp at hk hb; subst hk hb; exact h3
  | 3 => simp at hk hb; subst hk hb; exact h4
  | k + 4 => simp at hb

theorem parsed_load : Parsed g false loadNode := parsed_plain hg (by decide)

theorem parsed_nameNode (s : Str) : Parsed g false (nameNode s) :=
  parsed_node2 hg (b1 := false) (b2 := false) (by decide) (by decide) (parsed_str hg s) (parsed_load hg)

theorem op_type {op : Str} (h : op ∈ comparisonOps) : (op, []) ∈ codeTypes := by
  simp only [comparisonOps, List.mem_cons, List.not_mem_nil, or_false] at h
  rcases h with rfl | rfl | rfl | rfl | rfl | rfl | rfl | rfl | rfl | rfl <;> decide

mutual
theorem parsed_code (mangle : Label → Str) : ∀ (p : Code) (_ : ∀ op ∈ p.ops, op ∈ comparisonOps), Parsed g false (p.val mangle)
  | .var x, ho => parsed_nameNode hg _
  | .name s, ho => parsed_nameNode hg s
  | .int i, ho => parsed_node2 hg (b1 := false) (b2 := false) (by decide) (by decide) (parsed_int hg i) (parsed_none hg)
  | .attr e a, ho => parsed_node3 hg (b1 := false) (b2 := false) (b3 := false) (by decide) (by decide) (parsed_code mangle e ho) (parsed_str hg a) (parsed_load hg)
  | .call f as ks, ho => parsed_node3 hg (b1 := false) (b2 := true) (b3 := true) (by decide) (by decide)
      (parsed_code mangle f (fun x hx => ho x (by simp [Code.ops, hx])))
      (.list (parsed_codes mangle as (fun x hx => ho x (by simp [Code.ops, hx])))) (.list (parsed_codes mangle ks (fun x hx => ho x (by simp [Code.ops, hx]))))
  | .keyword a e, ho => parsed_node2 hg (b1 := false) (b2 := false) (by decide) (by decide) (parsed_str hg a) (parsed_code mangle e ho)
  | .compare l op r, ho => parsed_node3 hg (b1 := false) (b2 := true) (b3 := true) (by decide) (by decide)
      (parsed_code mangle l (fun x hx => ho x (by simp [Code.ops, hx])))
      (parsed_single hg (parsed_plain hg (op_type hg (ho op (by simp [Code.ops])))))
      (parsed_single hg (parsed_code mangle r (fun x hx => ho x (by simp [Code.ops, hx]))))
  | .not e, ho => parsed_node2 hg (b1 := false) (b2 := false) (by decide) (by decide) (parsed_plain hg (by decide)) (parsed_code mangle e ho)
  | .mod l r, ho => parsed_node3 hg (b1 := false) (b2 := false) (b3 := false) (by decide) (by decide)
      (parsed_code mangle l (fun x hx => ho x (by simp [Code.ops, hx]))) (parsed_plain hg (by decide))
      (parsed_code mangle r (fun x hx => ho x (by simp [Code.ops, hx])))
  | .tuple1 e, ho => parsed_node2 hg (b1 := true) (b2 := false) (by decide) (by decide) (parsed_single hg (parsed_code mangle e ho)) (parsed_load hg)
  | .emptyList, ho => parsed_node2 hg (b1 := true) (b2 := false) (by decide) (by decide) parsed_empty (parsed_load hg)
  | .emptyDict, ho => parsed_node2 hg (b1 := true) (b2 := true) (by decide) (by decide) parsed_empty parsed_empty
  | .comp set e t i, ho => by
    have hgen : Parsed g true (.list 0 [codeNode (str "comprehension")
      [(str "target", t.val mangle), (str "iter", i.val mangle), (str "ifs", .list 0 []), (str "is_async", .const 0 (.int 0))]]) :=
      parsed_single hg (parsed_node4 hg (b1 := false) (b2 := false) (b3 := true) (b4 := false) (by decide) (by decide)
        (parsed_code mangle t (fun x hx => ho x (by simp [Code.ops, hx]))) (parsed_code mangle i (fun x hx => ho x (by simp [Code.ops, hx])))
        parsed_empty (parsed_int hg 0))
    have he := parsed_code mangle e (fun x hx => ho x (by simp [Code.ops, hx]))
    rw [Code.val]
    split
    · exact parsed_node2 hg (b1 := false) (b2 := true) (by decide) (by decide) he hgen
    · exact parsed_node2 hg (b1 := false) (b2 := true) (by decide) (by decide) he hgen
  | .assign t e, ho => parsed_node3 hg (b1 := true) (b2 := false) (b3 := false) (by decide) (by decide)
      (parsed_single hg (parsed_code mangle t (fun x hx => ho x (by simp [Code.ops, hx])))) (parsed_code mangle e (fun x hx => ho x (by simp [Code.ops, hx])))
      (parsed_none hg)
  | .expr e, ho => parsed_node1 hg (b1 := false) (by decide) (parsed_code mangle e ho)
theorem parsed_codes (mangle : Label → Str) : ∀ (ps : List Code) (_ : ∀ op ∈ Code.opss ps, op ∈ comparisonOps), ∀ v ∈ Code.vals mangle ps, Parsed g false v
  | [], ho => fun v hv => by simp [Code.vals] at hv
  | p :: ps, ho => fun v hv => by
    rw [Code.vals, List.mem_cons] at hv
    rcases hv with rfl | hv
    · exact parsed_code mangle p (fun x hx => ho x (by simp [Code.opss, hx]))
    · exact parsed_codes mangle ps (fun x hx => ho x (by simp [Code.opss, hx])) v hv
end

end

theorem opsOk {p : Code} (h : ∀ op ∈ p.ops, op ∈ comparisonOps) : OpsOk p.ops := fun op hop e => by
  have := h op hop
  rw [e] at this
  revert this; decide

end Refex
