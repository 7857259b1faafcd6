import Verif.Props.Uniqueify
import Verif.Props.FixEditsMain
import Verif.Spec.ParseFile
/- C105: what `parse_ast` makes of what `ast.parse` returns. -/
namespace Refex
set_option autoImplicit false

/-! ### Trees of the same shape -/

theorem forgetAll_get : ∀ {vs ws : List Val}, Val.forgetAll vs = Val.forgetAll ws → ∀ {k : Nat} {w : Val}, ws[k]? = some w → ∃ v, vs[k]? = some v ∧ SameShape v w
  | [], [], _, k, w, h => by simp at h
  | [], _ :: _, h, _, _, _ => by simp [Val.forgetAll] at h
  | _ :: _, [], h, _, _, _ => by simp [Val.forgetAll] at h
  | v :: vs, w' :: ws, h, k, w, hk => by
    simp only [Val.forgetAll, List.cons.injEq] at h
    cases k with
    | zero => cases hk; exact ⟨v, rfl, h.1⟩
    | succ k =>
      obtain ⟨v, h1, h2⟩ := forgetAll_get h.2 (k := k) (by simpa using hk)
      exact ⟨v, by simpa using h1, h2⟩

theorem SameShape.symm {v w : Val} (h : SameShape v w) : SameShape w v := Eq.symm h

theorem shape_const {v : Val} {j : Nat} {c : Const} (h : SameShape v (.const j c)) : ∃ i, v = .const i c := by
  cases v with
  | const i d =>
    have h : Val.const 0 d = .const 0 c := h
    cases h; exact ⟨i, rfl⟩
  | list => exact nomatch (show Val.list 0 _ = .const 0 c from h)
  | node => exact nomatch (show Val.node 0 _ _ _ = .const 0 c from h)

theorem shape_list {v : Val} {j : Nat} {ws : List Val} (h : SameShape v (.list j ws)) : ∃ i vs, v = .list i vs ∧ Val.forgetAll vs = Val.forgetAll ws := by
  cases v with
  | const i d => exact nomatch (show Val.const 0 d = .list 0 _ from h)
  | list i vs =>
    have h : Val.list 0 (Val.forgetAll vs) = .list 0 (Val.forgetAll ws) := h
    injection h with _ h
    exact ⟨i, vs, rfl, h⟩
  | node => exact nomatch (show Val.node 0 _ _ _ = .list 0 _ from h)

theorem shape_node {v : Val} {j : Nat} {t : Str} {ns : List Str} {ws : List Val} (h : SameShape v (.node j t ns ws)) :
    ∃ i vs, v = .node i t ns vs ∧ Val.forgetAll vs = Val.forgetAll ws := by
  cases v with
  | const i d => exact nomatch (show Val.const 0 d = .node 0 _ _ _ from h)
  | list => exact nomatch (show Val.list 0 _ = .node 0 _ _ _ from h)
  | node i t' ns' vs =>
    have h : Val.node 0 t' ns' (Val.forgetAll vs) = .node 0 t ns (Val.forgetAll ws) := h
    injection h with _ h1 h2 h3
    subst h1; subst h2
    exact ⟨i, vs, rfl, h3⟩

theorem shape_ty {v w : Val} (h : SameShape v w) : v.ty = w.ty := by
  cases w with
  | const => obtain ⟨i, rfl⟩ := shape_const h; rename_i c; cases c <;> rfl
  | list => obtain ⟨i, vs, rfl, _⟩ := shape_list h; rfl
  | node => obtain ⟨i, vs, rfl, _⟩ := shape_node h; rfl

theorem shape_children {v w : Val} (h : SameShape v w) : Val.forgetAll v.children = Val.forgetAll w.children := by
  cases w with
  | const => obtain ⟨i, rfl⟩ := shape_const h; rfl
  | list => obtain ⟨i, vs, rfl, hl⟩ := shape_list h; have h := hl; exact h
  | node => obtain ⟨i, vs, rfl, hl⟩ := shape_node h; have h := hl; exact h

theorem shape_at : ∀ (p : Path) {v w x : Val}, SameShape v w → w.at? p = some x → ∃ y, v.at? p = some y ∧ SameShape y x
  | [], v, w, x, h, hx => by cases hx; exact ⟨v, rfl, h⟩
  | i :: p, v, w, x, h, hx => by
    rw [Val.at?] at hx
    split at hx
    · rename_i u hu
      obtain ⟨u', h1, h2⟩ := forgetAll_get (shape_children h) hu
      obtain ⟨y, h3, h4⟩ := shape_at p h2 hx
      exact ⟨y, by rw [Val.at?, h1]; exact h3, h4⟩
    · cases hx

theorem shape_lookup : ∀ {ns : List Str} {vs ws : List Val}, Val.forgetAll vs = Val.forgetAll ws → ∀ {a : Str} {w : Val}, Val.lookup ns ws a = some w →
    ∃ v, Val.lookup ns vs a = some v ∧ SameShape v w
  | [], vs, ws, _, a, w, h => by simp [Val.lookup] at h
  | n :: ns, vs, [], _, a, w, h => by simp [Val.lookup] at h
  | n :: ns, [], _ :: _, h, _, _, _ => by simp [Val.forgetAll] at h
  | n :: ns, v :: vs, w' :: ws, h, a, w, hl => by
    simp only [Val.forgetAll, List.cons.injEq] at h
    rw [Val.lookup] at hl ⊢
    split at hl
    · rename_i e; cases hl; rw [if_pos e]; exact ⟨v, rfl, h.1⟩
    · rename_i e; rw [if_neg e]; exact shape_lookup h.2 hl

theorem shape_getattr {v w : Val} (h : SameShape v w) (a : Str) : SameShape (v.getattr a) (w.getattr a) := by
  cases w with
  | const => obtain ⟨i, rfl⟩ := shape_const h; rfl
  | list => obtain ⟨i, vs, rfl, _⟩ := shape_list h; rfl
  | node j t ns ws =>
    obtain ⟨i, vs, rfl, hl⟩ := shape_node h; have h := hl
    show SameShape ((Val.lookup ns vs a).getD _) ((Val.lookup ns ws a).getD _)
    cases hw : Val.lookup ns ws a with
    | some w => obtain ⟨v, h1, h2⟩ := shape_lookup h hw; rw [h1]; exact h2
    | none => cases hv : Val.lookup ns vs a with
      | some v => obtain ⟨w, h1, h2⟩ := shape_lookup h.symm hv; rw [hw] at h1; cases h1
      | none => rfl

theorem shape_parsed {g : Grammar} {b : Bool} {w : Val} (hp : Parsed g b w) : ∀ {v : Val}, SameShape v w → Parsed g b v := by
  induction hp with
  | const hc => intro v h; obtain ⟨i, rfl⟩ := shape_const h; exact .const (by rw [shape_ty h]; exact hc)
  | list _ ih =>
    intro v h
    obtain ⟨i, vs, rfl, hl⟩ := shape_list h; have h := hl
    refine .list fun v hv => ?_
    obtain ⟨k, hk⟩ := List.getElem?_of_mem hv
    obtain ⟨w, h1, h2⟩ := forgetAll_get h.symm hk
    exact ih w (List.mem_of_getElem? h1) h2.symm
  | node h1 h2 h3 h4 _ ih =>
    intro v h
    obtain ⟨i, vs, rfl, hl⟩ := shape_node h; have h := hl
    refine .node h1 h2 h3 (by rw [forgetAll_length _ _ h]; exact h4) fun k f v hf hv => ?_
    obtain ⟨w, k1, k2⟩ := forgetAll_get h.symm hv
    exact ih k f w hf k1 k2.symm

theorem shape_ident {v w : Val} {o : Option Str} (h : SameShape v w) (hi : IdentTree w o) : IdentTree v o := by
  cases hi with
  | none => obtain ⟨i, rfl⟩ := shape_const h; exact .none
  | some => obtain ⟨i, rfl⟩ := shape_const h; exact .some

theorem each_shape {α : Type} {R : Val → α → Prop} (hR : ∀ v w a, SameShape v w → R w a → R v a) : ∀ {vs ws : List Val} {as : List α},
    Val.forgetAll vs = Val.forgetAll ws → Each R ws as → Each R vs as
  | [], _, _, h, .nil => .nil
  | _ :: _, _, _, h, .nil => by simp [Val.forgetAll] at h
  | [], _, _, h, .cons _ _ => by simp [Val.forgetAll] at h
  | v :: vs, _, _, h, .cons h1 h2 => by
    simp only [Val.forgetAll, List.cons.injEq] at h
    exact .cons (hR _ _ _ h.1 h1) (each_shape hR h.2 h2)

theorem all_pair {vs : List Val} {a b : Val} (h : Val.forgetAll vs = Val.forgetAll [a, b]) : ∃ x y, vs = [x, y] ∧ SameShape x a ∧ SameShape y b := by
  match vs, h with
  | [x, y], h =>
    simp only [Val.forgetAll, List.cons.injEq, and_true] at h
    exact ⟨x, y, rfl, h.1, h.2⟩
  | [], h => simp [Val.forgetAll] at h
  | [_], h => simp [Val.forgetAll] at h
  | _ :: _ :: _ :: _, h => simp [Val.forgetAll] at h

theorem all_one {vs : List Val} {a : Val} (h : Val.forgetAll vs = Val.forgetAll [a]) : ∃ x, vs = [x] ∧ SameShape x a := by
  match vs, h with
  | [x], h =>
    simp only [Val.forgetAll, List.cons.injEq, and_true] at h
    exact ⟨x, rfl, h⟩
  | [], h => simp [Val.forgetAll] at h
  | _ :: _ :: _, h => simp [Val.forgetAll] at h

theorem all_three {vs : List Val} {a b c : Val} (h : Val.forgetAll vs = Val.forgetAll [a, b, c]) :
    ∃ x y z, vs = [x, y, z] ∧ SameShape x a ∧ SameShape y b ∧ SameShape z c := by
  match vs, h with
  | [x, y, z], h =>
    simp only [Val.forgetAll, List.cons.injEq, and_true] at h
    exact ⟨x, y, z, rfl, h.1, h.2.1, h.2.2⟩
  | [], h => simp [Val.forgetAll] at h
  | [_], h => simp [Val.forgetAll] at h
  | [_, _], h => simp [Val.forgetAll] at h
  | _ :: _ :: _ :: _ :: _, h => simp [Val.forgetAll] at h

theorem shape_name {v w : Val} {n : ImportName} (h : SameShape v w) (hn : NameTree w n) : NameTree v n := by
  cases hn with
  | mk hi =>
    obtain ⟨i, vs, rfl, hl⟩ := shape_node h; have h := hl
    obtain ⟨x, y, rfl, h1, h2⟩ := all_pair h
    obtain ⟨j, rfl⟩ := shape_const h1
    exact .mk (shape_ident h2 hi)

theorem shape_stmt {v w : Val} {s : TopStmt} (h : SameShape v w) (hs : StmtTree w s) : StmtTree v s := by
  cases hs with
  | imports he =>
    obtain ⟨i, vs, rfl, hl⟩ := shape_node h; have h := hl
    obtain ⟨x, rfl, h1⟩ := all_one h
    obtain ⟨j, xs, rfl, hl2⟩ := shape_list h1
    exact .imports (each_shape (R := NameTree) (fun _ _ _ h3 h4 => shape_name h3 h4) hl2 he)
  | fromImport hi hd he =>
    obtain ⟨i, vs, rfl, hl⟩ := shape_node h; have h := hl
    obtain ⟨x, y, z, rfl, h1, h2, h3⟩ := all_three h
    obtain ⟨j, xs, rfl, hl2⟩ := shape_list h2
    obtain ⟨k, rfl⟩ := shape_const h3
    exact .fromImport (shape_ident h1 hi) hd (each_shape (R := NameTree) (fun _ _ _ h3 h4 => shape_name h3 h4) hl2 he)
  | other h1 h2 => exact .other (by rw [shape_ty h]; exact h1) (by rw [shape_ty h]; exact h2)

theorem shape_file {v w : Val} {ss : List TopStmt} (h : SameShape v w) (hs : FileTree w ss) : FileTree v ss := by
  cases hs with
  | mk he =>
    obtain ⟨i, vs, rfl, hl⟩ := shape_node h; have h := hl
    obtain ⟨x, y, rfl, h1, h2⟩ := all_pair h
    obtain ⟨j, xs, rfl, hl2⟩ := shape_list h1
    exact .mk (each_shape (R := StmtTree) (fun _ _ _ h3 h4 => shape_stmt h3 h4) hl2 he)

theorem shape_isName {v w : Val} {s : Str} (h : SameShape v w) (hn : IsNameNode w s) : IsNameNode v s := by
  obtain ⟨i, j, ctx, rfl⟩ := hn
  obtain ⟨i, vs, rfl, hl⟩ := shape_node h; have h := hl
  obtain ⟨x, y, rfl, h1, _⟩ := all_pair h
  obtain ⟨j, rfl⟩ := shape_const h1
  exact ⟨i, j, y, rfl⟩

theorem shape_names {v w : Val} (h : SameShape v w) (hn : PythonNames w) : PythonNames v where
  names p x hx ht := by
    obtain ⟨y, h1, h2⟩ := shape_at p h.symm hx
    obtain ⟨s, hs⟩ := hn.names p y h1 (by rw [shape_ty h2]; exact ht)
    exact ⟨s, shape_isName h2.symm hs⟩
  handlers p x hx ht := by
    obtain ⟨y, h1, h2⟩ := shape_at p h.symm hx
    have h3 := shape_getattr h2.symm (str "name")
    rcases hn.handlers p y h1 (by rw [shape_ty h2]; exact ht) with ⟨i, s, e⟩ | ⟨i, e⟩
    · rw [e] at h3
      obtain ⟨j, hj⟩ := shape_const h3
      exact .inl ⟨j, s, hj⟩
    · rw [e] at h3
      obtain ⟨j, hj⟩ := shape_const h3
      exact .inr ⟨j, hj⟩
  args p x f args keywords hx hcall a ha := by
    obtain ⟨y, h1, h2⟩ := shape_at p h.symm hx
    obtain ⟨i, j, k, rfl⟩ := hcall
    obtain ⟨i', vs, rfl, h3⟩ := shape_node h2
    obtain ⟨f', as', ks', rfl, h4, h5, h6⟩ := all_three h3
    obtain ⟨j', args', rfl, h5'⟩ := shape_list h5
    obtain ⟨k', keywords', rfl, h6⟩ := shape_list h6
    obtain ⟨n, hn'⟩ := List.getElem?_of_mem ha
    obtain ⟨a', h7, h8⟩ := forgetAll_get h5' hn'
    have := hn.args p _ f' args' keywords' h1 ⟨i', j', k', rfl⟩ a' (List.mem_of_getElem? h7)
    intro i c e
    subst e
    obtain ⟨i, rfl⟩ := shape_const h8
    exact this _ _ rfl
  bodies p x hx ht := by
    obtain ⟨y, h1, h2⟩ := shape_at p h.symm hx
    have h3 := shape_getattr h2.symm (str "body")
    obtain ⟨i, vs, e⟩ := hn.bodies p y h1 (by rw [shape_ty h2]; exact ht)
    rw [e] at h3
    obtain ⟨j, ws, hj, _⟩ := shape_list h3
    exact ⟨j, ws, hj⟩

mutual
theorem shape_size : ∀ v w : Val, v.forget = w.forget → v.size = w.size
  | .const _ _, w, h => by obtain ⟨i, rfl⟩ := shape_const (SameShape.symm h); rfl
  | .list _ vs, w, h => by
    obtain ⟨i, ws, rfl, hl⟩ := shape_list (SameShape.symm h); have h := hl
    rw [Val.size, Val.size, shape_sizes vs ws h.symm]
  | .node _ _ _ vs, w, h => by
    obtain ⟨i, ws, rfl, hl⟩ := shape_node (SameShape.symm h); have h := hl
    rw [Val.size, Val.size, shape_sizes vs ws h.symm]
theorem shape_sizes : ∀ vs ws : List Val, Val.forgetAll vs = Val.forgetAll ws → Val.sizes vs = Val.sizes ws
  | [], [], _ => rfl
  | [], _ :: _, h => by simp [Val.forgetAll] at h
  | _ :: _, [], h => by simp [Val.forgetAll] at h
  | v :: vs, w :: ws, h => by
    simp only [Val.forgetAll, List.cons.injEq] at h
    rw [Val.sizes, Val.sizes, shape_size v w h.1, shape_sizes vs ws h.2]
end

/-! ### Reading -/

mutual
theorem readTree_reads {st : Nat → Obj} : ∀ (v : Val) {n : Nat}, v.Reads st → v.size ≤ n → readTree st n v.ident = some v
  | .const i c, 0, _, hn => by simp [Val.size] at hn
  | .list i vs, 0, _, hn => by simp [Val.size] at hn
  | .node i t ns vs, 0, _, hn => by simp [Val.size] at hn
  | .const i c, n + 1, h, _ => by
    rw [Val.Reads] at h
    show readTree st (n + 1) i = _
    rw [readTree, h]
  | .list i vs, n + 1, h, hn => by
    rw [Val.Reads] at h
    rw [Val.size] at hn
    show readTree st (n + 1) i = _
    rw [readTree, h.1]
    simp only
    rw [readAll_reads vs h.2 (by omega)]
    rfl
  | .node i t ns vs, n + 1, h, hn => by
    rw [Val.Reads] at h
    rw [Val.size] at hn
    show readTree st (n + 1) i = _
    rw [readTree, h.1]
    simp only
    rw [readAll_reads vs h.2 (by omega)]
    rfl
theorem readAll_reads {st : Nat → Obj} : ∀ (vs : List Val) {n : Nat}, Val.ReadsAll st vs → Val.sizes vs ≤ n → readAll (readTree st n) (vs.map Val.ident) = some vs
  | [], _, _, _ => rfl
  | v :: vs, n, h, hn => by
    rw [Val.sizes] at hn
    rw [Val.ReadsAll] at h
    rw [List.map_cons, readAll, readTree_reads v h.1 (by omega), readAll_reads vs h.2 (by omega)]
end

/-! ### Files -/

section
variable {fe : FrontEnd} {source : Str} {tree : Val}

/-- **C105**: `parse_ast` returns a file with the text, and a tree of the same shape as that of `ast.parse`, in which no node or list stands in two places. -/
theorem C105_tree (h : ParsesTo fe source tree) : ∃ c, fe.parseAst source = some c ∧ c.text = source ∧ SameShape c.tree tree ∧ Unshared c.tree ∧ c.done = [] := by
  obtain ⟨a, h1, h2, h3, h4⟩ := h.result
  obtain ⟨i, ns, vs, ht⟩ := h.module
  obtain ⟨s', tree', k1, k2, k3, k4⟩ := C63_uniqueify ht h3 h4 h.once h.flat h.shaped h.depth
  rw [h2] at k1
  have k5 := readTree_reads tree' (n := fe.depth) k2 (by rw [shape_size _ _ k3]; exact h.depth)
  refine ⟨{ fe.marks source tree' with text := source, tree := tree', done := [] }, ?_, rfl, k3, k4, rfl⟩
  unfold FrontEnd.parseAst
  rw [h1]
  simp only
  rw [k1]
  simp only
  rw [k5]
  rfl

/-- **C105**: ParseError is raised if `ast.parse` raises an exception. -/
theorem C105_error (h : fe.ast source = none) : fe.parseAst source = none := by
  unfold FrontEnd.parseAst
  rw [h]

end

section
variable {digit : Char → Prop} {g : Grammar} {fe : FrontEnd} (hfe : FrontEndFits digit g fe)
include hfe

/-- **C105**: `parse_ast` fails on no text that `ast.parse` accepts, and what it returns is a file as the searches for fixes (C83, C97, C104) assume it. -/
theorem C105_file {s : Str} : (fe.ast s = none ↔ fe.parseAst s = none) ∧
    ∀ c, fe.parseAst s = some c → c.text = s ∧ Parsed g false c.tree ∧ c.tree.ty = str "Module" ∧ ∃ ss, PythonFile gensymName digit g ss c := by
  cases ha : fe.ast s with
  | none =>
    rw [C105_error ha]
    exact ⟨⟨fun _ => rfl, fun _ => rfl⟩, fun c h => (by cases h)⟩
  | some a =>
    obtain ⟨tree, ss, h1, h2⟩ := hfe.trees s a ha
    obtain ⟨c, k1, k2, k3, k4, _⟩ := C105_tree h1
    rw [k1]
    refine ⟨⟨fun h => (by cases h), fun h => (by cases h)⟩, fun c' h => ?_⟩
    cases h
    refine ⟨k2, shape_parsed h2.parsed k3, ?_, ss, ?_⟩
    · obtain ⟨i, ns, vs, ht⟩ := h1.module
      rw [shape_ty k3, ht]
      rfl
    · have hc : c = { fe.marks s c.tree with text := s, tree := c.tree, done := [] } := by
        unfold FrontEnd.parseAst at k1
        rw [ha] at k1
        simp only at k1
        split at k1
        · cases k1
        · rw [Option.map_eq_some_iff] at k1
          obtain ⟨t, _, rfl⟩ := k1
          rfl
      exact {
        grammar := hfe.grammar
        parsed := shape_parsed h2.parsed k3
        file := shape_file k3 h2.file
        unshared := k4
        names := shape_names k3 h2.names
        regex := by rw [hc]; exact hfe.regex s c.tree
        mangles := fun r hr => (C101_names r hr).1
        argument := by decide }

/-- **C105**: the parent of a node of a parsed file is the node or list that it stands in, whatever objects `ast.parse` shares. -/
theorem C105_parent {s : Str} {c : Ctx} (h : fe.parseAst s = some c) {q : Path} {i : Nat} {v p : Val} (hv : c.tree.at? (q ++ [i]) = some v) (hi : v.isInner)
    (hp : c.tree.at? q = some p) : getParent c.tree v = some p := by
  obtain ⟨_, _, _, ss, hc⟩ := (C105_file hfe (s := s)).2 c h
  rw [C50_parent_exact hc.unshared hv hi, hp]

/-- **C105**: the command `--mode=fix`, with assumptions on `ast.parse` in the place of those on parsed files. -/
theorem C105_command {py : Python} (hfit : PythonFits g py) (hnew : ReadsReplacements py) (hpat : ReadsPatterns py) {groups : Str → List Label}
    (hfixer : py.fixer = py.textFixer groups) (hfile : py.file = fe.parseAst) (hd : 58 ≤ py.depth) {w : World} (hw : w.parseAst = py.parseAst) {o : Options} {r : Runner}
    (hr : runnerFromOptions w py.modes o = .ok r) (hmode : o.mode = str "fix") (hne : o.searchReplace ≠ []) :
    ∃ fss, Forall2 (FixersOf gensymName) o.searchReplace fss ∧ ∀ content path out, r.find content path = .ok out →
      PyPath path ∧ AlsoHolds o content ∧ fe.ast content ≠ none ∧
      IteratedResult (fun t => fe.ast t ≠ none) (FoundBy o.forceEnable py.pragmas (fss.map (FixEdits py gensymName digit g))) (o.iterate.getD 10) content out := by
  obtain ⟨fss, h1, h2⟩ := C104_command (digit := digit) hfit hnew hfe.grammar hpat hfixer (fun s c h => by
    rw [hfile] at h
    exact ((C105_file hfe).2 c h).2.2.2) hd hw hr hmode hne
  have e : (fun t => py.file t ≠ none) = fun t => fe.ast t ≠ none := by
    funext t
    rw [hfile]
    exact propext (not_congr (C105_file hfe).1.symm)
  refine ⟨fss, h1, fun content path out ho => ?_⟩
  obtain ⟨k1, k2, k3, k4⟩ := h2 content path out ho
  rw [e] at k4
  exact ⟨k1, k2, (congrFun e content).mp k3, k4⟩

end
end Refex
