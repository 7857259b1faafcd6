import Verif.Spec.Imports
import Verif.Lemmas.Dict
import Verif.Props.Ancestors
/- C56: imports. -/
namespace Refex
set_option autoImplicit false

/-- Recording pairs one after the other. -/
def record (d : Dict Str Str) (ps : List (Str × Str)) : Dict Str Str := ps.foldl (fun d p => d.set p.1 p.2) d

theorem record_append (d : Dict Str Str) (ps qs : List (Str × Str)) : record d (ps ++ qs) = record (record d ps) qs := by
  simp [record, List.foldl_append]

theorem record_get (ps : List (Str × Str)) : ∀ (d : Dict Str Str) (k : Str),
    (record d ps).get? k = match (ps.filter (fun p => decide (p.1 = k))).getLast? with
      | some p => some p.2
      | none => d.get? k := by
  induction ps with
  | nil => intro d k; rfl
  | cons p ps ih =>
    intro d k
    rw [show record d (p :: ps) = record (d.set p.1 p.2) ps from rfl, ih, Dict.get?_set, List.filter_cons]
    by_cases h : p.1 = k
    · rw [if_pos h.symm, if_pos (by simpa using h), List.getLast?_cons]
      cases hl : (ps.filter (fun p => decide (p.1 = k))).getLast? with
      | none => simp [h]
      | some q => simp
    · rw [if_neg (fun e => h e.symm), if_neg (by simpa using h)]

theorem alias_record {vs : List Val} {ns : List ImportName} (h : Each NameTree vs ns) : ∀ (d : Dict Str Str),
    vs.foldl importAlias d = record d (TopStmt.imports ns).binds := by
  induction h with
  | nil => intro d; rfl
  | cons h _ ih =>
    intro d
    cases h with
    | mk hv =>
      rw [List.foldl_cons, ih]
      cases hv <;> rfl

theorem fromAlias_record {vs : List Val} {ns : List ImportName} (m : Str) (h : Each NameTree vs ns) : ∀ (d : Dict Str Str),
    vs.foldl (importFromAlias m) d = record d (TopStmt.fromImport (some m) 0 ns).binds := by
  induction h with
  | nil => intro d; rfl
  | cons h _ ih =>
    intro d
    cases h with
    | mk hv =>
      rw [List.foldl_cons, ih]
      cases hv <;> rfl

theorem stmt_record {v : Val} {s : TopStmt} (h : StmtTree v s) (d : Dict Str Str) : importStmt d v = record d s.binds := by
  cases h with
  | imports h =>
    exact alias_record h d
  | @fromImport i j k m module vs ns dots hm hne h =>
    cases dots with
    | zero =>
      cases hm with
      | none => exact absurd rfl (hne rfl)
      | some => exact fromAlias_record _ h d
    | succ n =>
      have hb : (TopStmt.fromImport module (n + 1) ns).binds = [] := by cases module <;> rfl
      rw [hb]
      have hl : (Val.node i (str "ImportFrom") [str "module", str "names", str "level"] [m, .list j vs, .const k (.int ((n + 1 : Nat) : Int))]).getattr
          (str "level") = .const k (.int ((n + 1 : Nat) : Int)) := rfl
      simp only [importStmt, hl, if_neg (show ¬ str "ImportFrom" = str "Import" by decide), if_true]
      rfl
  | other h1 h2 =>
    cases v with
    | const _ _ => simp only [importStmt]; rfl
    | list _ _ => simp only [importStmt]; rfl
    | node i t ns vs =>
      have e1 : ¬ t = str "Import" := h1
      have e2 : ¬ t = str "ImportFrom" := h2
      rw [importStmt, if_neg e1, if_neg e2]
      rfl

theorem file_record {v : Val} {ss : List TopStmt} (h : FileTree v ss) : topLevelImports v = record [] (importsOf ss) := by
  cases h with
  | mk h =>
    suffices ∀ vs ss, Each StmtTree vs ss → ∀ d, vs.foldl importStmt d = record d (importsOf ss) from this _ _ h []
    intro vs ss h
    induction h with
    | nil => intro d; rfl
    | cons h _ ih =>
      intro d
      rw [List.foldl_cons, ih, stmt_record h, ← record_append]
      rfl

/-- What is known of a module is the last import of it. -/
theorem imports_last {v : Val} {ss : List TopStmt} (h : FileTree v ss) (m a : Str) :
    (topLevelImports v).get? m = some a ↔ ((importsOf ss).filter (fun p => decide (p.1 = m))).getLast? = some (m, a) := by
  rw [file_record h, record_get]
  cases hl : ((importsOf ss).filter (fun p => decide (p.1 = m))).getLast? with
  | none => simp [Dict.get?]
  | some p =>
    have := List.mem_of_getLast? hl
    have hm : p.1 = m := by simpa using (List.mem_filter.1 this).2
    obtain ⟨p1, p2⟩ := p
    simp only at hm
    subst hm
    simp

/-- **C56**: `WithTopLevelImport(m, module, name)` behaves like `m` if the last import of the module at the top level of the file
binds it to the name, and otherwise fails. -/
theorem C56_last_import {c : Ctx} {ss : List TopStmt} (h : FileTree c.tree ss) (n : Nat) (env : Env) (m : Matcher) (module name : Str)
    (v : Val) (ks : List Key) :
    run c (n + 1) env (.withTopLevelImport m module name) v ks =
      if ((importsOf ss).filter (fun p => decide (p.1 = module))).getLast? = some (module, name) then run c n env m v ks
      else .ok (none, ks) := by
  simp only [run, imports_last h]

/-- **C56**: it never matches unless some import at top level binds the module to the name. -/
theorem C56_sound {c : Ctx} {ss : List TopStmt} (h : FileTree c.tree ss) (n : Nat) (env : Env) (m : Matcher) (module name : Str)
    (v : Val) (ks ks' : List Key) (mi : MatchInfo) (hm : run c n env (.withTopLevelImport m module name) v ks = .ok (some mi, ks')) :
    ∃ s ∈ ss, (module, name) ∈ s.binds := by
  cases n with
  | zero => simp [run] at hm
  | succ n =>
    rw [C56_last_import h] at hm
    split at hm
    · rename_i hl
      exact List.mem_flatMap.1 (List.mem_filter.1 (List.mem_of_getLast? hl)).1
    · cases hm

/-- **C56** (for files that import no module under two names): it behaves like `m` iff some import at top level binds
the module to the name. -/
theorem C56_iff {c : Ctx} {ss : List TopStmt} (h : FileTree c.tree ss) (n : Nat) (env : Env) (m : Matcher) (module name : Str)
    (v : Val) (ks : List Key) (hone : ∀ s ∈ ss, ∀ s' ∈ ss, ∀ a b, (module, a) ∈ s.binds → (module, b) ∈ s'.binds → a = b) :
    ((∃ s ∈ ss, (module, name) ∈ s.binds) →
      run c (n + 1) env (.withTopLevelImport m module name) v ks = run c n env m v ks) ∧
    ((¬ ∃ s ∈ ss, (module, name) ∈ s.binds) →
      run c (n + 1) env (.withTopLevelImport m module name) v ks = .ok (none, ks)) := by
  rw [C56_last_import h]
  constructor
  · rintro ⟨s, hs, hb⟩
    rw [if_pos]
    have hmem : (module, name) ∈ (importsOf ss).filter (fun p => decide (p.1 = module)) :=
      List.mem_filter.2 ⟨List.mem_flatMap.2 ⟨s, hs, hb⟩, by simp⟩
    cases hl : ((importsOf ss).filter (fun p => decide (p.1 = module))).getLast? with
    | none => rw [List.getLast?_eq_none_iff] at hl; rw [hl] at hmem; cases hmem
    | some p =>
      obtain ⟨p1, p2⟩ := p
      obtain ⟨h1, h2⟩ := List.mem_filter.1 (List.mem_of_getLast? hl)
      simp only [decide_eq_true_eq] at h2
      subst h2
      obtain ⟨s', hs', hb'⟩ := List.mem_flatMap.1 h1
      rw [hone s hs s' hs' name p2 hb hb']
  · intro hno
    rw [if_neg]
    intro hl
    exact hno (List.mem_flatMap.1 (List.mem_filter.1 (List.mem_of_getLast? hl)).1)

/-- A file: `import os`, `import os.path as p, sys`, `from a.b import c as d, e`, `from . import f`, `import os as o`. -/
def exImports : List TopStmt :=
  [.imports [⟨str "os", none⟩], .imports [⟨str "os.path", some (str "p")⟩, ⟨str "sys.x", none⟩],
   .fromImport (some (str "a.b")) 0 [⟨str "c", some (str "d")⟩, ⟨str "e", none⟩], .fromImport none 1 [⟨str "f", none⟩], .other,
   .imports [⟨str "os", some (str "o")⟩]]

/-- The tree of one name. -/
def exAlias (n : Str) (a : Const) : Val := .node 0 (str "alias") [str "name", str "asname"] [.const 0 (.str n), .const 0 a]

/-- Its tree. -/
def exImportTree : Val :=
  .node 0 (str "Module") [str "body", str "type_ignores"] [.list 0 [
    .node 0 (str "Import") [str "names"] [.list 0 [exAlias (str "os") .none]],
    .node 0 (str "Import") [str "names"] [.list 0 [exAlias (str "os.path") (.str (str "p")), exAlias (str "sys.x") .none]],
    .node 0 (str "ImportFrom") [str "module", str "names", str "level"] [.const 0 (.str (str "a.b")),
      .list 0 [exAlias (str "c") (.str (str "d")), exAlias (str "e") .none], .const 0 (.int 0)],
    .node 0 (str "ImportFrom") [str "module", str "names", str "level"] [.const 0 .none, .list 0 [exAlias (str "f") .none], .const 0 (.int 1)],
    .node 0 (str "Pass") [] [],
    .node 0 (str "Import") [str "names"] [.list 0 [exAlias (str "os") (.str (str "o"))]]], .list 0 []]

theorem exImportTree_ok : FileTree exImportTree exImports :=
  .mk (.cons (.imports (.cons (.mk .none) .nil))
    (.cons (.imports (.cons (.mk .some) (.cons (.mk .none) .nil)))
    (.cons (.fromImport (dots := 0) .some (by simp) (.cons (.mk .some) (.cons (.mk .none) .nil)))
    (.cons (.fromImport (dots := 1) .none (by simp) (.cons (.mk .none) .nil))
    (.cons (.other (by decide) (by decide))
    (.cons (.imports (.cons (.mk .some) .nil)) .nil))))))

example : importsOf exImports = [(str "os", str "os"), (str "os.path", str "p"), (str "sys", str "sys"), (str "a.b.c", str "d"),
    (str "a.b.e", str "e"), (str "os", str "o")] := by decide

/-- In that file `a.b.c` is known as `d`. -/
example : ∃ mi, run { exCtx with tree := exImportTree } 2 [] (.withTopLevelImport .anything (str "a.b.c") (str "d")) exImportTree [] =
    .ok (some mi, []) := by
  refine ⟨_, ((C56_iff (c := { exCtx with tree := exImportTree }) exImportTree_ok 1 [] .anything (str "a.b.c") (str "d") exImportTree [] ?_).1
    ⟨_, List.mem_cons_of_mem _ (List.mem_cons_of_mem _ (List.mem_cons_self ..)), by decide⟩).trans rfl⟩
  have : (importsOf exImports).all (fun p => decide (p.1 ≠ str "a.b.c") || decide (p.2 = str "d")) = true := by decide
  rw [List.all_eq_true] at this
  intro s hs s' hs' a b ha hb
  have h1 := this _ (List.mem_flatMap.2 ⟨s, hs, ha⟩)
  have h2 := this _ (List.mem_flatMap.2 ⟨s', hs', hb⟩)
  simp at h1 h2
  rw [h1, h2]

/-- **C56**, refutation: `import os` binds the module `os` to `os`, but with a later `import os as o` it is no longer known. -/
theorem C56_two_names_false : (∃ s ∈ exImports, (str "os", str "os") ∈ s.binds) ∧
    ∀ m v ks, run { exCtx with tree := exImportTree } 9 [] (.withTopLevelImport m (str "os") (str "os")) v ks = .ok (none, ks) := by
  refine ⟨⟨_, List.mem_cons_self .., by decide⟩, fun m v ks => ?_⟩
  rw [C56_last_import (ss := exImports) exImportTree_ok, if_neg (by decide)]

/-- **C56**: without a name, the name is the one that `from module import x` gives to `module.x`. -/
theorem C56_default_name (m x : Str) (hx : '.' ∉ x) :
    (TopStmt.fromImport (some m) 0 [⟨x, none⟩]).binds = [(m ++ str "." ++ x, defaultAsName (m ++ str "." ++ x))] := by
  have h : defaultAsName (m ++ str "." ++ x) = x := by
    unfold defaultAsName
    rw [List.reverse_append, List.reverse_append, show (str ".").reverse = ['.'] from rfl, List.takeWhile_append_of_pos]
    · simp
    · intro a ha
      simp only [List.mem_reverse] at ha
      simp only [ne_eq, decide_not, Bool.not_eq_true', decide_eq_false_iff_not]
      rintro rfl; exact hx ha
  rw [h]; rfl

example : defaultAsName (str "os.path") = str "path" := by decide

end Refex
