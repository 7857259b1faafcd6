import Verif.Props.BuiltinRules
import Verif.Spec.Assertions
/- C82: the built-in rules keep the meaning of what they rewrite. -/
namespace Refex
set_option autoImplicit false

/-! ### The meaning is determined -/

theorem isCall_inj {v f g : Val} {as bs : List Val} (h : IsCall v f as) (h' : IsCall v g bs) : f = g ∧ as = bs := by
  obtain ⟨i, j, k, rfl⟩ := h
  obtain ⟨i', j', k', e⟩ := h'
  injection e with _ _ _ e
  injection e with e1 e
  injection e with e2 _
  injection e2 with _ e2
  exact ⟨e1, e2⟩

theorem isSelfCall_inj {v : Val} {m m' : Str} {as bs : List Val} (h : IsSelfCall v m as) (h' : IsSelfCall v m' bs) : m = m' ∧ as = bs := by
  obtain ⟨i, j, l, s, _, h⟩ := h
  obtain ⟨i', j', l', s', _, h'⟩ := h'
  obtain ⟨e, e2⟩ := isCall_inj h h'
  injection e with _ _ _ e
  injection e with _ e
  injection e with e _
  injection e with _ e
  injection e with e
  exact ⟨e, e2⟩

theorem truth_det {w : ValueWorld} {v : Val} {b b' : Bool} (h : Truth w v b) (h' : Truth w v b') : b = b' := by
  induction h generalizing b' with
  | compare =>
    cases h' with
    | compare => rfl
    | isInstance _ hc => obtain ⟨i, j, k, e⟩ := hc; injection e with _ e _ _; exact absurd e (by decide)
  | isInstance _ hc =>
    have hc0 := hc
    obtain ⟨i, j, k, e⟩ := hc
    subst e
    generalize hv : Val.node i _ _ _ = v at h'
    cases h' with
    | compare => injection hv with _ e _ _; exact absurd e (by decide)
    | isInstance _ hc' => subst hv; obtain ⟨_, e⟩ := isCall_inj hc0 hc'; cases e; rfl
    | not _ => injection hv with _ e _ _; exact absurd e (by decide)
  | not _ ih =>
    cases h' with
    | isInstance _ hc => obtain ⟨i, j, k, e⟩ := hc; injection e with _ e _ _; exact absurd e (by decide)
    | not h1 => rw [ih h1]

/-- An assertion succeeds or does not. -/
theorem C82_succeeds_det {w : ValueWorld} {v : Val} {b b' : Bool} (h : Succeeds w v b) (h' : Succeeds w v b') : b = b' := by
  cases h with
  | assertTrue h1 h2 =>
    cases h' with
    | assertTrue g1 g2 => obtain ⟨_, e⟩ := isSelfCall_inj h1 g1; cases e; exact truth_det h2 g2
    | assertFalse g1 g2 => exact absurd (isSelfCall_inj h1 g1).1 (by decide)
    | method g1 g2 => obtain ⟨rfl, rfl⟩ := isSelfCall_inj h1 g1; exact absurd g2 (fun h => by rw [show w.method _ _ = none from rfl] at h; cases h)
  | assertFalse h1 h2 =>
    cases h' with
    | assertTrue g1 g2 => exact absurd (isSelfCall_inj h1 g1).1 (by decide)
    | assertFalse g1 g2 => obtain ⟨_, e⟩ := isSelfCall_inj h1 g1; cases e; rw [truth_det h2 g2]
    | method g1 g2 => obtain ⟨rfl, rfl⟩ := isSelfCall_inj h1 g1; exact absurd g2 (fun h => by rw [show w.method _ _ = none from rfl] at h; cases h)
  | method h1 h2 =>
    cases h' with
    | assertTrue g1 g2 => obtain ⟨rfl, rfl⟩ := isSelfCall_inj h1 g1; exact absurd h2 (fun h => by rw [show w.method _ _ = none from rfl] at h; cases h)
    | assertFalse g1 g2 => obtain ⟨rfl, rfl⟩ := isSelfCall_inj h1 g1; exact absurd h2 (fun h => by rw [show w.method _ _ = none from rfl] at h; cases h)
    | method g1 g2 => obtain ⟨rfl, rfl⟩ := isSelfCall_inj h1 g1; rw [h2] at g2; cases g2; rfl

/-! ### What the shapes of the rules read -/

theorem reads_name {s : Str} {v : Val} {occ : Occs} (h : (Code.name s).Reads v occ) : IsNameNode v s ∧ occ = [] := by
  cases h; exact ⟨⟨_, _, _, rfl⟩, rfl⟩

theorem reads_var {x : Label} {v : Val} {occ : Occs} (h : (Code.var x).Reads v occ) : occ = [(x, v)] := by cases h; rfl

theorem reads_selfCall {m : String} {as : List Code} {v : Val} {occ : Occs} (h : (selfCall m as).Reads v occ) :
    ∃ args, IsSelfCall v (str m) args ∧ CodesRead as args occ := by
  cases h with
  | call h1 h2 h3 =>
    cases h1 with
    | attr h4 h5 =>
      cases h3
      obtain ⟨hn, rfl⟩ := reads_name h4
      exact ⟨_, ⟨_, _, _, _, hn, _, _, _, rfl⟩, by simpa using h2⟩

theorem codesRead_one {p : Code} {vs : List Val} {occ : Occs} (h : CodesRead [p] vs occ) : ∃ v, vs = [v] ∧ p.Reads v occ := by
  cases h with | cons h1 h2 => cases h2; exact ⟨_, rfl, by simpa using h1⟩

theorem codesRead_two_vars {x y : Label} {vs : List Val} {occ : Occs} (h : CodesRead [.var x, .var y] vs occ) :
    ∃ a b, vs = [a, b] ∧ occ = [(x, a), (y, b)] := by
  cases h with
  | cons h1 h2 =>
    obtain ⟨v, rfl, h3⟩ := codesRead_one h2
    cases reads_var h1; cases reads_var h3
    exact ⟨_, _, rfl, rfl⟩

theorem reads_cmp {x y : Label} {op : Str} {v : Val} {occ : Occs} (h : (Code.compare (.var x) op (.var y)).Reads v occ) (w : ValueWorld) :
    ∃ a b, occ = [(x, a), (y, b)] ∧ Truth w v (w.cmp op (w.value a) (w.value b)) := by
  cases h with
  | compare h1 h2 h3 h4 h5 =>
    obtain ⟨j, rfl⟩ := h2
    obtain ⟨k, rfl⟩ := h3
    obtain ⟨m, rfl⟩ := h4
    cases reads_var h1; cases reads_var h5
    exact ⟨_, _, rfl, .compare⟩

theorem reads_isInstance {v : Val} {occ : Occs} (h : isInstanceCall.Reads v occ) (w : ValueWorld) :
    ∃ a b, occ = [(str "lhs", a), (str "rhs", b)] ∧ Truth w v (w.isInstance (w.value a) (w.value b)) := by
  cases h with
  | call h1 h2 h3 =>
    cases h3
    obtain ⟨hn, rfl⟩ := reads_name h1
    obtain ⟨a, b, rfl, rfl⟩ := codesRead_two_vars h2
    exact ⟨a, b, rfl, .isInstance hn ⟨_, _, _, rfl⟩⟩

theorem reads_not {p : Code} {v : Val} {occ : Occs} (h : (Code.not p).Reads v occ) :
    ∃ i j e, v = .node i (str "UnaryOp") [str "op", str "operand"] [.node j (str "Not") [] [], e] ∧ p.Reads e occ := by
  cases h with
  | not h1 h2 => obtain ⟨j, rfl⟩ := h1; exact ⟨_, _, _, rfl, h2⟩

/-- The value of the (last) expression that stands for a metavariable. -/
def Occs.valueOf (w : ValueWorld) (occ : Occs) (x : Label) : Option w.Obj := (occ.of x).getLast?.map w.value

/-- The meaning of a piece of code, given the values of its metavariables: as a condition. -/
inductive Code.Cond (w : ValueWorld) (ρ : Label → Option w.Obj) : Code → Bool → Prop
  | compare {x op y a b} : ρ x = some a → ρ y = some b → x ≠ y → Cond w ρ (.compare (.var x) op (.var y)) (w.cmp op a b)
  | isInstance {a b} : ρ (str "lhs") = some a → ρ (str "rhs") = some b → Cond w ρ isInstanceCall (w.isInstance a b)
  | not {p b} : Cond w ρ p b → Cond w ρ (.not p) (!b)

theorem valueOf_two {w : ValueWorld} {x y : Label} (hxy : x ≠ y) (a b : Val) :
    Occs.valueOf w [(x, a), (y, b)] x = some (w.value a) ∧ Occs.valueOf w [(x, a), (y, b)] y = some (w.value b) := by
  constructor
  · have : Occs.of [(x, a), (y, b)] x = [a] := by
      unfold Occs.of; rw [List.filter_cons_of_pos (by simp), List.filter_cons_of_neg (by simpa using fun h => hxy h.symm)]; rfl
    unfold Occs.valueOf; rw [this]; rfl
  · have : Occs.of [(x, a), (y, b)] y = [b] := by
      unfold Occs.of; rw [List.filter_cons_of_neg (by simpa using hxy), List.filter_cons_of_pos (by simp)]; rfl
    unfold Occs.valueOf; rw [this]; rfl

theorem cond_truth {w : ValueWorld} {ρ : Label → Option w.Obj} {p : Code} {b : Bool} (h : p.Cond w ρ b) :
    ∀ {v : Val} {occ : Occs}, p.Reads v occ → occ.valueOf w = ρ → Truth w v b := by
  induction h with
  | compare h1 h2 hxy =>
    intro v occ hr he
    obtain ⟨a, b, rfl, ht⟩ := reads_cmp hr w
    obtain ⟨e1, e2⟩ := valueOf_two (w := w) hxy a b
    rw [he, h1] at e1; rw [he, h2] at e2
    cases e1; cases e2; exact ht
  | isInstance h1 h2 =>
    intro v occ hr he
    obtain ⟨a, b, rfl, ht⟩ := reads_isInstance hr w
    obtain ⟨e1, e2⟩ := valueOf_two (w := w) (x := str "lhs") (y := str "rhs") (by decide) a b
    rw [he, h1] at e1; rw [he, h2] at e2
    cases e1; cases e2; exact ht
  | not _ ih =>
    intro v occ hr he
    obtain ⟨i, j, e, rfl, h1⟩ := reads_not hr
    exact .not (ih h1 he)

/-- and as an assertion. -/
inductive Code.Asserts (w : ValueWorld) (ρ : Label → Option w.Obj) : Code → Bool → Prop
  | assertTrue {p b} : p.Cond w ρ b → Asserts w ρ (selfCall "assertTrue" [p]) b
  | assertFalse {p b} : p.Cond w ρ b → Asserts w ρ (selfCall "assertFalse" [p]) (!b)
  | method {m : String} {a b r} : ρ (str "lhs") = some a → ρ (str "rhs") = some b → w.method (str m) [a, b] = some r → Asserts w ρ (selfCall m [vLhs, vRhs]) r
  | empty {a} : ρ (str "x") = some a → Asserts w ρ (selfCall "assertEmpty" [.var (str "x")]) (w.isEmpty a)
  | len {a} : ρ (str "x") = some a → Asserts w ρ (selfCall "assertLen" [.var (str "x"), .int 0]) (w.isEmpty a)

theorem valueOf_one {w : ValueWorld} (x : Label) (a : Val) : Occs.valueOf w [(x, a)] x = some (w.value a) := by
  have : Occs.of [(x, a)] x = [a] := by unfold Occs.of; rw [List.filter_cons_of_pos (by simp)]; rfl
  unfold Occs.valueOf; rw [this]; rfl

theorem asserts_succeeds {w : ValueWorld} (hw : w.Pythonic) {ρ : Label → Option w.Obj} {p : Code} {b : Bool} (h : p.Asserts w ρ b)
    {v : Val} {occ : Occs} (hr : p.Reads v occ) (he : occ.valueOf w = ρ) : Succeeds w v b := by
  cases h with
  | assertTrue h1 =>
    obtain ⟨args, hc, ha⟩ := reads_selfCall hr
    obtain ⟨e, rfl, hp⟩ := codesRead_one ha
    exact .assertTrue hc (cond_truth h1 hp he)
  | assertFalse h1 =>
    obtain ⟨args, hc, ha⟩ := reads_selfCall hr
    obtain ⟨e, rfl, hp⟩ := codesRead_one ha
    exact .assertFalse hc (cond_truth h1 hp he)
  | method h1 h2 h3 =>
    obtain ⟨args, hc, ha⟩ := reads_selfCall hr
    obtain ⟨a, b, rfl, rfl⟩ := codesRead_two_vars ha
    obtain ⟨e1, e2⟩ := valueOf_two (w := w) (x := str "lhs") (y := str "rhs") (by decide) a b
    rw [he, h1] at e1; rw [he, h2] at e2
    cases e1; cases e2
    exact .method hc h3
  | empty h1 =>
    obtain ⟨args, hc, ha⟩ := reads_selfCall hr
    obtain ⟨a, rfl, hp⟩ := codesRead_one ha
    cases reads_var hp
    have e1 := valueOf_one (w := w) (str "x") a
    rw [he, h1] at e1
    cases e1
    exact .method hc rfl
  | len h1 =>
    obtain ⟨args, hc, ha⟩ := reads_selfCall hr
    cases ha with
    | cons h2 h3 =>
      cases reads_var h2
      obtain ⟨z, rfl, h4⟩ := codesRead_one h3
      cases h4 with
      | int h5 =>
        rw [List.append_nil] at he
        have e1 := congrFun he (str "x")
        rw [valueOf_one, h1] at e1
        cases e1
        exact .method hc (by rw [← hw.zero _ _ _ _ _ h5]; rfl)

/-! ### The rules -/

theorem method_assertEqual (w : ValueWorld) (a b : w.Obj) : w.method (str "assertEqual") [a, b] = some (w.cmp (str "Eq") a b) := rfl
theorem method_assertNotEqual (w : ValueWorld) (a b : w.Obj) : w.method (str "assertNotEqual") [a, b] = some (w.cmp (str "NotEq") a b) := rfl
theorem method_assertIs (w : ValueWorld) (a b : w.Obj) : w.method (str "assertIs") [a, b] = some (w.cmp (str "Is") a b) := rfl
theorem method_assertIsNot (w : ValueWorld) (a b : w.Obj) : w.method (str "assertIsNot") [a, b] = some (w.cmp (str "IsNot") a b) := rfl
theorem method_assertIn (w : ValueWorld) (a b : w.Obj) : w.method (str "assertIn") [a, b] = some (w.cmp (str "In") a b) := rfl
theorem method_assertNotIn (w : ValueWorld) (a b : w.Obj) : w.method (str "assertNotIn") [a, b] = some (w.cmp (str "NotIn") a b) := rfl
theorem method_assertGreater (w : ValueWorld) (a b : w.Obj) : w.method (str "assertGreater") [a, b] = some (w.cmp (str "Gt") a b) := rfl
theorem method_assertGreaterEqual (w : ValueWorld) (a b : w.Obj) : w.method (str "assertGreaterEqual") [a, b] = some (w.cmp (str "GtE") a b) := rfl
theorem method_assertLess (w : ValueWorld) (a b : w.Obj) : w.method (str "assertLess") [a, b] = some (w.cmp (str "Lt") a b) := rfl
theorem method_assertLessEqual (w : ValueWorld) (a b : w.Obj) : w.method (str "assertLessEqual") [a, b] = some (w.cmp (str "LtE") a b) := rfl
theorem method_assertIsInstance (w : ValueWorld) (a b : w.Obj) : w.method (str "assertIsInstance") [a, b] = some (w.isInstance a b) := rfl
theorem method_assertNotIsInstance (w : ValueWorld) (a b : w.Obj) : w.method (str "assertNotIsInstance") [a, b] = some (!w.isInstance a b) := rfl
theorem method_assertItemsEqual (w : ValueWorld) (a b : w.Obj) : w.method (str "assertItemsEqual") [a, b] = some (w.sameElements a b) := rfl
theorem method_assertCountEqual (w : ValueWorld) (a b : w.Obj) : w.method (str "assertCountEqual") [a, b] = some (w.sameElements a b) := rfl

theorem method_alias (w : ValueWorld) (args : List w.Obj) : w.method (str "assertItemsEqual") args = w.method (str "assertCountEqual") args := by
  match args with
  | [] => exact (show w.method (str "assertItemsEqual") [] = none from by simp only [ValueWorld.method]).trans (by simp only [ValueWorld.method])
  | [a] => exact (show w.method (str "assertItemsEqual") [a] = none from rfl).trans (show w.method (str "assertCountEqual") [a] = none from rfl).symm
  | [a, b] => rw [method_assertItemsEqual, method_assertCountEqual]
  | _ :: _ :: _ :: _ => simp only [ValueWorld.method]

theorem with_operands {w : ValueWorld} {ρ : Label → Option w.Obj} {r : Rule} (hv : r.old.vars = [str "lhs", str "rhs"])
    (h : ∀ a b, ρ (str "lhs") = some a → ρ (str "rhs") = some b → ∃ c, r.old.Asserts w ρ c ∧ r.new.Asserts w ρ c)
    (_ : ∀ e a, r.old ≠ .attr e a) (hρ : ∀ x ∈ r.old.vars, ∃ a, ρ x = some a) : ∃ c, r.old.Asserts w ρ c ∧ r.new.Asserts w ρ c := by
  obtain ⟨a, h1⟩ := hρ (str "lhs") (by rw [hv]; exact List.mem_cons_self ..)
  obtain ⟨b, h2⟩ := hρ (str "rhs") (by rw [hv]; exact List.mem_cons_of_mem _ (List.mem_cons_self ..))
  exact h a b h1 h2

/-- The two pieces of code mean the same, whatever the metavariables stand for. -/
theorem unittest_meaning {w : ValueWorld} (hw : w.Pythonic) (ρ : Label → Option w.Obj) :
    ∀ r ∈ unittestRules, (∀ e a, r.old ≠ .attr e a) → (∀ x ∈ r.old.vars, ∃ a, ρ x = some a) → ∃ b, r.old.Asserts w ρ b ∧ r.new.Asserts w ρ b := by
  unfold unittestRules
  refine List.forall_mem_cons.2 ⟨fun h _ => absurd rfl (h _ _), ?_⟩
  refine List.forall_mem_cons.2 ⟨with_operands (by decide) (fun a b h1 h2 => ⟨_, .assertTrue (.compare h1 h2 (by decide)), .method h1 h2 (method_assertEqual w a b)⟩), ?_⟩
  refine List.forall_mem_cons.2 ⟨with_operands (by decide) (fun a b h1 h2 => ⟨_, .assertTrue (.compare h1 h2 (by decide)), .method h1 h2 (method_assertNotEqual w a b)⟩), ?_⟩
  refine List.forall_mem_cons.2 ⟨with_operands (by decide) (fun a b h1 h2 => ⟨_, .assertTrue (.compare h1 h2 (by decide)), .method h1 h2 (method_assertEqual w a b)⟩), ?_⟩
  refine List.forall_mem_cons.2 ⟨with_operands (by decide) (fun a b h1 h2 => ⟨_, .assertTrue (.compare h1 h2 (by decide)), .method h1 h2 (method_assertNotEqual w a b)⟩), ?_⟩
  refine List.forall_mem_cons.2 ⟨with_operands (by decide) (fun a b h1 h2 => ⟨_, .assertTrue (.compare h1 h2 (by decide)), .method h1 h2 (method_assertIs w a b)⟩), ?_⟩
  refine List.forall_mem_cons.2 ⟨with_operands (by decide) (fun a b h1 h2 => ⟨_, .assertTrue (.compare h1 h2 (by decide)), .method h1 h2 (method_assertIsNot w a b)⟩), ?_⟩
  refine List.forall_mem_cons.2 ⟨with_operands (by decide) (fun a b h1 h2 => ⟨_, .assertFalse (.compare h1 h2 (by decide)), .method h1 h2 ((method_assertIsNot w a b).trans (congrArg some (hw.isNot a b)))⟩), ?_⟩
  refine List.forall_mem_cons.2 ⟨with_operands (by decide) (fun a b h1 h2 => ⟨_, .assertFalse (.compare h1 h2 (by decide)), .method h1 h2 ((method_assertIs w a b).trans (congrArg some (by rw [hw.isNot a b, Bool.not_not])))⟩), ?_⟩
  refine List.forall_mem_cons.2 ⟨with_operands (by decide) (fun a b h1 h2 => ⟨_, .assertTrue (.compare h1 h2 (by decide)), .method h1 h2 (method_assertIn w a b)⟩), ?_⟩
  refine List.forall_mem_cons.2 ⟨with_operands (by decide) (fun a b h1 h2 => ⟨_, .assertTrue (.compare h1 h2 (by decide)), .method h1 h2 (method_assertNotIn w a b)⟩), ?_⟩
  refine List.forall_mem_cons.2 ⟨with_operands (by decide) (fun a b h1 h2 => ⟨_, .assertFalse (.compare h1 h2 (by decide)), .method h1 h2 ((method_assertNotIn w a b).trans (congrArg some (hw.notIn a b)))⟩), ?_⟩
  refine List.forall_mem_cons.2 ⟨with_operands (by decide) (fun a b h1 h2 => ⟨_, .assertFalse (.compare h1 h2 (by decide)), .method h1 h2 ((method_assertIn w a b).trans (congrArg some (by rw [hw.notIn a b, Bool.not_not])))⟩), ?_⟩
  refine List.forall_mem_cons.2 ⟨with_operands (by decide) (fun a b h1 h2 => ⟨_, .assertTrue (.compare h1 h2 (by decide)), .method h1 h2 (method_assertGreater w a b)⟩), ?_⟩
  refine List.forall_mem_cons.2 ⟨with_operands (by decide) (fun a b h1 h2 => ⟨_, .assertTrue (.compare h1 h2 (by decide)), .method h1 h2 (method_assertGreaterEqual w a b)⟩), ?_⟩
  refine List.forall_mem_cons.2 ⟨with_operands (by decide) (fun a b h1 h2 => ⟨_, .assertTrue (.compare h1 h2 (by decide)), .method h1 h2 (method_assertLess w a b)⟩), ?_⟩
  refine List.forall_mem_cons.2 ⟨with_operands (by decide) (fun a b h1 h2 => ⟨_, .assertTrue (.compare h1 h2 (by decide)), .method h1 h2 (method_assertLessEqual w a b)⟩), ?_⟩
  refine List.forall_mem_cons.2 ⟨with_operands (by decide) (fun a b h1 h2 => ⟨_, .assertTrue (.isInstance h1 h2), .method h1 h2 (method_assertIsInstance w a b)⟩), ?_⟩
  refine List.forall_mem_cons.2 ⟨with_operands (by decide) (fun a b h1 h2 => ⟨_, .assertTrue (.not (.isInstance h1 h2)), .method h1 h2 (method_assertNotIsInstance w a b)⟩), ?_⟩
  refine List.forall_mem_cons.2 ⟨with_operands (by decide) (fun a b h1 h2 => ⟨_, .assertFalse (.isInstance h1 h2), .method h1 h2 (method_assertNotIsInstance w a b)⟩), ?_⟩
  refine List.forall_mem_cons.2 ⟨with_operands (by decide) (fun a b h1 h2 => ⟨_, .assertFalse (.not (.isInstance h1 h2)), .method h1 h2 ((method_assertIsInstance w a b).trans (congrArg some (Bool.not_not _).symm))⟩), ?_⟩
  refine List.forall_mem_cons.2 ⟨fun _ h => ?_, fun r h => nomatch h⟩
  obtain ⟨a, h1⟩ := h (str "x") (by decide)
  exact ⟨_, .len h1, .empty h1⟩

theorem unittest_vars : ∀ r ∈ unittestRules, r.old.vars = r.new.vars ∧ r.old.vars.Nodup := by decide

/-- The metavariables stand for expressions with the same values in both. -/
def SameValues (w : ValueWorld) (occ occ' : Occs) : Prop := ∀ x a a', (x, a) ∈ occ → (x, a') ∈ occ' → w.value a = w.value a'

theorem occs_of_nodup {occ : Occs} (hn : (occ.map Prod.fst).Nodup) {x : Label} {a : Val} (h : (x, a) ∈ occ) : occ.of x = [a] := by
  have hl : (occ.of x).length ≤ 1 := by rw [occs_of_length]; exact List.nodup_iff_count.1 hn x
  have hm : a ∈ occ.of x := List.mem_map.2 ⟨(x, a), List.mem_filter.2 ⟨h, by simp⟩, rfl⟩
  match hh : occ.of x with
  | [] => rw [hh] at hm; cases hm
  | [b] => rw [hh] at hm; rw [List.mem_singleton.1 hm]
  | b :: c :: l => rw [hh] at hl; simp at hl

theorem occs_of_absent {occ : Occs} {x : Label} (h : x ∉ occ.map Prod.fst) : occ.of x = [] := by
  have : (occ.of x).length = 0 := by rw [occs_of_length]; exact List.count_eq_zero_of_not_mem h
  exact List.length_eq_zero_iff.1 this

theorem valueOf_same {w : ValueWorld} {occ occ' : Occs} (hn : (occ.map Prod.fst).Nodup) (hv : occ.map Prod.fst = occ'.map Prod.fst)
    (hs : SameValues w occ occ') : occ'.valueOf w = occ.valueOf w := by
  funext x
  unfold Occs.valueOf
  by_cases hx : x ∈ occ.map Prod.fst
  · have hx' := hx
    rw [hv] at hx'
    obtain ⟨⟨_, a⟩, ha, rfl⟩ := List.mem_map.1 hx
    obtain ⟨⟨y, a'⟩, ha', e⟩ := List.mem_map.1 hx'
    obtain rfl : y = _ := e
    rw [occs_of_nodup hn ha, occs_of_nodup (hv ▸ hn) ha']
    exact congrArg some (hs _ _ _ ha ha').symm
  · rw [occs_of_absent hx, occs_of_absent (hv ▸ hx)]

section
variable {w : ValueWorld} {r : Rule} {v e : Val} {occ occ' : Occs}

/-- **C82**: an assertion rewritten by a rule succeeds exactly when the original does. -/
theorem C82_assertions (hw : w.Pythonic) (hr : r ∈ unittestRules) (ha : ∀ e a, r.old ≠ .attr e a) (hv : r.old.Reads v occ) (he : r.new.Reads e occ')
    (hs : SameValues w occ occ') : ∃ b, Succeeds w v b ∧ Succeeds w e b := by
  obtain ⟨h1, h2⟩ := unittest_vars r hr
  have hvv : occ.map Prod.fst = occ'.map Prod.fst := by rw [reads_vars _ hv, reads_vars _ he, h1]
  have hn : (occ.map Prod.fst).Nodup := by rw [reads_vars _ hv]; exact h2
  obtain ⟨b, g1, g2⟩ := unittest_meaning hw (occ.valueOf w) r hr ha (fun x hx => by
    rw [← reads_vars _ hv] at hx
    obtain ⟨⟨_, a⟩, ha, rfl⟩ := List.mem_map.1 hx
    unfold Occs.valueOf
    rw [occs_of_nodup hn ha]
    exact ⟨_, rfl⟩)
  exact ⟨b, asserts_succeeds hw g1 hv rfl, asserts_succeeds hw g2 he (valueOf_same hn hvv hs)⟩

/-- **C82**: the operands stay in their order, each once. -/
theorem C82_order (hr : r ∈ unittestRules) (hv : r.old.Reads v occ) (he : r.new.Reads e occ') :
    occ.map Prod.fst = occ'.map Prod.fst ∧ (occ.map Prod.fst).Nodup := by
  obtain ⟨h1, h2⟩ := unittest_vars r hr
  rw [reads_vars _ hv, reads_vars _ he]
  exact ⟨h1, h2⟩

/-- **C82**: the other rules for assertions replace a method by one that succeeds for the same arguments. -/
theorem C82_alias (hr : r ∈ unittestRules) {q : Code} {a : Str} (ha : r.old = .attr q a) (hv : r.old.Reads v occ) (he : r.new.Reads e occ') :
    ∃ i i' j j' l l' self self' m m', v = .node i (str "Attribute") [str "value", str "attr", str "ctx"] [self, .const j (.str m), l] ∧
      e = .node i' (str "Attribute") [str "value", str "attr", str "ctx"] [self', .const j' (.str m'), l'] ∧
      IsNameNode self (str "self") ∧ IsNameNode self' (str "self") ∧ (∃ args b, w.method m args = some b) ∧ ∀ args, w.method m args = w.method m' args := by
  have hall : ∀ r ∈ unittestRules, (∃ q a, r.old = .attr q a) →
      (r.old = .attr (.name (str "self")) (str "assertItemsEqual") ∧ r.new = .attr (.name (str "self")) (str "assertCountEqual")) := by
    unfold unittestRules
    refine List.forall_mem_cons.2 ⟨fun _ => ⟨rfl, rfl⟩, ?_⟩
    repeat refine List.forall_mem_cons.2 ⟨fun ⟨_, _, h⟩ => Code.noConfusion h, ?_⟩
    exact fun r h => nomatch h
  have h := hall r hr ⟨q, a, ha⟩
  rw [h.1] at hv
  rw [h.2] at he
  cases hv with
  | attr h1 _ =>
    cases he with
    | attr h2 _ =>
      refine ⟨_, _, _, _, _, _, _, _, _, _, rfl, rfl, (reads_name h1).1, (reads_name h2).1,
        ⟨[w.value loadNode, w.value loadNode], _, method_assertItemsEqual w _ _⟩, fun args => ?_⟩
      exact method_alias w args

/-- **C82**: the condition that replaces a negation has the same truth value. -/
theorem C82_negation (hw : w.Pythonic) (hr : r ∈ idiomRules) {q : Code} (hq : r.old = .not q) (hv : r.old.Reads v occ) (he : r.new.Reads e occ')
    (hs : SameValues w occ occ') : ∃ b, Truth w v b ∧ Truth w e b := by
  have hop : ∃ op op', r.old = .not (.compare vA op vB) ∧ r.new = .compare vA op' vB ∧ ∀ a b, w.cmp op' a b = !w.cmp op a b := by
    simp only [idiomRules, List.mem_cons, List.not_mem_nil, or_false] at hr
    rcases hr with rfl | rfl | rfl | rfl
    · exact ⟨_, _, rfl, rfl, hw.isNot⟩
    · exact ⟨_, _, rfl, rfl, hw.notIn⟩
    · cases hq
    · cases hq
  obtain ⟨op, op', h1, h2, h3⟩ := hop
  rw [h1] at hv
  rw [h2] at he
  obtain ⟨i, j, c, rfl, h4⟩ := reads_not hv
  obtain ⟨a, b, rfl, h5⟩ := reads_cmp h4 w
  obtain ⟨a', b', rfl, h6⟩ := reads_cmp he w
  refine ⟨_, .not h5, ?_⟩
  rw [← h3, hs _ a a' (List.mem_cons_self ..) (List.mem_cons_self ..),
    hs _ b b' (List.mem_cons_of_mem _ (List.mem_cons_self ..)) (List.mem_cons_of_mem _ (List.mem_cons_self ..))]
  exact h6

theorem loop_leaf {a b : Val} {rest : List (Val × Val)} (h : a.isNode = false ∨ b.isNode = false) :
    astEqLoop ((a, b) :: rest) = if a.pyEq b then astEqLoop rest else false := by
  rw [astEqLoop]
  rintro i t ns vs j t' ns' vs' rfl rfl
  rcases h with h | h <;> cases h

theorem loop_node {i j : Nat} {t t' : Str} {ns ns' : List Str} {vs vs' : List Val} {rest : List (Val × Val)} :
    astEqLoop ((.node i t ns vs, .node j t' ns' vs') :: rest) =
      if t = t' then astEqLoop (fieldPairs (.node j t' ns' vs') ns vs ++ rest) else isExprContext (.node i t ns vs) && isExprContext (.node j t' ns' vs') := by
  rw [astEqLoop]

theorem pyEq_str {x : Val} {j : Nat} {s : Str} (h : x.pyEq (.const j (.str s)) = true ∨ (Val.const j (.str s)).pyEq x = true) : ∃ k, x = .const k (.str s) := by
  cases x with
  | const k d =>
    refine ⟨k, ?_⟩
    simp only [Val.pyEq] at h
    cases d <;> simp [Const.pyEq, Const.whole?] at h
    rcases h with h | h
    · rw [h]
    · rw [h]
  | list k ws => simp [Val.pyEq] at h
  | node k ty ns ws => simp [Val.pyEq] at h

/-- Two equivalent pieces of code: if one is a name, so is the other. -/
theorem alike_name {g : Grammar} (hg : PythonGrammar g) {elt target : Val} {b b' : Bool} {s : Str} (hp : Parsed g b elt) (hp' : Parsed g b' target)
    (hid : elt.ident ≠ target.ident) (ha : Alike elt target) (ht : IsNameNode elt s ∨ IsNameNode target s) : IsNameNode elt s ∧ IsNameNode target s := by
  obtain ⟨_, _, h⟩ := ha
  unfold astEquivalent at h
  rw [if_neg hid] at h
  have hn : ∀ {v : Val} {b : Bool}, Parsed g b v → v.ty = str "Name" → ∃ i x c, v = .node i (str "Name") [str "id", str "ctx"] [x, c] := by
    intro v b hv hty
    obtain ⟨hnt, hf⟩ := hg.types (str "Name", [(str "id", false), (str "ctx", false)]) (by decide)
    cases hv with
    | const hc => rw [hty] at hc; exact absurd hnt hc
    | list _ => exact absurd hty (show str "list" ≠ str "Name" by decide)
    | @node i t ns vs _ hns hnd hlen _ =>
      obtain rfl : t = str "Name" := hty
      have hns : ns = [str "id", str "ctx"] := by rw [hns]; exact congrArg (List.map Prod.fst) hf
      subst hns
      match vs, hlen with
      | [x, c], _ => exact ⟨_, _, _, rfl⟩
  have hctx : ∀ (i j : Nat) (s : Str) (c : Val), isExprContext (.node i (str "Name") [str "id", str "ctx"] [.const j (.str s), c]) = false :=
    fun _ _ _ _ => by simp only [isExprContext]; decide
  have hty : elt.ty = str "Name" ∧ target.ty = str "Name" := by
    rcases ht with ⟨i', j', ctx, rfl⟩ | ⟨i', j', ctx, rfl⟩
    · refine ⟨rfl, ?_⟩
      cases target with
      | const k d => rw [loop_leaf (.inr rfl)] at h; simp [Val.pyEq] at h
      | list k d => rw [loop_leaf (.inr rfl)] at h; simp [Val.pyEq] at h
      | node k t ns vs =>
        rw [loop_node, hctx, Bool.false_and] at h
        split at h
        · rename_i e; exact e.symm
        · cases h
    · refine ⟨?_, rfl⟩
      cases elt with
      | const k d => rw [loop_leaf (.inl rfl)] at h; simp [Val.pyEq] at h
      | list k d => rw [loop_leaf (.inl rfl)] at h; simp [Val.pyEq] at h
      | node k t ns vs =>
        rw [loop_node, hctx, Bool.and_false] at h
        split at h
        · rename_i e; exact e
        · cases h
  obtain ⟨i, x, c, rfl⟩ := hn hp hty.1
  obtain ⟨i', x', c', rfl⟩ := hn hp' hty.2
  rw [loop_node, if_pos rfl] at h
  have h : astEqLoop ((x, x') :: [(c, c')]) = true := h
  rcases ht with ⟨i0, j0, ctx, e⟩ | ⟨i0, j0, ctx, e⟩
  · injection e with _ _ _ e
    injection e with e _
    subst e
    rw [loop_leaf (.inl rfl)] at h
    split at h
    · rename_i hq
      obtain ⟨k, rfl⟩ := pyEq_str (.inr hq)
      exact ⟨⟨_, _, _, rfl⟩, ⟨_, _, _, rfl⟩⟩
    · cases h
  · injection e with _ _ _ e
    injection e with e _
    subst e
    rw [loop_leaf (.inr rfl)] at h
    split at h
    · rename_i hq
      obtain ⟨k, rfl⟩ := pyEq_str (.inl hq)
      exact ⟨⟨_, _, _, rfl⟩, ⟨_, _, _, rfl⟩⟩
    · cases h

/-- **C82**: the comprehension rules, where the target is a name, put in its place a call that has the value of the comprehension. -/
theorem C82_comprehension {ev : Evaluation} (hev : ev.Pythonic) {g : Grammar} (hg : PythonGrammar g) (hr : r ∈ idiomRules) {set : Bool} {p q t : Code}
    (hc : r.old = .comp set p q t) (hv : r.old.Reads v occ ∧ ∀ x, AllAlike (occ.of x)) (he : r.new.Reads e occ')
    (hp : ∀ x a, (x, a) ∈ occ → ∃ b, Parsed g b a) (hd : (occ.map fun o => o.2.ident).Nodup) {s : Str} (hn : ∃ x a, (x, a) ∈ occ ∧ x = str "a" ∧ IsNameNode a s)
    (ρ : Str → ev.Obj) (hs : ∀ x a a', (x, a) ∈ occ → (x, a') ∈ occ' → ev.value ρ a = ev.value ρ a') :
    ev.value ρ v = ev.value ρ e := by
  have hcode : r.old = .comp set vA vA vB ∧ r.new = .call (.name (if set then str "set" else str "list")) [vB] [] := by
    simp only [idiomRules, List.mem_cons, List.not_mem_nil, or_false] at hr
    rcases hr with rfl | rfl | rfl | rfl
    · cases hc
    · cases hc
    · cases hc; exact ⟨rfl, rfl⟩
    · cases hc; exact ⟨rfl, rfl⟩
  obtain ⟨h1, h2⟩ := hv
  rw [hcode.1] at h1
  rw [hcode.2] at he
  cases h1 with
  | @comp _ _ _ _ _ gs k elt target iter j m c o o1 o2 e1 hsg e2 e3 hz =>
    obtain ⟨j', rfl⟩ := hsg
    cases reads_var e1; cases reads_var e2; cases reads_var e3
    have hal : Alike elt target := h2 (str "a") 0 1 _ _ (by decide) rfl rfl
    have hids : elt.ident ≠ target.ident := fun h => by
      simp only [List.cons_append, List.nil_append, List.map_cons, List.map_nil, List.nodup_cons, List.mem_cons, not_or] at hd
      exact hd.1.1 h
    have hnames : IsNameNode elt s ∧ IsNameNode target s := by
      obtain ⟨b1, hpe⟩ := hp (str "a") elt (List.mem_cons_self ..)
      obtain ⟨b2, hpt⟩ := hp (str "a") target (List.mem_cons_of_mem _ (List.mem_cons_self ..))
      refine alike_name hg hpe hpt hids hal ?_
      obtain ⟨x, a, hmem, rfl, hna⟩ := hn
      simp only [List.cons_append, List.nil_append, List.mem_cons, Prod.mk.injEq, List.not_mem_nil, or_false] at hmem
      rcases hmem with ⟨_, rfl⟩ | ⟨_, rfl⟩ | ⟨h, _⟩
      · exact .inl hna
      · exact .inr hna
      · exact absurd h (by decide)
    cases he with
    | call f1 f2 f3 =>
      cases f3
      obtain ⟨hf, rfl⟩ := reads_name f1
      obtain ⟨b, rfl, f4⟩ := codesRead_one f2
      cases reads_var f4
      rw [hev.comp ρ set _ _ _ _ _ _ _ _ _ s hnames.2 hz, hev.call ρ set _ _ b hf ⟨_, _, _, rfl⟩,
        ← hs (str "b") iter b (List.mem_cons_of_mem _ (List.mem_cons_of_mem _ (List.mem_cons_self ..))) (List.mem_cons_self ..)]
      congr 1
      conv => rhs; rw [← List.map_id (ev.items _)]
      refine List.map_congr_left fun o _ => ?_
      rw [hev.name _ _ _ hnames.1]
      unfold assigned
      rw [if_pos rfl]; rfl

/-- **C82**: where a rule replaces an assertion in a file, what it puts in its place parses to an assertion that succeeds exactly when
the original does, provided the value of an expression depends on its tree only (up to `==` of constants). -/
theorem C82_replaced (hw : w.Pythonic) (hstable : ∀ a b, SameTree a b → w.value a = w.value b) (hr : r ∈ unittestRules) (ha : ∀ e a, r.old ≠ .attr e a)
    {mangle : Label → Str} {c : Ctx} {env : Env} {g : Grammar} (hmo : Mangles mangle r.old) (hmn : Mangles mangle r.new) (hg : PythonGrammar g)
    {n m : Nat} {penv : PyEnv} (henv : penv.Fits g) {t : PyTemplate} (ht : t.astMatcher = exprTemplate (r.new.pattern mangle []))
    {b : Bool} (hv : Parsed g b v) (hx : ∀ occ x a, r.old.Reads v occ → (x, a) ∈ occ → ∃ sp, createMatch c a = .lexical a sp ∧ penv.isExpr a = true ∧ Parsed g false a)
    (hn : 2 * (r.old.val mangle).size + 5 ≤ n) {ks ks' : List Key} {mi : MatchInfo}
    (hrun : run c n env (r.fixer mangle).matcher v ks = .ok (some mi, ks'))
    {ms : Dict Label PyMatch} (hwf : ms.WF) (hms : ∀ x bd, mi.bindings.get? x = some bd → ∃ pm, ms.get? x = some pm ∧ pm.obj = bd.value)
    {text : Str} (h : t.substituteMatch m penv (some c) mi.obj ms = .ok text) :
    ∃ replacement cc e b, (text = replacement ∨ text = str "(" ++ replacement ++ str ")") ∧
      penv.parse replacement = some cc ∧ OneExpr cc.tree e ∧ Succeeds w v b ∧ Succeeds w e b := by
  have hb : r ∈ unittestRules ++ idiomRules ++ datetimeRules := by simp only [List.mem_append]; exact .inl (.inl hr)
  obtain ⟨replacement, cc, occ, e, occ', h1, h2, h3, h4, h5, h6⟩ := C81_replaces_plain hb hmo hmn hg henv ht hv hn hrun hwf hms h
  have hnd : (occ.map Prod.fst).Nodup := (C82_order hr h4.1 h5).2
  obtain ⟨b, g1, g2⟩ := C82_assertions hw hr ha h4.1 h5 (fun x a a' hxa hxa' => by
    obtain ⟨a1, e1, e2⟩ := h6 x a' hxa'
    rw [occs_of_nodup hnd hxa] at e1
    cases e1
    obtain ⟨sp, f1, f2, f3⟩ := hx occ x a h4.1 hxa
    exact hstable _ _ (e2 a sp f1 f2 f3))
  exact ⟨replacement, cc, e, b, h1, h2, h3, g1, g2⟩

end

/-! ### Examples -/

/-- The comparisons of the example. -/
def exCmp (op a b : Str) : Bool :=
  if op = str "Is" then decide (a = b) else if op = str "IsNot" then !decide (a = b) else if op = str "NotIn" then true else false

/-- Objects are the trees' types; nothing is anything else. -/
def exValues : ValueWorld where
  Obj := Str
  value v := v.ty
  cmp := exCmp
  isInstance _ _ := false
  hasLen _ _ := false
  isEmpty _ := false
  sameElements _ _ := false

theorem exValues_pythonic : exValues.Pythonic where
  isNot a b := by
    show exCmp (str "IsNot") a b = !exCmp (str "Is") a b
    unfold exCmp
    rw [if_neg (by decide), if_pos rfl, if_pos rfl]
  notIn a b := by
    show exCmp (str "NotIn") a b = !exCmp (str "In") a b
    unfold exCmp
    rw [if_neg (by decide), if_neg (by decide), if_pos rfl, if_neg (by decide), if_neg (by decide), if_neg (by decide)]; rfl
  zero a i j k c _ := rfl

/-- The rule `self.assertFalse($lhs is $rhs)` → `self.assertIsNot($lhs, $rhs)`. -/
def exIsNotRule : Rule :=
  assertRule "self.assertFalse($lhs is $rhs)" (assertCmp "assertFalse" "Is") "self.assertIsNot($lhs, $rhs)" (selfCall "assertIsNot" [vLhs, vRhs]) "assertIsNot"

/-- Non-vacuity of C82: `self.assertFalse(x is 1)` and `self.assertIsNot(x, 1)` both succeed in that world. -/
example : ∃ v e occ, exIsNotRule ∈ unittestRules ∧ exIsNotRule.old.Reads v occ ∧ exIsNotRule.new.Reads e occ ∧ SameValues exValues occ occ ∧
    Succeeds exValues v true ∧ Succeeds exValues e true := by
  have hr : exIsNotRule ∈ unittestRules := by unfold unittestRules exIsNotRule; simp
  have hv : exIsNotRule.old.Reads ((selfCall "assertFalse" [.compare (.name (str "x")) (str "Is") (.int 1)]).val exMangle)
      [(str "lhs", nameNode (str "x")), (str "rhs", (Code.int 1).val exMangle)] :=
    .call (o := []) (o2 := []) (.attr .name ⟨0, rfl⟩) (.cons (occ := []) (.compare (o := [_]) (o1 := [_]) .var ⟨0, rfl⟩ ⟨0, rfl⟩ ⟨0, rfl⟩ .var) .nil) .nil
  have he : exIsNotRule.new.Reads ((selfCall "assertIsNot" [.name (str "x"), .int 1]).val exMangle)
      [(str "lhs", nameNode (str "x")), (str "rhs", (Code.int 1).val exMangle)] :=
    .call (o := []) (o2 := []) (.attr .name ⟨0, rfl⟩) (.cons (o := [_]) .var (.cons (o := [_]) (occ := []) .var .nil)) .nil
  have hs : SameValues exValues [(str "lhs", nameNode (str "x")), (str "rhs", (Code.int 1).val exMangle)] [(str "lhs", nameNode (str "x")), (str "rhs", (Code.int 1).val exMangle)] := by
    intro x a a' h1 h2
    simp only [List.mem_cons, Prod.mk.injEq, List.not_mem_nil, or_false] at h1 h2
    rcases h1 with ⟨rfl, rfl⟩ | ⟨rfl, rfl⟩ <;> rcases h2 with ⟨h, rfl⟩ | ⟨h, rfl⟩
    · rfl
    · exact absurd h (by decide)
    · exact absurd h (by decide)
    · rfl
  obtain ⟨b, h1, h2⟩ := C82_assertions exValues_pythonic hr (fun e a h => Code.noConfusion h) hv he hs
  have hb : b = true := by
    have h3 : Succeeds exValues ((selfCall "assertIsNot" [.name (str "x"), .int 1]).val exMangle) (exValues.cmp (str "IsNot") (str "Name") (str "Constant")) :=
      .method (m := str "assertIsNot") (args := [nameNode (str "x"), (Code.int 1).val exMangle]) ⟨0, 0, _, _, ⟨_, _, _, rfl⟩, _, _, _, rfl⟩ (method_assertIsNot exValues _ _)
    rw [C82_succeeds_det h2 h3]
    decide
  subst hb
  exact ⟨_, _, _, hr, hv, he, hs, h1, h2⟩

/-- A name with an identity. -/
def exNamed (i : Nat) (s : String) : Val := .node i (str "Name") [str "id", str "ctx"] [.const 0 (.str (str s)), loadNode]

/-- Non-vacuity of `C82_comprehension`: its hypotheses on the trees hold of `[x for x in y]`. -/
example : ∃ r v e occ occ', r ∈ idiomRules ∧ (∃ p q t, r.old = .comp false p q t) ∧ (r.old.Reads v occ ∧ ∀ x, AllAlike (occ.of x)) ∧ r.new.Reads e occ' ∧
    (∀ x a, (x, a) ∈ occ → ∃ b, Parsed exPython b a) ∧ (occ.map fun o => o.2.ident).Nodup ∧ ∃ x a, (x, a) ∈ occ ∧ x = str "a" ∧ IsNameNode a (str "x") := by
  refine ⟨idiomRule "[$a for $a in $b]" (.comp false vA vA vB) "list($b)" (.call (.name (str "list")) [vB] []) "idioms.uncessary-comprehension",
    codeNode (str "ListComp") [(str "elt", exNamed 1 "x"), (str "generators", .list 0 [codeNode (str "comprehension")
      [(str "target", exNamed 2 "x"), (str "iter", exNamed 3 "y"), (str "ifs", .list 0 []), (str "is_async", .const 0 (.int 0))]])],
    codeNode (str "Call") [(str "func", nameNode (str "list")), (str "args", .list 0 [exNamed 3 "y"]), (str "keywords", .list 0 [])],
    [(str "a", exNamed 1 "x"), (str "a", exNamed 2 "x"), (str "b", exNamed 3 "y")], [(str "b", exNamed 3 "y")], by unfold idiomRules; simp, ⟨_, _, _, rfl⟩, ⟨?_, ?_⟩, ?_, ?_, by decide, ?_⟩
  · exact .comp (set := false) (o := [(str "a", exNamed 1 "x")]) (o1 := [(str "a", exNamed 2 "x")]) (o2 := [(str "b", exNamed 3 "y")])
      .var ⟨0, rfl⟩ .var .var rfl
  · intro x i j a b hij hi hj
    by_cases hx : x = str "a"
    · subst hx
      have hof : Occs.of [(str "a", exNamed 1 "x"), (str "a", exNamed 2 "x"), (str "b", exNamed 3 "y")] (str "a") = [exNamed 1 "x", exNamed 2 "x"] := rfl
      rw [hof] at hi hj
      match i, j with
      | 0, 1 =>
        cases hi; cases hj
        refine ⟨fun i s h => (nomatch h), fun i s h => (nomatch h), ?_⟩
        unfold astEquivalent exNamed
        rw [if_neg (by decide), loop_node, if_pos rfl]
        show astEqLoop [(.const 0 (.str (str "x")), .const 0 (.str (str "x"))), (loadNode, loadNode)] = true
        rw [loop_leaf (.inl rfl), if_pos (by decide)]
        unfold loadNode codeNode
        rw [loop_node, if_pos rfl]
        show astEqLoop [] = true
        rw [astEqLoop]
      | i + 1, 1 => omega
      | i, 0 => omega
      | i, j + 2 => cases hj
    · by_cases hb : x = str "b"
      · subst hb
        have hof : Occs.of [(str "a", exNamed 1 "x"), (str "a", exNamed 2 "x"), (str "b", exNamed 3 "y")] (str "b") = [exNamed 3 "y"] := rfl
        rw [hof] at hi hj
        match i, j with
        | i, 0 => omega
        | i, j + 1 => cases hj
      · rw [occs_of_absent (by simp [hx, hb])] at hi
        cases hi
  · exact .call (o := []) (o1 := [(str "b", exNamed 3 "y")]) (o2 := []) .name (.cons (o := [_]) (occ := []) .var .nil) .nil
  · intro x a h
    refine ⟨false, ?_⟩
    have : ∀ i s, Parsed exPython false (exNamed i s) := fun i s => by
      have h := parsed_nameNode exPython_ok (str s)
      cases h with
      | node h1 h2 h3 h4 h5 => exact .node h1 h2 h3 h4 h5
    simp only [List.mem_cons, Prod.mk.injEq, List.not_mem_nil, or_false] at h
    rcases h with ⟨_, rfl⟩ | ⟨_, rfl⟩ | ⟨_, rfl⟩ <;> exact this _ _
  · exact ⟨_, _, List.mem_cons_self .., rfl, _, _, _, rfl⟩

end Refex
