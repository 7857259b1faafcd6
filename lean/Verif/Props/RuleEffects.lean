import Verif.Props.RuleMeaning
import Verif.Spec.RuleEffects
/- C84: what the built-in rules for correctness and for constants change. -/
namespace Refex
set_option autoImplicit false

variable {r : Rule} {v e : Val} {occ occ' : Occs}

/-- **C84**: a comparison with a literal by identity becomes the comparison of the same two values by equality; negated, if the
original is. -/
theorem C84_literal {w : ValueWorld} (hr : r ∈ literalRules) (hv : r.old.Reads v occ) (he : r.new.Reads e occ') (hs : SameValues w occ occ') :
    ∃ a b, (str "lhs", a) ∈ occ ∧ (str "rhs", b) ∈ occ ∧
      ((Truth w v (w.cmp (str "Is") (w.value a) (w.value b)) ∧ Truth w e (w.cmp (str "Eq") (w.value a) (w.value b))) ∨
       (Truth w v (w.cmp (str "IsNot") (w.value a) (w.value b)) ∧ Truth w e (w.cmp (str "NotEq") (w.value a) (w.value b)))) := by
  have key : ∀ op op', r.old = .compare vLhs op vRhs → r.new = .compare vLhs op' vRhs →
      ∃ a b, occ = [(str "lhs", a), (str "rhs", b)] ∧ Truth w v (w.cmp op (w.value a) (w.value b)) ∧ Truth w e (w.cmp op' (w.value a) (w.value b)) := by
    intro op op' h1 h2
    rw [h1] at hv
    rw [h2] at he
    obtain ⟨a, b, rfl, h5⟩ := reads_cmp hv w
    obtain ⟨a', b', rfl, h6⟩ := reads_cmp he w
    refine ⟨a, b, rfl, h5, ?_⟩
    rw [hs _ a a' (List.mem_cons_self ..) (List.mem_cons_self ..),
      hs _ b b' (List.mem_cons_of_mem _ (List.mem_cons_self ..)) (List.mem_cons_of_mem _ (List.mem_cons_self ..))]
    exact h6
  simp only [literalRules, List.mem_cons, List.not_mem_nil, or_false] at hr
  rcases hr with rfl | rfl
  · obtain ⟨a, b, rfl, h1, h2⟩ := key _ _ rfl rfl
    exact ⟨a, b, by simp, by simp, .inl ⟨h1, h2⟩⟩
  · obtain ⟨a, b, rfl, h1, h2⟩ := key _ _ rfl rfl
    exact ⟨a, b, by simp, by simp, .inr ⟨h1, h2⟩⟩

theorem reads_callOn {f x : String} (h : (callOn f x).Reads v occ) : ∃ fv a, IsNameNode fv (str f) ∧ IsCall v fv [a] ∧ occ = [(str x, a)] := by
  cases h with
  | call h1 h2 h3 =>
    cases h3
    obtain ⟨hn, rfl⟩ := reads_name h1
    obtain ⟨a, rfl, h4⟩ := codesRead_one h2
    cases reads_var h4
    exact ⟨_, _, hn, ⟨_, _, _, rfl⟩, rfl⟩

theorem reads_assign {p q : Code} (h : (Code.assign p q).Reads v occ) :
    ∃ t a o o', IsAssign v t a ∧ p.Reads t o ∧ q.Reads a o' ∧ occ = o ++ o' := by
  cases h with
  | assign h1 h2 h3 =>
    obtain ⟨j, rfl⟩ := h1
    exact ⟨_, _, _, _, ⟨_, _, _, rfl⟩, h2, h3, rfl⟩

/-- **C84**: an assignment of a set becomes the assignment of the frozen set with the same elements, to the code that stands for the same
metavariable. -/
theorem C84_constants {w : SetWorld} (hw : w.Pythonic) {digit : Char → Prop} {c : Ctx} {ss : List TopStmt} (hr : r ∈ constantRules)
    (hv : r.Shows digit c ss v occ) (he : r.new.Reads e occ') (hs : ∀ x a a', (x, a) ∈ occ → (x, a') ∈ occ' → w.value a = w.value a') :
    ∃ x target target' old new elements, IsAssign v target old ∧ IsAssign e target' new ∧ (x, target) ∈ occ ∧ (x, target') ∈ occ' ∧
      w.value old = w.mutableSet elements ∧ w.value new = w.frozenSet elements := by
  have key : ∀ y : String, r.old = assignConstant (.var (str y)) → r.new = assignConstant (callOn "frozenset" y) →
      (∀ a, (str y, a) ∈ occ → a.ty = str "Set" ∨ a.ty = str "SetComp") →
      ∃ x target target' old new elements, IsAssign v target old ∧ IsAssign e target' new ∧ (x, target) ∈ occ ∧ (x, target') ∈ occ' ∧
        w.value old = w.mutableSet elements ∧ w.value new = w.frozenSet elements := by
    intro y h1 h2 h3
    have hv1 := hv.reads
    rw [h1] at hv1
    rw [h2] at he
    obtain ⟨t, a, o, o', g1, g2, g3, rfl⟩ := reads_assign hv1
    obtain ⟨t', a', p, p', k1, k2, k3, rfl⟩ := reads_assign he
    cases reads_var g2; cases reads_var g3; cases reads_var k2
    obtain ⟨fv, b, k4, k5, rfl⟩ := reads_callOn k3
    obtain ⟨s, hset⟩ := hw.display a (h3 a (by simp))
    refine ⟨str "constant", t, t', a, a', s, g1, k1, by simp, by simp, hset, ?_⟩
    rw [hw.frozenset a' fv b k4 k5, ← hs (str y) a b (by simp) (by simp), hset, hw.content]
  simp only [constantRules, List.mem_cons, List.not_mem_nil, or_false] at hr
  rcases hr with rfl | rfl | rfl
  · exact key "set" rfl rfl fun a ha => .inl (hv.allowed _ _ ha .set (by decide))
  · exact key "setcomp" rfl rfl fun a ha => .inr (hv.allowed _ _ ha .setComp (by decide))
  · have hv1 := hv.reads
    obtain ⟨t, a, o, o', g1, g2, g3, rfl⟩ := reads_assign hv1
    obtain ⟨t', a', p, p', k1, k2, k3, rfl⟩ := reads_assign he
    cases reads_var g2; cases reads_var k2
    obtain ⟨fv, b, k4, k5, rfl⟩ := reads_callOn g3
    obtain ⟨fv', b', k6, k7, rfl⟩ := reads_callOn k3
    refine ⟨str "constant", t, t', a, a', w.content (w.value b), g1, k1, by simp, by simp, hw.set a fv b k4 k5, ?_⟩
    rw [hw.frozenset a' fv' b' k6 k7, ← hs (str "iterable") b b' (by simp) (by simp)]

theorem reads_dotted1 {s : Str} (h : (Code.name s).Reads v occ) : DottedName v [s] ∧ occ = [] := by
  obtain ⟨hn, rfl⟩ := reads_name h
  exact ⟨.name hn, rfl⟩

theorem reads_attr {p : Code} {a : Str} {l : List Str} (hp : ∀ v occ, p.Reads v occ → DottedName v l ∧ occ = []) (h : (Code.attr p a).Reads v occ) :
    DottedName v (l ++ [a]) ∧ occ = [] := by
  cases h with
  | attr h1 h2 => obtain ⟨h3, rfl⟩ := hp _ _ h1; exact ⟨.attr h3, rfl⟩

theorem reads_attr2 {s a b : Str} (h : (Code.attr (.attr (.name s) a) b).Reads v occ) : DottedName v [s, a, b] ∧ occ = [] :=
  reads_attr (fun _ _ h => reads_attr (fun _ _ h => reads_dotted1 h) h) h

/-- **C84**: a call of `yaml.load` or `yaml.load_all` becomes a call of its `safe_` variant, with what stands for the same metavariable. -/
theorem C84_yaml (hr : r ∈ yamlRules) (hv : r.old.Reads v occ) (he : r.new.Reads e occ') :
    ∃ f ∈ [str "load", str "load_all"], ∃ x fv a fe a', DottedName fv [str "yaml", f] ∧ IsCall v fv [a] ∧ DottedName fe [str "yaml", str "safe_" ++ f] ∧
      IsCall e fe [a'] ∧ occ = [(x, a)] ∧ occ' = [(x, a')] := by
  have key : ∀ {f : String} {v : Val} {occ : Occs}, (yamlCall f).Reads v occ → ∃ fv a, DottedName fv [str "yaml", str f] ∧ IsCall v fv [a] ∧ occ = [(str "s", a)] := by
    intro f v occ h
    cases h with
    | call h1 h2 h3 =>
      cases h3
      obtain ⟨hd, rfl⟩ := reads_attr (fun _ _ h => reads_dotted1 h) h1
      obtain ⟨a, rfl, h4⟩ := codesRead_one h2
      cases reads_var h4
      exact ⟨_, _, hd, ⟨_, _, _, rfl⟩, rfl⟩
  simp only [yamlRules, List.mem_cons, List.not_mem_nil, or_false] at hr
  rcases hr with rfl | rfl
  · obtain ⟨fv, a, h1, h2, h3⟩ := key hv
    obtain ⟨fe, a', h4, h5, h6⟩ := key he
    exact ⟨_, by simp, _, fv, a, fe, a', h1, h2, h4, h5, h3, h6⟩
  · obtain ⟨fv, a, h1, h2, h3⟩ := key hv
    obtain ⟨fe, a', h4, h5, h6⟩ := key he
    exact ⟨_, List.mem_cons_of_mem _ (List.mem_cons_self ..), _, fv, a, fe, a', h1, h2, h4, h5, h3, h6⟩

/-- **C84**: a call that gives a `datetime` in UTC without saying so becomes one that gives the same `datetime` with the time zone UTC. -/
theorem C84_datetime {w : TimeWorld} (hw : w.Pythonic) (hr : r ∈ datetimeRules) (hv : r.old.Reads v occ) (he : r.new.Reads e occ')
    (hs : ∀ x a a', (x, a) ∈ occ → (x, a') ∈ occ' → w.value a = w.value a') :
    ∃ fields, w.value v = w.dateTime fields none ∧ w.value e = w.dateTime fields (some w.utc) := by
  have tz : ∀ {vs : List Val} {o : Occs}, CodesRead [tzUtc] vs o → o = [] ∧ ∃ n p z, DottedName z [str "datetime", str "timezone", str "utc"] ∧
      vs = [.node n (str "keyword") [str "arg", str "value"] [.const p (.str (str "tz")), z]] := by
    intro vs o h
    obtain ⟨k, rfl, hk⟩ := codesRead_one h
    cases hk with
    | keyword h => obtain ⟨h1, rfl⟩ := reads_attr2 h; exact ⟨rfl, _, _, _, h1, rfl⟩
  simp only [datetimeRules, List.mem_cons, List.not_mem_nil, or_false] at hr
  rcases hr with rfl | rfl
  · cases hv with
    | call h1 h2 h3 =>
      cases h3
      obtain ⟨d1, rfl⟩ := reads_attr2 h1
      obtain ⟨a, rfl, h4⟩ := codesRead_one h2
      cases reads_var h4
      cases he with
      | call k1 k2 k3 =>
        obtain ⟨d2, rfl⟩ := reads_attr2 k1
        obtain ⟨a', rfl, k4⟩ := codesRead_one k2
        cases reads_var k4
        obtain ⟨rfl, n, p, z, dz, rfl⟩ := tz k3
        refine ⟨_, hw.utcfromtimestamp _ _ a d1 ⟨_, _, _, rfl⟩, ?_⟩
        rw [hw.fromtimestamp _ _ a' z w.utc d2 ⟨_, _, _, _, _, rfl⟩ (hw.utc z dz), hs (str "a") a a' (by simp) (by simp)]
  · cases hv with
    | call h1 h2 h3 =>
      cases h3; cases h2
      obtain ⟨d1, rfl⟩ := reads_attr2 h1
      cases he with
      | call k1 k2 k3 =>
        cases k2
        obtain ⟨d2, rfl⟩ := reads_attr2 k1
        obtain ⟨rfl, n, p, z, dz, rfl⟩ := tz k3
        exact ⟨_, hw.utcnow _ _ d1 ⟨_, _, _, rfl⟩, hw.now _ _ z w.utc d2 ⟨_, _, _, _, _, rfl⟩ (hw.utc z dz)⟩

/-- **C84**: a string formatted with `(x)` becomes one formatted with `(x,)`: the same text unless the value of `x` is a tuple, which
then is the one argument instead of the arguments, or a mapping, whose keys are then not looked up. -/
theorem C84_parens {w : FormatWorld} (hw : w.Pythonic) (hr : r ∈ parensRules) (hv : r.old.Reads v occ) (he : r.new.Reads e occ')
    (hs : ∀ x a a', (x, a) ∈ occ → (x, a') ∈ occ' → w.value a = w.value a') :
    ∃ text arg, IsMod v text arg ∧ w.value e = w.format (w.value text) [w.value arg] ∧
      ((∀ xs, w.value arg ≠ w.tuple xs) → ¬ w.isMapping (w.value arg) → w.value v = w.value e) ∧
      (∀ xs, w.value arg = w.tuple xs → w.value v = w.format (w.value text) xs) ∧
      (w.isMapping (w.value arg) → w.value v = w.formatMapping (w.value text) (w.value arg)) := by
  simp only [parensRules, List.mem_cons, List.not_mem_nil, or_false] at hr
  subst hr
  cases hv with
  | mod h1 h2 h3 =>
    obtain ⟨j, rfl⟩ := h2
    cases reads_var h1; cases reads_var h3
    cases he with
    | mod k1 k2 k3 =>
      obtain ⟨j', rfl⟩ := k2
      cases reads_var k1
      cases k3 with
      | tuple1 k4 k5 k6 =>
        obtain ⟨m, rfl⟩ := k4
        cases reads_var k5
        rename_i i lv rv i' lv' i'' rv' ctx
        have hm : ∀ i j a b, IsMod (.node i (str "BinOp") [str "left", str "op", str "right"] [a, .node j (str "Mod") [] [], b]) a b := fun _ _ _ _ => ⟨_, _, rfl⟩
        have hnew : w.value (.node i' (str "BinOp") [str "left", str "op", str "right"] [lv', .node j' (str "Mod") [] [],
            .node i'' (str "Tuple") [str "elts", str "ctx"] [.list m [rv'], ctx]]) = w.format (w.value lv) [w.value rv] := by
          rw [hw.modTuple _ lv' _ [w.value rv'] (hm ..) (hw.tuple _ rv' ⟨_, _, _, rfl⟩), hs (str "a") lv lv' (by simp) (by simp),
            hs (str "b") rv rv' (by simp) (by simp)]
        refine ⟨lv, rv, hm .., hnew, fun h1 h2 => ?_, fun xs h => hw.modTuple _ _ _ _ (hm ..) h, fun h => hw.modMapping _ _ _ (hm ..) h⟩
        rw [hw.modOther _ _ _ (hm ..) h1 h2, hnew]

/-! ### Worlds that meet the hypotheses -/

/-- The text of a string. -/
def exString : Val → Str
  | .const _ (.str s) => s
  | _ => []

/-- The last name of the function that is called. -/
def exCallee : Val → Str
  | .node _ _ _ (.node _ _ _ [a, _] :: _) => exString a
  | .node _ _ _ (.node _ _ _ [_, b, _] :: _) => exString b
  | _ => []

/-- Sets are known to be mutable or not. -/
def exSetWorld : SetWorld where
  Obj := Bool
  Content := Unit
  value v := !decide (v.ty = str "Call" ∧ exCallee v = str "frozenset")
  content _ := ()
  mutableSet _ := true
  frozenSet _ := false

theorem exSetWorld_pythonic : exSetWorld.Pythonic where
  content _ := rfl
  display v h := ⟨(), by
    have : ¬ (v.ty = str "Call" ∧ exCallee v = str "frozenset") := by
      rintro ⟨h1, _⟩
      rcases h with h | h <;> · rw [h] at h1; exact absurd h1 (by decide)
    simp only [exSetWorld, this, decide_false, Bool.not_false]⟩
  set v f a h1 h2 := by
    obtain ⟨i, j, ctx, rfl⟩ := h1
    obtain ⟨i', j', k', rfl⟩ := h2
    rfl
  frozenset v f a h1 h2 := by
    obtain ⟨i, j, ctx, rfl⟩ := h1
    obtain ⟨i', j', k', rfl⟩ := h2
    rfl

/-- Datetimes are known to have a time zone or not. -/
def exTimeWorld : TimeWorld where
  Obj := Option Bool
  Zone := Unit
  Fields := Unit
  value v :=
    if exCallee v = str "utcnow" ∨ exCallee v = str "utcfromtimestamp" then some false
    else if exCallee v = str "now" ∨ exCallee v = str "fromtimestamp" then some true
    else none
  utc := ()
  zone _ := none
  dateTime _ z := some z.isSome
  now _ := ()
  at_ _ _ := ()

theorem dotted_last {v : Val} {l : List Str} {a b c : Str} (h : DottedName v l) (hl : l = [a, b, c]) :
    ∃ i j ctx u, v = .node i (str "Attribute") [str "value", str "attr", str "ctx"] [u, .const j (.str c), ctx] := by
  cases h with
  | name => cases hl
  | attr h =>
    have := congrArg List.getLast? hl
    simp at this
    subst this
    exact ⟨_, _, _, _, rfl⟩

theorem dotted_inner {v : Val} {l : List Str} {a b c : Str} (h : DottedName v l) (hl : l = [a, b, c]) :
    ∃ i j ctx i' j' ctx' u, v = .node i (str "Attribute") [str "value", str "attr", str "ctx"]
      [.node i' (str "Attribute") [str "value", str "attr", str "ctx"] [u, .const j' (.str b), ctx'], .const j (.str c), ctx] := by
  cases h with
  | name => cases hl
  | attr h =>
    have h1 := congrArg List.getLast? hl
    have h2 := congrArg List.dropLast hl
    simp at h1 h2
    subst h1
    cases h with
    | name => cases h2
    | attr h =>
      have h1 := congrArg List.getLast? h2
      simp at h1
      subst h1
      exact ⟨_, _, _, _, _, _, _, rfl⟩

theorem exTimeWorld_pythonic : exTimeWorld.Pythonic where
  utc v h := by obtain ⟨i, j, ctx, i', j', ctx', u, rfl⟩ := dotted_inner h rfl; rfl
  utcnow v f h1 h2 := by
    obtain ⟨i, j, ctx, u, rfl⟩ := dotted_last h1 rfl
    obtain ⟨i', j', k', rfl⟩ := h2
    rfl
  now v f z k h1 h2 _ := by
    obtain ⟨i, j, ctx, u, rfl⟩ := dotted_last h1 rfl
    obtain ⟨i', j', k', _, _, rfl⟩ := h2
    rfl
  utcfromtimestamp v f a h1 h2 := by
    obtain ⟨i, j, ctx, u, rfl⟩ := dotted_last h1 rfl
    obtain ⟨i', j', k', rfl⟩ := h2
    rfl
  fromtimestamp v f a z k h1 h2 _ := by
    obtain ⟨i, j, ctx, u, rfl⟩ := dotted_last h1 rfl
    obtain ⟨i', j', k', _, _, rfl⟩ := h2
    rfl

/-- A text formatted is one more than the number of arguments; a tuple is known by its length. -/
def exFormatWorld : FormatWorld where
  Obj := Nat
  value v := if v.ty = str "Tuple" then 101 else if v.ty = str "BinOp" then 1 else 0
  tuple xs := 100 + xs.length
  isMapping _ := False
  format _ xs := xs.length
  formatMapping _ _ := 0

theorem exFormatWorld_pythonic : exFormatWorld.Pythonic where
  tuple v a h := by obtain ⟨i, j, ctx, rfl⟩ := h; rfl
  modTuple v a b xs h hb := by
    obtain ⟨i, j, rfl⟩ := h
    have hb : (if b.ty = str "Tuple" then 101 else if b.ty = str "BinOp" then 1 else 0) = 100 + xs.length := hb
    have : xs.length = 1 := by split at hb <;> (try split at hb) <;> omega
    exact this.symm
  modMapping v a b h hb := hb.elim
  modOther v a b h _ _ := by obtain ⟨i, j, rfl⟩ := h; rfl

end Refex
