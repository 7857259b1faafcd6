import Verif.Spec.Code
import Verif.Props.Patterns
/- Code and the trees of patterns: `Reads` is `Instance` of the tree. -/
namespace Refex
set_option autoImplicit false

section
variable {mangle : Label → Str} {hole : Val → Hole} {allowed : Label → Val → Prop}

/-- The metavariables of the tree are those of the code. -/
structure HolesAre (mangle : Label → Str) (hole : Val → Hole) (vars : List Label) (names : List Str) : Prop where
  var : ∀ x ∈ vars, hole (nameNode (mangle x)) = .named x
  name : ∀ s ∈ names, hole (nameNode s) = .none
  node : ∀ i ty ns vs, ty ≠ str "Name" → hole (.node i ty ns vs) = .none
  list : ∀ i vs, hole (.list i vs) = .none
  const : ∀ i k, hole (.const i k) = .none

theorem HolesAre.mono {vs vs' : List Label} {ns ns' : List Str} (h : HolesAre mangle hole vs ns) (h1 : ∀ x ∈ vs', x ∈ vs) (h2 : ∀ x ∈ ns', x ∈ ns) :
    HolesAre mangle hole vs' ns' :=
  ⟨fun x hx => h.var x (h1 x hx), fun s hs => h.name s (h2 s hs), h.node, h.list, h.const⟩

theorem instance_str {h : HolesAre mangle hole [] []} {i : Nat} {s : Str} {v : Val} {occ : Occs} :
    Instance hole allowed (.const i (.str s)) v occ ↔ occ = [] ∧ ∃ j, v = .const j (.str s) := by
  constructor
  · intro hI
    cases hI with
    | named hx _ => rw [h.const] at hx; cases hx
    | anonymous hx => rw [h.const] at hx; cases hx
    | @const _ j _ d _ hd =>
      refine ⟨rfl, j, ?_⟩
      cases d <;> simp_all [Const.pyEq, Const.whole?]
  · rintro ⟨rfl, j, rfl⟩
    exact .const (h.const ..) (by simp [Const.pyEq, Const.whole?])

theorem instance_none {h : HolesAre mangle hole [] []} {i : Nat} {v : Val} {occ : Occs} :
    Instance hole allowed (.const i .none) v occ ↔ occ = [] ∧ ∃ j, v = .const j .none := by
  constructor
  · intro hI
    cases hI with
    | named hx _ => rw [h.const] at hx; cases hx
    | anonymous hx => rw [h.const] at hx; cases hx
    | @const _ j _ d _ hd =>
      refine ⟨rfl, j, ?_⟩
      cases d <;> simp_all [Const.pyEq, Const.whole?]
  · rintro ⟨rfl, j, rfl⟩
    exact .const (h.const ..) (by simp [Const.pyEq, Const.whole?])

theorem instance_int {h : HolesAre mangle hole [] []} {i : Nat} {n : Int} {v : Val} {occ : Occs} :
    Instance hole allowed (.const i (.int n)) v occ ↔ occ = [] ∧ ∃ j c, v = .const j c ∧ c.pyEq (.int n) = true := by
  constructor
  · intro hI
    cases hI with
    | named hx _ => rw [h.const] at hx; cases hx
    | anonymous hx => rw [h.const] at hx; cases hx
    | const _ hd => exact ⟨rfl, _, _, rfl, hd⟩
  · rintro ⟨rfl, j, c, rfl, hc⟩
    exact .const (h.const ..) hc

theorem instance_list {h : HolesAre mangle hole [] []} {i : Nat} {ts : List Val} {v : Val} {occ : Occs} :
    Instance hole allowed (.list i ts) v occ ↔ ∃ j vs, v = .list j vs ∧ Instances hole allowed ts vs occ := by
  constructor
  · intro hI
    cases hI with
    | named hx _ => rw [h.list] at hx; cases hx
    | anonymous hx => rw [h.list] at hx; cases hx
    | list _ hd => exact ⟨_, _, rfl, hd⟩
  · rintro ⟨j, vs, rfl, hd⟩
    exact .list (h.list ..) hd

theorem instance_node {h : HolesAre mangle hole [] []} {i : Nat} {ty : Str} {ns : List Str} {ts : List Val} {v : Val} {occ : Occs} (hty : ty ≠ str "Name") :
    Instance hole allowed (.node i ty ns ts) v occ ↔ ∃ j vs, v = .node j ty ns vs ∧ FieldInstances hole allowed ty ns ts vs occ := by
  constructor
  · intro hI
    cases hI with
    | named hx _ => rw [h.node _ _ _ _ hty] at hx; cases hx
    | anonymous hx => rw [h.node _ _ _ _ hty] at hx; cases hx
    | node _ hd => exact ⟨_, _, rfl, hd⟩
  · rintro ⟨j, vs, rfl, hd⟩
    exact .node (h.node _ _ _ _ hty) hd

theorem fields_nil {ty : Str} {vs : List Val} {occ : Occs} : FieldInstances hole allowed ty [] [] vs occ ↔ vs = [] ∧ occ = [] := by
  constructor
  · intro h; cases h; exact ⟨rfl, rfl⟩
  · rintro ⟨rfl, rfl⟩; exact .nil

theorem fields_cons {ty n : Str} {ns : List Str} {t : Val} {ts vs : List Val} {occ : Occs} (hty : ty ≠ str "Name") :
    FieldInstances hole allowed ty (n :: ns) (t :: ts) vs occ ↔
      ∃ v vs' o o', vs = v :: vs' ∧ occ = o ++ o' ∧ Instance hole allowed t v o ∧ FieldInstances hole allowed ty ns ts vs' o' := by
  constructor
  · intro h
    cases h with
    | ctx _ => exact absurd rfl hty
    | cons _ h1 h2 => exact ⟨_, _, _, _, rfl, rfl, h1, h2⟩
  · rintro ⟨v, vs', o, o', rfl, rfl, h1, h2⟩
    exact .cons (fun h => hty h.1) h1 h2

theorem instances_nil {vs : List Val} {occ : Occs} : Instances hole allowed [] vs occ ↔ vs = [] ∧ occ = [] := by
  constructor
  · intro h; cases h; exact ⟨rfl, rfl⟩
  · rintro ⟨rfl, rfl⟩; exact .nil

theorem instances_cons {t : Val} {ts vs : List Val} {occ : Occs} :
    Instances hole allowed (t :: ts) vs occ ↔
      ∃ v vs' o o', vs = v :: vs' ∧ occ = o ++ o' ∧ Instance hole allowed t v o ∧ Instances hole allowed ts vs' o' := by
  constructor
  · intro h
    cases h with
    | cons h1 h2 => exact ⟨_, _, _, _, rfl, rfl, h1, h2⟩
  · rintro ⟨v, vs', o, o', rfl, rfl, h1, h2⟩
    exact .cons h1 h2

theorem instance_plain {h : HolesAre mangle hole [] []} {ty : Str} {v : Val} {occ : Occs} (hty : ty ≠ str "Name") :
    Instance hole allowed (codeNode ty []) v occ ↔ occ = [] ∧ PlainNode ty v := by
  unfold codeNode PlainNode
  rw [List.map_nil, instance_node (h := h) hty]
  constructor
  · rintro ⟨j, vs, rfl, h1⟩
    obtain ⟨rfl, rfl⟩ := fields_nil.1 h1
    exact ⟨rfl, j, rfl⟩
  · rintro ⟨rfl, j, rfl⟩
    exact ⟨j, _, rfl, .nil⟩

theorem instance_name {h : HolesAre mangle hole [] []} {s : Str} {v : Val} {occ : Occs} (hs : hole (nameNode s) = .none) :
    Instance hole allowed (nameNode s) v occ ↔ occ = [] ∧ ∃ i j ctx, v = .node i (str "Name") [str "id", str "ctx"] [.const j (.str s), ctx] := by
  constructor
  · intro hI
    generalize ht : nameNode s = t at hI hs
    cases hI with
    | named hx _ => rw [hs] at hx; cases hx
    | anonymous hx => rw [hs] at hx; cases hx
    | const => cases ht
    | list => cases ht
    | node _ hd =>
      simp only [nameNode, codeNode, List.map_cons, List.map_nil, Val.node.injEq] at ht
      obtain ⟨rfl, rfl, rfl, rfl⟩ := ht
      cases hd with
      | cons hne h1 h2 =>
        obtain ⟨rfl, j, rfl⟩ := (instance_str (h := h)).1 h1
        cases h2 with
        | ctx h3 => cases h3; exact ⟨rfl, _, _, _, rfl⟩
        | cons hne => exact absurd ⟨rfl, rfl⟩ hne
  · rintro ⟨rfl, i, j, ctx, rfl⟩
    refine .node hs ?_
    exact .cons (o := []) (fun h => absurd h.2 (by show ¬ (str "id" = str "ctx"); decide)) ((instance_str (h := h)).2 ⟨rfl, _, rfl⟩) (.ctx .nil)

theorem instance_var {x : Label} {v : Val} {occ : Occs} (hx : hole (nameNode (mangle x)) = .named x) :
    Instance hole allowed (nameNode (mangle x)) v occ ↔ occ = [(x, v)] ∧ allowed x v := by
  constructor
  · intro hI
    generalize ht : nameNode (mangle x) = t at hI hx
    cases hI with
    | named hy ha => rw [hx] at hy; cases hy; exact ⟨rfl, ha⟩
    | anonymous hy => rw [hx] at hy; cases hy
    | const => cases ht
    | list => cases ht
    | node hy _ => rw [hx] at hy; cases hy
  · rintro ⟨rfl, ha⟩
    exact .named hx ha

/-- What stands for the metavariables is allowed there. -/
def AllowedOccs (allowed : Label → Val → Prop) (occ : Occs) : Prop := ∀ e ∈ occ, allowed e.1 e.2

theorem allowedOccs_append {a b : Occs} : AllowedOccs allowed (a ++ b) ↔ AllowedOccs allowed a ∧ AllowedOccs allowed b := by
  unfold AllowedOccs
  simp only [List.mem_append]
  exact ⟨fun h => ⟨fun e he => h e (.inl he), fun e he => h e (.inr he)⟩, fun h e he => he.elim (h.1 e) (h.2 e)⟩

theorem allowedOccs_nil : AllowedOccs allowed [] := fun e he => by cases he

theorem allowedOccs_single {x : Label} {v : Val} : AllowedOccs allowed [(x, v)] ↔ allowed x v := by
  unfold AllowedOccs
  exact ⟨fun h => h (x, v) (List.mem_singleton.2 rfl), fun h e he => by rw [List.mem_singleton.1 he]; exact h⟩

theorem HolesAre.none {vs : List Label} {ns : List Str} (h : HolesAre mangle hole vs ns) : HolesAre mangle hole [] [] :=
  h.mono (fun _ hx => absurd hx List.not_mem_nil) (fun _ hx => absurd hx List.not_mem_nil)

theorem instance_single {h : HolesAre mangle hole [] []} {t v : Val} {occ : Occs} :
    Instance hole allowed (.list 0 [t]) v occ ↔ ∃ w, Single v w ∧ Instance hole allowed t w occ := by
  rw [instance_list (h := h)]
  constructor
  · rintro ⟨j, vs, rfl, hI⟩
    obtain ⟨w, vs', o, o', rfl, rfl, h1, h2⟩ := instances_cons.1 hI
    obtain ⟨rfl, rfl⟩ := instances_nil.1 h2
    exact ⟨w, ⟨j, rfl⟩, by rw [List.append_nil]; exact h1⟩
  · rintro ⟨w, ⟨j, rfl⟩, h1⟩
    exact ⟨j, _, rfl, instances_cons.2 ⟨w, [], occ, [], rfl, by rw [List.append_nil], h1, .nil⟩⟩

theorem instance_empty {h : HolesAre mangle hole [] []} {v : Val} {occ : Occs} :
    Instance hole allowed (.list 0 []) v occ ↔ occ = [] ∧ ∃ j, v = .list j [] := by
  rw [instance_list (h := h)]
  constructor
  · rintro ⟨j, vs, rfl, hI⟩
    obtain ⟨rfl, rfl⟩ := instances_nil.1 hI
    exact ⟨rfl, j, rfl⟩
  · rintro ⟨rfl, j, rfl⟩
    exact ⟨j, _, rfl, .nil⟩

theorem instance_node1 {h : HolesAre mangle hole [] []} {ty n1 : Str} {t1 v : Val} {occ : Occs} (hty : ty ≠ str "Name") :
    Instance hole allowed (codeNode ty [(n1, t1)]) v occ ↔ ∃ j v1, v = .node j ty [n1] [v1] ∧ Instance hole allowed t1 v1 occ := by
  unfold codeNode
  rw [instance_node (h := h) hty]
  constructor
  · rintro ⟨j, vs, rfl, hI⟩
    obtain ⟨v1, vs', o, o', rfl, rfl, h1, h2⟩ := (fields_cons hty).1 hI
    obtain ⟨rfl, rfl⟩ := fields_nil.1 h2
    exact ⟨j, v1, rfl, by rw [List.append_nil]; exact h1⟩
  · rintro ⟨j, v1, rfl, h1⟩
    exact ⟨j, _, rfl, (fields_cons hty).2 ⟨v1, [], occ, [], rfl, by rw [List.append_nil], h1, .nil⟩⟩

theorem instance_node2 {h : HolesAre mangle hole [] []} {ty n1 n2 : Str} {t1 t2 v : Val} {occ : Occs} (hty : ty ≠ str "Name") :
    Instance hole allowed (codeNode ty [(n1, t1), (n2, t2)]) v occ ↔
      ∃ j v1 v2 o1 o2, v = .node j ty [n1, n2] [v1, v2] ∧ occ = o1 ++ o2 ∧ Instance hole allowed t1 v1 o1 ∧ Instance hole allowed t2 v2 o2 := by
  unfold codeNode
  rw [instance_node (h := h) hty]
  constructor
  · rintro ⟨j, vs, rfl, hI⟩
    obtain ⟨v1, vs', o, o', rfl, rfl, h1, f2⟩ := (fields_cons hty).1 hI
    obtain ⟨v2, vs', o1, o2, rfl, rfl, h2, h3⟩ := (fields_cons hty).1 f2
    obtain ⟨rfl, rfl⟩ := fields_nil.1 h3
    exact ⟨j, v1, v2, o, o1, rfl, by rw [List.append_nil], h1, h2⟩
  · rintro ⟨j, v1, v2, o1, o2, rfl, rfl, h1, h2⟩
    exact ⟨j, _, rfl, (fields_cons hty).2 ⟨v1, _, o1, o2, rfl, rfl, h1, (fields_cons hty).2 ⟨v2, [], o2, [], rfl, by rw [List.append_nil], h2, .nil⟩⟩⟩

theorem instance_node3 {h : HolesAre mangle hole [] []} {ty n1 n2 n3 : Str} {t1 t2 t3 v : Val} {occ : Occs} (hty : ty ≠ str "Name") :
    Instance hole allowed (codeNode ty [(n1, t1), (n2, t2), (n3, t3)]) v occ ↔
      ∃ j v1 v2 v3 o1 o2 o3, v = .node j ty [n1, n2, n3] [v1, v2, v3] ∧ occ = o1 ++ (o2 ++ o3) ∧
        Instance hole allowed t1 v1 o1 ∧ Instance hole allowed t2 v2 o2 ∧ Instance hole allowed t3 v3 o3 := by
  unfold codeNode
  rw [instance_node (h := h) hty]
  constructor
  · rintro ⟨j, vs, rfl, hI⟩
    obtain ⟨v1, vs', o, o', rfl, rfl, h1, f2⟩ := (fields_cons hty).1 hI
    obtain ⟨v2, vs', o1, o2, rfl, rfl, h2, f3⟩ := (fields_cons hty).1 f2
    obtain ⟨v3, vs', o3, o4, rfl, rfl, h3, h4⟩ := (fields_cons hty).1 f3
    obtain ⟨rfl, rfl⟩ := fields_nil.1 h4
    exact ⟨j, v1, v2, v3, o, o1, o3, rfl, by rw [List.append_nil], h1, h2, h3⟩
  · rintro ⟨j, v1, v2, v3, o1, o2, o3, rfl, rfl, h1, h2, h3⟩
    exact ⟨j, _, rfl, (fields_cons hty).2 ⟨v1, _, o1, o2 ++ o3, rfl, rfl, h1, (fields_cons hty).2 ⟨v2, _, o2, o3, rfl, rfl, h2,
      (fields_cons hty).2 ⟨v3, [], o3, [], rfl, by rw [List.append_nil], h3, .nil⟩⟩⟩⟩

theorem instance_node4 {h : HolesAre mangle hole [] []} {ty n1 n2 n3 n4 : Str} {t1 t2 t3 t4 v : Val} {occ : Occs} (hty : ty ≠ str "Name") :
    Instance hole allowed (codeNode ty [(n1, t1), (n2, t2), (n3, t3), (n4, t4)]) v occ ↔
      ∃ j v1 v2 v3 v4 o1 o2 o3 o4, v = .node j ty [n1, n2, n3, n4] [v1, v2, v3, v4] ∧ occ = o1 ++ (o2 ++ (o3 ++ o4)) ∧
        Instance hole allowed t1 v1 o1 ∧ Instance hole allowed t2 v2 o2 ∧ Instance hole allowed t3 v3 o3 ∧ Instance hole allowed t4 v4 o4 := by
  unfold codeNode
  rw [instance_node (h := h) hty]
  constructor
  · rintro ⟨j, vs, rfl, hI⟩
    obtain ⟨v1, vs', o, o', rfl, rfl, h1, f2⟩ := (fields_cons hty).1 hI
    obtain ⟨v2, vs', o1, o2, rfl, rfl, h2, f3⟩ := (fields_cons hty).1 f2
    obtain ⟨v3, vs', o3, o4, rfl, rfl, h3, f4⟩ := (fields_cons hty).1 f3
    obtain ⟨v4, vs', o5, o6, rfl, rfl, h4, h5⟩ := (fields_cons hty).1 f4
    obtain ⟨rfl, rfl⟩ := fields_nil.1 h5
    exact ⟨j, v1, v2, v3, v4, o, o1, o3, o5, rfl, by rw [List.append_nil], h1, h2, h3, h4⟩
  · rintro ⟨j, v1, v2, v3, v4, o1, o2, o3, o4, rfl, rfl, h1, h2, h3, h4⟩
    exact ⟨j, _, rfl, (fields_cons hty).2 ⟨v1, _, o1, o2 ++ (o3 ++ o4), rfl, rfl, h1, (fields_cons hty).2 ⟨v2, _, o2, o3 ++ o4, rfl, rfl, h2,
      (fields_cons hty).2 ⟨v3, _, o3, o4, rfl, rfl, h3, (fields_cons hty).2 ⟨v4, [], o4, [], rfl, by rw [List.append_nil], h4, .nil⟩⟩⟩⟩⟩

/-- The operators of the code are no names. -/
def OpsOk (ops : List Str) : Prop := ∀ op ∈ ops, op ≠ str "Name"

mutual
/-- What reads like the code is an instance of its tree, and the other way round. -/
theorem reads_iff : ∀ (p : Code) {vs : List Label} {ns : List Str} (_ : HolesAre mangle hole vs ns) (_ : ∀ x ∈ p.vars, x ∈ vs) (_ : ∀ s ∈ p.names, s ∈ ns)
    (_ : OpsOk p.ops) {v : Val} {occ : Occs},
    Instance hole allowed (p.val mangle) v occ ↔ p.Reads v occ ∧ AllowedOccs allowed occ
  | .var x, vs, ns, h, hv, hs, ho, v, occ => by
    rw [Code.val, instance_var (h.var x (hv x (by simp [Code.vars])))]
    constructor
    · rintro ⟨rfl, ha⟩; exact ⟨.var, allowedOccs_single.2 ha⟩
    · rintro ⟨hr, ha⟩; cases hr; exact ⟨rfl, allowedOccs_single.1 ha⟩
  | .name s, vs, ns, h, hv, hs, ho, v, occ => by
    rw [Code.val, instance_name (h := h.none) (h.name s (hs s (by simp [Code.names])))]
    constructor
    · rintro ⟨rfl, i, j, ctx, rfl⟩; exact ⟨.name, allowedOccs_nil⟩
    · rintro ⟨hr, ha⟩; cases hr; exact ⟨rfl, _, _, _, rfl⟩
  | .int n, vs, ns, h, hv, hs, ho, v, occ => by
    rw [Code.val, instance_node2 (h := h.none) (by decide)]
    constructor
    · rintro ⟨j, v1, v2, o1, o2, rfl, rfl, h1, h2⟩
      obtain ⟨rfl, k, c, rfl, hc⟩ := (instance_int (h := h.none)).1 h1
      obtain ⟨rfl, l, rfl⟩ := (instance_none (h := h.none)).1 h2
      exact ⟨.int hc, allowedOccs_nil⟩
    · rintro ⟨hr, ha⟩; cases hr with | int hc =>
      exact ⟨_, _, _, [], [], rfl, rfl, (instance_int (h := h.none)).2 ⟨rfl, _, _, rfl, hc⟩, (instance_none (h := h.none)).2 ⟨rfl, _, rfl⟩⟩
  | .attr e a, vs, ns, h, hv, hs, ho, v, occ => by
    have IH := fun {v occ} => reads_iff e (v := v) (occ := occ) h hv hs ho
    rw [Code.val, instance_node3 (h := h.none) (by decide)]
    constructor
    · rintro ⟨j, v1, v2, v3, o1, o2, o3, rfl, rfl, h1, h2, h3⟩
      obtain ⟨h1, ha⟩ := IH.1 h1
      obtain ⟨rfl, k, rfl⟩ := (instance_str (h := h.none)).1 h2
      obtain ⟨rfl, hp⟩ := (instance_plain (h := h.none) (by decide)).1 h3
      simp only [List.append_nil]
      exact ⟨.attr h1 hp, ha⟩
    · rintro ⟨hr, ha⟩; cases hr with | attr h1 hp =>
      exact ⟨_, _, _, _, _, [], [], rfl, by simp, IH.2 ⟨h1, ha⟩, (instance_str (h := h.none)).2 ⟨rfl, _, rfl⟩, (instance_plain (h := h.none) (by decide)).2 ⟨rfl, hp⟩⟩
  | .call f as ks, vs, ns, h, hv, hs, ho, v, occ => by
    have IH := fun {v occ} => reads_iff f (v := v) (occ := occ) h (fun x hx => hv x (by simp [Code.vars, hx])) (fun x hx => hs x (by simp [Code.names, hx])) (fun x hx => ho x (by simp [Code.ops, hx]))
    have IH1 := fun {v occ} => readss_iff as (vs := v) (occ := occ) h (fun x hx => hv x (by simp [Code.vars, hx])) (fun x hx => hs x (by simp [Code.names, hx])) (fun x hx => ho x (by simp [Code.ops, hx]))
    have IH2 := fun {v occ} => readss_iff ks (vs := v) (occ := occ) h (fun x hx => hv x (by simp [Code.vars, hx])) (fun x hx => hs x (by simp [Code.names, hx])) (fun x hx => ho x (by simp [Code.ops, hx]))
    rw [Code.val, instance_node3 (h := h.none) (by decide)]
    constructor
    · rintro ⟨j, v1, v2, v3, o1, o2, o3, rfl, rfl, h1, h2, h3⟩
      obtain ⟨h1, ha1⟩ := IH.1 h1
      obtain ⟨k, vs2, rfl, l2⟩ := (instance_list (h := h.none)).1 h2
      obtain ⟨l, vs3, rfl, l3⟩ := (instance_list (h := h.none)).1 h3
      obtain ⟨h2, ha2⟩ := IH1.1 l2
      obtain ⟨h3, ha3⟩ := IH2.1 l3
      exact ⟨.call h1 h2 h3, allowedOccs_append.2 ⟨ha1, allowedOccs_append.2 ⟨ha2, ha3⟩⟩⟩
    · rintro ⟨hr, ha⟩; cases hr with | call h1 h2 h3 =>
      obtain ⟨ha1, ha⟩ := allowedOccs_append.1 ha
      obtain ⟨ha2, ha3⟩ := allowedOccs_append.1 ha
      exact ⟨_, _, _, _, _, _, _, rfl, rfl, IH.2 ⟨h1, ha1⟩, (instance_list (h := h.none)).2 ⟨_, _, rfl, IH1.2 ⟨h2, ha2⟩⟩, (instance_list (h := h.none)).2 ⟨_, _, rfl, IH2.2 ⟨h3, ha3⟩⟩⟩
  | .keyword a e, vs, ns, h, hv, hs, ho, v, occ => by
    have IH := fun {v occ} => reads_iff e (v := v) (occ := occ) h hv hs ho
    rw [Code.val, instance_node2 (h := h.none) (by decide)]
    constructor
    · rintro ⟨j, v1, v2, o1, o2, rfl, rfl, h1, h2⟩
      obtain ⟨rfl, k, rfl⟩ := (instance_str (h := h.none)).1 h1
      obtain ⟨h2, ha⟩ := IH.1 h2
      exact ⟨.keyword h2, ha⟩
    · rintro ⟨hr, ha⟩; cases hr with | keyword h1 =>
      exact ⟨_, _, _, [], _, rfl, rfl, (instance_str (h := h.none)).2 ⟨rfl, _, rfl⟩, IH.2 ⟨h1, ha⟩⟩
  | .compare l op r, vs, ns, h, hv, hs, ho, v, occ => by
    have IH := fun {v occ} => reads_iff l (v := v) (occ := occ) h (fun x hx => hv x (by simp [Code.vars, hx])) (fun x hx => hs x (by simp [Code.names, hx])) (fun x hx => ho x (by simp [Code.ops, hx]))
    have IH1 := fun {v occ} => reads_iff r (v := v) (occ := occ) h (fun x hx => hv x (by simp [Code.vars, hx])) (fun x hx => hs x (by simp [Code.names, hx])) (fun x hx => ho x (by simp [Code.ops, hx]))
    have hop : op ≠ str "Name" := ho op (by simp [Code.ops])
    rw [Code.val, instance_node3 (h := h.none) (by decide)]
    constructor
    · rintro ⟨j, v1, v2, v3, o1, o2, o3, rfl, rfl, h1, h2, h3⟩
      obtain ⟨h1, ha1⟩ := IH.1 h1
      obtain ⟨opv, hs1, h2⟩ := (instance_single (h := h.none)).1 h2
      obtain ⟨rv, hs2, h3⟩ := (instance_single (h := h.none)).1 h3
      obtain ⟨rfl, hp⟩ := (instance_plain (h := h.none) hop).1 h2
      obtain ⟨h3, ha3⟩ := IH1.1 h3
      simp only [List.nil_append]
      exact ⟨.compare h1 hs1 hp hs2 h3, allowedOccs_append.2 ⟨ha1, ha3⟩⟩
    · rintro ⟨hr, ha⟩; cases hr with | compare h1 hs1 hp hs2 h3 =>
      obtain ⟨ha1, ha3⟩ := allowedOccs_append.1 ha
      exact ⟨_, _, _, _, _, [], _, rfl, rfl, IH.2 ⟨h1, ha1⟩, (instance_single (h := h.none)).2 ⟨_, hs1, (instance_plain (h := h.none) hop).2 ⟨rfl, hp⟩⟩,
        (instance_single (h := h.none)).2 ⟨_, hs2, IH1.2 ⟨h3, ha3⟩⟩⟩
  | .not e, vs, ns, h, hv, hs, ho, v, occ => by
    have IH := fun {v occ} => reads_iff e (v := v) (occ := occ) h hv hs ho
    rw [Code.val, instance_node2 (h := h.none) (by decide)]
    constructor
    · rintro ⟨j, v1, v2, o1, o2, rfl, rfl, h1, h2⟩
      obtain ⟨rfl, hp⟩ := (instance_plain (h := h.none) (by decide)).1 h1
      obtain ⟨h2, ha⟩ := IH.1 h2
      exact ⟨.not hp h2, ha⟩
    · rintro ⟨hr, ha⟩; cases hr with | not hp h1 =>
      exact ⟨_, _, _, [], _, rfl, rfl, (instance_plain (h := h.none) (by decide)).2 ⟨rfl, hp⟩, IH.2 ⟨h1, ha⟩⟩
  | .mod l r, vs, ns, h, hv, hs, ho, v, occ => by
    have IH := fun {v occ} => reads_iff l (v := v) (occ := occ) h (fun x hx => hv x (by simp [Code.vars, hx])) (fun x hx => hs x (by simp [Code.names, hx])) (fun x hx => ho x (by simp [Code.ops, hx]))
    have IH1 := fun {v occ} => reads_iff r (v := v) (occ := occ) h (fun x hx => hv x (by simp [Code.vars, hx])) (fun x hx => hs x (by simp [Code.names, hx])) (fun x hx => ho x (by simp [Code.ops, hx]))
    rw [Code.val, instance_node3 (h := h.none) (by decide)]
    constructor
    · rintro ⟨j, v1, v2, v3, o1, o2, o3, rfl, rfl, h1, h2, h3⟩
      obtain ⟨h1, ha1⟩ := IH.1 h1
      obtain ⟨rfl, hp⟩ := (instance_plain (h := h.none) (by decide)).1 h2
      obtain ⟨h3, ha3⟩ := IH1.1 h3
      simp only [List.nil_append]
      exact ⟨.mod h1 hp h3, allowedOccs_append.2 ⟨ha1, ha3⟩⟩
    · rintro ⟨hr, ha⟩; cases hr with | mod h1 hp h3 =>
      obtain ⟨ha1, ha3⟩ := allowedOccs_append.1 ha
      exact ⟨_, _, _, _, _, [], _, rfl, rfl, IH.2 ⟨h1, ha1⟩, (instance_plain (h := h.none) (by decide)).2 ⟨rfl, hp⟩, IH1.2 ⟨h3, ha3⟩⟩
  | .tuple1 e, vs, ns, h, hv, hs, ho, v, occ => by
    have IH := fun {v occ} => reads_iff e (v := v) (occ := occ) h hv hs ho
    rw [Code.val, instance_node2 (h := h.none) (by decide)]
    constructor
    · rintro ⟨j, v1, v2, o1, o2, rfl, rfl, h1, h2⟩
      obtain ⟨rfl, hp⟩ := (instance_plain (h := h.none) (by decide)).1 h2
      obtain ⟨w, hs1, h1⟩ := (instance_single (h := h.none)).1 h1
      obtain ⟨h1, ha⟩ := IH.1 h1
      simp only [List.append_nil]
      exact ⟨.tuple1 hs1 h1 hp, ha⟩
    · rintro ⟨hr, ha⟩; cases hr with | tuple1 hs1 h1 hp =>
      exact ⟨_, _, _, _, [], rfl, by simp, (instance_single (h := h.none)).2 ⟨_, hs1, IH.2 ⟨h1, ha⟩⟩, (instance_plain (h := h.none) (by decide)).2 ⟨rfl, hp⟩⟩
  | .emptyList, vs, ns, h, hv, hs, ho, v, occ => by
    rw [Code.val, instance_node2 (h := h.none) (by decide)]
    constructor
    · rintro ⟨j, v1, v2, o1, o2, rfl, rfl, h1, h2⟩
      obtain ⟨rfl, k, rfl⟩ := (instance_empty (h := h.none)).1 h1
      obtain ⟨rfl, hp⟩ := (instance_plain (h := h.none) (by decide)).1 h2
      exact ⟨.emptyList hp, allowedOccs_nil⟩
    · rintro ⟨hr, ha⟩; cases hr with | emptyList hp =>
      exact ⟨_, _, _, [], [], rfl, rfl, (instance_empty (h := h.none)).2 ⟨rfl, _, rfl⟩, (instance_plain (h := h.none) (by decide)).2 ⟨rfl, hp⟩⟩
  | .emptyDict, vs, ns, h, hv, hs, ho, v, occ => by
    rw [Code.val, instance_node2 (h := h.none) (by decide)]
    constructor
    · rintro ⟨j, v1, v2, o1, o2, rfl, rfl, h1, h2⟩
      obtain ⟨rfl, k, rfl⟩ := (instance_empty (h := h.none)).1 h1
      obtain ⟨rfl, l, rfl⟩ := (instance_empty (h := h.none)).1 h2
      exact ⟨.emptyDict, allowedOccs_nil⟩
    · rintro ⟨hr, ha⟩; cases hr
      exact ⟨_, _, _, [], [], rfl, rfl, (instance_empty (h := h.none)).2 ⟨rfl, _, rfl⟩, (instance_empty (h := h.none)).2 ⟨rfl, _, rfl⟩⟩
  | .comp set e t it, vs, ns, h, hv, hs, ho, v, occ => by
    have IH := fun {v occ} => reads_iff e (v := v) (occ := occ) h (fun x hx => hv x (by simp [Code.vars, hx])) (fun x hx => hs x (by simp [Code.names, hx])) (fun x hx => ho x (by simp [Code.ops, hx]))
    have IH1 := fun {v occ} => reads_iff t (v := v) (occ := occ) h (fun x hx => hv x (by simp [Code.vars, hx])) (fun x hx => hs x (by simp [Code.names, hx])) (fun x hx => ho x (by simp [Code.ops, hx]))
    have IH2 := fun {v occ} => reads_iff it (v := v) (occ := occ) h (fun x hx => hv x (by simp [Code.vars, hx])) (fun x hx => hs x (by simp [Code.names, hx])) (fun x hx => ho x (by simp [Code.ops, hx]))
    rw [Code.val, instance_node2 (h := h.none) (by split <;> decide)]
    constructor
    · rintro ⟨j, v1, v2, o1, o2, rfl, rfl, h1, h2⟩
      obtain ⟨h1, ha1⟩ := IH.1 h1
      obtain ⟨w, hs1, h2⟩ := (instance_single (h := h.none)).1 h2
      obtain ⟨k, w1, w2, w3, w4, p1, p2, p3, p4, rfl, rfl, g1, g2, g3, g4⟩ := (instance_node4 (h := h.none) (by decide)).1 h2
      obtain ⟨g1, ha2⟩ := IH1.1 g1
      obtain ⟨g2, ha3⟩ := IH2.1 g2
      obtain ⟨rfl, l, rfl⟩ := (instance_empty (h := h.none)).1 g3
      obtain ⟨rfl, m, c, rfl, hc⟩ := (instance_int (h := h.none)).1 g4
      simp only [List.append_nil]
      exact ⟨.comp h1 hs1 g1 g2 hc, allowedOccs_append.2 ⟨ha1, allowedOccs_append.2 ⟨ha2, ha3⟩⟩⟩
    · rintro ⟨hr, ha⟩; cases hr with | comp h1 hs1 g1 g2 hc =>
      obtain ⟨ha1, ha⟩ := allowedOccs_append.1 ha
      obtain ⟨ha2, ha3⟩ := allowedOccs_append.1 ha
      exact ⟨_, _, _, _, _, rfl, rfl, IH.2 ⟨h1, ha1⟩, (instance_single (h := h.none)).2 ⟨_, hs1, (instance_node4 (h := h.none) (by decide)).2
        ⟨_, _, _, _, _, _, _, [], [], rfl, by simp, IH1.2 ⟨g1, ha2⟩, IH2.2 ⟨g2, ha3⟩, (instance_empty (h := h.none)).2 ⟨rfl, _, rfl⟩,
          (instance_int (h := h.none)).2 ⟨rfl, _, _, rfl, hc⟩⟩⟩⟩
  | .assign t e, vs, ns, h, hv, hs, ho, v, occ => by
    have IH := fun {v occ} => reads_iff t (v := v) (occ := occ) h (fun x hx => hv x (by simp [Code.vars, hx])) (fun x hx => hs x (by simp [Code.names, hx])) (fun x hx => ho x (by simp [Code.ops, hx]))
    have IH1 := fun {v occ} => reads_iff e (v := v) (occ := occ) h (fun x hx => hv x (by simp [Code.vars, hx])) (fun x hx => hs x (by simp [Code.names, hx])) (fun x hx => ho x (by simp [Code.ops, hx]))
    rw [Code.val, instance_node3 (h := h.none) (by decide)]
    constructor
    · rintro ⟨j, v1, v2, v3, o1, o2, o3, rfl, rfl, h1, h2, h3⟩
      obtain ⟨w, hs1, h1⟩ := (instance_single (h := h.none)).1 h1
      obtain ⟨h1, ha1⟩ := IH.1 h1
      obtain ⟨h2, ha2⟩ := IH1.1 h2
      obtain ⟨rfl, k, rfl⟩ := (instance_none (h := h.none)).1 h3
      simp only [List.append_nil]
      exact ⟨.assign hs1 h1 h2, allowedOccs_append.2 ⟨ha1, ha2⟩⟩
    · rintro ⟨hr, ha⟩; cases hr with | assign hs1 h1 h2 =>
      obtain ⟨ha1, ha2⟩ := allowedOccs_append.1 ha
      exact ⟨_, _, _, _, _, _, [], rfl, by simp, (instance_single (h := h.none)).2 ⟨_, hs1, IH.2 ⟨h1, ha1⟩⟩, IH1.2 ⟨h2, ha2⟩, (instance_none (h := h.none)).2 ⟨rfl, _, rfl⟩⟩
  | .expr e, vs, ns, h, hv, hs, ho, v, occ => by
    have IH := fun {v occ} => reads_iff e (v := v) (occ := occ) h hv hs ho
    rw [Code.val, instance_node1 (h := h.none) (by decide)]
    constructor
    · rintro ⟨j, v1, rfl, h1⟩
      obtain ⟨h1, ha⟩ := IH.1 h1
      exact ⟨.expr h1, ha⟩
    · rintro ⟨hr, ha⟩; cases hr with | expr h1 =>
      exact ⟨_, _, rfl, IH.2 ⟨h1, ha⟩⟩
/-- The same for several. -/
theorem readss_iff : ∀ (ps : List Code) {vars : List Label} {ns : List Str} (_ : HolesAre mangle hole vars ns) (_ : ∀ x ∈ Code.varss ps, x ∈ vars)
    (_ : ∀ s ∈ Code.namess ps, s ∈ ns) (_ : OpsOk (Code.opss ps)) {vs : List Val} {occ : Occs},
    Instances hole allowed (Code.vals mangle ps) vs occ ↔ CodesRead ps vs occ ∧ AllowedOccs allowed occ
  | [], vars, ns, h, hv, hs, ho, vs, occ => by
    rw [Code.vals, instances_nil]
    constructor
    · rintro ⟨rfl, rfl⟩; exact ⟨.nil, allowedOccs_nil⟩
    · rintro ⟨hr, ha⟩; cases hr; exact ⟨rfl, rfl⟩
  | p :: ps, vars, ns, h, hv, hs, ho, vs, occ => by
    have IH := fun {v occ} => reads_iff p (v := v) (occ := occ) h (fun x hx => hv x (by simp [Code.varss, hx])) (fun x hx => hs x (by simp [Code.namess, hx])) (fun x hx => ho x (by simp [Code.opss, hx]))
    have IH1 := fun {v occ} => readss_iff ps (vs := v) (occ := occ) h (fun x hx => hv x (by simp [Code.varss, hx])) (fun x hx => hs x (by simp [Code.namess, hx])) (fun x hx => ho x (by simp [Code.opss, hx]))
    rw [Code.vals, instances_cons]
    constructor
    · rintro ⟨v, vs', o, o', rfl, rfl, h1, h2⟩
      obtain ⟨h1, ha1⟩ := IH.1 h1
      obtain ⟨h2, ha2⟩ := IH1.1 h2
      exact ⟨.cons h1 h2, allowedOccs_append.2 ⟨ha1, ha2⟩⟩
    · rintro ⟨hr, ha⟩; cases hr with | cons h1 h2 =>
      obtain ⟨ha1, ha2⟩ := allowedOccs_append.1 ha
      exact ⟨_, _, _, _, rfl, rfl, IH.2 ⟨h1, ha1⟩, IH1.2 ⟨h2, ha2⟩⟩
end

end

end Refex
