import Verif.Props.NamesNeeded
/- C117: a pattern without metavariables finds the same code. -/
namespace Refex
set_option autoImplicit false

/-- A tree of the grammar is an instance of itself. -/
theorem self_instance {g : Grammar} {hole : Val → Hole} : ∀ (n : Nat) (t : Val), t.size ≤ n → ∀ b, Parsed g b t →
    ∃ occ, Instance hole (fun _ _ => True) t t occ := by
  intro n
  induction n with
  | zero => intro t ht; have := t.size_pos; omega
  | succ n ih =>
    intro t ht b hp
    cases hh : hole t with
    | named x => exact ⟨_, .named hh trivial⟩
    | anonymous => exact ⟨_, .anonymous hh⟩
    | none =>
      cases hp with
      | const _ => exact ⟨_, .const hh (Const.pyEq_refl _)⟩
      | @list i vs hvs =>
        have : ∀ (us : List Val), (∀ u ∈ us, u ∈ vs) → ∃ occ, Instances hole (fun _ _ => True) us us occ := by
          intro us
          induction us with
          | nil => exact fun _ => ⟨_, .nil⟩
          | cons u us ihu =>
            intro hu
            have hm := hu u (List.mem_cons_self ..)
            obtain ⟨o, h1⟩ := ih u (by have := size_mem hm; simp only [Val.size] at ht; omega) _ (hvs u hm)
            obtain ⟨o', h2⟩ := ihu fun w hw => hu w (List.mem_cons_of_mem _ hw)
            exact ⟨_, .cons h1 h2⟩
        obtain ⟨o, h⟩ := this vs fun _ h => h
        exact ⟨o, .list hh h⟩
      | @node i ty ns vs h1 h2 h3 h4 h5 =>
        have hparsed : ∀ w ∈ vs, ∃ b, Parsed g b w := by
          intro w hw
          obtain ⟨m, hm⟩ := List.getElem?_of_mem hw
          have hl : vs.length = (g.fields ty).length := by rw [h4, h2]; simp
          obtain ⟨f, hf⟩ := getElem?_of_length hl hm
          exact ⟨_, h5 m f w hf hm⟩
        have : ∀ (us : List Val) (ms : List Str), us.length = ms.length → (∀ u ∈ us, u ∈ vs) → ∃ occ, FieldInstances hole (fun _ _ => True) ty ms us us occ := by
          intro us
          induction us with
          | nil =>
            intro ms hl _
            have : ms = [] := List.length_eq_zero_iff.1 hl.symm
            subst this
            exact ⟨_, .nil⟩
          | cons u us ihu =>
            intro ms hl hu
            cases ms with
            | nil => simp at hl
            | cons m ms =>
              have hm := hu u (List.mem_cons_self ..)
              obtain ⟨b, hb⟩ := hparsed u hm
              obtain ⟨o, h1⟩ := ih u (by have := size_mem hm; simp only [Val.size] at ht; omega) _ hb
              obtain ⟨o', h2⟩ := ihu ms (by simpa using hl) fun w hw => hu w (List.mem_cons_of_mem _ hw)
              by_cases hc : ty = str "Name" ∧ m = str "ctx"
              · obtain ⟨rfl, rfl⟩ := hc
                exact ⟨_, .ctx h2⟩
              · exact ⟨_, .cons hc h1 h2⟩
        obtain ⟨o, h⟩ := this vs ns h4 fun _ h => h
        exact ⟨o, .node hh h⟩

/-- The instances of a tree without metavariables are the trees that are the same. -/
theorem code_instances {g : Grammar} {what : Str → Hole} {p v : Val} {b : Bool} (hp : Parsed g b p) (hno : ∀ s, NameIn p s → what s = .none)
    (hsyn : Syntactic p) : (∃ occ, Instance (holeAt what) (fun _ _ => True) p v occ) ↔ SameTree p v := by
  have key : ∀ (what' : Str → Hole), (∀ s, what' s = .none) → ((∃ occ, Instance (holeAt what') (fun _ _ => True) p v occ) ↔ SameTree p v) := by
    intro what' hn
    have hole' : ∀ t, holeAt what' t = .none := by
      intro t
      by_cases h : holeAt what' t = .none
      · exact h
      · obtain ⟨s, hs⟩ := holeAt_what rfl h
        rw [hn s] at hs; exact hs.symm
    obtain ⟨o, ho⟩ := self_instance (hole := holeAt what') _ p (Nat.le_refl _) b hp
    constructor
    · rintro ⟨occ, h⟩
      refine (instance_twice (fun t => by rw [hole']; simp) ho h).2 fun q hq => ?_
      obtain ⟨t, ht⟩ := instance_labels ho q hq
      rw [hole'] at ht; cases ht
    · intro h
      obtain ⟨occ, h', _⟩ := instance_moved (al' := fun _ _ => True) (fun _ _ _ _ _ => trivial) _ _ _ _ ho h
      exact ⟨occ, h'⟩
  rw [← key (fun _ => .none) fun _ => rfl]
  obtain ⟨o, ho⟩ := self_instance (hole := holeAt what) _ p (Nat.le_refl _) b hp
  obtain ⟨o', ho'⟩ := self_instance (hole := holeAt (fun _ => Hole.none)) _ p (Nat.le_refl _) b hp
  constructor
  · rintro ⟨occ, h⟩
    obtain ⟨o, h, _⟩ := specific_instance (whatP := fun _ => .none) (whatQ := what) ho' hsyn (fun s hs hn => absurd (hno s hn) hs) h
    exact ⟨o, h⟩
  · rintro ⟨occ, h⟩
    obtain ⟨o, h, _⟩ := specific_instance (whatP := what) (whatQ := fun _ => .none) ho hsyn (fun s hs hn => absurd rfl hs) h
    exact ⟨o, h⟩

mutual
theorem instance_no_occs {what : Str → Hole} : ∀ {p v : Val} {occ : Occs}, Instance (holeAt what) (fun _ _ => True) p v occ →
    (∀ s, NameIn p s → what s = .none) → occ = []
  | _, _, _, .named e _, hno => by
    obtain ⟨i, ns, vs, j, s, rfl, hl, hw⟩ := holeAt_inv (by rw [e]; simp)
    have hstr : strField (.node i (str "Name") ns vs) (str "id") = some s := by
      have hg : (Val.node i (str "Name") ns vs).getattr (str "id") = (Val.lookup ns vs (str "id")).getD Val.pyNone := rfl
      unfold strField
      rw [hg, hl]; rfl
    have := hno s ⟨[], _, rfl, rfl, hstr⟩
    rw [hw, e] at this; cases this
  | _, _, _, .anonymous _, _ => rfl
  | _, _, _, .const _ _, _ => rfl
  | _, _, _, .list _ h, hno => instances_no_occs h fun t ht s hn => hno s ((nameIn_cases _ _).2 (.inr ⟨t, ht, hn⟩))
  | _, _, _, .node _ h, hno => fieldInstances_no_occs h fun t ht s hn => hno s ((nameIn_cases _ _).2 (.inr ⟨t, ht, hn⟩))
theorem instances_no_occs {what : Str → Hole} : ∀ {ps vs : List Val} {occ : Occs}, Instances (holeAt what) (fun _ _ => True) ps vs occ →
    (∀ p ∈ ps, ∀ s, NameIn p s → what s = .none) → occ = []
  | _, _, _, .nil, _ => rfl
  | _, _, _, .cons a b, hno => by
    rw [instance_no_occs a (hno _ (List.mem_cons_self ..)), instances_no_occs b fun p hp => hno p (List.mem_cons_of_mem _ hp)]; rfl
theorem fieldInstances_no_occs {what : Str → Hole} : ∀ {ty : Str} {ns : List Str} {ps vs : List Val} {occ : Occs},
    FieldInstances (holeAt what) (fun _ _ => True) ty ns ps vs occ → (∀ p ∈ ps, ∀ s, NameIn p s → what s = .none) → occ = []
  | _, _, _, _, _, .nil, _ => rfl
  | _, _, _, _, _, .ctx b, hno => fieldInstances_no_occs b fun p hp => hno p (List.mem_cons_of_mem _ hp)
  | _, _, _, _, _, .cons _ a b, hno => by
    rw [instance_no_occs a (hno _ (List.mem_cons_self ..)), fieldInstances_no_occs b fun p hp => hno p (List.mem_cons_of_mem _ hp)]; rfl
end

/-- **C117** (matches): a pattern without metavariables is found where the same code stands, and only there. -/
theorem C117_hits {g : Grammar} {what : Str → Hole} {p tree : Val} {b : Bool} (hp : Parsed g b p) (hno : ∀ s, NameIn p s → what s = .none)
    (hsyn : Syntactic p) {hits : List PatternHit} (h : PatternHits what p tree hits) : SameCodeAt p tree (hits.map fun h => (h.path, h.node)) where
  ordered := List.pairwise_map.2 h.ordered
  sound := by
    intro x hx
    obtain ⟨hit, hh, rfl⟩ := List.mem_map.1 hx
    obtain ⟨h1, h2, _⟩ := h.sound hit hh
    exact ⟨h1, (code_instances hp hno hsyn).1 ⟨_, h2⟩⟩
  complete := by
    intro q v hq hs
    obtain ⟨occ, ho⟩ := (code_instances hp hno hsyn).2 hs
    obtain ⟨hit, hh, hpre⟩ := h.complete q v occ hq ho (by rw [instance_no_occs ho hno]; intro x i j a b _ ha; simp [Occs.of] at ha)
    exact ⟨_, List.mem_map.2 ⟨hit, hh, rfl⟩, hpre⟩

/-- **C117** (searches): so it is for a search. -/
theorem C117_search {g : Grammar} {py : Python} (hfit : PythonFits g py) {kind : PatternKind} {text : Str} {m : Matcher} {ts : Dict Str CodeTemplate}
    (h : PatternSearch py kind text m ts) :
    ∃ what p, PatternMeans py kind text what p ∧ ((∀ s, NameIn p s → what s = .none) → 2 * p.size + 7 ≤ py.depth →
      ∀ content subs, SearchGives py m ts content subs →
        ∃ (c : Ctx) (hits : List PatternHit) (os : List (Option Substitution)), py.file content = some c ∧ subs = os.filterMap id ∧
          SameCodeAt p c.tree (hits.map fun h => (h.path, h.node)) ∧ Forall2 (fun (h : PatternHit) o => ReportIn py c ts (h.label c) o) hits os) := by
  obtain ⟨what, p, hp, hr⟩ := search_means hfit h
  refine ⟨what, p, hp, fun hno hd content subs hf => ?_⟩
  obtain ⟨c, hits, os, hc, h1, h2, h3⟩ := hr hd _ _ hf
  have hsyn := patternMeans_syntactic hfit hp
  obtain ⟨_, _, _, _, _, _, _, _, _, hps, _, hi, _⟩ := hp
  exact ⟨c, hits, os, hc, h2, C117_hits (hfit.grammar _ _ _ _ hps hi) hno hsyn h1, h3⟩

/-- `f(a)`, as a pattern, is the same code as `f(a)` elsewhere. -/
example : Parsed exPython false (mdCall 10 (exNameAt 20 (str "a"))) ∧ SameTree (mdCall 10 (exNameAt 20 (str "a"))) (mdCall 50 (exNameAt 60 (str "a"))) ∧
    ∃ occ, Instance (holeAt fun _ => Hole.none) (fun _ _ => True) (mdCall 10 (exNameAt 20 (str "a"))) (mdCall 50 (exNameAt 60 (str "a"))) occ := by
  have hp : Parsed exPython false (mdCall 10 (exNameAt 20 (str "a"))) := parsed_of_check _ _ (by decide +kernel)
  have hs : SameTree (mdCall 10 (exNameAt 20 (str "a"))) (mdCall 50 (exNameAt 60 (str "a"))) := shape_same rfl
  exact ⟨hp, hs, (code_instances hp (fun _ _ => rfl) (mdCall_syntactic ..)).2 hs⟩

end Refex
