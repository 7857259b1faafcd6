import Verif.Model.Matchers
import Verif.Spec.Each
/- C62: the recursion limit. -/
namespace Refex
set_option autoImplicit false

/-- Nothing was lost by the limit: the outcome was RecursionError, or it is the same. -/
def Ext {α : Type} (o o' : Except MExc α) : Prop := o = .error .recursionError ∨ o' = o

theorem Ext.refl {α : Type} (o : Except MExc α) : Ext o o := .inr rfl

theorem Ext.map {α β : Type} {o o' : Except MExc α} (h : Ext o o') (f : α → β) : Ext (o.map f) (o'.map f) := by
  rcases h with rfl | rfl
  · exact .inl rfl
  · exact .inr rfl

theorem mapM_ext {α β : Type} {f f' : α → Except MExc β} : ∀ (l : List α), (∀ a ∈ l, Ext (f a) (f' a)) → Ext (l.mapM f) (l.mapM f') := by
  intro l
  induction l with
  | nil => intro _; exact .inr rfl
  | cons a l ih =>
    intro h
    rw [List.mapM_cons, List.mapM_cons]
    rcases h a (by simp) with h1 | h1
    · rw [h1]; exact .inl rfl
    · rw [h1]
      cases f a with
      | error e => exact .inr rfl
      | ok b =>
        rcases ih (fun x hx => h x (by simp [hx])) with h2 | h2
        · simp only [h2]; exact .inl rfl
        · simp only [h2]; exact .inr rfl

/-- More depth does not change a type filter. -/
theorem typeFilter_ext : ∀ (n k : Nat), n ≤ k → ∀ (env : Env) (m : Matcher), Ext (typeFilter n env m) (typeFilter k env m) := by
  intro n
  induction n with
  | zero => intro _ _ env m; exact .inl rfl
  | succ n ih =>
    intro k hk env m
    obtain ⟨k, rfl⟩ : ∃ j, k = j + 1 := ⟨k - 1, by omega⟩
    have ih := ih k (by omega)
    cases m with
    | allOf ms =>
      simp only [typeFilter]
      exact (mapM_ext ms (fun a _ => ih env a)).map _
    | anyOf ms =>
      simp only [typeFilter]
      exact (mapM_ext ms (fun a _ => ih env a)).map _
    | recWrapped i w =>
      simp only [typeFilter]
      rcases ih env i with h1 | h1
      · rw [h1]; exact .inl rfl
      · simp only [h1]
        cases typeFilter n env i with
        | error e => exact .inr rfl
        | ok f =>
          rcases ih ((i, w) :: env) w with h2 | h2
          · rw [h2]; exact .inl rfl
          · simp only [h2]; exact .inr rfl
    | recurse k =>
      simp only [typeFilter]
      cases env[k]? with
      | none => exact .inr rfl
      | some p => exact ih ..
    | bind _ m _ _ => exact ih env m
    | rebind m _ _ => exact ih env m
    | withReplacements m _ => exact ih env m
    | delegate m keep =>
      cases keep with
      | true => exact ih env m
      | false => exact .inr rfl
    | withTopLevelImport m _ _ => exact ih env m
    | comments _ m => exact ih env m
    | _ => exact .inr rfl

/-- Steps that lose nothing, one by one. -/
abbrev ExtSteps := Each (fun (f f' : List Key → MOut) => ∀ ks, Ext (f ks) (f' ks))

theorem extSteps_map {α : Type} {f f' : α → List Key → MOut} : ∀ (l : List α), (∀ a ∈ l, ∀ ks, Ext (f a ks) (f' a ks)) →
    ExtSteps (l.map f) (l.map f') := by
  intro l
  induction l with
  | nil => intro _; exact .nil
  | cons a l ih => intro h; exact .cons (h a (by simp)) (ih fun x hx => h x (by simp [hx]))

theorem firstMatch_ext {fs fs' : List (List Key → MOut)} (h : ExtSteps fs fs') : ∀ ks, Ext (firstMatch fs ks) (firstMatch fs' ks) := by
  induction h with
  | nil => intro ks; exact .inr rfl
  | @cons f f' fs fs' h _ ih =>
    intro ks
    simp only [firstMatch]
    rcases h ks with h1 | h1
    · rw [h1]; exact .inl rfl
    · rw [h1]
      cases f ks with
      | error e => exact .inr rfl
      | ok x =>
        obtain ⟨r, ks1⟩ := x
        cases r with
        | some mi => exact .inr rfl
        | none => exact ih ks1

theorem accumLoop_ext (c : Ctx) (v : Val) {fs fs' : List (List Key → MOut)} (h : ExtSteps fs fs') :
    ∀ b r ks, Ext (accumLoop c v fs b r ks) (accumLoop c v fs' b r ks) := by
  induction h with
  | nil => intro b r ks; exact .inr rfl
  | @cons f f' fs fs' h _ ih =>
    intro b r ks
    simp only [accumLoop]
    rcases h ks with h1 | h1
    · rw [h1]; exact .inl rfl
    · rw [h1]
      cases f ks with
      | error e => exact .inr rfl
      | ok x =>
        obtain ⟨o, ks1⟩ := x
        cases o with
        | none => exact .inr rfl
        | some mi =>
          simp only
          cases mergeBindings b mi.bindings with
          | error e => exact .inr rfl
          | ok b' =>
            cases b' with
            | none => exact .inr rfl
            | some b' =>
              simp only
              cases mergeReplacements r mi.replacements with
              | error e => exact .inr rfl
              | ok r' => exact ih b' r' ks1

theorem climb_ext (c : Ctx) {f f' : SemM} (h : ∀ v ks, Ext (f v ks) (f' v ks)) : ∀ (k : Nat) (v : Val) (ks : List Key),
    Ext (climb c f k v ks) (climb c f' k v ks) := by
  intro k
  induction k with
  | zero => intro v ks; exact .inr rfl
  | succ k ih =>
    intro v ks
    simp only [climb]
    cases getParent c.tree v with
    | none => exact .inr rfl
    | some p =>
      simp only
      rcases h p ks with h1 | h1
      · rw [h1]; exact .inl rfl
      · rw [h1]
        cases f p ks with
        | error e => exact .inr rfl
        | ok x =>
          obtain ⟨o, ks1⟩ := x
          cases o with
          | some mi => exact .inr rfl
          | none => exact ih p ks1

theorem rewrap_ext (c : Ctx) (v : Val) {o o' : MOut} (h : Ext o o') : Ext (rewrap c v o) (rewrap c v o') := by
  rcases h with rfl | rfl
  · exact .inl rfl
  · exact .inr rfl

/-- More depth does not change the outcome of a match. -/
theorem run_ext (c : Ctx) : ∀ (n k : Nat), n ≤ k → ∀ (env : Env) (m : Matcher) (v : Val) (ks : List Key),
    Ext (run c n env m v ks) (run c k env m v ks) := by
  intro n
  induction n with
  | zero => intro _ _ env m v ks; exact .inl rfl
  | succ n ih =>
    intro k hk env m v ks
    obtain ⟨k, rfl⟩ : ∃ j, k = j + 1 := ⟨k - 1, by omega⟩
    have ih := ih k (by omega)
    have tf := typeFilter_ext n k (by omega)
    -- a matcher that starts by running one submatcher on the same candidate
    have wrap : ∀ {o : MOut → MOut} (_ : o (.error .recursionError) = .error .recursionError) {env' : Env} {m' : Matcher} {v' : Val} {ks' : List Key},
        Ext (o (run c n env' m' v' ks')) (o (run c k env' m' v' ks')) := by
      intro o ho env' m' v' ks'
      rcases ih env' m' v' ks' with h | h
      · exact .inl (by rw [h, ho])
      · exact .inr (by rw [h])
    cases m with
    | anything => exact .inr rfl
    | testRaise => exact .inr rfl
    | allOf ms => exact accumLoop_ext c v (extSteps_map ms fun a _ ks => ih env a v ks) [] [] ks
    | anyOf ms =>
      simp only [run]
      rcases mapM_ext ms (fun a _ => tf env a) with h | h
      · rw [h]; exact .inl rfl
      · rw [h]
        cases ms.mapM (typeFilter n env) with
        | error e => exact .inr rfl
        | ok fs => exact firstMatch_ext (extSteps_map _ fun a _ ks => ih env a v ks) ks
    | unlessM m => exact wrap (o := fun r => match r with
        | .error e => .error e
        | .ok (none, ks) => found c v [] ks
        | .ok (some _, ks) => .ok (none, ks)) rfl
    | once key m =>
      simp only [run]
      split
      · exact .inr rfl
      · refine accumLoop_ext c v (.cons (fun ks => ?_) .nil) [] [] ks
        exact wrap (o := fun r => match r with
          | .ok (some mi, ks) => .ok (some mi, key :: ks)
          | r => r) rfl
    | bind name m oc om => exact wrap (o := fun r => match r with
        | .error e => .error e
        | .ok (none, ks) => .ok (none, ks)
        | .ok (some mi, ks) =>
          match mergeBindings mi.bindings [(name, ⟨mi.obj, oc.getD .merge, om.getD .keepLast⟩)] with
          | .error e => .error e
          | .ok none => .ok (none, ks)
          | .ok (some b) => .ok (some { mi with bindings := b }, ks)) rfl
    | rebind m oc om => exact wrap (o := fun r => match r with
        | .error e => .error e
        | .ok (none, ks) => .ok (none, ks)
        | .ok (some mi, ks) => .ok (some { mi with bindings := mi.bindings.map fun e => (e.1, e.2.rebind oc om) }, ks)) rfl
    | stringMatch s => exact .inr rfl
    | withReplacements m rs => exact wrap (o := fun r => match r with
        | .error e => .error e
        | .ok (none, ks) => .ok (none, ks)
        | .ok (some mi, ks) =>
          match mergeReplacements mi.replacements rs with
          | .error e => .error e
          | .ok r => .ok (some { mi with replacements := r }, ks)) rfl
    | delegate m _ => exact ih env m v ks
    | recWrapped i w =>
      simp only [run]
      rcases tf env i with h | h
      · rw [h]; exact .inl rfl
      · rw [h]
        cases typeFilter n env i with
        | error e => exact .inr (by cases typeFilter k ((i, w) :: env) w <;> cases typeFilter n ((i, w) :: env) w <;> rfl)
        | ok f =>
          rcases tf ((i, w) :: env) w with h | h
          · rw [h]; exact .inl rfl
          · rw [h]
            cases typeFilter n ((i, w) :: env) w with
            | error e => exact .inr rfl
            | ok f' => exact firstMatch_ext (extSteps_map _ fun a _ ks => ih a.1 a.2 v ks) ks
    | recurse j =>
      simp only [run]
      cases env[j]? with
      | none => exact .inr rfl
      | some p => exact ih ..
    | equals w => exact .inr rfl
    | typeIs ty => exact .inr rfl
    | matchesRegex rx m => exact wrap (o := fun r => match r with
        | .error e => .error e
        | .ok (none, ks) => .ok (none, ks)
        | .ok (some mi, ks) =>
          match mi.obj.span? with
          | none => .ok (none, ks)
          | some (a, b) =>
            match c.rxMatch rx a b with
            | none => .ok (none, ks)
            | some g =>
              match mergeBindings (regexBindings c rx g) mi.bindings with
              | .error e => .error e
              | .ok none => .ok (none, ks)
              | .ok (some bs) => .ok (some { mi with bindings := bs }, ks)) rfl
    | fileMatchesRegex rx => exact .inr rfl
    | hasItem i m =>
      simp only [run]
      cases getItem v i with
      | none => exact .inr rfl
      | some w => exact rewrap_ext c v (ih env m w ks)
    | itemsAre ms =>
      exact accumLoop_ext c v (.cons (fun ks => ih env _ v ks) (extSteps_map _ fun a _ ks => ih env _ v ks)) [] [] ks
    | contains m =>
      simp only [run]
      cases seqItems v with
      | none => exact .inr rfl
      | some vs => exact rewrap_ext c v (firstMatch_ext (extSteps_map _ fun a _ ks => ih env m a ks) ks)
    | inLines ls => exact .inr rfl
    | node ty names ms =>
      simp only [run]
      split
      · exact .inr rfl
      · exact accumLoop_ext c v (extSteps_map _ fun a _ ks => ih env _ _ ks) [] [] ks
    | constant tys m =>
      simp only [run]
      split
      · exact .inr rfl
      · split
        · exact .inr rfl
        · exact rewrap_ext c v (ih env m _ ks)
    | hasParent m =>
      simp only [run]
      cases getParent c.tree v with
      | none => exact .inr rfl
      | some p => exact rewrap_ext c v (ih env m p ks)
    | hasChild m => exact rewrap_ext c v (firstMatch_ext (extSteps_map _ fun a _ ks => ih env m a ks) ks)
    | hasFirstAncestor a b =>
      simp only [run]
      rcases climb_ext c (fun v ks => ih env a v ks) (c.tree.size + 1) v ks with h | h
      · rw [h]; exact .inl rfl
      · rw [h]
        cases climb c (run c n env a) (c.tree.size + 1) v ks with
        | error e => exact .inr rfl
        | ok x =>
          obtain ⟨o, ks1⟩ := x
          cases o with
          | none => exact .inr rfl
          | some mi =>
            simp only [run]
            cases mi.obj.matched? with
            | none => exact .inr rfl
            | some w => exact wrap (o := fun r => match r with
                | .error e => .error e
                | .ok (none, ks) => .ok (none, ks)
                | .ok (some mi', ks) =>
                  match mergeBindings mi.bindings mi'.bindings with
                  | .error e => .error e
                  | .ok none => .error .attributeError
                  | .ok (some b) => found c v b ks) rfl
    | hasPrevSibling m =>
      simp only [run]
      cases getPrevSibling c.tree v with
      | none => exact .inr rfl
      | some s =>
        simp only [run]
        split
        · exact ih env m s ks
        · exact .inr rfl
    | hasNextSibling m =>
      simp only [run]
      cases getNextSibling c.tree v with
      | none => exact .inr rfl
      | some s =>
        simp only [run]
        split
        · exact ih env m s ks
        · exact .inr rfl
    | withTopLevelImport m module as =>
      simp only [run]
      split
      · exact ih env m v ks
      · exact .inr rfl
    | comments want m => exact wrap (o := fun r => match r with
        | .error e => .error e
        | .ok (none, ks) => .ok (none, ks)
        | .ok (some mi, ks) =>
          match mi.obj with
          | .lexical w _ => if c.comment w.ident = want then .ok (some mi, ks) else .ok (none, ks)
          | _ => .error .typeError) rfl
    | rewriteFile pre cmd => exact .inr rfl

/-- **C62**: the outcome of a match does not depend on the recursion limit, except that with too low a limit it is
RecursionError: any two outcomes, under any two limits, that are not RecursionError are the same. -/
theorem C62_depth_irrelevant (c : Ctx) (env : Env) (m : Matcher) (v : Val) (ks : List Key) (n n' : Nat)
    (h : run c n env m v ks ≠ .error .recursionError) (h' : run c n' env m v ks ≠ .error .recursionError) :
    run c n env m v ks = run c n' env m v ks := by
  have up : ∀ k n, run c n env m v ks ≠ .error .recursionError → run c (n + k) env m v ks = run c n env m v ks := by
    intro k
    induction k with
    | zero => intro n _; rfl
    | succ k ih =>
      intro n hn
      rcases run_ext c (n + k) (n + k + 1) (by omega) env m v ks with h | h
      · rw [ih n hn] at h; exact absurd h hn
      · rw [← Nat.add_assoc, h]; exact ih n hn
  rcases Nat.le_total n n' with hl | hl
  · obtain ⟨k, rfl⟩ := Nat.exists_eq_add_of_le hl
    exact (up k n h).symm
  · obtain ⟨k, rfl⟩ := Nat.exists_eq_add_of_le hl
    exact up k n' h'

/-- **C62**: an outcome other than RecursionError is the outcome under every higher limit. -/
theorem C62_more_depth (c : Ctx) (env : Env) (m : Matcher) (v : Val) (ks : List Key) (n n' : Nat) (hn : n ≤ n')
    (h : run c n env m v ks ≠ .error .recursionError) : run c n' env m v ks = run c n env m v ks := by
  obtain ⟨k, rfl⟩ := Nat.exists_eq_add_of_le hn
  induction k with
  | zero => rfl
  | succ k ih =>
    have e := ih (Nat.le_add_right ..)
    rcases run_ext c (n + k) (n + k + 1) (by omega) env m v ks with h' | h'
    · rw [e] at h'; exact absurd h' h
    · rw [← Nat.add_assoc, h']; exact e

/-- A case in which the limit matters: a matcher nested three deep fails with RecursionError under a limit of two, and matches
under a limit of three; by `C62_more_depth` so it does under every higher limit. -/
example (c : Ctx) (v : Val) (ks : List Key) (n : Nat) :
    let m := Matcher.unlessM (.unlessM .anything)
    run c 2 [] m v ks = .error .recursionError ∧ run c (3 + n) [] m v ks = found c v [] ks ∧
      found c v [] ks ≠ .error .recursionError := by
  intro m
  have h3 : run c 3 [] m v ks = found c v [] ks := rfl
  have hf : found c v [] ks ≠ .error .recursionError := by intro h; cases h
  exact ⟨rfl, (C62_more_depth c [] m v ks 3 (3 + n) (by omega) (h3 ▸ hf)).trans h3, hf⟩

end Refex
