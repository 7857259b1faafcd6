import Verif.Spec.Once
import Verif.Props.Find
import Verif.Props.Bindings
/- C44: `Once`. -/
namespace Refex
set_option autoImplicit false

/-- The attempt never forgets a key. -/
def KeepsKeys (f : List Key → MOut) : Prop := ∀ ks r ks', f ks = .ok (r, ks') → ks ⊆ ks'

theorem keeps_accumLoop {c : Ctx} {v : Val} (steps : List (List Key → MOut)) (h : ∀ f ∈ steps, KeepsKeys f) (b : Bindings)
    (r : Replacements) : KeepsKeys (accumLoop c v steps b r) := by
  induction steps generalizing b r with
  | nil => intro ks o ks' e; simp only [accumLoop, Except.ok.injEq, Prod.mk.injEq] at e; rw [← e.2]; exact fun x hx => hx
  | cons f fs ih =>
    intro ks o ks' e
    simp only [accumLoop] at e
    have hf := h f (by simp)
    have ih := ih (fun g hg => h g (by simp [hg]))
    split at e
    · cases e
    · rename_i k1 h1; cases e; exact hf _ _ _ h1
    · rename_i mi k1 h1
      have s1 := hf _ _ _ h1
      split at e
      · cases e
      · cases e; exact s1
      · split at e
        · cases e
        · exact fun x hx => ih _ _ _ _ _ e (s1 hx)

theorem keeps_firstMatch (steps : List (List Key → MOut)) (h : ∀ f ∈ steps, KeepsKeys f) : KeepsKeys (firstMatch steps) := by
  induction steps with
  | nil => intro ks o ks' e; simp only [firstMatch, Except.ok.injEq, Prod.mk.injEq] at e; rw [← e.2]; exact fun x hx => hx
  | cons f fs ih =>
    intro ks o ks' e
    simp only [firstMatch] at e
    have hf := h f (by simp)
    have ih := ih (fun g hg => h g (by simp [hg]))
    split at e
    · cases e
    · rename_i k1 h1
      exact fun x hx => ih _ _ _ e (hf _ _ _ h1 hx)
    · rename_i mi k1 h1; cases e; exact hf _ _ _ h1

theorem keeps_rewrap {c : Ctx} {v : Val} {f : List Key → MOut} (h : KeepsKeys f) : KeepsKeys (fun ks => rewrap c v (f ks)) := by
  intro ks o ks' e
  simp only at e
  cases hf : f ks with
  | error x => rw [hf] at e; cases e
  | ok p =>
    obtain ⟨q, k1⟩ := p
    rw [hf] at e
    have := h _ _ _ hf
    cases q <;> simp only [rewrap, found, Except.ok.injEq, Prod.mk.injEq] at e <;> (rw [← e.2]; exact this)

theorem keeps_climb {c : Ctx} {f : SemM} (h : ∀ v, KeepsKeys (f v)) (n : Nat) (v : Val) : KeepsKeys (climb c f n v) := by
  induction n generalizing v with
  | zero => intro ks o ks' e; simp [climb] at e
  | succ n ih =>
    intro ks o ks' e
    simp only [climb] at e
    split at e
    · cases e; exact fun x hx => hx
    · split at e
      · cases e
      · rename_i h1; cases e; exact h _ _ _ _ h1
      · rename_i h1
        exact fun x hx => ih _ _ _ _ e (h _ _ _ _ h1 hx)

/-- **C44**: a key once recorded in a match attempt stays recorded, whatever is tried after it. -/
theorem C44_keys_kept (c : Ctx) (n : Nat) (env : Env) (m : Matcher) (v : Val) : KeepsKeys (run c n env m v) := by
  induction n generalizing env m v with
  | zero => intro ks r ks' h; simp [run] at h
  | succ n ih =>
    have triv : ∀ {ks ks' : List Key} {r r' : Option MatchInfo}, (Except.ok (r, ks) : MOut) = .ok (r', ks') → ks ⊆ ks' := by
      intro ks ks' r r' h; cases h; exact fun x hx => hx
    intro ks r ks' h
    cases m <;> simp only [run] at h
    case anything => exact triv h
    case testRaise => cases h
    case allOf ms =>
      exact keeps_accumLoop _ (fun f hf => by obtain ⟨m, _, rfl⟩ := List.mem_map.1 hf; exact ih _ _ _) _ _ _ _ _ h
    case anyOf ms =>
      split at h
      · cases h
      · exact keeps_firstMatch _ (fun f hf => by obtain ⟨m, _, rfl⟩ := List.mem_map.1 hf; exact ih _ _ _) _ _ _ h
    case unlessM m =>
      split at h
      · cases h
      · rename_i e; exact fun x hx => triv h (ih _ _ _ _ _ _ e hx)
      · rename_i e; exact fun x hx => triv h (ih _ _ _ _ _ _ e hx)
    case once key m =>
      split at h
      · exact keeps_accumLoop _ (by simp) _ _ _ _ _ h
      · refine keeps_accumLoop _ ?_ _ _ _ _ _ h
        intro f hf
        simp only [List.mem_singleton] at hf
        subst hf
        intro ks o ks' e
        simp only at e
        split at e
        · rename_i e1
          cases e
          exact fun x hx => List.mem_cons_of_mem _ (ih _ _ _ _ _ _ e1 hx)
        · exact ih _ _ _ _ _ _ e
    case bind name m oc om =>
      split at h
      · cases h
      · rename_i e; exact fun x hx => triv h (ih _ _ _ _ _ _ e hx)
      · rename_i e
        split at h
        · cases h
        · exact fun x hx => triv h (ih _ _ _ _ _ _ e hx)
        · exact fun x hx => triv h (ih _ _ _ _ _ _ e hx)
    case rebind m oc om =>
      split at h
      · cases h
      · rename_i e; exact fun x hx => triv h (ih _ _ _ _ _ _ e hx)
      · rename_i e; exact fun x hx => triv h (ih _ _ _ _ _ _ e hx)
    case stringMatch s => exact triv h
    case withReplacements m rs =>
      split at h
      · cases h
      · rename_i e; exact fun x hx => triv h (ih _ _ _ _ _ _ e hx)
      · rename_i e
        split at h
        · cases h
        · exact fun x hx => triv h (ih _ _ _ _ _ _ e hx)
    case delegate m keep => exact ih _ _ _ _ _ _ h
    case recWrapped i w =>
      split at h
      · exact keeps_firstMatch _ (fun f hf => by obtain ⟨m, _, rfl⟩ := List.mem_map.1 hf; exact ih _ _ _) _ _ _ h
      · cases h
      · cases h
    case recurse k =>
      split at h
      · exact ih _ _ _ _ _ _ h
      · exact triv h
    case equals w => split at h <;> exact triv h
    case typeIs ty => split at h <;> exact triv h
    case matchesRegex rx m =>
      split at h
      · cases h
      · rename_i e; exact fun x hx => triv h (ih _ _ _ _ _ _ e hx)
      · rename_i e
        split at h
        · exact fun x hx => triv h (ih _ _ _ _ _ _ e hx)
        · split at h
          · exact fun x hx => triv h (ih _ _ _ _ _ _ e hx)
          · split at h
            · cases h
            · exact fun x hx => triv h (ih _ _ _ _ _ _ e hx)
            · exact fun x hx => triv h (ih _ _ _ _ _ _ e hx)
    case fileMatchesRegex rx => split at h <;> exact triv h
    case hasItem i m =>
      split at h
      · exact triv h
      · exact keeps_rewrap (ih _ _ _) _ _ _ h
    case itemsAre ms =>
      refine keeps_accumLoop _ ?_ _ _ _ _ _ h
      intro f hf
      rcases List.mem_cons.1 hf with rfl | hf
      · exact ih _ _ _
      · obtain ⟨m, _, rfl⟩ := List.mem_map.1 hf; exact ih _ _ _
    case contains m =>
      split at h
      · exact triv h
      · refine keeps_rewrap (keeps_firstMatch _ ?_) _ _ _ h
        intro f hf; obtain ⟨m, _, rfl⟩ := List.mem_map.1 hf; exact ih _ _ _
    case inLines l =>
      split at h
      · split at h
        · split at h <;> exact triv h
        · exact triv h
      · exact triv h
    case node ty names ms =>
      split at h
      · exact triv h
      · exact keeps_accumLoop _ (fun f hf => by obtain ⟨m, _, rfl⟩ := List.mem_map.1 hf; exact ih _ _ _) _ _ _ _ _ h
    case constant tys m =>
      split at h
      · exact triv h
      · split at h
        · exact triv h
        · exact keeps_rewrap (ih _ _ _) _ _ _ h
    case hasParent m =>
      split at h
      · exact triv h
      · exact keeps_rewrap (ih _ _ _) _ _ _ h
    case hasChild m =>
      refine keeps_rewrap (keeps_firstMatch _ ?_) _ _ _ h
      intro f hf; obtain ⟨m, _, rfl⟩ := List.mem_map.1 hf; exact ih _ _ _
    case hasFirstAncestor a b =>
      have hc := keeps_climb (c := c) (f := run c n env a) (fun v => ih _ _ _) (c.tree.size + 1) v
      split at h
      · cases h
      · rename_i e; exact fun x hx => triv h (hc _ _ _ e hx)
      · rename_i e
        split at h
        · cases h
        · split at h
          · cases h
          · rename_i e2; exact fun x hx => triv h (ih _ _ _ _ _ _ e2 (hc _ _ _ e hx))
          · rename_i e2
            split at h
            · cases h
            · cases h
            · exact fun x hx => triv h (ih _ _ _ _ _ _ e2 (hc _ _ _ e hx))
    case hasPrevSibling m =>
      split at h
      · exact triv h
      · split at h
        · exact ih _ _ _ _ _ _ h
        · exact triv h
    case hasNextSibling m =>
      split at h
      · exact triv h
      · split at h
        · exact ih _ _ _ _ _ _ h
        · exact triv h
    case withTopLevelImport m a b =>
      split at h
      · exact ih _ _ _ _ _ _ h
      · exact triv h
    case comments w m =>
      split at h
      · cases h
      · rename_i e; exact fun x hx => triv h (ih _ _ _ _ _ _ e hx)
      · rename_i e
        split at h
        · split at h <;> exact fun x hx => triv h (ih _ _ _ _ _ _ e hx)
        · cases h
    case rewriteFile p cmd => split at h <;> exact triv h

theorem later_keys {c : Ctx} {ks ks' : List Key} (h : Later c ks ks') : ks ⊆ ks' := by
  induction h with
  | now => exact fun x hx => hx
  | step h1 _ ih => exact fun x hx => ih (C44_keys_kept _ _ _ _ _ _ _ _ h1 hx)

theorem mergeBindings_nil (b : Bindings) : ∃ b', mergeBindings [] b = .ok (some b') ∧ ∀ k, b'.get? k = b.get? k := by
  refine ⟨_, rfl, fun k => ?_⟩
  rw [get?_updateFrom, get?_updateFrom]
  cases h : Dict.get? b k with
  | none => simp [Dict.get?]
  | some v =>
    have : k ∈ b.keys := Dict.mem_keys_iff.2 ⟨v, h⟩
    simp [List.mem_filter, this, Dict.has, Dict.get?]

theorem mergeReplacements_nil (r : Replacements) : ∃ r', mergeReplacements [] r = .ok r' :=
  ⟨_, rfl⟩

/-- **C44**: while no matcher with this key has succeeded, `Once` fails where its submatcher fails (recording nothing) and
passes on the bindings of the submatcher where it succeeds (recording the key). -/
theorem C44_first (c : Ctx) (n : Nat) (env : Env) (key : Key) (m : Matcher) (v : Val) (ks ks' : List Key)
    (h : key ∉ c.done ∧ key ∉ ks) :
    (Misses (run c (n + 1) env (.once key m) v) ks ks' ↔ Misses (run c n env m v) ks ks') ∧
    (∀ mi, Hits (run c n env m v) ks mi ks' → ∃ mi', Hits (run c (n + 1) env (.once key m) v) ks mi' (key :: ks') ∧
      mi'.obj = createMatch c v ∧ ∀ l, mi'.bindings.get? l = mi.bindings.get? l) := by
  have hh : ¬ (key ∈ c.done ∨ key ∈ ks) := by simpa using h
  unfold Misses Hits
  simp only [run, hh, if_false, accumulate, accumLoop]
  cases e : run c n env m v ks with
  | error x => simp
  | ok r =>
    obtain ⟨r, k1⟩ := r
    cases r with
    | none => simp
    | some mi =>
      obtain ⟨b, hb, hb'⟩ := mergeBindings_nil mi.bindings
      obtain ⟨r, hr⟩ := mergeReplacements_nil mi.replacements
      simp only [hb, hr]
      refine ⟨by simp, fun mi' he => ?_⟩
      simp only [Except.ok.injEq, Prod.mk.injEq, Option.some.injEq] at he
      obtain ⟨rfl, rfl⟩ := he
      exact ⟨_, rfl, rfl, hb'⟩

/-- **C44**: once a `Once` has matched, any `Once` with the same key, tried at any later time in the same match on any
candidate, matches at once, with no bindings: its submatcher is not run (whatever it is). -/
theorem C44_after_success (c : Ctx) (n : Nat) (env : Env) (key : Key) (m : Matcher) (v : Val) (ks ks1 ks2 : List Key)
    (mi : MatchInfo) (h : Hits (run c n env (.once key m) v) ks mi ks1) (hl : Later c ks1 ks2)
    (n' : Nat) (env' : Env) (m' : Matcher) (v' : Val) :
    Hits (run c (n' + 1) env' (.once key m') v') ks2 (Bare c v') ks2 := by
  have hin : key ∈ c.done ∨ key ∈ ks2 := by
    cases n with
    | zero => simp [Hits, run] at h
    | succ n =>
      by_cases hk : key ∈ c.done ∨ key ∈ ks
      · rcases hk with hk | hk
        · exact Or.inl hk
        · exact Or.inr (later_keys hl (C44_keys_kept _ _ _ _ _ _ _ _ h hk))
      · right
        apply later_keys hl
        unfold Hits at h
        simp only [run, hk, if_false, accumulate, accumLoop] at h
        cases e : run c n env m v ks with
        | error x => rw [e] at h; cases h
        | ok r =>
          obtain ⟨r, k1⟩ := r
          cases r with
          | none => rw [e] at h; cases h
          | some mi =>
            obtain ⟨b, hb, _⟩ := mergeBindings_nil mi.bindings
            obtain ⟨r, hr⟩ := mergeReplacements_nil mi.replacements
            rw [e] at h
            simp only [hb, hr, Except.ok.injEq, Prod.mk.injEq] at h
            rw [← h.2]; simp
  simp [Hits, run, hin, accumulate, accumLoop, Bare]

/-- **C44** across a file: after a reported match that recorded the key, every `Once` with that key matches at once with
no bindings, in every attempt made at a later position of the file. -/
theorem C44_rest_of_file (c : Ctx) (n : Nat) (m : Matcher) (rs : List Report)
    (_ : Outermost (attempt c n m) c.tree c.done rs) (r : Report) (hr : r ∈ rs) (key : Key) (hk : key ∈ r.keys)
    (p : Path) (hp : before r.path p = true) (n' : Nat) (env : Env) (m' : Matcher) (v : Val) (ks : List Key) :
    Hits (run { c with done := c.done ++ keysBefore rs p } (n' + 1) env (.once key m') v) ks (Bare c v) ks := by
  have : key ∈ c.done ++ keysBefore rs p := by
    rw [List.mem_append]; right
    unfold keysBefore
    rw [List.mem_flatMap]
    exact ⟨r, List.mem_filter.2 ⟨hr, hp⟩, hk⟩
  unfold Hits
  simp only [run, this, true_or, if_true, accumulate, accumLoop, Bare]
  rfl

/-- **C44** across a file: attempts that came to nothing do not use it up. If no match reported before a position has
recorded the key, `Once` there still depends on its submatcher: the match attempt starts with the key unrecorded. -/
theorem C44_not_used_up (c : Ctx) (n : Nat) (m : Matcher) (rs : List Report)
    (_ : Outermost (attempt c n m) c.tree c.done rs) (key : Key) (hd : key ∉ c.done) (p : Path)
    (hp : ∀ r ∈ rs, before r.path p = true → key ∉ r.keys) (n' : Nat) (env : Env) (m' : Matcher) (v : Val) (ks' : List Key) :
    Misses (run { c with done := c.done ++ keysBefore rs p } (n' + 1) env (.once key m') v) [] ks' ↔
      Misses (run { c with done := c.done ++ keysBefore rs p } n' env m' v) [] ks' := by
  refine (C44_first _ n' env key m' v [] ks' ⟨?_, by simp⟩).1
  simp only [List.mem_append, not_or]
  refine ⟨hd, ?_⟩
  unfold keysBefore
  rw [List.mem_flatMap]
  rintro ⟨r, hr, hk⟩
  rw [List.mem_filter] at hr
  exact hp r hr.1 hr.2 hk

/-- Two attempts of a `Once` within one match, on different candidates: the second has no bindings. -/
def exOnce : Matcher := .once 1 (.bind (str "x") .anything none none)

/-- Non-vacuity of C44: `AllOf(Once(..), Unless(Unless(Once(..))), Bind('y', Once(..)))`: one binding of `x`. -/
example : (∃ mi, run exCtx 5 [] (.allOf [exOnce, .bind (str "y") exOnce none none]) exStr [] = .ok (some mi, [1]) ∧
      mi.bindings.keys = [str "x", str "y"]) ∧
    (∃ mi, run exCtx 5 [] exOnce exStr [1] = .ok (some mi, [1]) ∧ mi.bindings.keys = []) ∧
    Later exCtx [1] [1] := ⟨⟨_, rfl, by decide⟩, ⟨_, rfl, by decide⟩, .now⟩

/-- **C44**, a limit of the claim (not of its first part): within one successful match, an alternative that is tried and
discarded does use the `Once` up. `AnyOf(AllOf(Once(m), <fails>), Once(m))` matches without the bindings of `m`. -/
theorem C44_discarded_alternative_false :
    ∃ mi, run exCtx 6 [] (.anyOf [.allOf [exOnce, .unlessM .anything], exOnce]) exStr [] = .ok (some mi, [1]) ∧
      mi.bindings.keys = [] := ⟨_, rfl, by decide⟩

end Refex
