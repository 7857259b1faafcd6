import Verif.Props.MoreSpecific
import Verif.Props.SelfTemplateExamples
/- C113: `f($y % $y)` is more specific than `f($x)`. -/
namespace Refex
set_option autoImplicit false

/-- The identifier that stands for `$y`. -/
def msWhat (s : Str) : Hole := if s = str "gensym_y" then .named (str "y") else .none
/-- `f($y % $y)` -/
def msSpecific : Val := mdCall 40 (mdMod 50 (exNameAt 60 (str "gensym_y")) (exNameAt 70 (str "gensym_y")))
/-- `f($x)` -/
def msGeneral : Val := mdCall 10 (exNameAt 20 (str "gensym_x"))
/-- `f(a % a)` -/
def msCode : Val := mdCall 40 (mdMod 50 (exNameAt 60 (str "a")) (exNameAt 70 (str "a")))

theorem msMore : MoreSpecific keWhat msGeneral msWhat msSpecific where
  filled := ⟨[(str "x", mdMod 50 (exNameAt 60 (str "gensym_y")) (exNameAt 70 (str "gensym_y")))],
    .node (by decide) (.cons (o := []) (by decide)
      (.node (by decide) (.cons (o := []) (by decide) (.const (by decide) (by decide)) (.ctx .nil)))
      (.cons (by decide) (.list (by decide) (.cons (.named (x := str "x") (by decide) trivial) .nil))
        (.cons (o := []) (by decide) (.list (by decide) .nil) .nil))), by decide⟩
  own := by
    intro s hs hn
    have e : s = str "gensym_y" := by
      by_cases e : s = str "gensym_y"
      · exact e
      · exact absurd (by simp [msWhat, e]) hs
    subst e
    exfalso
    have hname : ∀ {i : Nat} {t n : Str}, NameIn (exNameAt i t) n → n = t := by
      intro i t n h
      rw [nameIn_cases] at h
      rcases h with ⟨_, h⟩ | ⟨w, hw, h⟩
      · cases h; rfl
      · simp only [exNameAt, Val.children, List.mem_cons, List.not_mem_nil, or_false] at hw
        rcases hw with rfl | rfl <;> (rw [nameIn_cases] at h; rcases h with ⟨h, _⟩ | ⟨u, hu, _⟩)
        · exact absurd h (by show ¬ str "str" = str "Name"; decide)
        · cases hu
        · exact absurd h (by show ¬ str "Load" = str "Name"; decide)
        · cases hu
    rw [nameIn_cases] at hn
    rcases hn with ⟨h, _⟩ | ⟨w, hw, h⟩
    · exact absurd h (by show ¬ str "Call" = str "Name"; decide)
    · simp only [msGeneral, mdCall, Val.children, List.mem_cons, List.not_mem_nil, or_false] at hw
      rcases hw with rfl | rfl | rfl
      · exact absurd (hname h) (by decide)
      · rw [nameIn_cases] at h
        rcases h with ⟨h, _⟩ | ⟨u, hu, h⟩
        · exact absurd h (by show ¬ str "list" = str "Name"; decide)
        · rw [List.mem_singleton.1 hu] at h
          exact absurd (hname h) (by decide)
      · rw [nameIn_cases] at h
        rcases h with ⟨h, _⟩ | ⟨u, hu, _⟩
        · exact absurd h (by show ¬ str "list" = str "Name"; decide)
        · cases hu

/-- The code is an instance of the more specific pattern, ... -/
theorem msInstance : ∃ o, Instance (holeAt msWhat) (fun _ _ => True) msSpecific msCode o :=
  ⟨_, .node (by decide) (.cons (o := []) (by decide)
      (.node (by decide) (.cons (o := []) (by decide) (.const (by decide) (by decide)) (.ctx .nil)))
      (.cons (by decide) (.list (by decide) (.cons
        (.node (by decide) (.cons (by decide) (.named (x := str "y") (by decide) trivial)
          (.cons (o := []) (by decide) (.node (by decide) .nil) (.cons (by decide) (.named (x := str "y") (by decide) trivial) .nil)))) .nil))
        (.cons (o := []) (by decide) (.list (by decide) .nil) .nil)))⟩

/-- ... and so of the more general one. -/
example : ∃ o, Instance (holeAt keWhat) (fun _ _ => True) msGeneral msCode o ∧ ∀ x, AllAlike (o.of x) := by
  obtain ⟨o, h⟩ := msInstance
  exact C113_instance (mdCall_syntactic ..) msMore h

/-- That the identifiers for the metavariables of the one are not names in the other cannot be left out: with the identifier `gensym_x` for a metavariable,
`f(gensym_x)` is the same tree as the code `f(gensym_x)`, and has more instances. -/
theorem C113_own_false : ¬ ∀ (whatP whatQ : Str → Hole) (p q v : Val) (occ o : Occs), Syntactic p →
    Instance (holeAt whatP) (fun _ _ => True) p q occ → (occ.map Prod.fst).Nodup → Instance (holeAt whatQ) (fun _ _ => True) q v o →
      ∃ o', Instance (holeAt whatP) (fun _ _ => True) p v o' := by
  intro h
  obtain ⟨o', ho⟩ := h (fun _ => .none) keWhat (exNameAt 20 (str "gensym_x")) (exNameAt 20 (str "gensym_x")) (exNameAt 20 (str "a")) [] _
    (mdName_syntactic ..) (.node (by decide) (.cons (o := []) (by decide) (.const (by decide) (by decide)) (.ctx .nil))) (by decide)
    (.named (x := str "x") (by decide) trivial)
  have hno : holeAt (fun _ => Hole.none) (exNameAt 20 (str "gensym_x")) = .none := by decide
  cases ho with
  | named e => rw [hno] at e; cases e
  | anonymous e => exact absurd e (by decide)
  | node _ h =>
    cases h with
    | cons _ h _ =>
      cases h with
      | named e => cases e
      | anonymous e => cases e
      | const _ e => exact absurd e (by decide)

end Refex
