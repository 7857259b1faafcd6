import Verif.Props.Places
import Verif.Props.ModesExamples
/- C95, in a file. -/
namespace Refex
set_option autoImplicit false

theorem mdFileFits : FileFits mdCtx where
  tokens := by
    intro i sp h
    have h : (if i = 3 then some (0, 5) else if i = 10 then some (0, 5) else if i = 20 then some (0, 1) else if i = 30 then some (4, 5) else none) = some sp := h
    split at h
    · cases h; exact ⟨by decide, by decide⟩
    · split at h
      · cases h; exact ⟨by decide, by decide⟩
      · split at h
        · cases h; exact ⟨by decide, by decide⟩
        · split at h
          · cases h; exact ⟨by decide, by decide⟩
          · cases h
  fullmatch := by intro rx a b g l sp _ h _; cases h
  search := by intro rx g l sp h _; cases h

/-- The pattern `$x % $x` binds `x` in `a % a`: to an object of the file with its place. -/
example : (∃ mi ks, run mdCtx 40 [] mdMatcher (mdMod 10 (exNameAt 20 (str "a")) (exNameAt 30 (str "a"))) [] = .ok (some mi, ks) ∧
      (mi.bindings.get? (str "x")).isSome = true) ∧
    mdMatcher.noExternal = true ∧ mdCtx.tree.at? [0, 0, 0] = some (mdMod 10 (exNameAt 20 (str "a")) (exNameAt 30 (str "a"))) := by
  refine ⟨?_, by decide +kernel, rfl⟩
  have h : (match run mdCtx 40 [] mdMatcher (mdMod 10 (exNameAt 20 (str "a")) (exNameAt 30 (str "a"))) [] with
    | .ok (some mi, _) => (mi.bindings.get? (str "x")).isSome
    | _ => false) = true := by decide +kernel
  split at h
  · rename_i mi ks e; exact ⟨mi, ks, e, h⟩
  · cases h

end Refex
