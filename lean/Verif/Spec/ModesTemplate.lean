import Verif.Spec.Modes
import Verif.Spec.Templates
/- Templates of the command line: which there are, what they mention, what they refuse. -/
namespace Refex
set_option autoImplicit false

/-- `$x` is in the text. -/
def Mentions (toks : List PTok) (x : Str) : Prop := ∃ pre d t post, toks = pre ++ d :: t :: post ∧ d.string = str "$" ∧ t.string = x

/-- What `--sub-mode` names a Python template of which kind. -/
inductive SubModeKind : Str → PatternKind → Prop
  | module : SubModeKind (str "py") .module
  | expr : SubModeKind (str "py.expr") .expr
  | stmt : SubModeKind (str "py.stmt") .stmt

/-- The kinds of patterns of `--mode`. -/
inductive ModeKind : Str → PatternKind → Prop
  | expr : ModeKind (str "py.expr") .expr
  | stmt : ModeKind (str "py.stmt") .stmt

end Refex
