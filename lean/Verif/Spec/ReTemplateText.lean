import Verif.Model.ReTemplateText
import Verif.Spec.Templates
/- Specification of the syntax of regex templates, as in the documentation of `re.sub`. -/
namespace Refex
set_option autoImplicit false

/-- The escapes for characters. -/
def templateEscapes : List (Char × Char) :=
  [('a', '\x07'), ('b', '\x08'), ('f', '\x0c'), ('n', '\n'), ('r', '\r'), ('t', '\t'), ('v', '\x0b'), ('\\', '\\')]

/-- `s` does not go on with a character of this kind. -/
def NotNext (kind : Char → Bool) (s : Str) : Prop := ∀ c, s.head? = some c → kind c = false

/-- What a template consists of. `\g<name>` refers to a name, `\g<12>` to a number; `\1` and `\12` refer to numbers too, unless there are three octal
digits; these, and up to two more after `\0`, are a character; so are the usual escapes; a backslash before anything else but an ASCII letter stands for
itself. -/
inductive TemplateText (identifier : Str → Bool) (maxGroups : Nat) : Str → List REvent → Prop
  | nil : TemplateText identifier maxGroups [] []
  | char {c s es} : c ≠ '\\' → TemplateText identifier maxGroups s es → TemplateText identifier maxGroups (c :: s) (.char c :: es)
  | named {name s es} : identifier name = true → ¬ (∀ c ∈ name, c.isDigit = true) → TemplateText identifier maxGroups s es →
      TemplateText identifier maxGroups ('\\' :: 'g' :: '<' :: (name ++ '>' :: s)) (.named name :: es)
  | number {ds s es} : ds ≠ [] → (∀ c ∈ ds, c.isDigit = true) → digitsValue 10 ds < maxGroups → TemplateText identifier maxGroups s es →
      TemplateText identifier maxGroups ('\\' :: 'g' :: '<' :: (ds ++ '>' :: s)) (.group (digitsValue 10 ds) :: es)
  | zero {ds s es} : (∀ c ∈ ds, isOct c = true) → (ds.length = 2 ∨ ds.length < 2 ∧ NotNext isOct s) → TemplateText identifier maxGroups s es →
      TemplateText identifier maxGroups ('\\' :: '0' :: (ds ++ s)) (.char (Char.ofNat (digitsValue 8 ds)) :: es)
  | octal {c d e s es} : c ≠ '0' → isOct c = true → isOct d = true → isOct e = true → digitsValue 8 [c, d, e] ≤ 255 → TemplateText identifier maxGroups s es →
      TemplateText identifier maxGroups ('\\' :: c :: d :: e :: s) (.char (Char.ofNat (digitsValue 8 [c, d, e])) :: es)
  | digit {c s es} : c ≠ '0' → c.isDigit = true → NotNext Char.isDigit s → TemplateText identifier maxGroups s es →
      TemplateText identifier maxGroups ('\\' :: c :: s) (.group (digitsValue 10 [c]) :: es)
  | digits {c d s es} : c ≠ '0' → c.isDigit = true → d.isDigit = true → (isOct c = true → isOct d = true → NotNext isOct s) →
      TemplateText identifier maxGroups s es → TemplateText identifier maxGroups ('\\' :: c :: d :: s) (.group (digitsValue 10 [c, d]) :: es)
  | escape {c d s es} : (c, d) ∈ templateEscapes → TemplateText identifier maxGroups s es →
      TemplateText identifier maxGroups ('\\' :: c :: s) (.char d :: es)
  | other {c s es} : c ≠ '\\' → c.isAlpha = false → c.isDigit = false → TemplateText identifier maxGroups s es →
      TemplateText identifier maxGroups ('\\' :: c :: s) (.char '\\' :: .char c :: es)

/-- What a part of a template is replaced by. -/
def REvent.value (m : MatchKey → Str) : REvent → Str
  | .char c => [c]
  | .named v => m (.name v)
  | .group n => m (.num n)

/-- What a part of a template refers to. -/
def REvent.ref? : REvent → Option MatchKey
  | .char _ => none
  | .named v => some (.name v)
  | .group n => some (.num n)

/-- What is assumed of Python: identifiers have no `>` and no backslash, are not empty, and do not consist of ASCII digits; `int` reads ASCII digits. -/
structure GroupNames.Usual (p : GroupNames) : Prop where
  identifier : ∀ name, p.identifier name = true → name ≠ [] ∧ '>' ∉ name ∧ '\\' ∉ name ∧ ¬ (∀ c ∈ name, c.isDigit = true)
  intOf : ∀ ds, ds ≠ [] → (∀ c ∈ ds, c.isDigit = true) → p.intOf ds = some ((digitsValue 10 ds : Nat) : Int)

end Refex
