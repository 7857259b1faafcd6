import Verif.Model.Pragma
/- Specification of pragma comments: the grammar `... tag: key = value, key = value [,]`. -/
namespace Refex
set_option autoImplicit false

/-- White space. -/
def Blank (s : Str) : Prop := ∀ c ∈ s, isReSpace c = true

instance (s : Str) : Decidable (Blank s) := inferInstanceAs (Decidable (∀ c ∈ s, isReSpace c = true))

/-- One declaration as written, with all its optional white space. -/
structure Decl where
  lead : Str
  key : Str
  ws1 : Str
  ws2 : Str
  value : Str
  trail : Str

/-- Its text. -/
def Decl.source (d : Decl) : Str := d.lead ++ (d.key ++ (d.ws1 ++ ('=' :: (d.ws2 ++ (d.value ++ d.trail)))))

/-- Keys are words with dashes, values may contain dots too. -/
structure Decl.Valid (uw : Char → Bool) (d : Decl) : Prop where
  lead : Blank d.lead
  ws1 : Blank d.ws1
  ws2 : Blank d.ws2
  trail : Blank d.trail
  key : d.key ≠ [] ∧ ∀ c ∈ d.key, isWordDash uw c = true
  value : d.value ≠ [] ∧ ∀ c ∈ d.value, isValueChar uw c = true

/-- The text is: anything (ending in no word character), the tag, white space, ':', one or more declarations separated by
commas, and possibly a comma and white space. -/
structure PragmaText (uw : Char → Bool) (text tag : Str) (decls : List Decl) : Prop where
  tagValid : tag ≠ [] ∧ ∀ c ∈ tag, isWordDash uw c = true
  declsValid : decls ≠ [] ∧ ∀ d ∈ decls, d.Valid uw
  source : ∃ pre ws trail, text = pre ++ (tag ++ (ws ++ (':' :: (joinWith [','] (decls.map Decl.source) ++ trail)))) ∧
    (∀ c, pre.getLast? = some c → isWordDash uw c = false) ∧ Blank ws ∧
    (trail = [] ∨ ∃ w, trail = ',' :: w ∧ Blank w)

/-- The last value given to a key. -/
def lastValue : List Decl → Str → Option Str
  | [], _ => none
  | d :: ds, k => match lastValue ds k with
    | some v => some v
    | none => if d.key = k then some d.value else none

/-- `r` is one of the ranges of category `c`. -/
def RangeOf (d : Dict Str (List Span)) (c : Str) (r : Span) : Prop := ∃ rs, d.get? c = some rs ∧ r ∈ rs

end Refex
