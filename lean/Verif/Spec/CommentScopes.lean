import Verif.Spec.PragmaScopes
import Verif.Spec.Pragma
import Verif.Spec.Iterated
/- Specification of what the comments of a Python file disable. -/
namespace Refex
set_option autoImplicit false

/-- The comment declares `key` ("disable" or "enable") to be the category `c`: it ends in `refex: key = c`, or in `pylint: key = v` where `c` is
`pylint.v`, possibly among other declarations (of several with the same key, the last). -/
def Says (uw : Char → Bool) (key : String) (comment c : Str) : Prop :=
  ∃ tag decls v, PragmaText uw comment tag decls ∧ lastValue decls (str key) = some v ∧
    ((tag = str "refex" ∧ c = v) ∨ (tag = str "pylint" ∧ c = str "pylint." ++ v))

/-- A part `[r.1, r.2)` of the file for which comments disable a category: it begins where the scope of a disabling comment begins, and ends where that
scope ends, or before, where the scope of the next enabling comment begins. Comments are given with their scopes. -/
def DisabledPart (uw : Char → Bool) (scopes : List (Str × Nat × Nat)) (c : Str) (r : Span) : Prop :=
  ∃ text b, (text, r.1, b) ∈ scopes ∧ Says uw "disable" text c ∧ r.2 ≤ b ∧
    (∀ text' a' b', (text', a', b') ∈ scopes → Says uw "enable" text' c → r.1 ≤ a' → r.2 ≤ a') ∧
    (r.2 = b ∨ ∃ text' b', (text', r.2, b') ∈ scopes ∧ Says uw "enable" text' c ∧ r.1 ≤ r.2)

/-- The tokens of a file are those of a well-formed block and the end marker; lines follow each other. -/
structure FileBlocks (prog : List Elem) (endm : Tok) : Prop where
  valid : BlockValid prog
  endm : endm.kind = .endmarker
  lines : (lineEnds (blockToks prog)).Pairwise (· < ·)

/-- The comments of a file with their scopes. -/
def fileScopes (file : List Elem × Tok) : List (Str × Nat × Nat) := blockScopes file.2.start 0 file.1

/-- Unless everything is enabled by force, what is reported is what was found, except for what comments disable: what is in a category that is disabled
for a part of the file which the match meets. -/
def NotDisabled (uw : Char → Bool) (force : Bool) (scopes : List (Str × Nat × Nat)) (subs out : List Substitution) : Prop :=
  (force = true → out = subs) ∧
  (force = false → out.Sublist subs ∧ ∀ x ∈ subs, x ∉ out ↔ ∃ c, InCategory x c ∧ ∃ r, DisabledPart uw scopes c r ∧ Meets x.primarySpan r)

/-- What the searches of a command find in a text, put together, without what its comments disable. -/
def FoundUndisabled (uw : Char → Bool) (force : Bool) (scopes : Str → List (Str × Nat × Nat)) (Ps : List (Str → List Substitution → Prop)) (text : Str)
    (subs : List Substitution) : Prop :=
  ∃ per all, Forall2 (fun P l => P text l) Ps per ∧ Together per all ∧ NotDisabled uw force (scopes text) all subs

end Refex
