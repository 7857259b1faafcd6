import Verif.Model.Substitution
/-
Model of refex/formatting.py: applying substitutions, line expansion.
-/
namespace Refex
set_option autoImplicit false

/-- A replacement `(new_text, start, end)` as used by refex/formatting.py:710-744. -/
structure Repl where
  text : Str
  start : Nat
  stop : Nat
  deriving DecidableEq, Repr

/-- refex/formatting.py:723-743, the loop of `concatenate_replacements`. State: `first_start`, `last_end`
(both `none` before the first iteration); the result is the text joined from here on, with the final
`first_start` and `last_end`. -/
def concatLoop (text : Str) :
    Option Nat → Option Nat → List Repl → Except Exc (Str × Option Nat × Option Nat)
  | fs, le, [] => .ok ([], fs, le)
  | fs, le, r :: rs =>
    if r.start > r.stop then .error .valueError
    else
      let fs' := match fs with | none => some r.start | some f => some f
      match le with
      | none =>
        match concatLoop text fs' (some r.stop) rs with
        | .error x => .error x
        | .ok (j, a, b) => .ok (r.text ++ j, a, b)
      | some l =>
        if l > r.start then .error .valueError
        else match concatLoop text fs' (some r.stop) rs with
          | .error x => .error x
          | .ok (j, a, b) => .ok (slice text l r.start ++ r.text ++ j, a, b)

/-- refex/formatting.py:710-744, `concatenate_replacements`. -/
def concatenateReplacements (text : Str) (rs : List Repl) : Except Exc Repl :=
  match concatLoop text none none rs with
  | .error x => .error x
  | .ok (j, fs, le) => .ok { text := j, start := fs.getD 0, stop := le.getD 0 }

/-- refex/formatting.py:692-701, `_rewrite_to_replacements`. The assertion of lines 695-697 cannot fail
for a validated substitution (refex/substitution.py:131-133). -/
def rewriteToReplacements (spans : Dict Label Span) : Option (Dict Label Str) → List Repl
  | none => []
  | some r =>
    (stableSort (fun a b => spanLe a.2 b.2) spans).filterMap fun p =>
      (r.get? p.1).map fun t => { text := t, start := p.2.1, stop := p.2.2 }

/-- refex/formatting.py:704-707, `_substitution_to_replacement`. -/
def substitutionToReplacement (text : Str) (s : Substitution) : Except Exc Repl :=
  concatenateReplacements text (rewriteToReplacements s.matchedSpans s.replacements)

/-- The loop `for sub in subs: all_replacements.append(...)`, refex/formatting.py:145-146. -/
def allReplacements (data : Str) : List Substitution → Except Exc (List Repl)
  | [] => .ok []
  | s :: ss =>
    match substitutionToReplacement data s with
    | .error x => .error x
    | .ok r =>
      match allReplacements data ss with
      | .error x => .error x
      | .ok rs => .ok (r :: rs)

/-- refex/formatting.py:140-154, `apply_substitutions`. -/
def applySubstitutions (data : Str) (subs : List Substitution) : Except Exc Str :=
  match allReplacements data subs with
  | .error x => .error x
  | .ok rs =>
    match concatenateReplacements data (stableSort (fun a b => decide (a.start ≤ b.start)) rs) with
    | .error x => .error x
    | .ok r => .ok (data.take r.start ++ r.text ++ data.drop r.stop)

/-- `s.index('\n')` on a suffix: offset of the first newline. refex/formatting.py:135. -/
def firstNl : Str → Option Nat
  | [] => none
  | c :: cs => if c = '\n' then some 0 else (firstNl cs).map (· + 1)

/-- `s.rindex('\n')`: offset of the last newline. refex/formatting.py:128. -/
def lastNl : Str → Option Nat
  | [] => none
  | c :: cs =>
    match lastNl cs with
    | some i => some (i + 1)
    | none => if c = '\n' then some 0 else none

/-- refex/formatting.py:126-130, `_line_expanded_left` for `0 <= start`. -/
def lineExpandedLeft (s : Str) (start : Nat) : Nat :=
  match lastNl (s.take start) with
  | some i => min start (i + 1)
  | none => 0

/-- refex/formatting.py:133-137, `_line_expanded_right` for `0 <= end`. -/
def lineExpandedRight (s : Str) (stop : Nat) : Nat :=
  match firstNl (s.drop stop) with
  | some i => stop + i
  | none => s.length

/-- refex/formatting.py:98-123, `line_expanded_span`, with Python offsets `Option Int`
(None and negative offsets). An offset that is still negative after adding `len(s)` is out of the
modelled range and is clamped to 0 here. -/
def lineExpandedSpan (s : Str) (start stop : Option Int) : Span :=
  let st : Int := start.getD 0
  let en : Int := stop.getD s.length
  let st := if st < 0 then s.length + st else st
  let en := if en < 0 then s.length + en else en
  let en := if en < st then st else en
  (lineExpandedLeft s st.toNat, lineExpandedRight s en.toNat)

end Refex
