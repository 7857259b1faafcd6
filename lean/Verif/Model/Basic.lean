/-
Basic vocabulary of the model: Python strings, spans, dictionaries, sorting.
-/
namespace Refex
set_option autoImplicit false

/-- A Python `str`, as its list of code points. refex/substitution.py:61-100 (fields of type `str`). -/
abbrev Str := List Char

/-- Labels, categories, file names: Python strings as well. refex/substitution.py:71. -/
abbrev Label := Str

/-- A half-open span of code-point offsets (`Tuple[int, int]`, refex/substitution.py:71). -/
abbrev Span := Nat × Nat

/-- String literals of the model. used for the literals of refex/search.py:561-578. -/
abbrev str (s : String) : Str := s.toList

/-- Python `s[a:b]` for non-negative `a`, `b` (clamping as Python does). refex/formatting.py:150-154. -/
def slice {α : Type _} (s : List α) (a b : Nat) : List α := (s.drop a).take (b - a)

/-- A Python `dict` as an association list in insertion order (keys distinct, see `Dict.WF`). refex/substitution.py:71-72. -/
abbrev Dict (κ : Type) (α : Type) := List (κ × α)

namespace Dict
variable {κ α β : Type} [DecidableEq κ]

/-- The keys, in insertion order. refex/substitution.py:131-133. -/
def keys (d : Dict κ α) : List κ := d.map Prod.fst

/-- The values, in insertion order. refex/substitution.py:313-317. -/
def values (d : Dict κ α) : List α := d.map Prod.snd

/-- `d.get(k)`. refex/search.py:655-658. -/
def get? : Dict κ α → κ → Option α
  | [], _ => none
  | (k', v) :: d, k => if k' = k then some v else get? d k

/-- `k in d`. refex/substitution.py:282. -/
def has (d : Dict κ α) (k : κ) : Bool := (d.get? k).isSome

/-- `d[k] = v`: overwrite in place or append. refex/substitution.py:313-317. -/
def set : Dict κ α → κ → α → Dict κ α
  | [], k, v => [(k, v)]
  | (k', v') :: d, k, v => if k' = k then (k', v) :: d else (k', v') :: set d k v

/-- `d.pop(k, None)`: remove the key. refex/search.py:655-658. -/
def erase (d : Dict κ α) (k : κ) : Dict κ α := d.filter (fun e => e.1 ≠ k)

/-- Every association list that is a Python dict has distinct keys. refex/substitution.py:71-72. -/
def WF (d : Dict κ α) : Prop := (keys d).Nodup

/-- For refex/substitution.py:71-72. -/
instance (d : Dict κ α) : Decidable d.WF := inferInstanceAs (Decidable (List.Nodup _))

end Dict

/-- Insert before the first element that is not smaller (stable, used right to left). refex/substitution.py:371. -/
def insertBy {α : Type _} (le : α → α → Bool) (x : α) : List α → List α
  | [] => [x]
  | y :: ys => if le x y then x :: y :: ys else y :: insertBy le x ys

/-- Python's `sorted(l, key=...)`: a stable sort. Any stable sort computes the same list. refex/substitution.py:371, refex/formatting.py:698. -/
def stableSort {α : Type _} (le : α → α → Bool) : List α → List α
  | [] => []
  | x :: xs => insertBy le x (stableSort le xs)

/-- Python tuple order on spans. refex/substitution.py:371, refex/formatting.py:698. -/
def spanLe (a b : Span) : Bool := decide (a.1 < b.1) || (decide (a.1 = b.1) && decide (a.2 ≤ b.2))

/-- `sep.join(parts)`. refex/substitution.py:187. -/
def joinWith (sep : Str) : List Str → Str
  | [] => []
  | [p] => p
  | p :: q :: ps => p ++ sep ++ joinWith sep (q :: ps)

/-- `s.split(c)` for a single character `c`: always at least one part. refex/substitution.py:185. -/
def splitOn (c : Char) : Str → List Str
  | [] => [[]]
  | x :: xs =>
    if x = c then [] :: splitOn c xs
    else match splitOn c xs with
      | [] => [[x]]
      | p :: ps => (x :: p) :: ps

/-- The outcome of Python code: a value or an exception. Only the kind of exception is kept. refex/substitution.py:110-149, refex/formatting.py:690-744. -/
inductive Exc
  | valueError | typeError | keyError | assertionError | rewriteError | indexError
  | syntaxError | attributeError | skipFile | skipNoResults | parseError | ioError | unicodeError | other
  deriving DecidableEq, Repr

/-- Models none (decidable equality of results). -/
instance {ε α : Type _} [DecidableEq ε] [DecidableEq α] : DecidableEq (Except ε α)
  | .ok a, .ok b => if h : a = b then isTrue (h ▸ rfl) else isFalse (fun e => h (Except.ok.inj e))
  | .error a, .error b => if h : a = b then isTrue (h ▸ rfl) else isFalse (fun e => h (Except.error.inj e))
  | .ok _, .error _ => isFalse (fun e => by cases e)
  | .error _, .ok _ => isFalse (fun e => by cases e)

end Refex
