import Verif.Model.PySearch
/-
Model of refex/fix/fixer.py (SimplePythonFixer, CombiningPythonFixer) and refex/fix/find_fixer.py. The mappings passed as
`replacement` are objects that are changed in place, so they live in a heap and are named by references.
-/
namespace Refex
set_option autoImplicit false

/-- `SimplePythonFixer._replacement`: a template, or a reference to a mapping. refex/fix/fixer.py:101-102. -/
inductive FixRepl
  | template (code : Str)
  | mapping (ref : Nat)

/-- `SimplePythonFixer`, without the examples for tests. refex/fix/fixer.py:77-108. -/
structure Fixer where
  matcher : Matcher
  replacement : FixRepl
  message : Option Str := none
  url : Option Str := none
  category : Option Str := none
  significant : Bool := true

/-- The mappings in memory. refex/fix/fixer.py:112-115. -/
abbrev MapHeap := Nat → Replacements

/-- The name of `LiteralTemplate(s)` among the templates. refex/formatting.py:574-584. -/
def litCode (s : Str) : Str := str "LiteralTemplate:" ++ s

/-- `replacements[label] = LiteralTemplate(s)` if given. refex/fix/fixer.py:117-124. -/
def setLit (d : Replacements) (label : Label) : Option Str → Replacements
  | some s => d.set label (litCode s)
  | none => d

/-- The assignments to `replacements`. refex/fix/fixer.py:117-127. -/
def Fixer.addMeta (f : Fixer) (d : Replacements) : Replacements :=
  let d := setLit d (str "__message") f.message
  let d := setLit d (str "__url") f.url
  let d := setLit d (str "__category") f.category
  if f.significant then d.set (str "__significant") (litCode (str "HACK_TRUE")) else d

/-- `replacements` before the assignments. refex/fix/fixer.py:112-115. -/
def Fixer.initial (f : Fixer) (heap : MapHeap) : Replacements :=
  match f.replacement with
  | .template t => [(str "__root", t)]
  | .mapping r => heap r

/-- The mappings after `matcher_with_meta` of one fixer has been evaluated. refex/fix/fixer.py:110-131. -/
def Fixer.build (f : Fixer) (heap : MapHeap) : MapHeap :=
  match f.replacement with
  | .template _ => heap
  | .mapping r => fun k => if k = r then f.addMeta (heap r) else heap k

/-- The `replacements` of the matcher of this fixer: its own dict, or whatever the mapping now contains.
refex/fix/fixer.py:129-131. -/
def Fixer.seen (f : Fixer) (heap : MapHeap) : Replacements :=
  match f.replacement with
  | .template t => f.addMeta [(str "__root", t)]
  | .mapping r => heap r

/-- `WithReplacements.__attrs_post_init__`: every label and variable of the templates is a system label or declared by the
matcher. Variables that are numbers have no `startswith`. refex/python/matchers/base_matchers.py:417-428. -/
def checkTemplates (env : Templates) (vars : List Label) (rs : Replacements) : Except Exc Unit :=
  let used := rs.flatMap fun e => MatchKey.name e.1 :: (env.sem e.2).vars
  let missing := used.filter fun k => match k with
    | .name l => decide (l ∉ vars)
    | .num _ => true
  if missing.any (fun k => match k with
    | .num _ => true
    | .name _ => false) then .error .attributeError
  else if missing.all (fun k => match k with
    | .name ('_' :: '_' :: _) => true
    | _ => false) then .ok ()
  else .error .valueError

/-- `matcher_with_meta` of every fixer in turn. refex/fix/fixer.py:70-74, 110-131. -/
def buildFixers (env : Templates) (g : Str → List Label) : List Fixer → MapHeap → Except Exc MapHeap
  | [], heap => .ok heap
  | f :: fs, heap =>
    match checkTemplates env (str "__root" :: f.matcher.bindVars g) (f.addMeta (f.initial heap)) with
    | .error e => .error e
    | .ok _ => buildFixers env g fs (f.build heap)

/-- The matcher of a combined fixer, given the mappings at the time of the search. refex/fix/fixer.py:70-74. -/
def combinedMatcher (fs : List Fixer) (heap : MapHeap) : Matcher :=
  .anyOf (fs.map fun f => fromMatcher f.matcher (f.seen heap))

/-- `_fixers_validator`: no fixer may lack a type filter. refex/fix/fixer.py:59-65. -/
def fixersOk (n : Nat) : List Fixer → MapHeap → Except Exc Unit
  | [], _ => .ok ()
  | f :: fs, heap =>
    match typeFilter n [] (fromMatcher f.matcher (f.seen heap)) with
    | .error e => .error e.toExc
    | .ok none => .error .valueError
    | .ok (some _) => fixersOk n fs heap

/-- `CombiningPythonFixer(fixers)`: attrs evaluates the default of `matcher`, then the validator. The result is the heap that
the searches will see (`combinedMatcher fs heap`). refex/fix/fixer.py:49-74. -/
def combineFixers (env : Templates) (g : Str → List Label) (n : Nat) (fs : List Fixer) (heap : MapHeap) : Except Exc MapHeap :=
  match buildFixers env g fs heap with
  | .error e => .error e
  | .ok heap' =>
    match fixersOk n fs heap' with
    | .error e => .error e
    | .ok _ => .ok heap'

/-! ### The registry -/

/-- `_default_fixers` and the entries of `_extra_fixers` other than '*', which is that same list.
refex/fix/find_fixer.py:27-30. -/
structure Registry (α : Type) where
  defaults : List α
  extra : Dict Str (List α)

/-- `_extra_fixers.get(name)`. refex/fix/find_fixer.py:27-30, 70. -/
def Registry.lookup {α : Type} (r : Registry α) (name : Str) : Option (List α) :=
  if name = str "*" then some r.defaults else r.extra.get? name

/-- `register_default_fixers`. refex/fix/find_fixer.py:32-34. -/
def Registry.registerDefault {α : Type} (r : Registry α) (fs : List α) : Registry α := { r with defaults := r.defaults ++ fs }

/-- `register_fixers`. refex/fix/find_fixer.py:36-40. -/
def Registry.register {α : Type} (r : Registry α) (name : Str) (fs : List α) : Except Exc (Registry α) :=
  if (r.lookup name).isSome then .error .valueError else .ok { r with extra := r.extra.set name fs }

/-- `_register_builtins` on the registry at import, given the three lists of fixers. The loop over the values starts with the
list of defaults itself. refex/fix/find_fixer.py:43-52. -/
def builtinRegistry {α : Type} (correctness idiom unittest : List α) : Except Exc (Registry α) := do
  let r : Registry α := { defaults := [], extra := [] }
  let r ← r.register (str "correctness") correctness
  let r ← r.register (str "idiom") idiom
  let r ← r.register (str "unittest") unittest
  let r := r.registerDefault r.defaults
  return r.extra.foldl (fun r e => r.registerDefault e.2) r

/-- `from_pattern`: the fixers it combines. refex/fix/find_fixer.py:55-76. -/
def Registry.fromPattern {α : Type} (r : Registry α) (pattern : Str) : Except Exc (List α) :=
  match r.lookup pattern with
  | some fs => .ok fs
  | none => .error .valueError

end Refex
