import Verif.Model.Construct
/-
Evaluating matcher expressions with the matcher classes as callables: refex/python/semiliteral_eval.py:82-127 as `convert` (Model/Evaluate.lean), but
with the objects that calls make. Each call makes a new object.
-/
namespace Refex
set_option autoImplicit false

/-- What is not modelled of the world (see `MakeEnv`; the matcher of a pattern depends on the objects in its restrictions), the names that may be called
or used, and the value of `0 - x`. refex/python/evaluate.py:66-83. -/
structure EvalWorld where
  callables : List Str
  constants : Dict Str PVal
  minus : Str → Str → Const
  fields : Str → Option (List Str)
  word : Char → Bool
  key : PVal → Key
  pattern : (Nat → Thing) → Bool → PVal → Option PVal → Except EErr (Option Matcher)

/-- The world when these objects were made. refex/python/evaluate.py:66-83. -/
def EvalWorld.now (W : EvalWorld) (st : List Thing) : MakeEnv where
  thing := fun i => (st[i]?).getD .other
  fields := W.fields
  word := W.word
  key := W.key
  pattern := W.pattern (fun i => (st[i]?).getD .other)

/-- A value or an error, and the objects there are afterwards. refex/python/semiliteral_eval.py:82-127. -/
abbrev BOut (α : Type) := Except EErr (α × List Thing)

/-- `func(*args, **kwargs)`: a new object. refex/python/semiliteral_eval.py:113-117. -/
def EvalWorld.call (W : EvalWorld) (n : Str) (as : List PVal) (ks : List (Str × PVal)) (st : List Thing) : BOut PVal :=
  match callClass (W.now st) st.length n as ks with
  | .error e => .error e
  | .ok o => .ok (.obj st.length, st ++ [Thing.ofMade o])

/-- The end of `_Convert`: a dotted-name constant or an error. refex/python/semiliteral_eval.py:120-127. -/
def buildName (W : EvalWorld) (e : EExpr) (st : List Thing) : BOut PVal :=
  match dottedName e with
  | .error err => .error err
  | .ok none => .error .syntaxError
  | .ok (some n) =>
    match W.constants.get? n with
    | some v => .ok (v, st)
    | none => .error .syntaxError

/-- `0 - x`. refex/python/semiliteral_eval.py:99. -/
def EvalWorld.zeroMinus (W : EvalWorld) : Const → Const
  | .int i => .int (0 - i)
  | .other t r _ => W.minus t r
  | c => c

mutual
/-- `_Convert(node)`. refex/python/semiliteral_eval.py:82-127. -/
def build (W : EvalWorld) : EExpr → List Thing → BOut PVal
  | .const c, st => .ok (.const c, st)
  | .usub (.const c), st => if c.isNum then .ok (.const (W.zeroMinus c), st) else .error .syntaxError
  | .usub _, _ => .error .syntaxError
  | .tuple es, st => (buildAll W es st).map fun r => (.tuple r.1, r.2)
  | .list es, st => (buildAll W es st).map fun r => (.list r.1, r.2)
  | .dict items, st => buildDict W items [] st
  | .set es, st => buildSet W es [] st
  | .call f args kns kvs, st =>
    if hasStarArgs args kns then .error .syntaxError
    else match dottedName f with
      | .error err => .error err
      | .ok none => .error .syntaxError
      | .ok (some n) =>
        if n ∈ W.callables then
          match buildAll W args st with
          | .error err => .error err
          | .ok (as, st) =>
            match buildAll W kvs st with
            | .error err => .error err
            | .ok (ks, st) => W.call n as (kwDict kns ks) st
        else .error .syntaxError
  | .starred _, _ => .error .syntaxError
  | .name s, st => buildName W (.name s) st
  | .attribute v a, st => buildName W (.attribute v a) st
  | .other, _ => .error .syntaxError
/-- `[_Convert(e) for e in es]`. refex/python/semiliteral_eval.py:100-107. -/
def buildAll (W : EvalWorld) : List EExpr → List Thing → BOut (List PVal)
  | [], st => .ok ([], st)
  | e :: es, st =>
    match build W e st with
    | .error err => .error err
    | .ok (v, st) => (buildAll W es st).map fun r => (v :: r.1, r.2)
/-- The dict comprehension; TypeError at an unhashable key. (A key without a value does not occur.) refex/python/semiliteral_eval.py:104-105. -/
def buildDict (W : EvalWorld) : List EExpr → List PVal → List Thing → BOut PVal
  | [], acc, st => .ok (.dict acc, st)
  | [_], _, _ => .error .syntaxError
  | k :: e :: items, acc, st =>
    match build W k st with
    | .error err => .error err
    | .ok (a, st) =>
      match build W e st with
      | .error err => .error err
      | .ok (b, st) => if a.hashable then buildDict W items (dictPut acc a b) st else .error .typeError
/-- The set comprehension; TypeError at an unhashable element. refex/python/semiliteral_eval.py:106-107. -/
def buildSet (W : EvalWorld) : List EExpr → List PVal → List Thing → BOut PVal
  | [], acc, st => .ok (.set acc, st)
  | e :: es, acc, st =>
    match build W e st with
    | .error err => .error err
    | .ok (v, st) => if v.hashable then buildSet W es (setPut acc v) st else .error .typeError
end

/-- The constants of `evaluate.compile_matcher`, one object each, and those objects. refex/python/evaluate.py:74-83. -/
def constantObjects (d : Dict Str Thing) : Dict Str PVal × List Thing :=
  ((d.map Prod.fst).zipIdx.map fun p => (p.1, .obj p.2), d.map Prod.snd)

end Refex
