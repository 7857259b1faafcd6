import Verif.Model.Ast
/- Evaluating matcher expressions: refex/python/semiliteral_eval.py, refex/python/evaluate.py.
`ast.parse(s, mode='eval')` is not modelled: the expression tree is an input. -/
namespace Refex
set_option autoImplicit false

/-- The expression trees `_Convert` tells apart. `other` is any other kind of node, and the missing key of `**x` in a
dict display. A keyword without a name is `**x`. A dict display is the list of its keys and values in turn. refex/python/semiliteral_eval.py:82-127. -/
inductive EExpr
  | const (c : Const)
  | usub (operand : EExpr)
  | tuple (elts : List EExpr)
  | list (elts : List EExpr)
  | dict (items : List EExpr)
  | set (elts : List EExpr)
  | call (func : EExpr) (args : List EExpr) (kwNames : List (Option Str)) (kwVals : List EExpr)
  | starred (value : EExpr)
  | name (id : Str)
  | attribute (value : EExpr) (attr : Str)
  | other

/-- The Python values an evaluation can produce. `obj` is what a callable made. Sets and dicts as lists of their
elements in insertion order; a dict as keys and values in turn. refex/python/semiliteral_eval.py:82-127. -/
inductive PVal
  | const (c : Const)
  | tuple (vs : List PVal)
  | list (vs : List PVal)
  | dict (items : List PVal)
  | set (vs : List PVal)
  | obj (id : Nat)

mutual
/-- `hash(v)` does not raise. Objects made by callables are taken to be hashable. refex/python/semiliteral_eval.py:104-107. -/
def PVal.hashable : PVal → Bool
  | .const _ => true
  | .tuple vs => PVal.hashables vs
  | .obj _ => true
  | _ => false
/-- All are hashable. refex/python/semiliteral_eval.py:104-107. -/
def PVal.hashables : List PVal → Bool
  | [] => true
  | v :: vs => v.hashable && PVal.hashables vs
end

mutual
/-- `a == b` for hashable values. Objects made by callables are compared by identity (simplification). refex/python/semiliteral_eval.py:104-107. -/
def PVal.keyEq : PVal → PVal → Bool
  | .const a, .const b => a.pyEq b
  | .tuple vs, .tuple ws => PVal.keysEq vs ws
  | .obj i, .obj j => decide (i = j)
  | _, _ => false
/-- Element-wise. refex/python/semiliteral_eval.py:104-107. -/
def PVal.keysEq : List PVal → List PVal → Bool
  | [], [] => true
  | v :: vs, w :: ws => v.keyEq w && PVal.keysEq vs ws
  | _, _ => false
end

/-- What an evaluation ends with, other than a value. `callee` is what a callable raised. refex/python/semiliteral_eval.py:82-136. -/
inductive EErr
  | syntaxError
  | typeError
  | callee (e : Nat)
  deriving DecidableEq, Repr

/-- A call that was made. refex/python/semiliteral_eval.py:113-117. -/
structure ECall where
  name : Str
  args : List PVal
  kwargs : List (Str × PVal)

/-- `callables`, `constants`; what calling does; the value of `0 - x` for numbers other than integers. refex/python/semiliteral_eval.py:41-80. -/
structure EvalEnv where
  callables : List Str
  constants : Dict Str PVal
  call : Str → List PVal → List (Str × PVal) → Except EErr PVal
  minus : Str → Str → Const

/-- A value or an error, and the calls made on the way. refex/python/semiliteral_eval.py:82-127. -/
abbrev EOut (α : Type) := List ECall × Except EErr α

/-- Sequencing: the second part is not run after an error. refex/python/semiliteral_eval.py:82-127. -/
def EOut.andThen {α β : Type} (x : EOut α) (f : α → EOut β) : EOut β :=
  match x.2 with
  | .ok a => (x.1 ++ (f a).1, (f a).2)
  | .error e => (x.1, .error e)

/-- `isinstance(node, ast.Num)` for a constant. refex/python/semiliteral_eval.py:84-99. -/
def Const.isNum : Const → Bool
  | .int _ => true
  | .other t _ _ => decide (t = "float".toList ∨ t = "complex".toList)
  | _ => false

/-- `0 - x`. refex/python/semiliteral_eval.py:99. -/
def EvalEnv.zeroMinus (env : EvalEnv) : Const → Const
  | .int i => .int (0 - i)
  | .other t r _ => env.minus t r
  | c => c

/-- `_GetDottedName(node)`: `error` is the TypeError of `None + '.'`. refex/python/semiliteral_eval.py:129-136. -/
def dottedName : EExpr → Except EErr (Option Str)
  | .name s => .ok (some s)
  | .attribute v a =>
    match dottedName v with
    | .error e => .error e
    | .ok none => .error .typeError
    | .ok (some lhs) => .ok (some (lhs ++ str "." ++ a))
  | _ => .ok none

/-- `isinstance(arg, ast.Starred)`. refex/python/semiliteral_eval.py:30-38. -/
def EExpr.isStarred : EExpr → Bool
  | .starred _ => true
  | _ => false

/-- `_HasStarArgs(node)` (Python 3 branch). refex/python/semiliteral_eval.py:30-38. -/
def hasStarArgs (args : List EExpr) (kwNames : List (Option Str)) : Bool :=
  args.any EExpr.isStarred || kwNames.any Option.isNone

/-- The end of `_Convert`: a dotted-name constant or an error. refex/python/semiliteral_eval.py:120-127. -/
def convertName (env : EvalEnv) (e : EExpr) : EOut PVal :=
  match dottedName e with
  | .error err => ([], .error err)
  | .ok none => ([], .error .syntaxError)
  | .ok (some n) =>
    match env.constants.get? n with
    | some v => ([], .ok v)
    | none => ([], .error .syntaxError)

/-- `d[k] = v` (a key that is already there stays, with its new value). refex/python/semiliteral_eval.py:106-107. -/
def dictPut : List PVal → PVal → PVal → List PVal
  | k' :: v' :: d, k, v => if k'.keyEq k then k' :: v :: d else k' :: v' :: dictPut d k v
  | _, k, v => [k, v]

/-- `s.add(v)`. refex/python/semiliteral_eval.py:104-105. -/
def setPut (acc : List PVal) (v : PVal) : List PVal := if acc.any (·.keyEq v) then acc else acc ++ [v]

/-- The keyword arguments as a dict (the last of equal names wins; the parser lets no equal names through). refex/python/semiliteral_eval.py:113-117. -/
def kwDict (ns : List (Option Str)) (vs : List PVal) : List (Str × PVal) :=
  (ns.zip vs).foldl (fun (d : Dict Str PVal) p => match p.1 with
    | some n => d.set n p.2
    | none => d) []

mutual
/-- `_Convert(node)`. refex/python/semiliteral_eval.py:82-127. -/
def convert (env : EvalEnv) : EExpr → EOut PVal
  | .const c => ([], .ok (.const c))
  | .usub (.const c) => if c.isNum then ([], .ok (.const (env.zeroMinus c))) else ([], .error .syntaxError)
  | .usub _ => ([], .error .syntaxError)
  | .tuple es => (convertAll env es).andThen fun vs => ([], .ok (.tuple vs))
  | .list es => (convertAll env es).andThen fun vs => ([], .ok (.list vs))
  | .dict items => convertDict env items []
  | .set es => convertSet env es []
  | .call f args kns kvs =>
    if hasStarArgs args kns then ([], .error .syntaxError)
    else match dottedName f with
      | .error err => ([], .error err)
      | .ok none => ([], .error .syntaxError)
      | .ok (some n) =>
        if n ∈ env.callables then
          (convertAll env args).andThen fun as => (convertAll env kvs).andThen fun ks =>
            ([⟨n, as, kwDict kns ks⟩], env.call n as (kwDict kns ks))
        else ([], .error .syntaxError)
  | .starred _ => ([], .error .syntaxError)
  | .name s => convertName env (.name s)
  | .attribute v a => convertName env (.attribute v a)
  | .other => ([], .error .syntaxError)
/-- `[_Convert(e) for e in es]`. refex/python/semiliteral_eval.py:100-107. -/
def convertAll (env : EvalEnv) : List EExpr → EOut (List PVal)
  | [] => ([], .ok [])
  | e :: es => (convert env e).andThen fun v => (convertAll env es).andThen fun vs => ([], .ok (v :: vs))
/-- The dict comprehension; TypeError at an unhashable key. (A key without a value does not occur.) refex/python/semiliteral_eval.py:104-105. -/
def convertDict (env : EvalEnv) : List EExpr → List PVal → EOut PVal
  | [], acc => ([], .ok (.dict acc))
  | [_], _ => ([], .error .syntaxError)
  | k :: e :: items, acc => (convert env k).andThen fun a => (convert env e).andThen fun b =>
      if a.hashable then convertDict env items (dictPut acc a b) else ([], .error .typeError)
/-- The set comprehension; TypeError at an unhashable element. refex/python/semiliteral_eval.py:106-107. -/
def convertSet (env : EvalEnv) : List EExpr → List PVal → EOut PVal
  | [], acc => ([], .ok (.set acc))
  | e :: es, acc => (convert env e).andThen fun v =>
      if v.hashable then convertSet env es (setPut acc v) else ([], .error .typeError)
end

/-- `compile_matcher`'s result: only SyntaxError is turned into ValueError (`none`), other exceptions pass.
refex/python/evaluate.py:74-83. -/
def compileMatcher (env : EvalEnv) (e : EExpr) : Except EErr (Option PVal) :=
  match (convert env e).2 with
  | .ok v => .ok (some v)
  | .error .syntaxError => .ok none
  | .error err => .error err

/-- A name and value in a module: its name there, whether it is a class that is safe to evaluate, and its identity. refex/python/evaluate.py:40-64. -/
structure Member where
  name : Str
  isClass : Bool
  safe : Bool
  value : Nat

/-- One of the two names in `add_module`: the registry and `is_mutated`. refex/python/evaluate.py:59-62. -/
def addName (overwrite : Bool) (value : Nat) (st : Dict Str Nat × Bool) (name : Str) : Dict Str Nat × Bool :=
  if overwrite || !st.1.has name then (st.1.set name value, true) else st

/-- The loop of `add_module` over the members (sorted by name): the registry, and `false` for ValueError (what was added
before stays). `module` is the last component of the module's name. refex/python/evaluate.py:49-64. -/
def addMembers (overwrite : Bool) (mdl : Str) : Dict Str Nat → List Member → Dict Str Nat × Bool
  | reg, [] => (reg, true)
  | reg, m :: ms =>
    if !m.isClass || !m.safe then addMembers overwrite mdl reg ms
    else
      let r := [m.name, mdl ++ str "." ++ m.name].foldl (addName overwrite m.value) (reg, false)
      if r.2 then addMembers overwrite mdl r.1 ms else (r.1, false)

end Refex
