import Verif.Model.Matchers
/- `Glob` and `GlobStar` of refex/python/matchers/base_matchers.py. Items of a pattern are matchers or (`none`) a
`GlobStar`. A `Glob` inside another matcher is not modelled, only the `Glob` itself over modelled item matchers. -/
namespace Refex
set_option autoImplicit false

/-- A block: a `GlobStar`, or a run of other matchers. refex/python/matchers/base_matchers.py:798-816. -/
inductive GlobBlock
  | star
  | items (ms : List Matcher)

/-- The loop of `_blockify_glob_matchers`; `current` is the second argument. refex/python/matchers/base_matchers.py:802-816. -/
def blockifyLoop : List (Option Matcher) → GlobBlock → List GlobBlock
  | [], cur => [cur]
  | none :: ps, .items [] => blockifyLoop ps .star
  | none :: ps, cur => cur :: blockifyLoop ps .star
  | some m :: ps, .star => .star :: blockifyLoop ps (.items [m])
  | some m :: ps, .items ms => blockifyLoop ps (.items (ms ++ [m]))

/-- `_blockify_glob_matchers`. refex/python/matchers/base_matchers.py:798-816. -/
def blockify (ps : List (Option Matcher)) : List GlobBlock := blockifyLoop ps (.items [])

/-- A Python slice bound: negative ones count from the end, all are clipped. refex/python/matchers/base_matchers.py:852-895. -/
def sliceBound (len : Nat) (i : Int) : Nat := if i < 0 then (len + i).toNat else min i.toNat len

/-- `l[a:b]`. refex/python/matchers/base_matchers.py:852-895. -/
def pySliceInt {α : Type} (l : List α) (a b : Int) : List α :=
  (l.drop (sliceBound l.length a)).take (sliceBound l.length b - sliceBound l.length a)

/-- `candidate[a:b]` for a sequence: a new list or string. refex/python/matchers/base_matchers.py:877. -/
def sliceVal (v : Val) (a b : Int) : Val :=
  match v with
  | .list _ vs => .list 0 (pySliceInt vs a b)
  | .const _ (.str s) => .const 0 (.str (pySliceInt s a b))
  | v => v

/-- The search for one block: `count` places from `pos` on; the result and the end of the block.
refex/python/matchers/base_matchers.py:873-881. -/
def searchBlock (c : Ctx) (n : Nat) (env : Env) (v : Val) (block : List Matcher) :
    Nat → Int → List Key → Except MExc (Option (MatchInfo × Int) × List Key)
  | 0, _, ks => .ok (none, ks)
  | k + 1, pos, ks =>
    match run c n env (.itemsAre block) (sliceVal v pos (pos + block.length)) ks with
    | .error e => .error e
    | .ok (some mi, ks) => .ok (some (mi, pos + block.length), ks)
    | .ok (none, ks) => searchBlock c n env v block k (pos + 1) ks

/-- What `Glob._match` returns: `False` for something that is not a sequence, `None`, or a match. refex/python/matchers/base_matchers.py:836-895. -/
inductive GlobRes
  | notSequence
  | noMatch
  | matched (mi : MatchInfo)

/-- The loop over the blocks and what follows it; `len` is `len(candidate)`. refex/python/matchers/base_matchers.py:852-895. -/
def globLoop (c : Ctx) (n : Nat) (env : Env) (v : Val) (len : Nat) :
    List GlobBlock → Bool → Int → Bindings → List Key → Except MExc (GlobRes × List Key)
  | [], isSearch, pos, b, ks =>
    if pos ≠ len ∧ isSearch = false then .ok (.noMatch, ks) else .ok (.matched ⟨createMatch c v, b, []⟩, ks)
  | .star :: rest, _, pos, b, ks => globLoop c n env v len rest true pos b ks
  | .items block :: rest, isSearch, pos, b, ks =>
    let start : Int := if isSearch ∧ rest.isEmpty then len - block.length else pos
    let stop : Int := if isSearch then (if rest.isEmpty then start + 1 else len) else pos + 1
    match searchBlock c n env v block (stop - start).toNat start ks with
    | .error e => .error e
    | .ok (none, ks) => .ok (.noMatch, ks)
    | .ok (some (mi, pos), ks) =>
      match mergeBindings b mi.bindings with
      | .error e => .error e
      | .ok none => .ok (.noMatch, ks)
      | .ok (some b) => globLoop c n env v len rest false pos b ks

/-- `Glob(ps).match(context, candidate)`. refex/python/matchers/base_matchers.py:836-895. -/
def globMatch (c : Ctx) (n : Nat) (env : Env) (ps : List (Option Matcher)) (v : Val) (ks : List Key) :
    Except MExc (GlobRes × List Key) :=
  match seqItems v with
  | none => .ok (.notSequence, ks)
  | some vs => globLoop c n env v vs.length (blockify ps) false 0 [] ks

end Refex
