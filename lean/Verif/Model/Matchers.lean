import Verif.Model.FromDiff
/-
The matcher language: refex/python/matchers/base_matchers.py, ast_matchers.py, lexical_matchers.py,
refex/python/matchers/extern_matchers.py and the tree matchers of syntax_matchers.py, as a deep embedding with an interpreter.
-/
namespace Refex
set_option autoImplicit false

/-- Keys of `Once` (any hashable; by default the matcher object itself). refex/python/matchers/base_matchers.py:245-257. -/
abbrev Key := Nat

/-- `type_filter`: `None`, or a frozenset of types (a list without repetitions). refex/python/matcher.py:916-919. -/
abbrev TypeFilter := Option (List Str)

/-- `MatchInfo`. refex/python/matcher.py:757-771. -/
structure MatchInfo where
  obj : MObj
  bindings : Bindings := []
  replacements : Replacements := []

/-- `MatchContext` and the parsed file, with oracles for what is not modelled: token spans and comments
(asttokens), regular expressions (`re`), external commands. refex/python/matcher.py:285-333. -/
structure Ctx where
  text : Str
  tree : Val
  /-- first_token.startpos and last_token.endpos of a node, by identity -/
  tok : Nat → Option Span
  /-- whether the token range of a node contains a COMMENT -/
  comment : Nat → Bool
  /-- `lineno` -/
  lineno : Nat → Option Nat
  /-- `groupindex` of a regex, in order -/
  rxGroups : Str → List Label
  /-- `re.compile('(?:%s)$' % rx).match(text, start, end)`: the span of every named group -/
  rxMatch : Str → Nat → Nat → Option (Label → Option Span)
  /-- `re.compile(rx).search(text)` -/
  rxSearch : Str → Option (Label → Option Span)
  /-- the diff between the text and what an external command makes of it -/
  rewrite : Nat → Val → Option (List DiffLine)
  /-- `_has_successful_run`: keys of earlier successful matches in this file -/
  done : List Key := []

/-- Matchers. The list of a `node` matcher has one submatcher per field, in field order.
`recWrapped inner wrapper` is `RecursivelyWrapped(inner, lambda r: wrapper)`, where `recurse k` in `wrapper`
stands for the argument `r` of the `k`-th enclosing one (`_Recurse`). Lambdas are not modelled otherwise.
`delegate m keep` is a matcher that only calls `m` and has its `type_filter` or (`keep = false`) `None`. refex/python/matchers/base_matchers.py:96-895, refex/python/matchers/ast_matchers.py:61-99, refex/python/matchers/syntax_matchers.py:575-837. -/
inductive Matcher
  | anything
  | testRaise
  | allOf (ms : List Matcher)
  | anyOf (ms : List Matcher)
  | unlessM (m : Matcher)
  | once (key : Key) (m : Matcher)
  | bind (name : Label) (m : Matcher) (oc : Option BindConflict) (om : Option BindMerge)
  | rebind (m : Matcher) (oc : Option BindConflict) (om : Option BindMerge)
  | stringMatch (s : Str)
  | withReplacements (m : Matcher) (rs : Replacements)
  | delegate (m : Matcher) (keep : Bool)
  | recWrapped (inner wrapper : Matcher)
  | recurse (k : Nat)
  | equals (v : Val)
  | typeIs (ty : Str)
  | matchesRegex (rx : Str) (m : Matcher)
  | fileMatchesRegex (rx : Str)
  | hasItem (i : Int) (m : Matcher)
  | itemsAre (ms : List Matcher)
  | contains (m : Matcher)
  | inLines (lines : List Nat)
  | node (ty : Str) (names : List Str) (ms : List Matcher)
  | constant (tys : List Str) (m : Matcher)
  | hasParent (m : Matcher)
  | hasChild (m : Matcher)
  | hasFirstAncestor (first also : Matcher)
  | hasPrevSibling (m : Matcher)
  | hasNextSibling (m : Matcher)
  | withTopLevelImport (m : Matcher) (module asName : Str)
  | comments (want : Bool) (m : Matcher)
  | rewriteFile (pre : Label) (cmd : Nat)

/-- The matchers `_Recurse` can refer to, innermost first, each as `(inner, wrapper)`. refex/python/matchers/base_matchers.py:475-537. -/
abbrev Env := List (Matcher × Matcher)

namespace Matcher

mutual
/-- `bind_variables`: the union over the walked submatchers, plus the names of `Bind` and of the regexes.
`Unless` and `_Recurse` do not walk. `WithReplacements` declares nothing of its own.
`RewriteFile` has no submatchers. refex/python/matcher.py:892-914; refex/python/matchers/base_matchers.py:214-229, 327-329, 475-482, 635-638,
668-670; refex/python/matchers/extern_matchers.py:36-49. The argument is `groupindex`. -/
def bindVars (g : Str → List Label) : Matcher → List Label
  | anything => []
  | testRaise => []
  | allOf ms => bindVarsList g ms
  | anyOf ms => bindVarsList g ms
  | unlessM _ => []
  | once _ m => bindVars g m
  | bind name m _ _ => name :: bindVars g m
  | rebind m _ _ => bindVars g m
  | stringMatch _ => []
  | withReplacements m _ => bindVars g m
  | delegate m _ => bindVars g m
  | recWrapped i w => bindVars g i ++ bindVars g w
  | recurse _ => []
  | equals _ => []
  | typeIs _ => []
  | matchesRegex rx m => g rx ++ bindVars g m
  | fileMatchesRegex rx => g rx
  | hasItem _ m => bindVars g m
  | itemsAre ms => bindVarsList g ms
  | contains m => bindVars g m
  | inLines _ => []
  | node _ _ ms => bindVarsList g ms
  | constant _ m => bindVars g m
  | hasParent m => bindVars g m
  | hasChild m => bindVars g m
  | hasFirstAncestor a b => bindVars g a ++ bindVars g b
  | hasPrevSibling m => bindVars g m
  | hasNextSibling m => bindVars g m
  | withTopLevelImport m _ _ => bindVars g m
  | comments _ m => bindVars g m
  | rewriteFile _ _ => []
/-- Union over a list. refex/python/matcher.py:906-914. -/
def bindVarsList (g : Str → List Label) : List Matcher → List Label
  | [] => []
  | m :: ms => bindVars g m ++ bindVarsList g ms
end

end Matcher

/-- One step of the loop of `AllOf.type_filter`. refex/python/matchers/base_matchers.py:152-157. -/
def allOfStep (acc f : TypeFilter) : TypeFilter :=
  match acc, f with
  | acc, none => acc
  | none, some s => some s
  | some a, some s => some (a.filter (fun t => decide (t ∈ s)))

/-- `AllOf.type_filter`: the intersection of those that are not `None`. refex/python/matchers/base_matchers.py:149-158. -/
def allOfFilter (fs : List TypeFilter) : TypeFilter := fs.foldl allOfStep none

/-- Set union. refex/python/matchers/base_matchers.py:203-209. -/
def tyUnion (a b : List Str) : List Str := a ++ b.filter (fun t => decide (t ∉ a))

/-- The loop of `AnyOf.type_filter`. refex/python/matchers/base_matchers.py:203-209. -/
def anyOfFilterLoop : List Str → List TypeFilter → TypeFilter
  | acc, [] => some acc
  | _, none :: _ => none
  | acc, some s :: fs => anyOfFilterLoop (tyUnion acc s) fs

/-- `AnyOf.type_filter`: the union, or `None` if one is `None`. refex/python/matchers/base_matchers.py:202-209. -/
def anyOfFilter (fs : List TypeFilter) : TypeFilter := anyOfFilterLoop [] fs

/-- `AnyOf._typed_matchers`, initial dictionary: every type of a type filter, with no matchers.
refex/python/matchers/base_matchers.py:176-178. -/
def typedInit {α : Type} (l : List (α × TypeFilter)) : Dict Str (List α) :=
  (l.flatMap (fun p => p.2.getD [])).foldl (fun d ty => d.set ty []) []

/-- `typed_matchers[ty].append(matcher)` for each of the types. refex/python/matchers/base_matchers.py:189-191. -/
def typedAppend {α : Type} (m : α) (tys : List Str) (d : Dict Str (List α)) : Dict Str (List α) :=
  tys.foldl (fun d ty => d.set ty ((d.get? ty).getD [] ++ [m])) d

/-- One step of the loop: a matcher without a filter is added to all types. refex/python/matchers/base_matchers.py:180-191. -/
def typedStep {α : Type} (d : Dict Str (List α)) (p : α × TypeFilter) : Dict Str (List α) :=
  match p.2 with
  | none => typedAppend p.1 d.keys d
  | some tys => typedAppend p.1 tys d

/-- `AnyOf._typed_matchers`. refex/python/matchers/base_matchers.py:173-191. -/
def typedMatchers {α : Type} (l : List (α × TypeFilter)) : Dict Str (List α) := l.foldl typedStep (typedInit l)

/-- `AnyOf._universal_matchers`. refex/python/matchers/base_matchers.py:167-171. -/
def universalMatchers {α : Type} (l : List (α × TypeFilter)) : List α :=
  (l.filter (fun p => p.2.isNone)).map Prod.fst

/-- The matchers `AnyOf` tries on a candidate of the given type. refex/python/matchers/base_matchers.py:194-197. -/
def dispatch {α : Type} (l : List (α × TypeFilter)) (ty : Str) : List α :=
  ((typedMatchers l).get? ty).getD (universalMatchers l)

/-- `Matcher.type_filter` in an environment. `Except`: the recursion of `_Recurse.type_filter` into the filter
of an enclosing `RecursivelyWrapped` may not end (`RecursionError`, modelled by fuel).
base_matchers.py:148-158, 202-211, 331-333, 386-388, 430-432, 490-492, 566-568 and ast_matchers.py, lexical_matchers.py,
syntax_matchers.py in refex/python/matchers: the `type_filter` properties;
default `None`, refex/python/matcher.py:916-919. -/
def typeFilter : Nat → Env → Matcher → Except MExc TypeFilter
  | 0, _, _ => .error .recursionError
  | n + 1, env, m =>
    match m with
    | .allOf ms => (ms.mapM (typeFilter n env)).map allOfFilter
    | .anyOf ms => (ms.mapM (typeFilter n env)).map anyOfFilter
    | .recWrapped i w => do
        let f ← typeFilter n env i
        let f' ← typeFilter n ((i, w) :: env) w
        return anyOfFilter [f, f']
    | .recurse k =>
        match env[k]? with
        | some (i, w) => typeFilter n (env.drop (k + 1)) (.recWrapped i w)
        | none => .ok none
    | .bind _ m _ _ => typeFilter n env m
    | .rebind m _ _ => typeFilter n env m
    | .withReplacements m _ => typeFilter n env m
    | .delegate m keep => if keep then typeFilter n env m else .ok none
    | .typeIs ty => .ok (some [ty])
    | .node ty _ _ => .ok (some [ty])
    | .constant _ _ => .ok (some [str "Constant"])
    | .withTopLevelImport m _ _ => typeFilter n env m
    | .comments _ m => typeFilter n env m
    | _ => .ok none

/-- `_is_lexical_match` and `create_match`. refex/python/matcher.py:403-455. -/
def createMatch (c : Ctx) (v : Val) : MObj :=
  match v with
  | .const _ (.str s) => .string s
  | .node i ty _ _ =>
    match c.tok i with
    | none => .object v
    | some sp =>
      if ty = str "arguments" then
        (match v.getattr (str "args") with
         | .list _ (_ :: _) => .lexical v sp
         | _ => .object v)
      else if ty = str "alias" then .object v
      else .lexical v sp
  | v => .object v

/-- What a match attempt returns: a `MatchInfo` or `None`, with the keys run so far in this top-level match
(`_has_match_run`, never rolled back), or an exception. refex/python/matcher.py:858-890. -/
abbrev MOut := Except MExc (Option MatchInfo × List Key)

/-- `matcher.match(context, ·)` with the state made explicit. refex/python/matcher.py:858-890. -/
abbrev SemM := Val → List Key → MOut

/-- A successful result that keeps nothing but bindings. refex/python/matcher.py:403-455. -/
def found (c : Ctx) (v : Val) (b : Bindings) (ks : List Key) : MOut := .ok (some ⟨createMatch c v, b, []⟩, ks)

/-- The loop of `accumulating_matcher`: run the steps in turn, stop at the first failure, merge bindings and
replacements. refex/python/matcher.py:964-983. -/
def accumLoop (c : Ctx) (v : Val) : List (List Key → MOut) → Bindings → Replacements → List Key → MOut
  | [], b, r, ks => .ok (some ⟨createMatch c v, b, r⟩, ks)
  | step :: steps, b, r, ks =>
    match step ks with
    | .error e => .error e
    | .ok (none, ks) => .ok (none, ks)
    | .ok (some mi, ks) =>
      match mergeBindings b mi.bindings with
      | .error e => .error e
      | .ok none => .ok (none, ks)
      | .ok (some b) =>
        match mergeReplacements r mi.replacements with
        | .error e => .error e
        | .ok r => accumLoop c v steps b r ks

/-- `accumulating_matcher`. refex/python/matcher.py:922-990. -/
def accumulate (c : Ctx) (v : Val) (steps : List (List Key → MOut)) (ks : List Key) : MOut :=
  accumLoop c v steps [] [] ks

/-- The loop of `AnyOf._match`: the first result that is not `None`. refex/python/matchers/base_matchers.py:197-200. -/
def firstMatch : List (List Key → MOut) → List Key → MOut
  | [], ks => .ok (none, ks)
  | step :: steps, ks =>
    match step ks with
    | .error e => .error e
    | .ok (none, ks) => firstMatch steps ks
    | .ok (some mi, ks) => .ok (some mi, ks)

/-- The items of a sequence: lists and strings (of one-character strings); other values are not subscriptable
(simplification: `bytes` constants are). refex/python/matchers/base_matchers.py:733-743. -/
def seqItems : Val → Option (List Val)
  | .list _ vs => some vs
  | .const _ (.str s) => some (s.map fun ch => .const 0 (.str [ch]))
  | _ => none

/-- `candidate[i]`, `none` for `IndexError` and `TypeError`. refex/python/matchers/base_matchers.py:684-694. -/
def getItem (v : Val) (i : Int) : Option Val :=
  match seqItems v with
  | none => none
  | some vs =>
    if 0 ≤ i then vs[i.toNat]?
    else if 0 ≤ vs.length + i then vs[(vs.length + i).toNat]?
    else none

/-- `bool(v)`. refex/python/matchers/syntax_matchers.py:730-747. -/
def truthy : Val → Bool
  | .const _ .none => false
  | .const _ (.bool b) => b
  | .const _ (.int i) => decide (i ≠ 0)
  | .const _ (.str s) => decide (s ≠ [])
  | .const _ _ => true
  | .list _ vs => decide (vs ≠ [])
  | .node .. => true

/-- `_re_match_to_bindings`. refex/python/matchers/base_matchers.py:571-577. -/
def regexBindings (c : Ctx) (rx : Str) (g : Label → Option Span) : Bindings :=
  (c.rxGroups rx).map fun l =>
    (l, ⟨.span (match g l with
      | some (a, b) => slice c.text a b
      | none => []) (g l), .merge, .keepLast⟩)

/-- The result of a submatcher, rewrapped with the candidate as the match and the submatcher's bindings
(replacements are dropped). refex/python/matchers/base_matchers.py:688-694, 738-743; refex/python/matchers/syntax_matchers.py:591-595, 650-654. -/
def rewrap (c : Ctx) (v : Val) : MOut → MOut
  | .error e => .error e
  | .ok (none, ks) => .ok (none, ks)
  | .ok (some mi, ks) => found c v mi.bindings ks

/-- The climb of `HasFirstAncestor`: the first ancestor the matcher accepts. Bounded by the size of the tree.
refex/python/matchers/syntax_matchers.py:706-713. -/
def climb (c : Ctx) (first : SemM) : Nat → Val → List Key → Except MExc (Option MatchInfo × List Key)
  | 0, _, _ => .error .recursionError
  | n + 1, v, ks =>
    match getParent c.tree v with
    | none => .ok (none, ks)
    | some p =>
      match first p ks with
      | .error e => .error e
      | .ok (some mi, ks) => .ok (some mi, ks)
      | .ok (none, ks) => climb c first n p ks

/-- The value of a string field; absent or `None`: `none`. refex/python/matchers/syntax_matchers.py:851-873. -/
def strField (v : Val) (a : Str) : Option Str :=
  match v.getattr a with
  | .const _ (.str s) => some s
  | _ => none

/-- The name bound by one alias of an `import` statement. refex/python/matchers/syntax_matchers.py:852-858. -/
def importAlias (d : Dict Str Str) (a : Val) : Dict Str Str :=
  match strField a (str "name") with
  | none => d
  | some name =>
    match strField a (str "asname") with
    | none => let m := name.takeWhile (· ≠ '.'); d.set m m
    | some as => d.set name as

/-- The name bound by one alias of a `from m import` statement. refex/python/matchers/syntax_matchers.py:867-873. -/
def importFromAlias (module : Str) (d : Dict Str Str) (a : Val) : Dict Str Str :=
  match strField a (str "name") with
  | none => d
  | some name => d.set (module ++ str "." ++ name) ((strField a (str "asname")).getD name)

/-- One top-level statement. refex/python/matchers/syntax_matchers.py:851-873. -/
def importStmt (d : Dict Str Str) (s : Val) : Dict Str Str :=
  match s with
  | .node _ ty _ _ =>
    if ty = str "Import" then (s.getattr (str "names")).children.foldl importAlias d
    else if ty = str "ImportFrom" then
      (match s.getattr (str "level") with
       | .const _ (.int 0) =>
         (s.getattr (str "names")).children.foldl (importFromAlias ((strField s (str "module")).getD [])) d
       | _ => d)
    else d
  | _ => d

/-- `_top_level_imports`. refex/python/matchers/syntax_matchers.py:840-874. -/
def topLevelImports (tree : Val) : Dict Str Str := (tree.getattr (str "body")).children.foldl importStmt []

/-- The default of `as_name`: `module_name.rsplit('.', 1)[-1]`. refex/python/matchers/syntax_matchers.py:815-817. -/
def defaultAsName (module : Str) : Str := (module.reverse.takeWhile (· ≠ '.')).reverse

/-- Steps `HasItem(i, m).match` for `ItemsAre`. refex/python/matchers/base_matchers.py:719-720. -/
def enumFrom {α : Type} : Nat → List α → List (Nat × α)
  | _, [] => []
  | i, x :: xs => (i, x) :: enumFrom (i + 1) xs

/-- `m.match(context, candidate)` for `m` in the environment `env`, with the given recursion depth available.
refex/python/matcher.py:858-890; each case cites the `_match` it models. -/
def run (c : Ctx) : Nat → Env → Matcher → Val → List Key → MOut
  | 0, _, _, _, _ => .error .recursionError
  | n + 1, env, m, v, ks =>
    match m with
    -- refex/python/matchers/base_matchers.py:102-104
    | .anything => found c v [] ks
    -- refex/python/matchers/base_matchers.py:122-125
    | .testRaise => .error .testError
    -- refex/python/matchers/base_matchers.py:144-146
    | .allOf ms => accumulate c v (ms.map fun m => run c n env m v) ks
    -- refex/python/matchers/base_matchers.py:193-200
    | .anyOf ms =>
      match ms.mapM (typeFilter n env) with
      | .error e => .error e
      | .ok fs => firstMatch ((dispatch (ms.zip fs) v.ty).map fun m => run c n env m v) ks
    -- refex/python/matchers/base_matchers.py:219-224
    | .unlessM m =>
      match run c n env m v ks with
      | .error e => .error e
      | .ok (none, ks) => found c v [] ks
      | .ok (some _, ks) => .ok (none, ks)
    -- refex/python/matchers/base_matchers.py:250-257
    | .once key m =>
      if key ∈ c.done ∨ key ∈ ks then accumulate c v [] ks
      else accumulate c v [fun ks => match run c n env m v ks with
        | .ok (some mi, ks) => .ok (some mi, key :: ks)
        | r => r] ks
    -- refex/python/matchers/base_matchers.py:296-325
    | .bind name m oc om =>
      match run c n env m v ks with
      | .error e => .error e
      | .ok (none, ks) => .ok (none, ks)
      | .ok (some mi, ks) =>
        match mergeBindings mi.bindings [(name, ⟨mi.obj, oc.getD .merge, om.getD .keepLast⟩)] with
        | .error e => .error e
        | .ok none => .ok (none, ks)
        | .ok (some b) => .ok (some { mi with bindings := b }, ks)
    -- refex/python/matchers/base_matchers.py:373-384
    | .rebind m oc om =>
      match run c n env m v ks with
      | .error e => .error e
      | .ok (none, ks) => .ok (none, ks)
      | .ok (some mi, ks) => .ok (some { mi with bindings := mi.bindings.map fun e => (e.1, e.2.rebind oc om) }, ks)
    -- refex/python/matchers/base_matchers.py:404-406
    | .stringMatch s => .ok (some ⟨.string s, [], []⟩, ks)
    -- refex/python/matchers/base_matchers.py:434-441
    | .withReplacements m rs =>
      match run c n env m v ks with
      | .error e => .error e
      | .ok (none, ks) => .ok (none, ks)
      | .ok (some mi, ks) =>
        match mergeReplacements mi.replacements rs with
        | .error e => .error e
        | .ok r => .ok (some { mi with replacements := r }, ks)
    -- refex/python/matchers/base_matchers.py:460-462; refex/python/matchers/syntax_matchers.py:377-378, 530-531, 613-614, 630-631, 672-673, 689-690, 774-775, 793-794
    | .delegate m _ => run c n env m v ks
    -- refex/python/matchers/base_matchers.py:510-537, which is an AnyOf
    | .recWrapped i w =>
      match typeFilter n env i, typeFilter n ((i, w) :: env) w with
      | .ok f, .ok f' =>
        firstMatch ((dispatch [((env, i), f), (((i, w) :: env, w), f')] v.ty).map fun p => run c n p.1 p.2 v) ks
      | .error e, _ => .error e
      | _, .error e => .error e
    -- refex/python/matchers/base_matchers.py:484-485
    | .recurse k =>
      match env[k]? with
      | some (i, w) => run c n (env.drop (k + 1)) (.recWrapped i w) v ks
      | none => .ok (none, ks)
    -- refex/python/matcher.py:1009-1012
    | .equals w => if v.pyEq w then found c v [] ks else .ok (none, ks)
    -- refex/python/matchers/base_matchers.py:559-564
    | .typeIs ty => if v.ty = ty then found c v [] ks else .ok (none, ks)
    -- refex/python/matchers/base_matchers.py:610-633
    | .matchesRegex rx m =>
      match run c n env m v ks with
      | .error e => .error e
      | .ok (none, ks) => .ok (none, ks)
      | .ok (some mi, ks) =>
        match mi.obj.span? with
        | none => .ok (none, ks)
        | some (a, b) =>
          match c.rxMatch rx a b with
          | none => .ok (none, ks)
          | some g =>
            match mergeBindings (regexBindings c rx g) mi.bindings with
            | .error e => .error e
            | .ok none => .ok (none, ks)
            | .ok (some bs) => .ok (some { mi with bindings := bs }, ks)
    -- refex/python/matchers/base_matchers.py:654-666
    | .fileMatchesRegex rx =>
      match c.rxSearch rx with
      | none => .ok (none, ks)
      | some g => .ok (some ⟨.bare, regexBindings c rx g, []⟩, ks)
    -- refex/python/matchers/base_matchers.py:684-694
    | .hasItem i m =>
      match getItem v i with
      | none => .ok (none, ks)
      | some w => rewrap c v (run c n env m w ks)
    -- refex/python/matchers/base_matchers.py:717-720
    | .itemsAre ms =>
      accumulate c v (run c n env (.unlessM (.hasItem ms.length .anything)) v ::
        (enumFrom 0 ms).map fun p => run c n env (.hasItem p.1 p.2) v) ks
    -- refex/python/matchers/base_matchers.py:733-743
    | .contains m =>
      match seqItems v with
      | none => .ok (none, ks)
      | some vs => rewrap c v (firstMatch (vs.map fun w => run c n env m w) ks)
    -- refex/python/matchers/base_matchers.py:767-775
    | .inLines lines =>
      match v with
      | .node i _ _ _ =>
        (match c.lineno i with
         | some l => if l ∈ lines then found c v [] ks else .ok (none, ks)
         | none => .ok (none, ks))
      | _ => .ok (none, ks)
    -- refex/python/matchers/ast_matchers.py:91-99
    | .node ty names ms =>
      if v.ty ≠ ty then .ok (none, ks)
      else accumulate c v ((names.zip ms).map fun p => run c n env p.2 (v.getattr p.1)) ks
    -- refex/python/matchers/ast_matchers.py:139-158
    | .constant tys m =>
      if v.ty ≠ str "Constant" then .ok (none, ks)
      else if (v.getattr (str "value")).ty ∉ tys then .ok (none, ks)
      else rewrap c v (run c n env m (v.getattr (str "value")) ks)
    -- refex/python/matchers/syntax_matchers.py:587-595
    | .hasParent m =>
      match getParent c.tree v with
      | none => .ok (none, ks)
      | some p => rewrap c v (run c n env m p ks)
    -- refex/python/matchers/syntax_matchers.py:647-654
    | .hasChild m => rewrap c v (firstMatch (v.children.map fun w => run c n env m w) ks)
    -- refex/python/matchers/syntax_matchers.py:704-721. A failed merge leaves `bindings=None`, on which every later use of the bindings
    -- raises AttributeError; modelled as raised here. `.matched` of a match without one likewise.
    | .hasFirstAncestor first also =>
      match climb c (run c n env first) (c.tree.size + 1) v ks with
      | .error e => .error e
      | .ok (none, ks) => .ok (none, ks)
      | .ok (some mi, ks) =>
        match mi.obj.matched? with
        | none => .error .attributeError
        | some a =>
          match run c n env also a ks with
          | .error e => .error e
          | .ok (none, ks) => .ok (none, ks)
          | .ok (some mi', ks) =>
            match mergeBindings mi.bindings mi'.bindings with
            | .error e => .error e
            | .ok none => .error .attributeError
            | .ok (some b) => found c v b ks
    -- refex/python/matchers/syntax_matchers.py:730-734
    | .hasPrevSibling m =>
      match getPrevSibling c.tree v with
      | none => .ok (none, ks)
      | some s => if truthy s then run c n env m s ks else .ok (none, ks)
    -- refex/python/matchers/syntax_matchers.py:743-747
    | .hasNextSibling m =>
      match getNextSibling c.tree v with
      | none => .ok (none, ks)
      | some s => if truthy s then run c n env m s ks else .ok (none, ks)
    -- refex/python/matchers/syntax_matchers.py:828-833
    | .withTopLevelImport m module as =>
      if (topLevelImports c.tree).get? module = some as then run c n env m v ks else .ok (none, ks)
    -- refex/python/matchers/lexical_matchers.py:50-55, 72-77, 86-104
    | .comments want m =>
      match run c n env m v ks with
      | .error e => .error e
      | .ok (none, ks) => .ok (none, ks)
      | .ok (some mi, ks) =>
        match mi.obj with
        | .lexical w _ => if c.comment w.ident = want then .ok (some mi, ks) else .ok (none, ks)
        | _ => .error .typeError
    -- refex/python/matchers/extern_matchers.py:40-49
    | .rewriteFile pre cmd =>
      match c.rewrite cmd v with
      | none => .ok (none, ks)
      | some d =>
        let b := diffBindings c.text pre 0 (diffReplacements d)
        .ok (some ⟨createMatch c v, b.1, b.2⟩, ks)

/-- `IsOrHasAncestor`. refex/python/matchers/syntax_matchers.py:599-614. -/
def isOrHasAncestor (m : Matcher) : Matcher := .delegate (.recWrapped m (.hasParent (.recurse 0))) false
/-- `HasAncestor`. refex/python/matchers/syntax_matchers.py:618-631. -/
def hasAncestor (m : Matcher) : Matcher := .delegate (.hasParent (isOrHasAncestor m)) false
/-- `IsOrHasDescendant`. refex/python/matchers/syntax_matchers.py:658-673. -/
def isOrHasDescendant (m : Matcher) : Matcher := .delegate (.recWrapped m (.hasChild (.recurse 0))) false
/-- `HasDescendant`. refex/python/matchers/syntax_matchers.py:677-690. -/
def hasDescendant (m : Matcher) : Matcher := .delegate (.hasChild (isOrHasDescendant m)) false
/-- `MaybeWrapped(inner, lambda x: w)`, given `w = wrapper(inner)`. refex/python/matchers/base_matchers.py:496-506. -/
def maybeWrapped (inner w : Matcher) : Matcher := .anyOf [inner, w]

end Refex
