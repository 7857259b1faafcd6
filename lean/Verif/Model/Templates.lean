import Verif.Model.Formatting
import Verif.Model.Ast
/-
Model of the templates of refex/formatting.py and of template rewriting.
-/
namespace Refex
set_option autoImplicit false

/-- refex/search.py:103, `MatchKey = Union[str, int]`. -/
inductive MatchKey
  | name (s : Str)
  | num (n : Nat)
  deriving DecidableEq, Repr

/-- refex/match.py:60-99, the two attributes of a match, and `matched` of a `LexicalASTMatch` (refex/python/matcher.py:337-396): `none` for
other matches, whose `matched` no template looks at (refex/python/syntactic_template.py:190-206, 350-370). The spans `None` and `(-1, -1)` are both `none`: every use in
scope treats them alike (refex/formatting.py:667, refex/search.py:651). -/
structure MatchV where
  string : Option Str := none
  span : Option Span := none
  node : Option Val := none

/-- refex/formatting.py:564-571, `stringify_matches`. -/
def stringifyMatches (ms : Dict MatchKey MatchV) : Dict MatchKey Str :=
  ms.filterMap fun e => e.2.string.map fun s => (e.1, s)

/-- refex/formatting.py:527-561, class `Template`: the variables, and `substitute_match(parsed, match, matches)`. -/
structure Template where
  vars : List MatchKey
  substitute : MatchV → Dict MatchKey MatchV → Except Exc Str

/-- refex/formatting.py:574-584, `LiteralTemplate`. -/
def literalTemplate (t : Str) : Template := { vars := [], substitute := fun _ _ => .ok t }

/-! ### ShTemplate -/

/-- `[_a-zA-Z]` of CPython `string.Template.idpattern` (ASCII, case-insensitive). refex/formatting.py:601. -/
def isIdStart (c : Char) : Bool := c.isAlpha || c = '_'

/-- `[_a-zA-Z0-9]`. refex/formatting.py:601. -/
def isIdChar (c : Char) : Bool := c.isAlphanum || c = '_'

/-- One match of `string.Template.pattern`, or a plain character, or the `invalid` group. refex/formatting.py:601. -/
inductive ShTok
  | lit (c : Char)
  | escaped
  | var (name : Str)
  | invalid
  deriving DecidableEq, Repr

/-- CPython `string.Template.pattern.sub(...)` scanning left to right: `$$`, `$name` (greedy), `${name}`, otherwise a `$` is
invalid. The fuel is the number of characters. refex/formatting.py:601. -/
def shTokens : Nat → Str → List ShTok
  | 0, _ => []
  | _ + 1, [] => []
  | n + 1, c :: cs =>
    if c = '$' then
      match cs with
      | [] => [.invalid]
      | d :: ds =>
        if d = '$' then .escaped :: shTokens n ds
        else if isIdStart d then .var (cs.takeWhile isIdChar) :: shTokens n (cs.dropWhile isIdChar)
        else if d = '{' then
          match ds with
          | [] => .invalid :: shTokens n cs
          | e :: _ =>
            if isIdStart e then
              match ds.dropWhile isIdChar with
              | '}' :: rest => .var (ds.takeWhile isIdChar) :: shTokens n rest
              | _ => .invalid :: shTokens n cs
            else .invalid :: shTokens n cs
        else .invalid :: shTokens n cs
    else .lit c :: shTokens n cs

/-- CPython `string.Template.substitute(mapping)`: KeyError for an undefined name, ValueError for an invalid placeholder,
whichever comes first. refex/formatting.py:603-605. -/
def shSubst (m : Str → Option Str) : List ShTok → Except Exc Str
  | [] => .ok []
  | .lit c :: ts => (shSubst m ts).map (c :: ·)
  | .escaped :: ts => (shSubst m ts).map ('$' :: ·)
  | .invalid :: _ => .error .valueError
  | .var v :: ts =>
    match m v with
    | none => .error .keyError
    | some s => (shSubst m ts).map (s ++ ·)

/-- The names looked up, in order of first occurrence. refex/formatting.py:607-611. -/
def shNames (ts : List ShTok) : List Str :=
  dedup (ts.filterMap fun | .var v => some v | _ => none)

/-- refex/formatting.py:603-605, `ShTemplate.substitute_match`. -/
def shSubstitute (template : Str) (ms : Dict MatchKey MatchV) : Except Exc Str :=
  shSubst (fun v => (stringifyMatches ms).get? (.name v)) (shTokens template.length template)

/-- refex/formatting.py:607-611, `ShTemplate.variables`: substitute into a defaultdict and return its keys; ValueError for a
malformed template. -/
def shVariables (template : Str) : Except Exc (List Str) :=
  match shSubst (fun _ => some []) (shTokens template.length template) with
  | .error e => .error e
  | .ok _ => .ok (shNames (shTokens template.length template))

/-! ### RegexTemplate -/

/-- What CPython `sre_parse.parse_template` sees in a template, in order: literal text, `\g<name>`, or a numeric group
reference. (The syntax of escapes is CPython's and not modelled.). refex/formatting.py:499-524. -/
inductive ReItem
  | lit (s : Str)
  | named (v : Str)
  | group (n : Nat)
  deriving DecidableEq, Repr

/-- An element of `expanded_template`: a string, or a (possibly negative) group index. refex/formatting.py:499-524. -/
inductive Expanded
  | lit (s : Str)
  | index (i : Int)
  deriving DecidableEq, Repr

/-- refex/formatting.py:441-455, `_VarDict`: the mapping and the next index. -/
structure VarDict where
  varToIndex : Dict MatchKey Int := []
  next : Int := -1

/-- refex/formatting.py:448-455, `_VarDict.__getitem__`. -/
def VarDict.getItem (d : VarDict) (v : MatchKey) : Int × VarDict :=
  match d.varToIndex.get? v with
  | some i => (i, d)
  | none => (d.next, { varToIndex := d.varToIndex.set v d.next, next := d.next - 1 })

/-- refex/formatting.py:506-517: `parse_template` with the fake pattern, which looks every name up in `_VarDict`. -/
def expandItems : VarDict → List ReItem → List Expanded × VarDict
  | d, [] => ([], d)
  | d, .lit s :: rest => let r := expandItems d rest; (.lit s :: r.1, r.2)
  | d, .group n :: rest => let r := expandItems d rest; (.index n :: r.1, r.2)
  | d, .named v :: rest =>
    let g := d.getItem (.name v)
    let r := expandItems g.2 rest
    (.index g.1 :: r.1, r.2)

/-- refex/formatting.py:519-522: numeric references are entered under themselves. -/
def addNumeric (d : Dict MatchKey Int) : List Expanded → Dict MatchKey Int
  | [] => d
  | .lit _ :: rest => addNumeric d rest
  | .index i :: rest => addNumeric (if 0 ≤ i then d.set (.num i.toNat) i else d) rest

/-- refex/formatting.py:524: `{index: var for var, index in var_to_index.items()}`. -/
def invertDict (d : Dict MatchKey Int) : Dict Int MatchKey :=
  d.foldl (fun acc e => acc.set e.2 e.1) []

/-- refex/formatting.py:493-524, `_parse_re_template`. -/
def parseReTemplate (items : List ReItem) : List Expanded × Dict Int MatchKey :=
  let r := expandItems {} items
  (r.1, invertDict (addNumeric r.2.varToIndex r.1))

/-- refex/formatting.py:632-637: replace the indexes by mapped strings and join; a missing key is a KeyError. -/
def reJoin (m : MatchKey → Option Str) (indexToVar : Dict Int MatchKey) : List Expanded → Except Exc Str
  | [] => .ok []
  | .lit s :: rest => (reJoin m indexToVar rest).map (s ++ ·)
  | .index i :: rest =>
    match (indexToVar.get? i).bind m with
    | none => .error .keyError
    | some s => (reJoin m indexToVar rest).map (s ++ ·)

/-- refex/formatting.py:614-642, `RegexTemplate`. -/
def regexTemplate (items : List ReItem) : Template :=
  let p := parseReTemplate items
  { vars := p.2.values
    substitute := fun _ ms => reJoin (fun k => (stringifyMatches ms).get? k) p.2 p.1 }

/-! ### rewrite_templates -/

/-- `label.startswith('__')`; an int label has no such attribute. refex/formatting.py:674. -/
def startsDunder : MatchKey → Except Exc Bool
  | .name ('_' :: '_' :: _) => .ok true
  | .name _ => .ok false
  | .num _ => .error .attributeError

/-- refex/formatting.py:645-680, `rewrite_templates`. -/
def rewriteTemplates (ms : Dict MatchKey MatchV) : Dict MatchKey Template → Except Exc (Dict MatchKey Str)
  | [] => .ok []
  | (label, t) :: rest =>
    match ms.get? label with
    | some m =>
      match m.span with
      | none => rewriteTemplates ms rest
      | some _ =>
        match t.substitute m ms with
        | .error e => .error e
        | .ok s => (rewriteTemplates ms rest).map ((label, s) :: ·)
    | none =>
      match startsDunder label with
      | .error e => .error e
      | .ok false => rewriteTemplates ms rest
      | .ok true =>
        match t.substitute {} ms with
        | .error e => .error e
        | .ok s => (rewriteTemplates ms rest).map ((label, s) :: ·)

/-- refex/formatting.py:683-689, `template_variables`: labels and variables. -/
def templateVariables (ts : Dict MatchKey Template) : List MatchKey :=
  ts.flatMap fun e => e.1 :: e.2.vars

end Refex
