import Verif.Model.Templates
import Verif.Model.Matchers
/- Patterns as token streams: refex/python/python_pattern.py, `_remap_macro_variables` and `_verify_variables` in
refex/python/matchers/syntax_matchers.py, `_LexicalTemplate` in refex/python/syntactic_template.py.
The tokenizer itself (`tokenize.generate_tokens`) is not modelled: token streams are inputs. -/
namespace Refex
set_option autoImplicit false

/-- Token types, as far as they matter to `untokenize`. refex/python/python_pattern.py:61-95. -/
inductive PKind
  | indent | dedent | newline | nl | endmarker | other
  deriving DecidableEq, Repr

/-- `tokenize.TokenInfo`: type, string, start and end (row, column). The `line` is not used. refex/python/python_pattern.py:46-101. -/
structure PTok where
  kind : PKind
  string : Str
  start : Nat × Nat
  stop : Nat × Nat
  deriving DecidableEq, Repr

/-- `_VARIABLE_REGEX.match(s)`. refex/python/python_pattern.py:26. -/
def isVariable : Str → Bool
  | [] => false
  | c :: cs => isIdStart c && cs.all isIdChar

/-- The loop of `token_pattern` over the tokens: the tokens kept so far, in order, and the indices of the
metavariables; `none` for SyntaxError. (The assertion about the type of `$` tokens is not modelled.)
refex/python/python_pattern.py:61-95. -/
def tokenLoop : List PTok → List PTok → List Nat → Option (List PTok × List Nat)
  | [], acc, idx => some (acc, idx)
  | tok :: rest, acc, idx =>
    if tok.string ≠ str "$" then tokenLoop rest (acc ++ [tok]) idx
    else match rest with
      | [] => none
      | var :: rest =>
        if !isVariable var.string then none
        else if tok.start.2 + 1 ≠ var.start.2 then none
        else tokenLoop rest (acc ++ [{ var with start := (var.start.1, var.start.2 - 1) }]) (idx ++ [acc.length])

/-- `token_pattern`, given the tokens of the pattern (with its newline) and whether the newline was added.
refex/python/python_pattern.py:46-101. -/
def tokenPattern (toks : List PTok) (addedNewline : Bool) : Option (List PTok × List Nat) :=
  match tokenLoop toks [] [] with
  | none => none
  | some (out, idx) =>
    if addedNewline && decide (2 ≤ out.length) && decide ((out[out.length - 2]?).map (·.string) = some (str "\n")) then
      some (out.eraseIdx (out.length - 2), idx)
    else some (out, idx)

/-- The `i`-th of the suffixes `''`, `'0'`, `'1'`, ... refex/python/matchers/syntax_matchers.py:163. -/
def suffixAt : Nat → Str
  | 0 => []
  | i + 1 => Nat.toDigits 10 i

/-- `'gensym%s_%s' % (suffix, variable)`. refex/python/matchers/syntax_matchers.py:170. -/
def gensym (suffix var : Str) : Str := str "gensym" ++ suffix ++ str "_" ++ var

/-- The `while True` loop from the `i`-th suffix: `none` if it has not ended after the given number of rounds.
refex/python/matchers/syntax_matchers.py:164-177. -/
def freshFrom (taken : List Str) (var : Str) : Nat → Nat → Option Str
  | 0, _ => none
  | fuel + 1, i =>
    if gensym (suffixAt i) var ∈ taken then freshFrom taken var fuel (i + 1) else some (gensym (suffixAt i) var)

/-- The variables of `_remap_macro_variables`: tokens, taken names, `original_to_unique`, `anonymous_unique`. refex/python/matchers/syntax_matchers.py:145-179. -/
structure RemapState where
  toks : List PTok
  taken : List Str
  variables : Dict Label Str := []
  anonymous : List Str := []

/-- One round of the loop over the metavariable indices; `none` if the search for a name does not end or the index is
out of range. refex/python/matchers/syntax_matchers.py:153-179. -/
def remapStep (st : RemapState) (i : Nat) : Option RemapState :=
  match st.toks[i]? with
  | none => none
  | some tok =>
    match st.variables.get? tok.string with
    | some nm => some { st with toks := st.toks.set i { tok with string := nm } }
    | none =>
      match freshFrom st.taken tok.string (st.taken.length + 1) 0 with
      | none => none
      | some nm =>
        let st := { st with toks := st.toks.set i { tok with string := nm }, taken := nm :: st.taken }
        some (if tok.string = str "_" then { st with anonymous := nm :: st.anonymous }
          else { st with variables := st.variables.set tok.string nm })

/-- `taken_tokens`: the strings of the tokens that are not metavariables. refex/python/matchers/syntax_matchers.py:145-149. -/
def takenTokens (toks : List PTok) (metas : List Nat) : List Str :=
  ((enumFrom 0 toks).filter (fun p => decide (p.1 ∉ metas))).map (·.2.string)

/-- `_remap_macro_variables` on the tokens, with the set of metavariable indices iterated in the order given.
refex/python/matchers/syntax_matchers.py:128-185. -/
def remapVariables (toks : List PTok) (order : List Nat) : Option RemapState :=
  order.foldlM remapStep ⟨toks, takenTokens toks order, [], []⟩

/-- The state of `tokenize.untokenize`. refex/python/matchers/syntax_matchers.py:182. -/
structure UntokState where
  prevRow : Nat := 1
  prevCol : Nat := 0
  indents : List Str := []
  startline : Bool := false

/-- `tokenize.Untokenizer.untokenize` (Python's standard library, full mode), as the list of pieces emitted: for every
token the white space put before it, and its string. `none` for the ValueError of `add_whitespace`. refex/python/matchers/syntax_matchers.py:182, refex/python/syntactic_template.py:114. -/
def untokPieces : UntokState → List PTok → Option (List (Str × Str))
  | _, [] => some []
  | st, t :: ts =>
    match t.kind with
    | .endmarker => some []
    | .indent => untokPieces { st with indents := t.string :: st.indents } ts
    | .dedent => untokPieces { st with indents := st.indents.tail, prevRow := t.stop.1, prevCol := t.stop.2 } ts
    | k =>
      let isNl := decide (k = .newline ∨ k = .nl)
      let indent := if !isNl && st.startline then
          (match st.indents with
           | ind :: _ => if ind.length ≤ t.start.2 then some ind else none
           | [] => none)
        else none
      let startline := if isNl then true else if st.startline && !st.indents.isEmpty then false else st.startline
      let prevCol := match indent with
        | some ind => ind.length
        | none => st.prevCol
      if t.start.1 < st.prevRow ∨ (t.start.1 = st.prevRow ∧ t.start.2 < prevCol) then none
      else
        let rows := t.start.1 - st.prevRow
        let col := if rows = 0 then prevCol else 0
        let gap := indent.getD [] ++ (List.replicate rows (str "\\\n")).flatten ++ List.replicate (t.start.2 - col) ' '
        let st := { st with startline := startline, prevRow := if isNl then t.stop.1 + 1 else t.stop.1, prevCol := if isNl then 0 else t.stop.2 }
        match untokPieces st ts with
        | none => none
        | some ps => some ((gap, t.string) :: ps)

/-- `tokenize.untokenize(tokens)`. refex/python/matchers/syntax_matchers.py:182, refex/python/syntactic_template.py:114. -/
def untokenize (ts : List PTok) : Option Str := (untokPieces {} ts).map fun ps => (ps.map fun p => p.1 ++ p.2).flatten

mutual
/-- The identifiers of the `Name` nodes `VariableVisitor().visit(node)` comes across: `visit_Name` does not descend;
`generic_visit` visits the fields that are nodes and the items of list fields that are nodes.
refex/python/matchers/syntax_matchers.py:313-319, `ast.NodeVisitor`. -/
def visitNames : Val → List Str
  | .node i ty ns vs =>
    if ty = str "Name" then (strField (.node i ty ns vs) (str "id")).toList else visitFields vs
  | _ => []
/-- `generic_visit` over field values. refex/python/matchers/syntax_matchers.py:313-319. -/
def visitFields : List Val → List Str
  | [] => []
  | .list _ items :: vs => visitItems items ++ visitFields vs
  | v :: vs => visitNames v ++ visitFields vs
/-- `generic_visit` over the items of a list field. refex/python/matchers/syntax_matchers.py:313-319. -/
def visitItems : List Val → List Str
  | [] => []
  | v :: vs => visitNames v ++ visitItems vs
end

/-- `_verify_variables`: whether it accepts (does not raise ValueError). refex/python/matchers/syntax_matchers.py:306-332. -/
def verifyVariables (tree : Val) (variables : Dict Label Str) : Bool :=
  let remapped := variables.foldl (fun (d : Dict Str Label) e => d.set e.2 e.1) []
  let found := (visitNames tree).filterMap remapped.get?
  variables.keys.all fun k => decide (k ∈ found)

/-- `_LexicalTemplate.__attrs_post_init__`: the indices of each metavariable. refex/python/syntactic_template.py:69-79. -/
def varIndices (toks : List PTok) (metas : List Nat) : Dict Label (List Nat) :=
  metas.foldl (fun d i => match toks[i]? with
    | some t => d.set t.string ((d.get? t.string).getD [] ++ [i])
    | none => d) []

/-- Writing one replacement into all its slots. refex/python/syntactic_template.py:109-111. -/
def fillSlots (new : Str) (toks : List PTok) (slots : List Nat) : List PTok :=
  slots.foldl (fun ts i => match ts[i]? with
    | some t => ts.set i { t with string := new }
    | none => ts) toks

/-- `_LexicalTemplate.substitute`. `none` inside: KeyError for a variable without replacement; outside:
the ValueError of `untokenize`. refex/python/syntactic_template.py:81-114. -/
def lexicalSubstitute (template : Str) (toks : List PTok) (metas : List Nat) (replacements : Dict Label Str) : Option (Option Str) :=
  if template = [] then some (some template)
  else
    let slots := varIndices toks metas
    let filled := replacements.foldl (fun ts e => match slots.get? e.1 with
      | some is => fillSlots e.2 ts is
      | none => ts) toks
    if slots.keys.any (fun x => !replacements.has x) then some none
    else (untokenize filled).map some

end Refex
