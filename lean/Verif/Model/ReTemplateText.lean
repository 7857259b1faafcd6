import Verif.Model.Templates
/-
Model of how the text of a regex template is read: refex/formatting.py:493-524, with CPython's `sre_parse.parse_template` as it is called there
(with a fake pattern that knows every name and has groups without end), both as of Python 3.12 and as up to Python 3.11.
-/
namespace Refex
set_option autoImplicit false

/-- What `sre_parse.Tokenizer` gives one at a time: a character, or a backslash with the character after it. refex/formatting.py:507, 513. -/
inductive RTok
  | plain (c : Char)
  | esc (c : Char)
  deriving DecidableEq, Repr

/-- The text of a token. refex/formatting.py:507, 513. -/
def RTok.text : RTok → Str
  | .plain c => [c]
  | .esc c => ['\\', c]

/-- `sre_parse.Tokenizer`: a backslash at the end is an error (here, and in what follows, `none`: `re.error`). refex/formatting.py:507, 513. -/
def reTokens : Str → Option (List RTok)
  | [] => some []
  | c :: cs =>
    if c = '\\' then
      match cs with
      | [] => none
      | d :: ds => (reTokens ds).map (.esc d :: ·)
    else (reTokens cs).map (.plain c :: ·)

/-- `Tokenizer.getuntil('>')`, but for the check that the name is not empty. refex/formatting.py:507, 513. -/
def getUntil : List RTok → Option (Str × List RTok)
  | [] => none
  | t :: ts => if t = .plain '>' then some ([], ts) else (getUntil ts).map fun r => (t.text ++ r.1, r.2)

/-- The `<name>` after `\g`; an empty name is an error. refex/formatting.py:507, 513. -/
def angleName : List RTok → Option (Str × List RTok)
  | .plain d :: ts =>
    if d = '<' then
      match getUntil ts with
      | none => none
      | some (name, rest) => if name = [] then none else some (name, rest)
    else none
  | _ => none

/-- What a template consists of, one by one: characters, references by name, references by number. refex/formatting.py:507, 513. -/
inductive REvent
  | char (c : Char)
  | named (v : Str)
  | group (n : Nat)
  deriving DecidableEq, Repr

/-- What of Python is asked about names: `str.isidentifier`, `int` (`none`: ValueError; only asked up to Python 3.11), and `MAXGROUPS`.
refex/formatting.py:507, 513. -/
structure GroupNames where
  identifier : Str → Bool
  intOf : Str → Option Int
  maxGroups : Nat

/-- An octal digit. refex/formatting.py:507, 513. -/
def isOct (c : Char) : Bool := decide ('0' ≤ c) && decide (c ≤ '7')

/-- The value of digits. refex/formatting.py:507, 513. -/
def digitsValue (base : Nat) (ds : Str) : Nat := ds.foldl (fun n c => base * n + (c.toNat - '0'.toNat)) 0

/-- The name in `\g<name>`, as of Python 3.12. (That `int` refuses more than 4300 digits is left out.) refex/formatting.py:507. -/
def groupRef312 (p : GroupNames) (name : Str) : Option REvent :=
  if name.all Char.isDigit then
    if p.maxGroups ≤ digitsValue 10 name then none else some (.group (digitsValue 10 name))
  else if p.identifier name then some (.named name)
  else none

/-- The name in `\g<name>`, up to Python 3.11. refex/formatting.py:513. -/
def groupRef311 (p : GroupNames) (name : Str) : Option REvent :=
  if p.identifier name then some (.named name)
  else
    match p.intOf name with
    | none => none
    | some i => if i < 0 then none else if (p.maxGroups : Int) ≤ i then none else some (.group i.toNat)

/-- `sre_parse.ESCAPES`. refex/formatting.py:507, 513. -/
def reEscape (c : Char) : Option Char :=
  if c = 'a' then some (Char.ofNat 7)
  else if c = 'b' then some (Char.ofNat 8)
  else if c = 'f' then some (Char.ofNat 12)
  else if c = 'n' then some '\n'
  else if c = 'r' then some '\r'
  else if c = 't' then some '\t'
  else if c = 'v' then some (Char.ofNat 11)
  else if c = '\\' then some '\\'
  else none

/-- At most `k` octal digits, and what is after them. refex/formatting.py:507, 513. -/
def takeOct : Nat → List RTok → Str × List RTok
  | k + 1, .plain d :: ts => if isOct d then let r := takeOct k ts; (d :: r.1, r.2) else ([], .plain d :: ts)
  | _, ts => ([], ts)

/-- What a backslash and a digit (other than 0) mean, and what is after them: `\1`, `\12`, or, if there are three octal digits, a character.
refex/formatting.py:507, 513. -/
def backslashDigit (c : Char) (ts : List RTok) : Option (REvent × List RTok) :=
  match ts with
  | .plain d :: ts1 =>
    if d.isDigit then
      match ts1 with
      | .plain e :: ts2 =>
        if isOct c && isOct d && isOct e then
          if 255 < digitsValue 8 [c, d, e] then none else some (.char (Char.ofNat (digitsValue 8 [c, d, e])), ts2)
        else some (.group (digitsValue 10 [c, d]), ts1)
      | _ => some (.group (digitsValue 10 [c, d]), ts1)
    else some (.group (digitsValue 10 [c]), ts)
  | _ => some (.group (digitsValue 10 [c]), ts)

/-- The loop of `sre_parse.parse_template`; `ref` is what is done with the name in `\g<name>`. (The first argument only makes it a structural
recursion.) refex/formatting.py:507, 513. -/
def reParse (ref : Str → Option REvent) : Nat → List RTok → Option (List REvent)
  | _, [] => some []
  | 0, _ :: _ => none
  | n + 1, .plain c :: ts => (reParse ref n ts).map (.char c :: ·)
  | n + 1, .esc c :: ts =>
    if c = 'g' then
      match angleName ts with
      | none => none
      | some (name, rest) =>
        match ref name with
        | none => none
        | some e => (reParse ref n rest).map (e :: ·)
    else if c = '0' then
      (reParse ref n (takeOct 2 ts).2).map (.char (Char.ofNat (digitsValue 8 (takeOct 2 ts).1)) :: ·)
    else if c.isDigit then
      match backslashDigit c ts with
      | none => none
      | some (e, rest) => (reParse ref n rest).map (e :: ·)
    else
      match reEscape c with
      | some d => (reParse ref n ts).map (.char d :: ·)
      | none => if c.isAlpha then none else (reParse ref n ts).map fun es => .char '\\' :: .char c :: es

/-- The reading of a text. refex/formatting.py:507, 513. -/
def reRead (ref : Str → Option REvent) (text : Str) : Option (List REvent) :=
  match reTokens text with
  | none => none
  | some toks => reParse ref toks.length toks

/-- The list that `parse_template` returns as of Python 3.12: literals (the first argument is the one that has begun) and references in turn.
refex/formatting.py:507. -/
def items312 : Str → List REvent → List ReItem
  | literal, [] => [.lit literal]
  | literal, .char c :: es => items312 (literal ++ [c]) es
  | literal, .named v :: es => .lit literal :: .named v :: items312 [] es
  | literal, .group n :: es => .lit literal :: .group n :: items312 [] es

/-- What `parse_template` returns up to Python 3.11: where references are, and the literals, with `none` for each reference.
refex/formatting.py:513. -/
structure Parts311 where
  groups : List (Nat × Int) := []
  literals : List (Option Expanded) := []

/-- The literal that has begun is put into the list, if it is not empty. refex/formatting.py:513. -/
def Parts311.flush (s : Parts311) (literal : Str) : Parts311 :=
  if literal = [] then s else { s with literals := s.literals ++ [some (.lit literal)] }

/-- `addgroup` of `parse_template` up to Python 3.11. refex/formatting.py:513. -/
def Parts311.addGroup (s : Parts311) (literal : Str) (index : Int) : Parts311 :=
  { groups := (s.flush literal).groups ++ [((s.flush literal).literals.length, index)], literals := (s.flush literal).literals ++ [none] }

/-- `parse_template` up to Python 3.11, with the names looked up. refex/formatting.py:441-455, 513. -/
def parts311 : VarDict → Parts311 → Str → List REvent → Parts311 × VarDict
  | d, s, literal, [] => (s.flush literal, d)
  | d, s, literal, .char c :: es => parts311 d s (literal ++ [c]) es
  | d, s, literal, .group n :: es => parts311 d (s.addGroup literal n) [] es
  | d, s, literal, .named v :: es => parts311 (d.getItem (.name v)).2 (s.addGroup literal (d.getItem (.name v)).1) [] es

/-- The loop that puts references into the list of literals; `none`: an assertion fails (or there is no such place). refex/formatting.py:514-516. -/
def fillGroups : List (Nat × Int) → List (Option Expanded) → Option (List (Option Expanded))
  | [], l => some l
  | (i, g) :: rest, l =>
    match l[i]? with
    | some none => fillGroups rest (l.set i (some (.index g)))
    | _ => none

/-- `assert None not in expanded_template`. refex/formatting.py:517. -/
def noneLeft : List (Option Expanded) → Option (List Expanded)
  | [] => some []
  | none :: _ => none
  | some e :: rest => (noneLeft rest).map (e :: ·)

/-- `_parse_re_template` up to Python 3.11, after the text was read. refex/formatting.py:493-524. -/
def parseReTemplate311 (es : List REvent) : Option (List Expanded × Dict Int MatchKey) :=
  let r := parts311 {} {} [] es
  match fillGroups r.1.groups r.1.literals with
  | none => none
  | some l =>
    match noneLeft l with
    | none => none
    | some expanded => some (expanded, invertDict (addNumeric r.2.varToIndex expanded))

/-- `RegexTemplate(text)`, as of Python 3.12. refex/formatting.py:614-642. -/
def regexTemplate312 (p : GroupNames) (text : Str) : Option Template :=
  match reRead (groupRef312 p) text with
  | none => none
  | some es => some (regexTemplate (items312 [] es))

/-- `RegexTemplate(text)`, up to Python 3.11. refex/formatting.py:614-642. -/
def regexTemplate311 (p : GroupNames) (text : Str) : Option Template :=
  match reRead (groupRef311 p) text with
  | none => none
  | some es =>
    match parseReTemplate311 es with
    | none => none
    | some t => some
      { vars := t.2.values
        substitute := fun _ ms => reJoin (fun k => (stringifyMatches ms).get? k) t.2 t.1 }

end Refex
