import Verif.Model.Search
/-
Model of refex/parsed_file.py: recognising a pragma in a comment.
-/
namespace Refex
set_option autoImplicit false

/-- `[-\w]` of refex/parsed_file.py:62-68. Which non-ASCII characters CPython counts as alphanumeric is the parameter `uw`;
no white space is. -/
def isWordDash (uw : Char → Bool) (c : Char) : Bool :=
  c.isAlphanum || c = '_' || c = '-' || (decide (128 ≤ c.toNat) && !isReSpace c && uw c)

/-- `[-\w.]`. refex/parsed_file.py:58-74. -/
def isValueChar (uw : Char → Bool) (c : Char) : Bool := isWordDash uw c || c = '.'

/-- Split at the last ':' (everything the pattern allows after its ':' excludes that character, so the ':' of the pattern is
the last one). refex/parsed_file.py:58-74. -/
def splitLastColon : Str → Option (Str × Str)
  | [] => none
  | c :: cs =>
    match splitLastColon cs with
    | some (a, b) => some (c :: a, b)
    | none => if c = ':' then some ([], cs) else none

/-- `(?:[^-\w]|\A)(?P<tag>[-\w]+)\s*` ending at the end of the given text: the maximal run before the white space. refex/parsed_file.py:58-74. -/
def trailingTag (uw : Char → Bool) (before : Str) : Str :=
  ((before.reverse.dropWhile isReSpace).takeWhile (isWordDash uw)).reverse

/-- `\s*[-\w]+\s*=\s*[-\w.]+\s*` matching the whole piece. refex/parsed_file.py:58-74. -/
def isDeclaration (uw : Char → Bool) (piece : Str) : Bool :=
  let a := piece.dropWhile isReSpace
  match a.takeWhile (isWordDash uw), (a.dropWhile (isWordDash uw)).dropWhile isReSpace with
  | _ :: _, '=' :: b =>
    let v := b.dropWhile isReSpace
    !(v.takeWhile (isValueChar uw)).isEmpty && (v.dropWhile (isValueChar uw)).all isReSpace
  | _, _ => false

/-- The comma-separated declarations of the text after the ':'; a last piece of white space after a comma is the trailing comma
(refex/parsed_file.py:66-71). -/
def declarationPieces (after : Str) : List Str :=
  let ps := splitOn ',' after
  match ps.reverse with
  | last :: (p :: rest) => if last.all isReSpace then (p :: rest).reverse else ps
  | _ => ps

/-- `declaration.partition('=')`, without the separator. refex/parsed_file.py:115. -/
def partitionEq : Str → Str × Str
  | [] => ([], [])
  | c :: cs => if c = '=' then ([], cs) else let r := partitionEq cs; (c :: r.1, r.2)

/-- refex/parsed_file.py:55-117, `Pragma.from_text`: the regular expression search as a deterministic recogniser, then the
loop of lines 113-116. -/
def pragmaFromText (uw : Char → Bool) (text : Str) (start stop : Nat) : Option Pragma :=
  match splitLastColon text with
  | none => none
  | some (before, after) =>
    let tag := trailingTag uw before
    let pieces := declarationPieces after
    if tag.isEmpty || !pieces.all (isDeclaration uw) then none
    else some
      { tag := tag
        data := pieces.foldl (fun d p => let kv := partitionEq p; d.set (stripStr kv.1) (stripStr kv.2)) []
        start := start
        stop := stop }

end Refex
