import Verif.Model.Basic
/- The cache of parsed files: `parse_ast` in refex/python/matcher.py, over histories of allocation and collection. -/
namespace Refex
set_option autoImplicit false

/-- A `PythonParsedFile`: it refers to the string object it was made from, and holds the text, the file name and what was
parsed (`T`: tree, tokens, pragmas). refex/python/matcher.py:282-286. -/
structure ParsedFileObj (T : Type) where
  source : Nat
  text : Str
  path : Str
  tree : T

/-- The live objects that matter. String objects are known by `id()`, which is used again after an object has been freed;
parsed files by a serial number that is not (weak references do not come back to life). `cache` maps
`(_CompareById(source), filename)`, that is, `(id(source), filename)`, to a weak reference; an entry's key refers to the
string object. `held` and `heldFiles` are what the rest of the program refers to. refex/python/matcher.py:1026-1033, 1300. -/
structure Heap (T : Type) where
  strings : Dict Nat Str := []
  files : Dict Nat (ParsedFileObj T) := []
  cache : Dict (Nat × Str) Nat := []
  held : List Nat := []
  heldFiles : List Nat := []
  serial : Nat := 0

/-- What `parse_ast` returns: the parsed file, ParseError, or the KeyError of the lookup. refex/python/matcher.py:1303-1345. -/
inductive ParseResult
  | file (p : Nat)
  | parseError
  | keyError
  deriving DecidableEq, Repr

/-- `cache_key in _parsed_ast_cache`: a dead reference counts as absent. refex/python/matcher.py:1320. -/
def Heap.cached {T : Type} (h : Heap T) (key : Nat × Str) : Bool :=
  match h.cache.get? key with
  | some p => h.files.has p
  | none => false

/-- `return _parsed_ast_cache[cache_key]`. refex/python/matcher.py:1321. -/
def Heap.fetch {T : Type} (h : Heap T) (key : Nat × Str) : Heap T × ParseResult :=
  match h.cache.get? key with
  | some p => if h.files.has p then ({ h with heldFiles := p :: h.heldFiles }, .file p) else (h, .keyError)
  | none => (h, .keyError)

/-- The rest of `parse_ast`: parse, make the object, store a weak reference. `parse` is `ast.parse` with all that follows;
exceptions other than SyntaxError and UnicodeDecodeError are not modelled. refex/python/matcher.py:1323-1345. -/
def Heap.parseNew {T : Type} (parse : Str → Str → Option T) (h : Heap T) (sid : Nat) (text fn : Str) : Heap T × ParseResult :=
  match parse text fn with
  | none => (h, .parseError)
  | some t =>
    ({ h with files := h.files.set h.serial ⟨sid, text, fn, t⟩, cache := h.cache.set (sid, fn) h.serial,
              heldFiles := h.serial :: h.heldFiles, serial := h.serial + 1 }, .file h.serial)

/-- `parse_ast(source_code, filename)`, nothing being collected while it runs. refex/python/matcher.py:1303-1345. -/
def Heap.parseAst {T : Type} (parse : Str → Str → Option T) (h : Heap T) (sid : Nat) (text fn : Str) : Heap T × ParseResult :=
  if h.cached (sid, fn) then h.fetch (sid, fn) else h.parseNew parse sid text fn

/-- What can happen. refex/python/matcher.py:1303-1345. -/
inductive HeapEvent
  | newString (id : Nat) (text : Str)
  | parse (id : Nat) (fn : Str)
  | dropString (id : Nat)
  | dropFile (p : Nat)
  | freeString (id : Nat)
  | freeFile (p : Nat)
  | purge (key : Nat × Str)

/-- The effect of an event; `none` if it cannot happen: a new string gets an `id()` no live object has; the program parses
strings it refers to; an object is freed only when nothing refers to it (a string is referred to by cache keys and by
parsed files); the entry of a dead reference may be removed at any time after. refex/python/matcher.py:1303-1345. -/
def Heap.step {T : Type} (parse : Str → Str → Option T) (h : Heap T) : HeapEvent → Option (Heap T)
  | .newString i t => if h.strings.has i then none else some { h with strings := h.strings.set i t, held := i :: h.held }
  | .parse i fn =>
    match h.strings.get? i with
    | some t => if i ∈ h.held then some (h.parseAst parse i t fn).1 else none
    | none => none
  | .dropString i => some { h with held := h.held.erase i }
  | .dropFile p => some { h with heldFiles := h.heldFiles.erase p }
  | .freeString i =>
    if i ∈ h.held ∨ h.cache.any (fun e => decide (e.1.1 = i)) = true ∨ h.files.any (fun e => decide (e.2.source = i)) = true then none
    else some { h with strings := h.strings.erase i }
  | .freeFile p => if p ∈ h.heldFiles then none else some { h with files := h.files.erase p }
  | .purge k =>
    match h.cache.get? k with
    | some p => if h.files.has p then none else some { h with cache := h.cache.erase k }
    | none => none

/-- A history. refex/python/matcher.py:1303-1345. -/
def Heap.steps {T : Type} (parse : Str → Str → Option T) : Heap T → List HeapEvent → Option (Heap T)
  | h, [] => some h
  | h, e :: es => (h.step parse e).bind fun h => h.steps parse es

end Refex
