import Verif.Model.Main
/- Model of the error dump: refex/cli.py:422-456, refex/rxerr_debug.py, and of the parts of `json` and `shlex` they use. -/
namespace Refex
set_option autoImplicit false

/-- JSON, without numbers and booleans (a dump has none). refex/cli.py:444-448. -/
inductive Json
  | null
  | text (s : Str)
  | list (vs : List Json)
  | obj (ks : List Str) (vs : List Json)

/-- A hexadecimal digit. refex/cli.py:448 (`json.dump`). -/
def hexDigit (n : Nat) : Char := if n < 10 then Char.ofNat (48 + n) else Char.ofNat (87 + n)

/-- `'{0:04x}'.format(n)`, for n < 65536. refex/cli.py:448 (`json.dump`). -/
def hex4 (n : Nat) : Str := [hexDigit (n / 4096 % 16), hexDigit (n / 256 % 16), hexDigit (n / 16 % 16), hexDigit (n % 16)]

/-- `py_encode_basestring_ascii`, for a character. refex/cli.py:448 (`json.dump(..., ensure_ascii=True)`). -/
def escapeChar (ch : Char) : Str :=
  if ch = '"' then str "\\\""
  else if ch = '\\' then str "\\\\"
  else if ch = '\n' then str "\\n"
  else if ch = '\r' then str "\\r"
  else if ch = '\t' then str "\\t"
  else if ch.toNat = 0x0c then str "\\f"
  else if ch.toNat = 0x08 then str "\\b"
  else if 0x20 ≤ ch.toNat ∧ ch.toNat ≤ 0x7e then [ch]
  else if ch.toNat < 0x10000 then str "\\u" ++ hex4 ch.toNat
  else str "\\u" ++ hex4 (0xd800 + (ch.toNat - 0x10000) / 1024) ++ (str "\\u" ++ hex4 (0xdc00 + (ch.toNat - 0x10000) % 1024))

/-- A string in quotes. refex/cli.py:448 (`json.dump`). -/
def jsonString (s : Str) : Str := '"' :: (s.flatMap escapeChar ++ ['"'])

mutual
/-- `json.dump`. refex/cli.py:448. -/
def Json.dump : Json → Str
  | .null => str "null"
  | .text s => jsonString s
  | .list vs => '[' :: (Json.dumpItems vs ++ [']'])
  | .obj ks vs => '{' :: (Json.dumpPairs ks vs ++ ['}'])
/-- The items of a list. refex/cli.py:448 (`json.dump`). -/
def Json.dumpItems : List Json → Str
  | [] => []
  | v :: vs => v.dump ++ Json.dumpMore vs
/-- Those after the first. refex/cli.py:448 (`json.dump`). -/
def Json.dumpMore : List Json → Str
  | [] => []
  | v :: vs => str ", " ++ (v.dump ++ Json.dumpMore vs)
/-- The items of a dict. refex/cli.py:448 (`json.dump`). -/
def Json.dumpPairs : List Str → List Json → Str
  | k :: ks, v :: vs => jsonString k ++ (str ": " ++ (v.dump ++ Json.dumpMorePairs ks vs))
  | _, _ => []
/-- Those after the first. refex/cli.py:448 (`json.dump`). -/
def Json.dumpMorePairs : List Str → List Json → Str
  | k :: ks, v :: vs => str ", " ++ (jsonString k ++ (str ": " ++ (v.dump ++ Json.dumpMorePairs ks vs)))
  | _, _ => []
end

/-- The value of a hexadecimal digit. refex/rxerr_debug.py:31 (`json.load`). -/
def hexValue (ch : Char) : Option Nat :=
  let n := ch.toNat
  if 48 ≤ n ∧ n ≤ 57 then some (n - 48)
  else if 97 ≤ n ∧ n ≤ 102 then some (n - 87)
  else if 65 ≤ n ∧ n ≤ 70 then some (n - 55)
  else none

/-- Four of them. refex/rxerr_debug.py:31 (`json.load`). -/
def readHex4 : Str → Option (Nat × Str)
  | a :: b :: c :: d :: rest =>
    match hexValue a, hexValue b, hexValue c, hexValue d with
    | some a, some b, some c, some d => some (a * 4096 + b * 256 + c * 16 + d, rest)
    | _, _, _, _ => none
  | _ => none

/-- A character of a string, maybe escaped. (A lone surrogate is left out.) refex/rxerr_debug.py:31 (`json.load`). -/
def readChar : Str → Option (Char × Str)
  | [] => none
  | ch :: rest =>
    if ch = '\\' then
      match rest with
      | [] => none
      | e :: rest =>
        if e = 'u' then
          match readHex4 rest with
          | none => none
          | some (n, rest) =>
            if 0xd800 ≤ n ∧ n ≤ 0xdbff then
              match rest with
              | b :: u :: rest =>
                if b = '\\' ∧ u = 'u' then
                  match readHex4 rest with
                  | some (m, rest) => if 0xdc00 ≤ m ∧ m ≤ 0xdfff then some (Char.ofNat (0x10000 + ((n - 0xd800) * 1024 + (m - 0xdc00))), rest) else none
                  | none => none
                else none
              | _ => none
            else if 0xdc00 ≤ n ∧ n ≤ 0xdfff then none
            else some (Char.ofNat n, rest)
        else if e = '"' then some ('"', rest)
        else if e = '\\' then some ('\\', rest)
        else if e = '/' then some ('/', rest)
        else if e = 'n' then some ('\n', rest)
        else if e = 'r' then some ('\r', rest)
        else if e = 't' then some ('\t', rest)
        else if e = 'f' then some (Char.ofNat 0x0c, rest)
        else if e = 'b' then some (Char.ofNat 0x08, rest)
        else none
    else if ch.toNat < 0x20 then none
    else some (ch, rest)

/-- The characters up to the closing quote. refex/rxerr_debug.py:31 (`json.load`). -/
def readChars : Nat → Str → Option (Str × Str)
  | 0, _ => none
  | n + 1, s =>
    if s.head? = some '"' then some ([], s.tail)
    else match readChar s with
      | none => none
      | some (ch, rest) => (readChars n rest).map fun p => (ch :: p.1, p.2)

/-- White space between tokens. refex/rxerr_debug.py:31 (`json.load`). -/
def skipSpace (s : Str) : Str := s.dropWhile fun ch => decide (ch ∈ [' ', '\t', '\n', '\r'])

/-- `d[k] = v`. refex/rxerr_debug.py:31 (`json.load`: of equal keys the last counts). -/
def putJson (k : Str) (v : Json) : List Str → List Json → List Str × List Json
  | k' :: ks, v' :: vs => if k' = k then (k :: ks, v :: vs) else (k' :: (putJson k v ks vs).1, v' :: (putJson k v ks vs).2)
  | _, _ => ([k], [v])

/-- `dict(pairs)`. refex/rxerr_debug.py:31 (`json.load`). -/
def pairsDict (ps : List (Str × Json)) : List Str × List Json := ps.foldl (fun d p => putJson p.1 p.2 d.1 d.2) ([], [])

mutual
/-- A value; the number bounds the recursion. refex/rxerr_debug.py:31 (`json.load`). -/
def readJson : Nat → Str → Option (Json × Str)
  | 0, _ => none
  | n + 1, s =>
    match skipSpace s with
    | [] => none
    | ch :: rest =>
      if ch = '"' then (readChars (rest.length + 1) rest).map fun p => (.text p.1, p.2)
      else if ch = '[' then
        if (skipSpace rest).head? = some ']' then some (.list [], (skipSpace rest).tail)
        else (readItems n rest).map fun p => (.list p.1, p.2)
      else if ch = '{' then
        if (skipSpace rest).head? = some '}' then some (.obj [] [], (skipSpace rest).tail)
        else (readPairs n rest).map fun p => (.obj (pairsDict p.1).1 (pairsDict p.1).2, p.2)
      else if (str "null").isPrefixOf (ch :: rest) then some (.null, (ch :: rest).drop 4)
      else none
/-- At least one item, and the closing bracket. refex/rxerr_debug.py:31 (`json.load`). -/
def readItems : Nat → Str → Option (List Json × Str)
  | 0, _ => none
  | n + 1, s =>
    match readJson n s with
    | none => none
    | some (v, rest) =>
      match skipSpace rest with
      | [] => none
      | ch :: rest =>
        if ch = ']' then some ([v], rest)
        else if ch = ',' then (readItems n rest).map fun p => (v :: p.1, p.2)
        else none
/-- At least one pair, and the closing brace. refex/rxerr_debug.py:31 (`json.load`). -/
def readPairs : Nat → Str → Option (List (Str × Json) × Str)
  | 0, _ => none
  | n + 1, s =>
    match skipSpace s with
    | [] => none
    | q :: rest =>
      if q = '"' then
        match readChars (rest.length + 1) rest with
        | none => none
        | some (k, rest) =>
          match skipSpace rest with
          | [] => none
          | ch :: rest =>
            if ch = ':' then
              match readJson n rest with
              | none => none
              | some (v, rest) =>
                match skipSpace rest with
                | [] => none
                | ch :: rest =>
                  if ch = '}' then some ([(k, v)], rest)
                  else if ch = ',' then (readPairs n rest).map fun p => ((k, v) :: p.1, p.2)
                  else none
            else none
      else none
end

/-- `json.load`: ValueError if the text is not JSON. refex/rxerr_debug.py:31. -/
def jsonLoad (text : Str) : Except Exc Json :=
  match readJson (text.length + 1) text with
  | some (v, rest) => if (skipSpace rest).isEmpty then .ok v else .error .valueError
  | none => .error .valueError

/-- A failure. refex/cli.py:232-235. -/
structure Failure where
  content : Str
  traceback : Str

/-- The file name and `{'content': ..., 'traceback': ...}` for each failure. refex/cli.py:232-235. -/
def failuresJson (failures : Dict Str Failure) : Json :=
  .obj failures.keys (failures.map fun f => .obj [str "content", str "traceback"] [.text f.2.content, .text f.2.traceback])

/-- `dict(failures=failures, argv=sys.argv, version=version)`. refex/cli.py:444. -/
def errorBlob (failures : Dict Str Failure) (argv : List Str) (version : Option Str) : Json :=
  .obj [str "failures", str "argv", str "version"] [failuresJson failures, Json.list (argv.map Json.text), match version with | some v => Json.text v | none => .null]

/-- What is written to stderr, and the dump, if there is one. `name` is that of the temporary file, `count` the number as text.
refex/cli.py:422-456. -/
def reportFailuresText (failures : Dict Str Failure) (argv : List Str) (version : Option Str) (verbose : Bool) (url name count : Str) : Str × Option Str :=
  if failures.isEmpty then ([], none)
  else
    ((if verbose then failures.flatMap fun f => str "Error processing " ++ f.1 ++ str "\n" ++ f.2.traceback ++ str "\n" ++ str "\n" else []) ++
      str "Encountered " ++ count ++ str " error(s). Report bugs to " ++ url ++ str ", and attach " ++ name ++ str "\n" ++
      str "NOTE: the error dump file above contains reproduction instructions, including source code and program arguments.\n",
     some (errorBlob failures argv version).dump)

/-- An ASCII letter or digit, or one of a few other characters. refex/rxerr_debug.py:35 (`shlex.quote`). -/
def isSafeChar (ch : Char) : Bool :=
  let n := ch.toNat
  decide (48 ≤ n ∧ n ≤ 57) || decide (65 ≤ n ∧ n ≤ 90) || decide (97 ≤ n ∧ n ≤ 122) || decide (ch ∈ str "_@%+=:,./-")

/-- `shlex.quote`. refex/rxerr_debug.py:35. -/
def shellQuote (s : Str) : Str :=
  if s.isEmpty then str "''"
  else if s.all isSafeChar then s
  else '\'' :: (s.flatMap fun ch => if ch = '\'' then str "'\"'\"'" else [ch]) ++ ['\'']

/-- `d.get(key)`. refex/rxerr_debug.py:33, 37. -/
def Json.get? : Json → Str → Option Json
  | .obj ks vs, key => (ks.zip vs).findSome? fun p => if p.1 = key then some p.2 else none
  | _, _ => none

/-- The strings of a list; TypeError if there are others. refex/rxerr_debug.py:35. -/
def Json.strings : List Json → Except Exc (List Str)
  | [] => .ok []
  | .text s :: vs => (Json.strings vs).map (s :: ·)
  | _ :: _ => .error .typeError

/-- What `rxerr_debug` prints, and the files it writes. refex/rxerr_debug.py:26-62. -/
structure DebugOut where
  out : Str
  files : List (Str × Str)

/-- The first part: the command. Anything but a list of strings is left out of the model (TypeError). refex/rxerr_debug.py:33-35. -/
def debugCommand (info : Json) : Except Exc Str :=
  match info.get? (str "argv") with
  | none => .ok []
  | some .null => .ok []
  | some (.list []) => .ok []
  | some (.list vs) => (Json.strings vs).map fun as => str "Command: " ++ joinWith (str " ") (as.map shellQuote) ++ str " \n\n"
  | some _ => .error .typeError

/-- The loop over the failures; `tmp` names the next temporary files. A content or traceback that is not a string raises TypeError.
refex/rxerr_debug.py:36-62. -/
def debugFailures (highlight : Str → Str) : (Nat → Str) → List Str → List Json → Except Exc DebugOut
  | tmp, k :: ks, f :: fs =>
    let content : Except Exc (Option Str) := match f.get? (str "content") with
      | some (.text s) => .ok (some s)
      | none => .ok none
      | some _ => .error .typeError
    let traceback : Except Exc (Option Str) := match f.get? (str "traceback") with
      | some (.text s) => .ok (some s)
      | none => .ok none
      | some _ => .error .typeError
    match content, traceback with
    | .ok content, .ok traceback =>
      match debugFailures highlight (match content with | some _ => fun n => tmp (n + 1) | none => tmp) ks fs with
      | .error x => .error x
      | .ok rest => .ok
        { out := str "\n\n" ++ (str "File: " ++ k ++ str "\n") ++
            (match content with | some _ => str "Content: " ++ tmp 0 ++ str "\n" | none => []) ++
            (match traceback with | some t => highlight t ++ str "\n" | none => []) ++ rest.out
          files := (match content with | some s => [(tmp 0, s)] | none => []) ++ rest.files }
    | .error x, _ => .error x
    | _, .error x => .error x
  | _, _, _ => .ok ⟨[], []⟩

/-- `main`, for the text of the dump. refex/rxerr_debug.py:26-62. -/
def rxerrDebug (highlight : Str → Str) (tmp : Nat → Str) (text : Str) : Except Exc DebugOut :=
  match jsonLoad text with
  | .error x => .error x
  | .ok info =>
    match debugCommand info with
    | .error x => .error x
    | .ok command =>
      match info.get? (str "failures") with
      | none => .ok ⟨command, []⟩
      | some (.obj ks fs) =>
        match debugFailures highlight tmp ks fs with
        | .error x => .error x
        | .ok rest => .ok ⟨command ++ rest.out, rest.files⟩
      | some _ => .error .attributeError

end Refex
