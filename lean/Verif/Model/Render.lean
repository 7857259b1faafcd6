import Verif.Model.Formatting
/-
Model of refex/formatting.py: diff blocks and the Renderer.
-/
namespace Refex
set_option autoImplicit false

/-- The characters at which CPython `str.splitlines` breaks lines. refex/formatting.py:431. -/
def isLineBreak (c : Char) : Bool :=
  c = '\n' || c = '\r' || c.toNat = 0x0b || c.toNat = 0x0c || c.toNat = 0x1c || c.toNat = 0x1d || c.toNat = 0x1e ||
  c.toNat = 0x85 || c.toNat = 0x2028 || c.toNat = 0x2029

/-- CPython `s.splitlines(True)`. refex/formatting.py:358, 431. -/
def splitlinesKeep : Str → List Str
  | [] => []
  | [c] => [[c]]
  | c :: d :: rest =>
    if c = '\r' && d = '\n' then ['\r', '\n'] :: splitlinesKeep rest
    else if isLineBreak c then [c] :: splitlinesKeep (d :: rest)
    else match splitlinesKeep (d :: rest) with
      | [] => [[c]]
      | l :: ls => (c :: l) :: ls

/-- refex/formatting.py:191-197, `_split_labeled_span_after`. -/
def splitLabeledSpanAfter (ls : LabeledSpan) (pos : Nat) : LabeledSpan × LabeledSpan :=
  ({ ls with span := (ls.span.1, pos + 1) }, { ls with span := (pos + 1, ls.span.2) })

/-- refex/formatting.py:200-218, `_partition_labeled_span`: first line, intermediate, last line. -/
def partitionLabeledSpan (contents : Str) (ls : LabeledSpan) :
    LabeledSpan × Option LabeledSpan × Option LabeledSpan :=
  match firstNl (slice contents ls.span.1 ls.span.2) with
  | none => (ls, none, none)
  | some i =>
    let p := splitLabeledSpanAfter ls (ls.span.1 + i)
    match lastNl (slice contents p.2.span.1 p.2.span.2) with
    | none => (p.1, none, some p.2)
    | some j =>
      let q := splitLabeledSpanAfter p.2 (p.2.span.1 + j)
      (p.1, some q.1, some q.2)

/-- refex/formatting.py:221-260, `_sub_diff_blocks`: the loop with `current_block` and `current_block_is_diff`. -/
def subDiffBlocks (contents : Str) : List DiffItem → Bool → List DiffItem → List (Bool × List DiffItem)
  | cur, isDiff, [] => [(isDiff, cur)]
  | cur, isDiff, .labeled ls :: rest =>
    let p := partitionLabeledSpan contents ls
    match p.2.2 with
    | none => subDiffBlocks contents (cur ++ [.labeled p.1]) isDiff rest
    | some last =>
      (isDiff, cur ++ [.labeled p.1]) ::
        ((match p.2.1 with | some mid => [(false, [DiffItem.labeled mid])] | none => []) ++
          subDiffBlocks contents [.labeled last] false rest)
  | cur, _, .diff s l a :: rest => subDiffBlocks contents (cur ++ [.diff s l a]) true rest

/-- The escape sequences used for styling (`colorama`), and the sequence of styles handed out by `_styles`
(refex/formatting.py:302-303: an `itertools.cycle` that is created once and shared by all renderers, so the styles one renderer
receives are an arbitrary sequence). -/
structure Palette where
  red : Str
  green : Str
  bright : Str
  dim : Str
  reset : Str
  stream : Nat → Str

/-- Equality of the frozensets of labels that the lists stand for. refex/formatting.py:290-330. -/
def sameLabels (a b : List Label) : Bool := a.all (fun x => b.contains x) && b.all (fun x => a.contains x)

/-- `_label_to_style`, refex/formatting.py:300-301, and the number of styles taken from `_styles`. -/
structure RState where
  labelStyle : List (List Label × Str) := [([], [])]
  used : Nat := 0

/-- `self._label_to_style[labels]`. refex/formatting.py:290-330. -/
def styleOf : List (List Label × Str) → List Label → Option Str
  | [], _ => none
  | (k, v) :: d, l => if sameLabels k l then some v else styleOf d l

/-- refex/formatting.py:395-405, `_style_for`. -/
def styleFor (p : Palette) (st : RState) (sub : Substitution) (ls : LabeledSpan) : Str × RState :=
  if 1 < sub.matchedSpans.length && sameLabels ls.labels [sub.primaryLabel] then (p.bright, st)
  else match styleOf st.labelStyle ls.labels with
    | some s => (s, st)
    | none => (p.stream st.used, { labelStyle := st.labelStyle ++ [(ls.labels, p.stream st.used)], used := st.used + 1 })

/-- refex/formatting.py:389-393, `_style`. -/
def applyStyle (p : Palette) (color : Bool) (style text : Str) : Str :=
  if color then style ++ text ++ p.reset else text

/-- refex/formatting.py:431-436: style a string, breaking around newlines. -/
def styleLines (p : Palette) (color : Bool) (style string : Str) : Str :=
  (splitlinesKeep string).flatMap fun line =>
    if line.getLast? = some '\n' then applyStyle p color style line.dropLast ++ ['\n']
    else applyStyle p color style line

/-- refex/formatting.py:407-438, `_render_diff_block`. -/
def renderDiffBlock (p : Palette) (color : Bool) (contents : Str) (sub : Substitution) (before isDiff : Bool) :
    RState → List DiffItem → Str × RState
  | st, [] => ([], st)
  | st, .diff s _ a :: rest =>
    let style := (if before then p.red else p.green) ++ p.bright
    let string := if before then slice contents s.1 s.2 else a
    let r := renderDiffBlock p color contents sub before isDiff st rest
    (styleLines p color style string ++ r.1, r.2)
  | st, .labeled ls :: rest =>
    let f := styleFor p st sub ls
    let style := if isDiff then f.1 ++ p.dim else f.1
    let r := renderDiffBlock p color contents sub before isDiff f.2 rest
    (styleLines p color style (slice contents ls.span.1 ls.span.2) ++ r.1, r.2)

/-- refex/formatting.py:352-358, `create_diff`. -/
def createDiff (pre s : Str) : Str :=
  if s = [] then []
  else (splitlinesKeep (if s.getLast? = some '\n' then s else s ++ ['\n'])).flatMap fun line => pre ++ line

/-- refex/formatting.py:360-378, the loop over the blocks. -/
def renderBlocks (p : Palette) (color : Bool) (contents : Str) (sub : Substitution) :
    RState → List (Bool × List DiffItem) → Str × RState
  | st, [] => ([], st)
  | st, (true, block) :: rest =>
    let b := renderDiffBlock p color contents sub true true st block
    let a := renderDiffBlock p color contents sub false true b.2 block
    let r := renderBlocks p color contents sub a.2 rest
    (createDiff (applyStyle p color p.red ['-']) b.1 ++
      createDiff (applyStyle p color p.green ['+']) a.1 ++ r.1, r.2)
  | st, (false, block) :: rest =>
    let b := renderDiffBlock p color contents sub true true st block
    let r := renderBlocks p color contents sub b.2 rest
    (createDiff [' '] b.1 ++ r.1, r.2)

/-- `min` / `max` over the matched spans, refex/formatting.py:332-333 (a validated Substitution has at least one span). -/
def minStart (s : Substitution) : Nat :=
  match s.matchedSpans with
  | [] => 0
  | e :: es => es.foldl (fun m x => min m x.2.1) e.2.1

/-- See `minStart`. refex/formatting.py:340-378. -/
def maxEnd (s : Substitution) : Nat :=
  match s.matchedSpans with
  | [] => 0
  | e :: es => es.foldl (fun m x => max m x.2.2) e.2.2

/-- refex/formatting.py:307-387, `Renderer.render`: `(is_diff, display)` and the new state. `format` is
`_match_format.format(**extra, head, match, tail)`. `as_diff` is a generator; the model runs it first, so in case of its
AssertionError the state is unchanged. -/
def render (p : Palette) (color : Bool) (format : Str → Str → Str → Except Exc Str) (st : RState) (contents : Str)
    (sub : Substitution) : Except Exc (Bool × Str) × RState :=
  match asDiff sub with
  | .error e => (.error e, st)
  | .ok items =>
    let ms := minStart sub
    let me := maxEnd sub
    let line := lineExpandedSpan contents (some ms) (some me)
    if (sub.replacements.getD []).isEmpty then
      let r := renderDiffBlock p color contents sub true false st items
      match format (slice contents line.1 ms) r.1 (slice contents me line.2) with
      | .error e => (.error e, r.2)
      | .ok s => (.ok (false, s ++ ['\n']), r.2)
    else
      let ext := .labeled { labels := [], span := (line.1, ms) } :: items ++ [.labeled { labels := [], span := (me, line.2) }]
      let r := renderBlocks p color contents sub st (subDiffBlocks contents [] false ext)
      (.ok (true, r.1), r.2)

/-- The default format `'{head}{match}{tail}'`, refex/formatting.py:298. -/
def defaultFormat (head mtch tail : Str) : Except Exc Str := .ok (head ++ mtch ++ tail)

/-- A sequence of calls of `render` on one renderer. refex/formatting.py:385-438. -/
def renderAll (p : Palette) (color : Bool) (format : Str → Str → Str → Except Exc Str) :
    RState → List (Str × Substitution) → List (Except Exc (Bool × Str)) × RState
  | st, [] => ([], st)
  | st, (c, s) :: rest =>
    let r := render p color format st c s
    let q := renderAll p color format r.2 rest
    (r.1 :: q.1, q.2)

/-- refex/formatting.py:157-180, `diff_substitutions`: what the generator yields, and the exception it then raises, if any.
A display that follows a diff comes after a separator; `sep` stands for the styled `---` line. -/
def diffSubstitutions (p : Palette) (color : Bool) (format : Str → Str → Str → Except Exc Str) (sep : Str) (contents : Str) :
    RState → Bool → List Substitution → List (Bool × Str) × Option Exc × RState
  | st, _, [] => ([], none, st)
  | st, last, s :: rest =>
    let r := render p color format st contents s
    match r.1 with
    | .error e => ([], some e, r.2)
    | .ok (d, disp) =>
      let q := diffSubstitutions p color format sep contents r.2 d rest
      ((d, if last then sep ++ disp else disp) :: q.1, q.2)

end Refex
