import Verif.Model.Modes
import Verif.Model.BuiltinGroups
/-
Model of mode `fix` of the command line: `find_fixer.from_pattern` as a searcher, with the templates of the built-in fixers made of their texts.
-/
namespace Refex
set_option autoImplicit false

/-- The regular expression `.*[.]py$`, which is searched for: `$` also matches before a newline at the end.
refex/fix/fixer.py:57, refex/search.py:549-557. -/
def isPyPath (path : Str) : Bool := (str ".py").isSuffixOf path || (str ".py\n").isSuffixOf path

/-- The rest of a text after this prefix. (Part of the names of templates in the model.) refex/fix/fixer.py:101-127. -/
def afterPrefix : Str → Str → Option Str
  | [], s => some s
  | _ :: _, [] => none
  | c :: cs, d :: s => if c = d then afterPrefix cs s else none

/-- The template with this name. refex/formatting.py:574-611, refex/python/syntactic_template.py:346-393. -/
def Python.fixTemplate (py : Python) (name : Str) : Except Exc CodeTemplate :=
  match afterPrefix (str "LiteralTemplate:") name with
  | some text => .ok ⟨text, .ok [], fun _ => literalTemplate text⟩
  | none =>
    match afterPrefix (str "ShTemplate:") name with
    | some text => .ok (shCodeTemplate text)
    | none =>
      match afterPrefix (str "PythonExprTemplate:") name with
      | some text => (py.pyTemplate .expr text).map (·.code py)
      | none =>
        match afterPrefix (str "PythonStmtTemplate:") name with
        | some text => (py.pyTemplate .stmt text).map (·.code py)
        | none => .error .other

/-- The templates in a file (`none`: where only their variables matter). refex/search.py:721, refex/fix/fixer.py:101-131. -/
def Python.fixTemplates (py : Python) (c : Option Ctx) : Templates where
  text := fun name => match py.fixTemplate name with
    | .ok t => t.text
    | .error _ => []
  sem := fun name => match py.fixTemplate name with
    | .ok t => t.on c
    | .error _ => literalTemplate []
  pass := match py.pyTemplate .stmt (str "pass") with
    | .ok t => (t.code py).on c
    | .error _ => literalTemplate passTemplate

/-- The templates that are made, in turn. refex/fix/find_fixer.py:43-52. -/
def Python.makeTemplates (py : Python) : List Str → Except Exc Unit
  | [] => .ok ()
  | name :: names =>
    match py.fixTemplate name with
    | .error e => .error e
    | .ok _ => py.makeTemplates names

/-- The templates of these fixers. refex/fix/fixer.py:101-115. -/
def fixerTemplates (fs : List Fixer) : List Str := fs.flatMap fun F => (F.initial builtinHeap).map Prod.snd

/-- `from_pattern` as a searcher, given the fixers of the three groups. The templates of all built-in fixers are made when it is first called, since it
imports their modules (`_register_builtins`). A pattern `None` is the name of no group. The groups of the regular expressions (`groups`)
are those of the ones that fixers use. refex/fix/find_fixer.py:43-76, refex/fix/fixer.py:49-74, refex/search.py:741-765. -/
def Python.groupsFixer (py : Python) (correctness idiom unittest : List Fixer) (groups : Str → List Label) (pattern : Option Str) : Except Exc Searcher :=
  match py.makeTemplates (fixerTemplates (correctness ++ idiom ++ unittest)) with
  | .error e => .error e
  | .ok () =>
    match builtinRegistry correctness idiom unittest with
    | .error e => .error e
    | .ok registry =>
      match pattern with
      | none => .error .valueError
      | some name =>
        match registry.fromPattern name with
        | .error e => .error e
        | .ok fs =>
          match combineFixers (py.fixTemplates none) groups py.depth fs builtinHeap with
          | .error e => .error e
          | .ok heap => .ok (fileRegexFiltered {
              included := fun _ => .ok ()
              parse := fun data path => match py.parseAst data path with
                | .error .parseError => .error .skipFile
                | r => r
              find := fun p => match py.file p.text with
                | none => .error .other
                | some c =>
                  match pySearch c (py.tokInfo p.text) (py.fixTemplates (some c)) py.depth (combinedMatcher fs heap) with
                  | .error e => .error e
                  | .ok fs => .ok (fs.map Found.substitution) } isPyPath)

/-- The same, with the patterns of the fixers given as trees; that they are made of their texts is in `Python.textFixer`.
refex/fix/find_fixer.py:43-76, refex/fix/fixer.py:49-74, refex/search.py:741-765. -/
def Python.builtinFixer (py : Python) (mangle : Label → Str) (groups : Str → List Label) (pattern : Option Str) : Except Exc Searcher :=
  py.groupsFixer (correctnessFixers mangle) (idiomFixers mangle) (unittestFixers mangle) groups pattern

/-- Python with these fixers. refex/cli.py:459-475. -/
def Python.withFixers (py : Python) (mangle : Label → Str) (groups : Str → List Label) : Python := { py with fixer := py.builtinFixer mangle groups }

end Refex
