import Verif.Model.Matchers
/- refex/python/matchers/extern_matchers.py: `ExternalCommand`. -/
namespace Refex
set_option autoImplicit false

/-- `ExternalCommand.rewrite`, in the file `c`, for a command that ends with status 0: whatever the candidate is, the text of the file
goes to its standard input and its standard output is the new text. `command` says what a command (named by a number, as in
`Matcher.rewriteFile`) writes for what it reads, `difflib` is `Differ().compare` of the lines of the two texts. A command that fails raises
CalledProcessError, which is not modelled here. refex/python/matchers/extern_matchers.py:70-79; refex/python/matcher.py:791-794. -/
def Ctx.withCommands (c : Ctx) (difflib : Str → Str → List DiffLine) (command : Nat → Str → Str) : Ctx :=
  { c with rewrite := fun cmd _ => some (difflib c.text (command cmd c.text)) }

end Refex
