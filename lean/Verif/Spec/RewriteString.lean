import Verif.Spec.Main
/-
Vocabulary for C100: `rewrite_string`, and the command line as one call of it for each file.
-/
namespace Refex
set_option autoImplicit false

/-- What a library user passes to `rewrite_string` for the searcher `s` of the patterns of a command line:
`AlsoRegexpSearcher(s, also, not_)` and around it, unless `--force-enable`, `PragmaSuppressedSearcher`. -/
def librarySearcher (o : Options) (s : Searcher) : Searcher :=
  if o.forceEnable then alsoRegexp s o.also o.noalso else pragmaSuppressed (alsoRegexp s o.also o.noalso)

/-- The end of a file `q` that held `old`, if `content` is its text and `rewritten` what `rewrite_string` gives for it (`found`: what `find_iter` gives): its
encoding is what the file holds now; or nothing was found, or `rewrite_string` raised, and the file holds what it held. -/
inductive EndsAs (enc : Encoding) (content : Str) (old new : Option Bytes) : Except Exc (List Substitution) → Except Exc Str → Prop
  | rewritten {subs : List Substitution} {t : Str} {b : Bytes} : subs ≠ [] → enc.encode t = some b → new = some b → EndsAs enc content old new (.ok subs) (.ok t)
  | nothing : new = old → EndsAs enc content old new (.ok []) (.ok content)
  | raised {e : Exc} : new = old → EndsAs enc content old new (.error e) (.error e)

end Refex
