# Formal model of ssbr/refex in Lean 4: design and trusted base

The code is never run here. The tie between model and code is by reading: every definition of the model
(`lean/Verif/Model/*.lean`) carries a comment with the file and lines of `/repo` it mirrors, and says what it
simplifies.

## Layout

* `lean/Verif/Model/` - the model: executable, total functions mirroring the Python functions branch by branch.
  Exceptions are values (`Except`, or an explicit outcome type).
* `lean/Verif/Spec/` - small specifications, written without the model's helpers, used in property statements.
* `lean/Verif/Lemmas/` - helper lemmas only.
* `lean/Verif/Props/` - the property theorems `C01_...` and, beside each, `example`s showing that a concrete non-trivial
  case meets the hypotheses. Negations (`..._false`, `..._counterexample`) are here too.
* `properties.jsonl`, `MANIFEST.json`, `seeded/LOG.jsonl` - the list, the status, the mutation log.

## Trusted base

* Lean 4.33.0's kernel. Axioms: at most `propext`, `Quot.sound`, `Classical.choice`
  (checked by `vcheck`; no axiom is added, no compiled evaluation is used).
* The reading of `/repo` recorded in the comments of the model.
* Modelling conventions:
  * A Python `str` is a `List Char`; offsets are code-point offsets, as in Python. `s[a:b]` for `0 <= a` is
    `(s.drop a).take (b - a)`, which clamps as Python does.
  * A span is a pair of naturals. Python's `None` and `(-1, -1)` "no span" values are `none`.
  * A `dict` is an association list with distinct keys, in insertion order. A `set` whose iteration order is not
    specified is a list; results are proved independent of its order where the code's result depends on the order.
  * `sorted`/`list.sort` is a stable insertion sort (any two stable sorts agree; proved to be a sorted permutation).
  * External components are parameters (oracles): the `re` engine, the Python parser and tokenizer, `difflib`,
    user-provided searchers. Assumptions on them, where any are needed, are explicit hypotheses of the theorem.

### Modelled, by file of the code

| code | model | what is not modelled there |
|------|-------|----------------------------|
| `refex/substitution.py` | `Substitution` | nothing (attrs boilerplate apart) |
| `refex/formatting.py` | `Formatting`, `Render`, `Templates`, `Rewriting`, `ReTemplateText` | nothing (the parser of the standard library for templates is modelled too) |
| `refex/parsed_file.py` | `Pragma` | line/column numbers |
| `refex/search.py` | `Search`, `Rewriting`, `Regex`, `Sanitize`, `PySearch` | exceptions' texts |
| `refex/match.py` | `Bindings` (`MObj`) | nothing |
| `refex/python/matcher.py` | `Ast`, `Bindings`, `FromDiff`, `Find`, `ParseCache`, `PragmaTokens`, `Uniqueify`, `ParseFile`, `Construct` (the generated `__init__`) | asttokens |
| `refex/python/matchers/base_matchers.py` | `Matchers`, `Glob` | `Glob` below another matcher; user lambdas (`MatchesIf`-like callables) |
| `refex/python/matchers/ast_matchers.py`, `lexical_matchers.py`, `extern_matchers.py` | `Matchers` | the external process (its output is an input) |
| `refex/python/matchers/syntax_matchers.py` | `Patterns`, `PatternTokens`, `PatternBuild`, `Matchers`, `NamedFunctions` | `inspect.getsource`; error texts |
| `refex/python/python_pattern.py` | `PatternTokens` | the tokenizer (token streams are inputs) |
| `refex/python/syntactic_template.py` | `PyTemplate`, `PatternTokens` | the parser and tokenizer |
| `refex/python/semiliteral_eval.py`, `evaluate.py` | `Evaluate`, `Construct`, `Build` | the expression parser |
| `refex/fix/fixer.py`, `find_fixer.py`, `fixers/*.py` | `Fixers`, `BuiltinFixers` (the rules given by a pattern and a template), `BuiltinGroups` (the others, and the groups), `FixMode` (the searcher), `FixTexts` (the patterns made of their texts) | the unused `_NONE_RETURNS_FIXERS` |
| `refex/cli.py`, `rxerr_debug.py` | `Cli`, `Main`, `Modes`, `Output`, `ErrorDump` | argparse's own word splitting, how tracebacks are made |
| `refex/fix/generate_example.py` | `Examples` | |
| `refex/python/error_strings.py` | `CompileText` | |

* Not modelled at all: tests, asttokens' computation of token
  ranges, file-system failures other than those of C32-C35, threads, performance, memory.


## Plan per property

Where the natural claim is false of the code, `properties.jsonl` states what does hold, a theorem `..._false` refutes the
natural claim, and the list of findings below says so.

| id | model | statement and proof |
|----|-------|---------------------|
| C01 | `apply_substitutions`, `concatenate_replacements`, `_rewrite_to_replacements` | success implies the output is the splice (inductive spec) of an ordered arrangement of all edits; induction over the edit list |
| C02 | same | overlap of two edits implies error; disjoint hulls with distinct starts imply success |
| C03 | same | for distinct start offsets: the sort of a permutation with distinct keys is unique; refuted without |
| C04 | `_validate`, the category regex as a hand-derived recogniser | iff with the split-at-dots specification; induction over the string |
| C05 | `relative_to_span` | commutation with `apply`, by a shift lemma on the edit fold |
| C06 | `all_categories` | membership iff component prefix |
| C07 | `suppress_exclude_bytes` | exact filter |
| C08 | `labeled_spans` event loop | tiling and exact label sets; loop invariant over the sorted event lists |
| C09 | `as_diff` | exact description of the items; faithful when no replaced span ends where another span starts; refuted without |
| C10, C11 | `disjoint_substitutions` loop | loop invariant; C11's strong form refuted, proved: dropped only in favour of a preferred overlapping neighbour |
| C12 | `line_expanded_span` | direct, via lemmas on first/last newline |
| C13 | `concatenate_replacements` | refinement to the splice spec |
| C14-C16, C79 | `Renderer` | round trip by induction on spans/blocks; state invariant for styles; relation `Coloured` between coloured and plain text |
| C81 | `BuiltinFixers`: each rule as text and as code (surface syntax with metavariables), `Code.val` its tree | `Code.Reads` says what it is to be an instance of the code; induction on the code shows it equal to the instances of the pattern tree (C59), then C53 for the template; restrictions and guards of rules as parameters |
| C82 | as C81 | `ValueWorld` gives values to trees; `Succeeds` says when an assertion method call succeeds; case analysis over the rules |
| C83 | all fixers of the three groups (`Model/BuiltinGroups.lean`) | from C65/C66: the variables of a pattern are bound by its matcher (induction over code); tables of messages evaluated by the kernel |
| C84 | as C81 | `Spec/RuleEffects.lean` says what sets, datetimes and formatting do; case analysis over the rules |
| C85 | the matchers of the `attr.ib` and logging fixers (`Model/BuiltinGroups.lean`), run by the matcher semantics | C81 for the patterns, C61 for the ancestors, the rest computed; `Spec/SpecialFixers.lean` |
| C86 | the registry, `CombiningPythonFixer` and the built-in groups, run over a whole file (`Model/BuiltinGroups.lean`, `Model/Fixers.lean`, `Model/Find.lean`) | C81 and C85 decide each fixer, C28 the traversal, C65 the combination; `Spec/BuiltinSearch.lean` |
| C87 | one application of a built-in fixer as a relation between trees (`Spec/Termination.lean`: the old code of a rule becomes the new code, with the same trees for the metavariables; the rest stays) | a weight of trees (names, certain attributes, operators, comprehensions, assignments of sets) that every application lowers; induction over the position |
| C88 | `Model/Examples.lean`: what examples are made from, `example_fragment`, `example_replacement`, the given examples of all built-in fixers, `example_source`; `Spec/Examples.lean`: code with names for metavariables | the pieces of a pattern text (C15) give the text; structural induction over code relates the tree of the example to that of the pattern; C81 gives the match and the replacement |
| C89 | `Model/CompileText.lean`: `textwrap.dedent` (its margin loop), `strip`, `_indent`, `user_syntax_error`, `compile_matcher` on texts with an abstract parser | the margin is the longest common prefix (induction over the loop); the specification `Dedented` has one solution; texts of messages by computation with lists of lines |
| C90 | `Model/ErrorDump.lean`: the texts of `report_failures`, `json.dump`/`json.load` (no numbers), `shlex.quote`, `rxerr_debug.main`; `Spec/ErrorDump.lean`: how a POSIX shell splits a command | reading a dumped character, string, value gives it back (induction over values, fuel bounded by the text's length); quoting by induction over the argument |
| C91 | `Model/NamedFunctions.lean`; `Spec/NamedFunctions.lean`: the innermost function definition around a position | the alternatives by dispatch on types (C39), the climb from C61 |
| C92 | `Model/Construct.lean`, `Model/Build.lean`; `Spec/Construct.lean`: the calling convention (`Passes`) and one rule per class; `Spec/Build.lean`: evaluation with objects | both directions, class by class; induction over the expression as for C54 |
| C93 | `Model/Modes.lean`: `_SEARCH_MODES`, `_SUB_MODES` and what they make, from texts; `Spec/Modes.lean`: instances in a file, reports, filled-in texts and trees | composition of C48, C49, C72 (pattern), C37, C59 (instances), C64 (reports), C53, C80 (templates) |
| C94 | `Spec/RegexMode.lean`: matches of a regex, `m.expand`, `re.sub` as a splice | C29_match_dict, C17, C19 (one match), induction over the matches, C69 (options), stability of the sort in `apply_substitutions` for empty matches |
| C95 | all of `Model/Matchers.lean`; `Spec/Places.lean`: objects of a file, stretches of its text, matches of a file | induction over the recursion limit, for all matchers at once: every match and every binding is a match of the file; `mergeBindings` only picks values |
| C96 | `Model/MatcherMode.lean`: `compile_matcher` with the matcher classes and the patterns in expressions; `Spec/MatcherMode.lean`: what an input stands for, results of a search | composition of C89 (text), C92 (expression), C72 (patterns), C64 (reports), C95 (places), C69 (command), C35 (file); induction over the evaluation for what matchers of expressions bind |
| C97 | `Model/FixMode.lean`: `from_pattern` as a searcher, the templates of the fixers made of their texts, the filter by file name; `Spec/FixMode.lean`: results of a search with fixers; `Spec/Iterated.lean`: what iteration makes of them | composition of C66 (groups), C86 (search), C83 (templates), C64 (reports and parts), C69 (command), C20-C22 (iteration), C35 (file) |
| C98 | as C93, C96; `Spec/Iterated.lean` | composition of C93, C96 with C20-C22, by the same theorem as C97; C35 for what is written |
| C99 | `Model/PyTemplate.lean`, `Model/Modes.lean`; `Spec/TemplateErrors.lean`, `Spec/SearchErrors.lean`: the exceptions and when | what template matchers raise (C59, C47, C62), what filling raises (C48, C53), where the replacement goes (C80) |
| C100 | `Model/Search.lean` (`rewriteString`, `findIter`), `Model/Main.lean`; `Spec/RewriteString.lean`: the end of a file in terms of `rewrite_string` | composition of C01, C02, C22, C94; induction over the files of a run for C100_command |
| C101 | `Model/FixTexts.lean`: the patterns, fixers and groups made of their texts; `Spec/FixTexts.lean`: how Python reads these texts (tokens of a line, tree of the code) | the renaming always takes the first name (C48's invariant with a check of each text by computation), compiling a tree does not depend on identities and on the `ctx` of names |
| C102 | the models of C24 to C26 and C97 composed; `Spec/CommentScopes.lean`: what a comment says, its scope, the parts of a file that are disabled | the pragmas of a file are those of its comments (C25, C26), the excluded ranges as minima (`truncate_iff`), and a congruence over rounds of iteration |
| C103 | `Model/ReTemplateText.lean`: the tokenizer and parser of `sre_parse` for templates, both forms in which it hands over the parts, and the loop of `_parse_re_template` that fills the places of the groups; `Spec/ReTemplateText.lean`: the grammar | the parser equals the grammar (induction over tokens, both directions); an invariant of the lists of groups and literals (`Fills`) shows that the two versions give the same template |
| C104 | no new code; `Spec/FixEdits.lean`: the edits of the fixers, and what it is for Python to read their templates | the templates are made as the patterns of C101 are; each kind of fixer by C53 (structure of the result of a template) or C18; the command by C97 and C101 |
| C105 | `Model/ParseFile.lean`: `parse_ast` on the store of objects that `ast.parse` returns | reading the store after `_uniqueify_distinct_ast` (C63) gives a tree of the same shape; grammar, imports and names depend on the shape only (induction over trees) |
| C106 | nothing new: `shortenPath` (Model/Output.lean), the fix mode (Model/FixMode.lean), `mainRun` | the last component of each of the three names (induction over components, the common prefix does not reach the last one), with C77, C97 and C69 |
| C107 | `Model/ExternalCommand.lean`, with the matcher `rewriteFile` (Model/Matchers.lean), `from_diff`, the Python searcher and `rewrite_string` | evaluation of the search on the module for every diff (bindings and templates by induction over its pieces), then C52 and C22 |
| C108 | the runner (`Model/Cli.lean`) and what it prints (`Model/Output.lean`) | two runs side by side: induction over the files, with an invariant that the files still to be read are the same in both |
| C109 | as C108 | the loop body is a function of the file it reads; induction over the files |
| C110 | C94 (re.sub) and a specification of literal search | induction over the splicing: an occurrence lies in a piece that was kept; counterexamples without the conditions |
| C111 | as C110 | induction over the splicing: the occurrences of the new text are exactly the places where it was put |
| C112 | the pattern and the template with the same text (Model/Patterns, Model/PyTemplate), the search, the substitution | the pattern and the template are the same tree with the same metavariables; what is matched and what is written are instances of it (C93, C53); two instances of a tree with the same code for the metavariables are the same tree (induction on the tree) |
| C113 | patterns as trees with metavariables (Spec/Patterns), the search (C93) | instances of instances are instances (mutual induction on the tree, its fields and items); then C93: every place with an instance is at or inside of a reported one |
| C114 | as C110 | what a replacement makes of a text is a function of the text (induction over the splicing); that two such functions commute, by induction on the length of the text |
| C115 | as C113 | an instance of a pattern is one in every tree with the same shape (instance_moved), at the same path; both searches are exact (C93), and both lists of places are in order |
| C116 | as C113 | an instance has the names of the pattern (mutual induction on the instance; no variable reference is inside of another); then C93 |
| C117 | as C113 | every tree of the grammar is an instance of itself; instances of instances (C113) and of the same trees (C115); then C93 |
| C118 | as C115 | an instance in one part is one at the same place of the other (C115); the match that covers it in the whole tree (C93) is inside of the part; both lists of places are in order |
| C119 | `AlsoRegexpSearcher` in `runner_from_options` and `main` (`Model/Search.lean`, `Model/Main.lean`) | equality of the searchers built from either set of options, then of the runs |
| C120 | `PragmaSuppressedSearcher` in `runner_from_options` (`Model/Search.lean`, `Model/Main.lean`) | the two searchers differ in the filter only, which is the identity if there are no disabled ranges |
| C80 | `PyTemplate.substituteMatch`, `reparseParent` | enclosing objects as prefixes of the match's path in the tree; induction on their depth |
| C17-C19 | templates | `string.Template` scanner and parsed regex template models |
| C20-C23 | `find_iter`, `_fixed_point`, `_compile_substitutions` | induction on the iteration count, searcher and parser arbitrary functions |
| C24-C26 | pragmas | `_pragma_ranges` loop; `_pragmas` token machine against a block tree; C24's rule of the latest pragma under a proviso, refuted without |
| C27-C30 | searchers | composition lemmas over arbitrary members; regular expressions with a backtracking semantics; simulation up to a shift of group numbers (C28) |
| C31 | `_sanitize_removed_stmt` | invariant over the list of removed statements; tree of suites as specification, from the tree and the matcher to the findings |
| C32-C35 | runner as a state machine over a file map | invariants over all file lists, faults and stopping points (`Crash`); C35's strong form refuted |
| C36, C58, C67-C70, C75 | argparse actions as a fold, `main`, file expansion | refinement to a grouping spec; walk of a directory tree |
| C37-C45, C74, C78 | matcher combinators | deep embedding of the matcher language with an interpreter; structural induction |
| C46, C47 | `ast_equivalent`, `_ast_pattern` | trees as an inductive type; C46 by the walk to the first difference (`AstWalk`) |
| C48, C49, C59 | metavariable renaming and patterns | freshness/injectivity invariant over the token list, `untokenize` on laid-out tokens, instances of a pattern |
| C50 | `AstNav` | tables built by traversal; inverse lemmas |
| C51 | parse cache | heap-history state machine with address reuse |
| C52 | `from_diff` | induction on the lines of the diff |
| C53 | templates that parenthesise | loop invariant, parser an oracle |
| C54, C60 | `Eval`, the registry of matchers | structural induction, call log |
| C55, C56, C61 | tree relation matchers, import table | induction on trees / import lists |
| C57 | pragma suppression with iteration | composition of C20-C24 |
| C62 | interpreter depth | monotonicity of the interpreter in its depth argument, by mutual induction |
| C63 | `_uniqueify_distinct_ast` | invariant on a store of mutable objects |
| C64 | Python search as a whole | from matches to findings, composition of the models |
| C71, C72 | `_get_matcher` of the patterns, `StmtFromFunctionPattern` | composition of C48 (on texts), C49 and C59; every error case characterised; equality of compiled matchers under renaming |
| C65, C66, C73 | fixers, registry, template checks | heap of mappings; fold over registrations |
| C76, C77 | printed output, displayed names | fold over the files; `posixpath` as functions on components |

## Findings about the code

Things the proofs turned up (theorems named `..._false` are the machine-checked ones; the others come from reading).

Command line
* `--excludefile` and `--includefile` are ignored (C75_excluded_false).
* `--no-iterate` with `--mode=fix` still iterates ten times (C58_no_iterate_false, C97_command).
* The templates of all built-in fixers are made on import: an error in one of them would end every command in mode `fix`.
* `--mode=re --iterate`: each chunk is parsed as Python; on other text the matches silently vanish.
* `--mode=re`: pragmas are never parsed, so the suppression has no effect.
* `--sub` before `--match` attaches to the first pattern; without any pattern the factory is called with None and raises.
* A lone `-` is refused as an unknown option. A file named twice is processed twice (C67_given_twice).
* The exit status is 0 whatever fails. An empty path raises ValueError and ends the run (C77_empty_false).
* `-l` lists unchanged files too (C76_listed_changed_false); the header with the file name has colour codes always.
* CR and CRLF become LF in every file that is rewritten, also outside edits (C35_line_ends_false), and with `-i` even for a
  search without substitutions. Files are truncated before they are written (C34).
* Exceptions while logging or writing end the whole run.

Substitutions and rendering
* `disjoint_substitutions` may drop a substitution that overlaps none of those kept (C11_dropped_overlaps_kept_false).
* Order matters for two insertions at one offset (C03_order_independence_false); a search-only substitution counts as an edit
  at offset 0.
* `as_diff` can duplicate or lose text (C09_diff_faithful_false, C16_round_trip_false); empty lines are elided;
  `splitlines` also splits at form feeds etc., and the colour reset then lands on the next line.
* The cycle of styles is shared by all renderers.

Searching
* The latest-pragma rule fails for nested enable/disable (C24_scope_rule_false); a dedented own-line pragma right after a
  block covers nothing (C26_own_line_rule_false); `# pylint: disable=a,b` is not recognised; of equal keys the last wins.
* Iteration re-parses a chunk without its surroundings, so pragmas outside it do not count (C57).
* Joining regexes by `|` renumbers groups and breaks back-references (C28_combined_false), and is an error if two of them have a group of the same name
  (C28_names_clash_false) or flags inside. `RegexSearcher` compiles with `re.M`, but its approximate regex is without: `^b` is found in files that the approximate regex
  does not match (C28_multiline_false). Nothing in the repository uses approximate regexes yet.
* `CombinedSearcher.parse` depends on the order of its members.
* `RegexSearcher` refuses `__message` etc. templates and string labels like '1'; a template with `\g<0>` is accepted and ends
  in a KeyError (C29_group_zero_false); a group named `__root` replaces the root.
* A RewriteError inside `find_dicts_parsed` ends the search of the file. Expression statements removed by `py.expr` can leave
  an empty suite; overlaps in nested `;` statements (C31).

Matchers
* Type dispatch in `AnyOf` hides errors (C40_skips_errors_false); type filters change the search for raising matchers
  (C39_search_same_false); an external command binds undeclared labels (C38_external_undeclared_false).
* `Glob` may refuse a sequence that splits (C42), and returns False for things that are not sequences;
  `ItemsAre([])` matches anything without items (C43_not_a_sequence_false).
* `Once` is used up by an alternative that is discarded (C44_discarded_alternative_false).
* `ast_equivalent` compares lists of nodes by identity and stops after contexts that differ (C46); `$x + $x` does not match
  `f(x) + f(x)`; the pattern `1` matches `True`; `return $x` matches `return` with x None.
* `foo.$_` and `foo.$x + $x` are accepted although an occurrence has no effect (C49); gensym names are not looked for inside
  f-strings.
* `HasComments` on a match without tokens raises TypeError; `HasFirstAncestor` raises AttributeError on conflicting bindings
  (C61_conflict_false); sibling matchers report the sibling; relations of leaves use shared identities (C55_leaf_false).
* A later import of a module under another name hides the first (C56_two_names_false); relative imports are not seen.
* The type filter of `RecursivelyWrapped` may recurse for ever. `MatchesRegex` accepts a trailing newline (`$`).
* `StmtFromFunctionPattern` ignores all statements of the function but the first, and parameters that do not occur
  (C71_rest_ignored_false, C71_unused_parameter_false).
* A metavariable that begins with `__` is refused in patterns (C72_dunder_refused), although the comment on the renaming of metavariables
  speaks of `__foo`; a Python template can therefore not use `$__root`, which a `sh` template can.

Templates and evaluation
* Template replacements below statements with bodies are not checked in their context (C53_class_base_false).
* In expressions, `AllOf(5)` and `AnyOf("a")` do not coerce their arguments as the other matchers do: `_NAryMatcher.__init__` passes by the
  converter, and the matcher raises AttributeError when it is used (C92_allof_value_false). `MaybeWrapped` and `RecursivelyWrapped` are marked safe
  to evaluate but need a Python function, so that every call is a TypeError (C92_wrapped). `HasFirstAncestor` is not marked. The message of
  `register_constant` for a name given twice has a formatting error of its own.
* An expression directly below a star (`f(*a)`) or a slice cannot be replaced by a Python template: `(*$current_expr)` is no Python, and the ValueError
  ends the search of the whole file, in mode fix too, instead of skipping the match (C99_surroundings, C99_starred_false; from Python 3.9 on). So `refex --mode=fix idiom`
  fails on a file with `f(*[a for a in b])` (C97_starred_false).
* Only the last occurrence of a repeated variable is checked; `$x + $x` with `f(y)` is refused.
* Matches that are no expressions get parentheses, so `$x` with `return 1` is refused.
* Accepted templates can meet an unbound variable: KeyError (C73_unbound_false).
* A block pattern or template without final newline gets one and keeps it.
* The rule for superfluous parentheses turns `'%(k)s' % (d)` for a mapping d into `'%(k)s' % (d,)`, which raises (C84_parens).
* A fixer's match that has no position (in an f-string, before Python 3.12) makes the search of the whole file raise ValueError (C86_unlocated).
* The second logging fixer names the function of the nearest `try`, which may be one inside the handler (C85_wrong_function_false); its new
  message is in single quotes, so a function text with a single quote gives code that does not parse.
* `f().x` in a matcher expression is a TypeError instead of a reported SyntaxError (C54); calls are made before a later
  unsupported part is refused; `-0.0` evaluates to 0.0.
* A fixer with neither a given example nor a plain pattern makes `generate_example` raise TypeError (C88_source).
* A SyntaxError with a line but no column makes the error message itself raise TypeError (C89_message_total).
* `add_module` is not atomic: what was added before the refusal stays. Two fixers sharing a mapping object report each other's
  metadata (C65_shared_mapping_false). Groups registered after import are not in '*'.
* `_uniqueify_distinct_ast` copies one level only (C63_compound_false).
* A parsed file collected between the membership test and the lookup makes `parse_ast` raise KeyError
  (C51_collected_between_false).
* In the Python modes nothing checks, when the command is given, that the variables of a template occur in the pattern: every file with a match
  then fails with KeyError; a malformed `sh` template is likewise noticed on its first use (in mode `re` both are usage errors). `--sub ''`
  with the default substitution mode of `py.expr` and `py.stmt` is a usage error, as the empty text is no expression.
* In mode `re`, `--named-sub __message=...` (and `__url`, `__category`) is refused, although the other modes allow it; so are numbers as labels
  (`--named-sub 1=x`), although groups are matched under numbers; comments that disable findings have no effect, since files are not parsed (C94_accepted,
  C94_command).
* `\g<1_0>` in a regex template refers to group 10 up to Python 3.11, and is an error as of Python 3.12 (C103_versions_differ).
