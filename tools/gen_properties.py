#!/usr/bin/env python3
"""Writes ../properties.jsonl. Not part of the proof; only keeps the list readable."""
import json, os
P=[]
def p(id,title,statement,quantifier,why,anchors):
    P.append(dict(id=id,title=title,statement=statement,quantifier=quantifier,why_tests_cant=why,anchors=anchors))
ALLTXT="the space of texts and span sets is infinite; a test fixes one text and a handful of offsets, boundary coincidences (touching, empty, nested spans) are exactly what samples miss"
p("C01","Rewriting touches only the replaced spans",
 "If apply_substitutions(data, subs) returns a string, that string is data with every span that carries a replacement cut out and its replacement put in its place, and every other character kept, in order.",
 "all texts, all finite lists of substitutions with any number of labelled spans and replacements",
 ALLTXT,["refex/formatting.py:apply_substitutions","refex/formatting.py:concatenate_replacements","refex/formatting.py:_rewrite_to_replacements","refex/formatting.py:_substitution_to_replacement"])
p("C02","Overlapping edits are refused, never silently merged",
 "apply_substitutions raises ValueError whenever two replaced spans (of one substitution or of two) overlap, and succeeds whenever the substitutions' edited regions are pairwise disjoint with distinct start offsets. (A substitution that replaces nothing counts as an empty edit at offset 0.)",
 "all texts and all finite lists of substitutions",
 "needs every pair of spans in every order; overlap detection is done between neighbours of a sort only",["refex/formatting.py:apply_substitutions","refex/formatting.py:concatenate_replacements"])
p("C03","The order in which substitutions are supplied does not matter",
 "For a fixed set of substitutions whose first edits are at different offsets, apply_substitutions gives the same outcome (same text, or ValueError) for every order in which the substitutions are listed. (Two edits at the same offset are the exception: there the order decides.)",
 "all texts, all finite lists of substitutions, all permutations of them",
 "n! orders per list; the counterexample needs an insertion at the start offset of another edit",["refex/formatting.py:apply_substitutions"])
p("C04","A Substitution object is accepted exactly when it is well formed",
 "Constructing a Substitution succeeds iff its primary label is a matched label, every replacement label is a matched label, and its category is absent or a dot-separated list of non-empty, whitespace-free components not starting with '-'.",
 "all label dictionaries and all category strings",
 "category is an arbitrary string validated by a regular expression; tests sample a few strings",["refex/substitution.py:Substitution._validate","refex/substitution.py:_CATEGORY_NAME_REGEX"])
p("C05","Relative substitutions commute with slicing",
 "sub.relative_to_span(a, b) is None iff some matched span does not lie within [a, b); otherwise applying the relative substitution to s[a:b] and splicing the result back between s[:a] and s[b:] equals applying the substitution to s (same failure behaviour too).",
 "all texts, substitutions, and offsets a <= b <= len(s)",
 ALLTXT,["refex/substitution.py:Substitution.relative_to_span","refex/formatting.py:apply_substitutions"])
p("C06","Category membership is exactly the dotted prefixes",
 "A substitution is in the root category, and in category c iff c is a non-empty prefix of its own category at component (dot) boundaries.",
 "all category strings",
 "string prefixes versus component prefixes coincide on most samples",["refex/substitution.py:Substitution.all_categories"])
p("C07","Suppression removes exactly the intersecting substitutions",
 "suppress_exclude_bytes yields, in order, exactly those substitutions whose primary span does not meet (start before the end of the other, both ways; for non-empty spans: share a character) an excluded half-open range of a category they belong to.",
 "all lists of substitutions and all maps from categories to range lists",
 ALLTXT,["refex/substitution.py:suppress_exclude_bytes","refex/substitution.py:_sub_matches_ranges"])
p("C08","Labelled spans tile the match",
 "labeled_spans(sub) yields contiguous spans in order from the smallest start to the largest end of the matched spans; a character is covered by exactly one of them, and the labels of that one are exactly the labels whose span contains the character.",
 "all substitutions whose spans satisfy start <= end",
 ALLTXT,["refex/substitution.py:labeled_spans"])
p("C09","The displayed diff reproduces the rewrite",
 "For a valid substitution with disjoint replaced spans, no replaced span ending exactly where another matched span starts: concatenating the after-sides of as_diff(sub) gives exactly the text apply_substitutions produces for the region covered by sub's matched spans, and concatenating the before-sides gives the original text of that region. For every substitution as_diff shows the matched spans in order, each with its text and its replacement if any, and the text between a span and the next. (Without the proviso text can be shown twice or not at all.)",
 "all texts and all substitutions with pairwise disjoint replaced spans",
 "failing cases need a replaced span that ends exactly where another span starts",["refex/substitution.py:as_diff","refex/formatting.py:Renderer._render_diff_block"])
p("C10","disjoint_substitutions returns a sorted, non-overlapping selection",
 "The result of disjoint_substitutions is a subsequence of the input stably sorted by primary span, its primary spans are pairwise non-overlapping in order, it is non-empty if the input is, and it is the whole sorted input when that has no overlaps.",
 "all finite lists of substitutions",
 "the invariant relates arbitrarily many neighbours",["refex/substitution.py:disjoint_substitutions"])
p("C11","A substitution is dropped only because it overlaps another one",
 "Every substitution dropped by disjoint_substitutions overlaps another one that is shorter, or as long and later in order; a substitution that overlaps no other is kept. (The one it overlaps may itself be dropped.)",
 "all finite lists of substitutions",
 "needs chains of three or more overlaps",["refex/substitution.py:disjoint_substitutions"])
p("C12","Line expansion yields whole lines",
 "line_expanded_span(s, start, end) contains [start, end), begins right after a newline or at 0, ends right before a newline or at len(s), and adds no newline: it is the smallest such span.",
 "all texts and all offsets start <= end <= len(s), also Python negative and None offsets",
 ALLTXT,["refex/formatting.py:line_expanded_span"])
p("C13","Concatenated replacements are the rewrite of their hull",
 "concatenate_replacements(s, rs) for ordered non-overlapping rs returns a single (text, start, end) such that splicing it equals splicing all of rs; it raises ValueError iff two successive ones overlap.",
 "all texts and replacement lists",ALLTXT,["refex/formatting.py:concatenate_replacements"])
p("C14","Rendering without colour loses and invents nothing",
 "With color=False, the rendered text of a sequence of spans is exactly the concatenation of their texts, and a match without replacement displayed with the default format is the full text of the lines the match touches followed by a newline.",
 "all texts and substitutions, any renderer history",
 ALLTXT,["refex/formatting.py:Renderer.render","refex/formatting.py:Renderer._render_diff_block"])
p("C15","Styles are stable over a renderer's life",
 "In one Renderer, after a label combination has been styled once, it is styled the same in every later render call; new combinations get the styles of the cycle in order, one after the other; text outside labels is never coloured by a label style.",
 "all sequences of render calls on all substitutions",
 "history property over unbounded call sequences",["refex/formatting.py:Renderer._style_for"])
p("C16","Diff lines round-trip",
 "In an uncoloured rendered diff of text without line separators other than newline, if as_diff is faithful (C09), the lines marked ' ' or '-' are the original lines touched and the lines marked ' ' or '+' are those lines after the rewrite.",
 "all texts and substitutions with replacements",
 "block splitting depends on where newlines fall relative to span borders",["refex/formatting.py:_sub_diff_blocks","refex/formatting.py:_partition_labeled_span","refex/formatting.py:Renderer.render"])
p("C17","Regex templates substitute exactly their group references",
 "A regex template reports as its variables exactly the groups it references, and substituting a mapping defined on these replaces each reference by the mapped string and leaves literal text alone; it never fails on a mapping that defines all the variables.",
 "all parsed templates and mappings","templates are arbitrary interleavings of literals and references",["refex/formatting.py:RegexTemplate","refex/formatting.py:_parse_re_template"])
p("C18","Shell templates substitute exactly $name and ${name}",
 "ShTemplate.substitute_match replaces every $name/${name} by the mapped value and $$ by $, changes nothing else, needs exactly the names in its variables, and rejects malformed templates.",
 "all template strings and mappings","arbitrary strings with arbitrary placement of '$'",["refex/formatting.py:ShTemplate"])
p("C19","Templates are applied to the right labels",
 "rewrite_templates returns a replacement for a label iff the label has a template and either is a '__' metadata label or has a matched span; the value is the template applied to the match's strings.",
 "all match dictionaries and template dictionaries","all combinations of present, absent and empty spans",["refex/formatting.py:rewrite_templates","refex/formatting.py:stringify_matches"])
p("C20","Iterated fixing is bounded and all-or-nothing per group",
 "With max_iterations n, a group is searched at most n times; the outcome is either the original substitutions, or nothing, or one substitution over the group's span whose replacement is the text after successively applying the searcher's substitutions, each intermediate text being parseable.",
 "all searchers, all texts, all groups, all iteration limits",
 "unbounded iteration over an arbitrary searcher; includes searchers that never settle",["refex/search.py:_fixed_point","refex/search.py:find_iter"])
p("C21","Fixed point really is one, or the limit was hit",
 "If iterated fixing ends before the limit, then the searcher has no further substitutions for the group in the final text, or applying them would give an unparseable text.",
 "all searchers, texts and limits","convergence property over arbitrary searchers",["refex/search.py:_fixed_point"])
p("C22","Grouping never loses, duplicates or reorders",
 "find_iter without iteration yields exactly the searcher's substitutions in order; with iteration, ungrouped substitutions (no key span) are passed through unchanged, and groups are exactly the maximal runs of equal key span.",
 "all searchers and files","run-length structure of arbitrary sequences",["refex/search.py:find_iter"])
p("C23","Merged metadata follows the significance rule",
 "When substitutions are compiled into one: the result is significant iff one of them is; if any is significant only significant messages, categories and URLs are kept; the category is one of the two markers refex.merged.significant / refex.merged.not-significant, and the URL is the common one of the kept substitutions or the generic page. The message is the only message of the kept substitutions, none if they have none, and otherwise all of them in order under a heading, each with its URL if the URLs differ.",
 "all lists of substitutions","case analysis over all multisets of metadata",["refex/search.py:_compile_substitutions"])
p("C24","Pragmas disable a category exactly within their scope",
 "The positions at which a category is suppressed are those of the 'disable' pragmas for it, each cut off at the first later 'enable' for it in its scope; what is found is dropped exactly if its primary span meets such a range. If every enable inside the scope of a disable lasts to the end of that scope, this is the rule that the latest pragma in scope at a position decides. (After an enable with a smaller scope the disable does not resume.)",
 "all sequences of pragmas with arbitrary scopes","interleavings of nested enables and disables",["refex/search.py:_pragma_excluded_ranges","refex/search.py:_pragma_ranges","refex/search.py:PragmaSuppressedSearcher"])
p("C25","Pragma comments are parsed faithfully",
 "A comment 'pylint/refex: k1=v1, k2=v2' yields a pragma with exactly these key/value pairs, duplicates resolved to the last; a comment with a malformed item, or of any other shape, yields no pragma.",
 "all comment texts","arbitrary strings",["refex/parsed_file.py:Pragma.from_text"])
p("C26","Pragma scopes follow the block structure",
 "Every recognised pragma comment in a well-formed token stream yields exactly one pragma: a comment after code covers its own physical line up to the end of the comment, a comment on its own line covers from it to the end of the block of tokens it is in. (A comment line between an indented block and the code after it is in the indented block, whatever its column.)",
 "all balanced token streams","unbounded nesting of indentation and comments",["refex/python/matcher.py:_pragmas"])
p("C27","Combined searchers are sound",
 "CombinedSearcher yields a sorted, non-overlapping selection of what its members yield, includes a path iff all members include it, and its approximate pre-filter regex matches whenever a member's does (absent if any is absent).",
 "all families of searchers and files","quantifies over arbitrary member searchers",["refex/search.py:CombinedSearcher"])
p("C28","Pre-filtering never hides a match",
 "If each searcher's approximate regex matches every file in which the searcher finds something, then so does the approximate regex of a wrapped or combined searcher, and the filtered search finds exactly what the unfiltered one finds. For combined searchers this needs that regexes with back-references by number come before any others that have groups (otherwise the groups are renumbered under the back-references, and matches are hidden), and that no two regexes have groups of the same name: given the former, the combined regex can be compiled exactly if the latter holds. The searcher for a regex keeps the promise if the regex has neither `^` nor `$`. (These are compiled with re.M, which the approximate regex is without.) The groups of a regex are numbered from 1 in the order of their opening parentheses, wherever these are, and in a combined regex a name still denotes the group that it denotes in its member.",
 "all searchers, regexes and files","quantifies over all files",["refex/search.py:AbstractSearcher.approximate_regex","refex/search.py:CombinedSearcher","refex/search.py:RegexSearcher","refex/search.py:default_compile_regex"])
p("C29","Regex search results carry exactly the participating groups",
 "For each regex match, the resulting substitution has a span for the whole match and for each group that participated, and rewriting with a template accepted by the constructor never fails with an internal error, if no template is for or mentions group 0 by number and no group name starts with __. (Templates that mention group 0 by number are accepted, and then fail.)",
 "all regexes, texts, templates","needs optional groups and group 0 in templates",["refex/search.py:RegexSearcher"])
p("C30","Metadata templates never become edits",
 "find_iter_parsed turns __message/__url/__category/__significant replacements into metadata, never into edits; a rewrite error drops only that match; all other matches are reported in order.",
 "all match sequences","arbitrary match sequences with failures at arbitrary positions",["refex/search.py:BaseRewritingSearcher.find_iter_parsed"])
p("C31","Removing statements never leaves an empty block",
"When statements of a suite are removed by empty replacement in source order (as in any search whose template for the whole match is empty), the edits cover the removed statements and no others, do not overlap (across nested suites: unless a suite inside a statement ends in ';'), and the rewritten suite still contains a statement (the last edit puts in pass) unless it is the module body. Both provisos are needed.",
"all files, matchers, suites and all subsets of removed statements","2^n subsets",
["refex/search.py:BasePythonRewritingSearcher._sanitize_removed_stmt","refex/search.py:BasePythonRewritingSearcher.find_dicts_parsed"])
p("C32","Dry run never writes",
 "With dry_run set, rewrite_files performs no write to any file, whatever is found and whatever fails; without it, only files with at least one substitution are written.",
 "all file systems, searchers, failures","all execution histories",["refex/cli.py:RefexRunner.rewrite_files","refex/cli.py:RefexRunner.write"])
p("C33","A failing file does not stop or disturb the others",
 "An exception while searching one file is recorded under that file and all other files are processed as if it were not in the list.",
 "all file lists and all failure patterns","2^n failure patterns",["refex/cli.py:RefexRunner.get_matches","refex/cli.py:RefexRunner.rewrite_files"])
p("C34","At most the file being written is left incomplete",
 "After rewrite_files (on different files, in place) returns, raises or is interrupted at any point, every file's content is either its original content or the fully rewritten content, except for the one file last begun to be written to and files for which the operating system reported a write error: these may have only the first bytes of the rewritten content, or none. If the run comes to its end and everything found could be applied and written, there is no exception.",
 "all file systems, searchers, crash points","crash points and overlapping edits",["refex/cli.py:RefexRunner.write"])
p("C35","Line endings outside edits are preserved",
 "A rewrite changes the text of a file only by splicing in the edits: for files without carriage returns every byte outside the edited spans is preserved; for all files the new text is the old text with CR and CRLF read as LF, with the edits spliced in.",
 "all file contents","all byte contents; needs CR or CRLF",["refex/cli.py:UnicodeCodec","refex/cli.py:RefexRunner.read","refex/cli.py:RefexRunner.write"])
p("C36","Command-line matchers and substitutions pair up",
 "Each --sub or --named-sub belongs to the last --match before it (to the first pattern if there is none before it); two --sub for one pattern, --sub together with --named-sub, repeated or malformed --named-sub are rejected; everything else is accepted, with one search per pattern, in order. The positional argument is the pattern exactly if there is no --match.",
 "all argument sequences","all interleavings of options",["refex/cli.py:_AddMatch","refex/cli.py:_AddSub","refex/cli.py:_AddNamedSub"])
p("C37","Binding merges are deterministic",
 "Merging binding dictionaries gives the same outcome whatever the iteration order of sets and dictionaries; merging with the empty dictionary changes nothing; unconflicting keys keep their values; an error beats a skip.",
 "all pairs of binding dictionaries, all iteration orders","set iteration order varies between runs",["refex/python/matcher.py:merge_bindings","refex/python/matcher.py:BindConflict"])
p("C38","Matchers only bind the variables they declare",
 "Every label bound by a successful match is in the matcher's bind_variables, for matchers without external commands (which bind one label per edit and declare none).",
 "all matcher expressions, all candidates","unbounded nesting of combinators",["refex/python/matcher.py:accumulating_matcher","refex/python/matchers/base_matchers.py","refex/python/matchers/syntax_matchers.py"])
p("C39","Type filters are sound",
 "If a matcher's type_filter is not None and the candidate's type is not in it, the matcher does not match the candidate; so skipping by type_filter does not change what a search finds, if the matcher raises nothing on the objects excluded. (A MatchError that would end the search is hidden.)",
 "all matcher expressions, all candidates","unbounded nesting of combinators",["refex/python/matcher.py:Matcher.type_filter","refex/python/matchers/base_matchers.py:AllOf","refex/python/matchers/base_matchers.py:AnyOf"])
p("C40","AnyOf returns the first match",
 "If AnyOf(m1..mn) matches, its result is that of the first mi that matches, those before it not matching, although dispatch is by candidate type; and if no mi raises (or uses Once) on the candidate, it matches iff some mi matches. (An alternative whose type filter excludes the candidate is not asked, so that its error is hidden.)",
 "all matcher lists, all candidates","type-indexed dispatch tables over arbitrary filters",["refex/python/matchers/base_matchers.py:AnyOf"])
p("C41","AllOf matches iff all conditions do and bindings agree",
 "AllOf(m1..mn) matches iff every mi matches the candidate and their bindings merge; the result is the candidate itself with the merged bindings and replacements; Unless(m) matches iff m does not and binds nothing.",
 "all matcher lists, all candidates","arbitrary nesting",["refex/python/matchers/base_matchers.py:AllOf","refex/python/matchers/base_matchers.py:Unless"])
p("C42","Glob matches by splitting",
 "Glob([..]) with item matchers that bind nothing matches every sequence that can be split so that fixed matchers match consecutive elements and stars match the gaps; without a star, with a star at the end or with one star and no fewer elements than fixed matchers, it matches nothing else. What it accepts in general is: the fixed matchers up to the last star match as such a split says, and those after it match the last elements. (The two may overlap; bindings are not tried again; something that is not a sequence is accepted.) Whatever the item matchers are, if Glob matches then the fixed matchers matched elements in this way, and its bindings are those of these matches, merged.",
 "all glob patterns and sequences","many ways to split; greedy algorithm",["refex/python/matchers/base_matchers.py:Glob"])
p("C43","ItemsAre matches exactly same-length sequences element-wise",
 "ItemsAre(ms), on a sequence or with ms not empty, matches c iff c is a sequence with as many elements as ms and each matcher matches its element, with bindings that merge. (ItemsAre([]) also matches things that are not sequences.)",
 "all matcher lists, all candidates","all lengths",["refex/python/matchers/base_matchers.py:ItemsAre"])
p("C44","Once runs its submatcher to success at most once per file",
 "Over any sequence of match attempts in one file, a Once matcher fails while its submatcher fails, passes on the bindings of the submatcher's first success, and from then on always matches, without running the submatcher and without bindings; match attempts that fail as a whole do not use it up; a new context starts afresh.",
 "all sequences of attempts, all contexts","history property",["refex/python/matchers/base_matchers.py:Once","refex/python/matcher.py:MatchContext"])
p("C45","Search reports the outermost matches in document order",
 "find_iter over a tree yields exactly the matching nodes with no matching (or failing) ancestor, in document (pre-)order, never two of which nest.",
 "all trees and all matchers","unbounded trees",["refex/python/matcher.py:find_iter"])
p("C46","Two pieces of code count as the same by their first difference",
"When a metavariable occurs twice in a pattern, the two pieces of code it is bound to count as the same exactly when they are the same object, or a left-to-right walk through the fields of the two syntax trees finds no difference, or the first difference it finds is between two expression contexts (load, store, delete). The walk descends into nodes of the same type; everything that is not a node (constants and lists) is compared with Python's ==. So for code without lists of nodes inside and with the same contexts the outcome is structural equality, and code that is structurally equal up to contexts always counts as the same if it has no lists of nodes.",
"all pairs of syntax trees",
"trees of any size and shape; equality is an iff over all pairs",
["refex/python/matcher.py:ast_equivalent","refex/python/matcher.py:BoundValue / MatchInfo bindings (ast_equivalent at line 596)"])
p("C47","A literal pattern matches exactly equal trees",
 "The matcher built from a parsed tree without metavariables matches a tree iff they have the same structure, ignoring positions and name contexts, with leaves that are equal in Python's sense (1 == True == 1.0); it binds nothing.",
 "all pairs of trees","pairs of arbitrary trees",["refex/python/matchers/syntax_matchers.py:_ast_pattern"])
p("C48","Metavariable renaming is consistent and capture-free",
 "Replacing $x metavariables in a pattern by generated identifiers maps equal variables to equal identifiers and different ones (and different occurrences of $_) to different identifiers, none of which is another token of the pattern; everything else in the text of the pattern is preserved, character by character, if there are only spaces between its tokens. (A name inside a token, such as an f-string that is one token, may be captured.)",
 "all patterns","freshness against arbitrary source text",["refex/python/matchers/syntax_matchers.py:_remap_macro_variables","refex/python/python_pattern.py:token_pattern"])
p("C49","Every metavariable occurrence is checked",
 "A pattern is accepted at construction iff every named metavariable stands somewhere in it as a variable reference. (Other occurrences of it, and $_, may stand elsewhere, where the generated name is taken literally.)",
 "all patterns","occurrence combinations",["refex/python/matchers/syntax_matchers.py:_verify_variables"])
p("C50","Navigation is inverse and complete",
 "For every node other than the root, the parent reported has the node among its children, siblings reported are neighbours in the same list, and next/previous are inverse.",
 "all trees","unbounded trees",["refex/python/matcher.py:AstNav"])
p("C51","The parse cache never returns another text's tree",
 "The parse of a text returned from the cache is the parse of that very text, over every history of allocations, parses and garbage collections.",
 "all heap histories","object identities are reused by the runtime",["refex/python/matcher.py:parse_ast"])
p("C52","Minimal edits reproduce the rewritten string",
 "from_diff yields replacements which, applied to the original, give the new string, for every correct edit script; spans are in order and disjoint.",
 "all string pairs and edit scripts","edit scripts come from difflib",["refex/python/matcher.py:MatchInfo.from_diff"])
p("C53","Python template substitution preserves structure or refuses",
 "A Python template substitution returns text only if the text parses to the template's tree with the matched trees in place of variables (of a repeated variable: the last occurrence, the others being equivalent to it), and is the template's text with the matched text, possibly in parentheses, for each $variable and nothing else changed (for templates with only spaces between tokens); otherwise RewriteError is raised; the loop terminates.",
 "all templates, matches, parsers","precedence interactions of arbitrary expressions",["refex/python/syntactic_template.py:_BasePythonTemplate._parenthesized"])
p("C54","Evaluating matcher expressions calls only whitelisted functions",
 "Evaluating a user-supplied matcher expression calls only callables provided in the namespace, evaluates each literal to its Python value, returns a value only for supported syntax with known names, and does not refuse supported syntax. (The error for unsupported syntax is not always SyntaxError, and calls to the left of it have been made.)",
 "all expression trees and namespaces","unbounded expressions",["refex/python/semiliteral_eval.py:Eval"])
p("C55","Ancestor and descendant matchers quantify correctly",
 "HasAncestor/IsOrHasAncestor/HasDescendant/IsOrHasDescendant/HasChild/HasParent match iff the corresponding relation of the tree contains a node the inner matcher accepts.",
 "all trees, nodes and inner matchers","unbounded trees",["refex/python/matchers/syntax_matchers.py"])
p("C56","Import detection reports exactly the reachable module names",
 "WithTopLevelImport behaves like the matcher in it iff the last top-level import of the requested module binds it to the requested name, and otherwise does not match; so, for files that import no module under two names, iff some top-level import binds the module to the name. (Relative imports are not seen.)",
 "all import lists","arbitrary alias combinations",["refex/python/matchers/syntax_matchers.py:_top_level_imports","refex/python/matchers/syntax_matchers.py:WithTopLevelImport"])
p("C57","Disabled findings are not applied, and iteration stays inside enabled ones",
 "With pragmas honoured and without iteration, exactly the findings that no pragma of the file disables where they are get reported and applied. With iteration, whatever the limit, every reported result is such a finding, or a merged result that replaces exactly the key span of such a finding; every later finding merged into it was reported for a rewritten piece of code in which no pragma of that piece disables it. A file all of whose findings are disabled is left alone. (Pragmas outside of the piece do not count when it is searched again, so a disabled category may be applied inside of it.)",
 "all searchers, files, pragmas, and iteration limits",
 "the number of rounds is unbounded, and a violation needs a fix that creates, in its second iteration, a match of a category disabled by a pragma outside the re-parsed chunk",
 ["refex/search.py:PragmaSuppressedSearcher","refex/search.py:_fixed_point","refex/search.py:find_iter"])
p("C58","--no-iterate turns iteration off",
 "With --no-iterate a search is never re-applied to its own output, in every mode but fix (where it is re-applied 10 times); with --iterate=N it is re-applied at most N times.",
 "all modes and option values","tests exercise one mode; the defect is in another",["refex/cli.py:argument_parser","refex/cli.py:runner_from_options"])
p("C59","A pattern with metavariables matches exactly its instances",
 "The matcher built from a pattern with metavariables matches a tree only if the tree is the pattern with some (allowed) code, or nothing where the grammar lets it be absent, in the place of every metavariable, the codes for the same name being equivalent in the sense of ast_equivalent; each name is bound to the code that stands for it (its last occurrence). It matches if the occurrences of a name are all equivalent to each other; for names that occur at most twice this is exact. (Restrictions are taken to bind nothing themselves.)",
 "all pattern trees, restrictions and candidate trees","arbitrary trees, repeated variables anywhere",["refex/python/matchers/syntax_matchers.py:_ast_pattern","refex/python/matchers/syntax_matchers.py:_rewrite_submatchers","refex/python/matcher.py:merge_bindings"])
p("C60","Registering matchers adds only safe classes and overwrites nothing unasked",
 "add_module makes exactly the module's classes that are marked safe available to user expressions, under the bare and the qualified name; without overwrite no earlier registration changes; it refuses only a class both of whose names are taken.",
 "all registries and modules","arbitrary name collisions",["refex/python/evaluate.py:add_module"])
p("C61","First ancestor and sibling matchers look at the right object",
 "HasFirstAncestor(first, also) matches iff some object containing the candidate is accepted by first and the nearest such object is accepted by also with bindings that merge, reporting the candidate (AttributeError if the bindings are in conflict); HasPrevSibling/HasNextSibling match iff the neighbour in the list the candidate is in exists (and is truthy) and is accepted, reporting what the inner matcher reports.",
 "all trees, candidates and inner matchers","unbounded trees, arbitrary bindings of the two matchers",["refex/python/matchers/syntax_matchers.py:HasFirstAncestor","refex/python/matchers/syntax_matchers.py:HasPrevSibling","refex/python/matchers/syntax_matchers.py:HasNextSibling"])
p("C62","The outcome of a match does not depend on the recursion limit",
 "Matching a candidate gives the same result whatever Python's recursion limit, except that with too low a limit it raises RecursionError: no match is silently lost or changed for want of depth.",
 "all matchers, candidates, contexts and limits","every pair of limits and every nesting of matchers",["refex/python/matcher.py:Matcher.match","refex/python/matchers/base_matchers.py"])
p("C63","Every node of a parsed file has an identity of its own",
 "After parsing, no node or list of the tree stands in two places, although CPython's parser shares objects such as Load(): parents, siblings and positions asked of a node are those of the place where it was found. Apart from identities the tree is the one that was parsed.",
 "all parsed trees and all ways in which the parser may share nodes","every tree and every pattern of sharing; the transformation mutates the tree while it walks it",["refex/python/matcher.py:_uniqueify_distinct_ast","refex/python/matcher.py:parse_ast"])
p("C64","A Python search reports the right text, edits and metadata for each match",
 "PyExprRewritingSearcher and the like report, for each outermost match in order: the span of the match and of everything bound, the text that the template of each label gives when that label has a place in the file, and the message, url, category and significance that the templates for these give, and the part of the file (directly in the nearest body) that the match belongs to; a match is left out exactly when one of its templates refuses it.",
 "all files, matchers, templates and bindings","every combination of bound and unbound labels, templates that fail and removed statements",["refex/search.py:BasePythonRewritingSearcher","refex/search.py:PyExprRewritingSearcher","refex/python/matcher.py:find_iter"])
p("C65","Combined fixers each report with their own message and templates",
 "CombiningPythonFixer of fixers that do not share a replacement mapping reports the outermost places where some fixer's matcher matches; each finding is that of the first fixer that matches there, with its own templates, message, url, category and significance. It is refused at construction exactly when some fixer has templates that mention what its matcher cannot bind, or a matcher that may match any type of node. (The mapping is changed in place: of two fixers that share one, the later one's message is reported for both.)",
 "all lists of fixers, files and mappings of templates","arbitrary lists of fixers; the defect needs two fixers that were given the same mapping",["refex/fix/fixer.py:CombiningPythonFixer","refex/fix/fixer.py:SimplePythonFixer"])
p("C66","The registry of fixers",
 "After any history of register_fixers and register_default_fixers, from_pattern('*') combines the built-in groups in order and then the fixers added as defaults; a name gives the fixers first registered under it (built-in names cannot be replaced); any other pattern raises ValueError, as does registering a taken name.",
 "all histories of registrations","every history",["refex/fix/find_fixer.py:register_fixers","refex/fix/find_fixer.py:register_default_fixers","refex/fix/find_fixer.py:from_pattern"])
p("C73","Templates are checked against the matcher they are attached to",
 "WithReplacements accepts templates exactly when each label that has a template, and each variable a template mentions, is one that the matcher may bind or a reserved label. (Such a label need not be bound by every match; where it is not, the search ends in a KeyError.)",
 "all matchers and templates","arbitrary matchers: the defect needs an alternative that binds less than another",["refex/python/matchers/base_matchers.py:WithReplacements"])
p("C74","Each elementary matcher accepts what its documentation says",
 "Anything, Equals, TypeIs, InLines, MatchesRegex, FileMatchesRegex, HasItem, Contains, the matchers for AST nodes and constants, Bind, Rebind, WithReplacements, HasComments/NoComments and RecursivelyWrapped each match exactly the candidates their documentation describes, report the candidate with its place in the file if it has one, and bind exactly the names they say.",
 "all candidates, contexts, inner matchers and parameters","arbitrary candidates and inner matchers",["refex/python/matchers/base_matchers.py","refex/python/matchers/ast_matchers.py","refex/python/matcher.py:create_match"])
p("C67","The files processed are those named and those below named directories",
 "Without -R the named paths are processed, in order. With -R a named directory stands for all files in it and below it, at any depth, each exactly once, those directly in a directory before those in its subdirectories; symbolic links to directories are not followed and unreadable directories are passed over; other named paths are processed themselves. Every file is written where it was read. A path is processed once for each named path that leads to it.",
 "all directory trees and argument lists","trees of any depth and any names",["refex/cli.py:files_from_options","refex/cli.py:run"])
p("C68","Words that are not options are files, unknown options are refused",
 "Among the arguments that are not options or their values, those before the first `--` that do not begin with '-' and all after it are taken in order; the command line is refused iff one before it begins with '-'.",
 "all argument lists","arbitrary lists",["refex/cli.py:_parse_args_leftovers"])
p("C69","The command line decides what is searched for, what is filtered out and whether files are written",
 "A usage error is reported iff for the first pattern that cannot be used a template does not parse in the substitution syntax in effect or the mode refuses the pattern; otherwise the searchers of all patterns run together, in files that satisfy every --also and no --noalso, without what pragmas disable unless --force-enable. Without --in-place nothing is written; with it only files named or, with -R, below named directories, and only those in which something was found.",
 "all option values, modes, searchers, files and failures","every combination of options with every searcher",["refex/cli.py:runner_from_options","refex/cli.py:_get_sub_parser","refex/cli.py:_parse_templates","refex/cli.py:run_cli"])
p("C70","Failures are reported completely",
 "A run that is not ended by an exception reports exactly the files that could be read but whose search failed, each once, with the right count, and nothing if there are none. The exit status is 2 for a usage error, 1 if an exception escapes and otherwise 0, even if files failed.",
 "all runs","arbitrary files, searchers and faults",["refex/cli.py:report_failures","refex/cli.py:RefexRunner.rewrite_files","refex/cli.py:run"])
p("C75","Files can be left out by name",
 "A searcher with an include_regex searches exactly the files in whose path the expression is found. The options --excludefile and --includefile do not change what is processed (they are declared and never read).",
 "all paths, expressions and options","all file names; the defect is that no code reads the two options",["refex/search.py:FileRegexFilteredSearcher","refex/cli.py:_add_rewriter_arguments"])
p("C76","The output lists the matches, file by file",
 "A run that ends normally, and does not read a file after writing it, prints, for each file in the order given and only if something was found in it: with -l its name (also if it is left unchanged); otherwise (under a header with the name if names are wanted) the display of each match in order, with a separator after each diff that is followed by another display. At the end comes the dry-run note iff it is a dry run with diffs shown and some match comes with replacements.",
 "all file systems, searchers, styles and display options","every combination of files, matches and rendering state",["refex/cli.py:RefexRunner.log_changes","refex/cli.py:RefexRunner.rewrite_files","refex/formatting.py:diff_substitutions"])
p("C77","The name shown for a file denotes the file",
 "For every non-empty path and current directory, the name shown (and given to the searcher) leads to the same place as the path, as far as names tell, and is never longer than the path or its absolute or relative form.",
 "all paths and current directories","all spellings of paths: '.', '..', repeated slashes",["refex/cli.py:_shorten_path"])
p("C78","A match is of the object that was matched",
"Whatever a matcher looks at to decide (children, parents, items, ancestors), what it reports when it accepts an object is that object: its text, its span, itself under Bind. A search reports for each place the object at that place. The exceptions are HasPrevSibling/HasNextSibling (the sibling), StringMatch and FileMatchesRegex, and matchers that pass on the match of one of these.",
"all matchers, objects, files and recursion depths","unboundedly many matcher expressions",
["refex/python/matcher.py:create_match","refex/python/matcher.py:Matcher.match","refex/python/matchers/base_matchers.py"])

p("C79","Colour only decorates",
 "Over the life of a renderer, if the text and the replacements have no line breaks but newlines and the match format passes the match on, each display with colour is the display without colour in which pieces of lines stand between a style sequence and the reset sequence: nothing else is added, lost or reordered, and no style is left on at the end of a line.",
 "all sequences of render calls, all texts, substitutions and palettes of escape sequences",
 "every combination of labels, diffs over lines and renderer history",["refex/formatting.py:Renderer.render","refex/formatting.py:Renderer._style","refex/formatting.py:Renderer._render_diff_block"])
p("C71","A pattern made from a function is the statement pattern with its parameters as metavariables",
 "StmtFromFunctionPattern accepts a function whose source parses iff there is a first statement after the docstring, it is not `pass`, and the names of the parameters can be bound (ASCII start, not beginning with two underscores); anything else is a ValueError (for source that is no function definition, such as a lambda's, an AttributeError: a finding). The matcher finds the instances of that statement in which the parameters, and nothing else, stand for anything, and does on every candidate what the statement pattern does in which each parameter is a metavariable. (Statements after the first are ignored without notice, as are parameters that are not used; `_` is not anonymous.)",
 "all functions (parameters and source trees), all candidates","arbitrary functions and candidates",["refex/python/matchers/syntax_matchers.py:StmtFromFunctionPattern"])
p("C72","Which patterns are accepted, and what an accepted pattern matches",
 "ExprPattern, StmtPattern and ModulePattern raise ValueError iff a `$` does not stand right before an identifier, a metavariable begins with two underscores, the pattern with its metavariables replaced by new names does not parse, a named metavariable is no variable of the parsed pattern, or it is not the one expression or statement; KeyError iff a restriction is for no named metavariable (this is found out before parsing). Otherwise the pattern matches the instances of the parsed pattern, and each match binds exactly its named metavariables. The order in which Python iterates a set does not matter to this.",
 "all pattern texts laid out with spaces, all restrictions, all parsers whose trees are Python trees, all candidates","arbitrary pattern texts and candidates",["refex/python/matchers/syntax_matchers.py:_BaseAstPattern","refex/python/matchers/syntax_matchers.py:ExprPattern","refex/python/matchers/syntax_matchers.py:StmtPattern","refex/python/matchers/syntax_matchers.py:ModulePattern"])
p("C80","A replacement is checked against the nearest enclosing expression or statement",
 "When a Python template rewrites an expression in a parsed Python file, the text is inserted as the template makes it only if the expression is a statement by itself, or no expression or statement with a known place in the text lies between it and the nearest enclosing statement with a body. Otherwise it is checked against the nearest enclosing expression or statement: with the replacement (as it is or in parentheses) in the place of the match, the text of that enclosing code parses, to its own tree with the replacement's tree in the place of the match.",
 "All files, all matched expressions at any depth, all templates and bindings.",
 "Which enclosing object is used depends on the whole chain of ancestors and on which of them have known places.",
 ["refex/python/syntactic_template.py:PythonTemplate.substitute_match","refex/python/matcher.py:create_match"])

p("C81","The built-in rules find the code they show and put in its place the code they show",
 "Each of the built-in rewriting rules for assertions, negated comparisons, comprehensions and naive datetimes, identity comparisons with literals, yaml.load, superfluous parentheses and mutable constants matches an object of a Python file iff it is the code of the rule with some expression for each metavariable (what the rule restricts it to: a literal, a name or attribute, an upper-case name, a set; and with `yaml` imported at top level under its own name, or the text ending in a parenthesis, where the rule asks for it; equivalent ones for a repeated metavariable; numbers compared by ==, so `self.assertLen(x, False)` counts as `self.assertLen(x, 0)`). What is put in its place, if the template accepts the match, is text that parses to the new code of the rule, with the same expression for each metavariable.",
 "all rules, all candidate trees, all recursion depths that suffice, all replacements","arbitrary expressions may stand for the metavariables",["refex/fix/fixers/unittest_fixers.py:SIMPLE_PYTHON_FIXERS","refex/fix/fixers/idiom_fixers.py:SIMPLE_PYTHON_FIXERS","refex/fix/fixers/correctness_fixers.py:SIMPLE_PYTHON_FIXERS"])
p("C82","The built-in rules keep what the code does",
 "An assertion that a rule puts in the place of another succeeds exactly when the original does, whenever the values of the arguments are the same, and evaluates them in the same order (`is not`/`not in` being the negations of `is`/`in`, and assertItemsEqual the same check as assertCountEqual). A rule for negated comparisons gives an expression with the same truth value. `[x for x in e]` and `list(e)`, `{x for x in e}` and `set(e)` have the same value, if the target is a name.",
 "all rules of unittest_fixers and idiom_fixers (but those for constants), all worlds of objects, all trees that are instances of the code","arbitrary values and expressions",["refex/fix/fixers/unittest_fixers.py:SIMPLE_PYTHON_FIXERS","refex/fix/fixers/idiom_fixers.py:SIMPLE_PYTHON_FIXERS"])

p("C83","The built-in groups of fixers can be used, and say what they do",
 "from_pattern with `*`, `correctness`, `idiom` or `unittest` gives fixers that can be combined without an error: every label and variable in the templates of each is one that its matcher binds, each knows which types of nodes it can match, and no two share a mapping. Every fixer has a message, a URL and a category; the messages of the rules for assertions and idioms show the old and the new code, with `...` for each metavariable, and the URL is about the assertion that is recommended.",
 "all names for metavariables that are distinct and new, all recursion depths that suffice, all fixers","the fixers are built at run time from patterns and templates; an error in any makes the group unusable",["refex/fix/find_fixer.py:from_pattern","refex/fix/fixer.py:CombiningPythonFixer","refex/fix/fixers/correctness_fixers.py","refex/fix/fixers/idiom_fixers.py","refex/fix/fixers/unittest_fixers.py"])

p("C84","The other built-in rules change what they say and nothing else",
 "A comparison with a literal by identity becomes the comparison of the same values by equality, negated iff it was; the assignment of a set to a constant becomes the assignment of the frozen set with the same elements to it; yaml.load and load_all become their safe_ variants, with the same argument; a call that gives a naive UTC datetime becomes one that gives the same datetime with the time zone UTC; `text % (x)` becomes `text % (x,)`, which is the same text unless the value of x is a tuple or a mapping (for a mapping the keys are no longer looked up: a finding).",
 "all rules of correctness_fixers and those for constants, all values, all trees that are instances of the code","arbitrary values and expressions",["refex/fix/fixers/correctness_fixers.py:SIMPLE_PYTHON_FIXERS","refex/fix/fixers/idiom_fixers.py:_mutable_constant_fixer"])

p("C85","The fixers for attr.ib and logging find what they describe, and nothing else",
 "A fixer for a mutable default accepts exactly the calls of attr.ib that have a keyword argument default= with exactly that value, wherever it stands, and replaces the first such argument, and nothing else, by factory=list (dict, set). The first logging fixer accepts exactly the calls of logging.error without exc_info= that have the name of the exception of the nearest handler around among their positional arguments, and replaces the function called, not the arguments. The second accepts exactly the statements logging.exception(e), e being the exception of the nearest handler, for which the body of the nearest try around is a single statement that calls a function and has no double quote inside, and names that function (which need not be the one that failed: a finding).",
 "all trees, positions in them, arguments, handlers and enclosing statements","arbitrary trees and nesting",["refex/fix/fixers/correctness_fixers.py:_attrib_mutable_default_fixer","refex/fix/fixers/idiom_fixers.py:_in_exception_handler","refex/fix/fixers/idiom_fixers.py:_LOGGING_FIXERS"])

p("C86","A search with the built-in fixers reports exactly the outermost places where one applies, for the first that applies",
 "Searching a Python file with a built-in group of fixers (or all of them) raises no exception while matching, and reports, from left to right, exactly the outermost places where some fixer of the group applies (in the sense of C81 and C85): nothing that a fixer describes is missed unless it lies inside another reported place, and nothing else is reported. Each report is made by the first fixer of the group that applies there, with the parts of the code that it is about, its own templates, message, url, category and significance. No exception is raised if all nodes have positions in the text and the templates raise nothing but RewriteError (a match without position does raise: a finding).",
 "all files (trees, texts, token positions), all four groups, all templates with the variables of their texts","arbitrary files, nesting and overlaps of fixers",["refex/fix/find_fixer.py:from_pattern","refex/fix/fixer.py:CombiningPythonFixer","refex/fix/fixers/correctness_fixers.py","refex/fix/fixers/idiom_fixers.py","refex/fix/fixers/unittest_fixers.py","refex/search.py:PyExprRewritingSearcher"])

p("C87","Applying the built-in fixers again and again comes to an end",
 "Applying any of the built-in fixers, one after the other, at any place where it applies and in any order, comes to an end: a file whose syntax tree has n objects can be fixed at most 2n times in a row, after which no fixer applies. In particular no two fixers undo each other, and no fixer applies to its own output for ever.",
 "all files, all orders in which fixers are applied, all places","arbitrary sequences of rewrites",["refex/fix/fixer.py:SimplePythonFixer","refex/fix/fixers/correctness_fixers.py","refex/fix/fixers/idiom_fixers.py","refex/fix/fixers/unittest_fixers.py"])

p("C88","The examples of a fixer are found and fixed by it",
 "Asked for an example, a fixer that was given one returns it; otherwise, if its matcher is an unrestricted pattern, the example is the pattern with `x` written for each `$x` (and `$` for `$$`), and the example replacement is the template likewise; otherwise there is none. Wherever the tree of such an example stands in a file, the fixer's pattern matches it, binding `$x` to the name `x`, and the replacement that is made parses to the tree of the example replacement. The generated example file is two comments and the examples of all registered fixers, each followed by a newline; it can be generated exactly if every fixer has an example, which the built-in ones do.",
 "all patterns and templates, all example texts, all files the example stands in, all lists of fixers","arbitrary pattern texts, trees and lists of fixers",["refex/fix/fixer.py:SimplePythonFixer","refex/fix/fixer.py:example_fragment","refex/fix/fixer.py:example_replacement","refex/fix/generate_example.py:example_source"])

p("C89","The layout of a matcher expression does not matter, and errors in it are shown at their place",
 "A matcher expression given as text means the same when all its lines are indented further by the same spaces and tabs, and when blank lines stand before or after it. If it cannot be parsed or evaluated for a syntax error, ValueError is raised, with a message that contains the reason, for an expression of several lines all of its lines, and the line with the error with a caret exactly below the column of the error, all indented by four spaces; if the place is not known the message shows the expression. Errors raised by the functions that are called pass unchanged.",
 "all texts, all indentations, all syntax errors","arbitrary texts and error positions",["refex/python/evaluate.py:compile_matcher","refex/python/error_strings.py:user_syntax_error"])

p("C90","The error dump is complete and reproduces the failures",
 "If files failed, the report names on stderr (with --verbose) every failing file with its traceback, the number of failures and the dump; without failures nothing is written. The dump is printable ASCII whatever the files, arguments and messages contain, and loading it gives back exactly the failures, the arguments and the version. rxerr_debug, given the dump, shows a command which a POSIX shell splits into exactly the arguments of the failed run, and for each failure in order the file name, the traceback and the name of a file which holds exactly the content that failed.",
 "all sets of failures, all file contents, tracebacks and arguments","arbitrary Unicode texts, quotes and control characters",["refex/cli.py:report_failures","refex/rxerr_debug.py:main"])

p("C91","Function matchers look at named functions only, and at the innermost one",
 "NamedFunctionDefinition(body, returns) matches a `def` or `async def` statement and nothing else (no lambda), iff the one matcher accepts its body and the other its return annotation, with the bindings of both. InNamedFunction(m) matches iff the innermost such statement around the candidate exists and is accepted by m (classes and lambdas in between do not count, and neither does the candidate itself), with the bindings m makes.",
 "all trees, positions, matchers for body, annotation and function","arbitrary trees and nesting",["refex/python/matchers/syntax_matchers.py:NamedFunctionDefinition","refex/python/matchers/syntax_matchers.py:InNamedFunction"])

p("C92","A matcher expression makes the matchers it names",
 "In a matcher expression, a call of a matcher class (by its name, or behind its module) takes its arguments by Python's calling convention; the parameters, and which must be given, are those of the class; the matchers for nodes of the syntax tree take their fields, by name only. Where a matcher is expected, a matcher stands for itself, any other value for what is equal to it, and nothing for anything (except in AllOf and AnyOf, which take matchers only). The value is the matcher with exactly these parts, a new object for each call, inner calls first; `_` is Anything(), and the strategies of Bind are available by name. Arguments that cannot be passed are a TypeError, names and strategies Bind does not allow a ValueError. MaybeWrapped and RecursivelyWrapped cannot be used in expressions.",
 "all expressions, all classes, all positional and keyword arguments, all objects there are","arbitrary nesting of calls and arguments",["refex/python/evaluate.py:compile_matcher","refex/python/matcher.py:coerce","refex/python/matcher.py:submatcher_attrib","refex/python/matcher.py:register_constant","refex/python/matchers/base_matchers.py","refex/python/matchers/ast_matchers.py","refex/python/matchers/syntax_matchers.py","refex/python/matchers/lexical_matchers.py"])

p("C93","A search for a Python pattern from the command line, from the texts to the edits",
 "`--mode=py.expr` (or `py.stmt`) with a pattern and templates: the pattern is the Python expression (statement) written, with its metavariables. In every file, the reports are those of the outermost instances of the pattern in document order, in which the occurrences of a metavariable are equivalent; labels stand for the instance and for the last occurrence of each metavariable. Every report has the spans of the labels and exactly the texts the templates give, at their labels (an instance whose templates refuse it has no report). What a Python template gives is its own text, character by character, with each `$x` replaced by the source of what `$x` stands for, possibly in parentheses, and it parses to the tree of the template with the trees of the expressions that were matched. Results are exactly those of the files satisfying --also and --noalso, except what pragmas disable, and a file that is rewritten is changed exactly by these edits.",
 "all command lines in these modes, all pattern and template texts, all files, all trees","arbitrary texts and trees, from end to end",["refex/cli.py:_SEARCH_MODES","refex/cli.py:_SUB_MODES","refex/search.py:PyExprRewritingSearcher","refex/search.py:PyStmtRewritingSearcher","refex/python/syntactic_template.py:PythonExprTemplate"])

p("C94","In mode re, a substitution is re.sub",
 "`--mode=re PATTERN --sub=TEMPLATE` (and `--named-sub`) is accepted iff the regex compiles, the labels are names of its groups and the templates refer to its groups only; anything else is a usage error. In every file satisfying --also and --noalso, exactly the matches of the regex are reported, in order, each with the spans of the groups that take part, by name and number, and with the expanded template at every label that takes part; --iterate, --force-enable and pragmas make no difference. With a template for the whole match only, applying the results always succeeds, and the new text is re.sub of the old one: also with empty matches, and matches next to each other. What is written into a file is the encoding of this.",
 "all regexes, templates, labels, texts and files","arbitrary texts and matches, empty and adjacent ones",["refex/search.py:RegexSearcher","refex/formatting.py:RegexTemplate","refex/formatting.py:apply_substitutions","refex/cli.py:_SEARCH_MODES"])

p("C95","What is matched and bound is in the file",
 "Whatever a matcher (without external commands) matches or binds at a place of a file is of that file: an object of the tree, a character of one of its strings or the missing attribute None; with a span only if the object has tokens, and then the span of its tokens; or a stretch of the text, which is the text at that span. So every span of a match or binding is a span of the text (start <= end <= length), whatever matchers were combined.",
 "all matchers, files, places, recursion limits","arbitrary nesting of matchers",["refex/python/matcher.py:create_match","refex/python/matchers/base_matchers.py","refex/python/matchers/ast_matchers.py","refex/python/matchers/lexical_matchers.py"])

p("C96","A search for a matcher expression from the command line",
 "`--mode=py EXPRESSION`: the text, without its common indentation and the empty lines around it, is read as a Python expression, and the matcher searched for is exactly the one that the expression stands for (C92); ExprPattern and StmtPattern in it are the patterns that their texts say, with their restrictions. A text that is no expression is a ValueError (C89 says with which message). No matcher of an expression has templates, or binds a reserved name (unless a group of a regex has one). With any number of matchers, in every file that satisfies --also and --noalso the results are, for each matcher, its outermost matches in document order with exactly the texts that the templates give, combined without overlaps, except what pragmas disable; everything reported is of that file, and a file that is rewritten is changed exactly by these edits.",
 "all command lines in mode py, all matcher expressions, all templates, all files and trees","arbitrary nesting of calls, patterns and trees, from end to end",["refex/cli.py:_SEARCH_MODES","refex/search.py:PyMatcherRewritingSearcher","refex/python/evaluate.py:compile_matcher","refex/python/matchers/syntax_matchers.py:ExprPattern","refex/python/matchers/syntax_matchers.py:StmtPattern"])

p("C97","`--mode=fix`, from the name of a group of fixers to the bytes that are written",
 "`refex --mode=fix NAME` is accepted iff NAME is `*`, `correctness`, `idiom` or `unittest` and there is no --sub; anything else is a usage error. Only files whose names end with `.py` are searched; others, and files that are not Python, are skipped. In the others, for each group the reports are exactly the outermost places where one of its fixers applies (C85-C87 say where), from left to right, each for the first fixer that applies there, with its message, url, category and significance, the spans of its labels, and, for the label that the fixer rewrites, exactly the text that its template gives there; a match that the template refuses is not reported. What the groups find, less what pragmas disable, is put together and grouped by the statements it belongs to, and each group is rewritten up to ten times (or as often as --iterate says), as long as the text of the statement stays valid Python and something is found in it: after one round the substitutions stay as they are, after several there is one that puts the final text in the place of the statement, and if already the first result is not Python they are dropped. A file that is rewritten is changed by the edits of these substitutions and nothing else. Where the nodes that fixers look for have positions in the text, the search of a Python file raises nothing but what the Python template of the first fixer that applies to an outermost place raises there (C99), or a KeyError because the function in a message has no text. (So `refex --mode=fix idiom` fails with ValueError on a file with `f(*[a for a in b])`.)",
 "all command lines in mode fix, all files and trees, all numbers of iterations","arbitrary files and histories of rewriting, from end to end",["refex/fix/find_fixer.py:from_pattern","refex/fix/fixer.py:CombiningPythonFixer","refex/search.py:FileRegexFilteredSearcher","refex/search.py:find_iter","refex/search.py:_fixed_point","refex/cli.py:_SEARCH_MODES"])

p("C98","`--iterate` with Python patterns and matchers",
 "In the modes py.expr, py.stmt and py, with any number of patterns or matchers and any --iterate, the results in a file (that satisfies --also and --noalso and is Python) are what the searches find in it (C93, C96), put together, without what pragmas disable, grouped by the statements they belong to, and each group is rewritten again and again as C97 says: every further round searches the text of the statement as a file of its own, in the same way. Without --iterate, or with 0 or 1, they stay as they are. Into a rewritten file goes its text with exactly the edits of these results.",
 "all command lines in these modes, all files, all numbers of iterations","arbitrary histories of rewriting",["refex/search.py:find_iter","refex/search.py:_fixed_point","refex/cli.py:_SEARCH_MODES"])

p("C99","The exceptions of Python templates",
 "Filling a Python template (of the command line, or of a fixer) for a match either gives a text or raises RewriteError, so that the match is skipped, whatever was matched; the only other exceptions are: KeyError for a variable of the template without a text; ValueError or KeyError if the text of the nearest expression or statement around the match, with `$current_expr` in the place of the match, is no Python template with this one variable; AttributeError if in a text made from the template a mere string stands in the place of a variable; and RecursionError. In particular the tokens of a template that could be made can always be put together again. So the search of a file for a pattern of the command line, whose outermost instances have places in the text, raises nothing but what a Python template raises there, or the KeyError of a shell-style template with a name that stands for nothing with a text. (The second exception is real: no expression directly below a star, as in `f(*a)`, or below a slice can be rewritten, and the attempt ends the search of the whole file.)",
 "all templates that can be made, all matches, all files","arbitrary template texts, trees and matches",["refex/python/syntactic_template.py:_BasePythonTemplate","refex/python/syntactic_template.py:_LexicalTemplate","refex/formatting.py:RewriteError"])

p("C100","`rewrite_string`, and the command line as calls of it",
 "`rewrite_string(searcher, source, path, max_iterations)` returns the source with exactly the edits of what `find_iter` finds, raises what the search raises, raises ValueError if the edits overlap and never for edits that are apart, and returns the source itself if nothing is found or nothing is to be replaced; with the default of one iteration the edits are those of the searcher; with a regex it is `re.sub`. A run of the command with `--in-place` that ends normally has the effect of one such call for each file (with the searchers for `--also` and pragmas around that of the patterns): the file holds the encoding of the result, or is untouched if nothing was found or the call raises, and no other file changes.",
 "all searchers, texts, iteration limits; all command lines, file systems, encodings and contents, if the operating system reports no error on writing","arbitrary searchers, texts, files and options",["refex/search.py:rewrite_string","refex/search.py:find_iter","refex/cli.py:RefexRunner.rewrite_files","refex/cli.py:runner_from_options"])

p("C101","The patterns of the built-in fixers are what their texts say",
 "Importing the built-in fixers makes each of their patterns from its text, and does so without an exception: `$x` is read as a metavariable, the name `gensym_x` is put in its place (never another one, since no pattern contains such a name), and the matcher is the one for the tree of that code with the restrictions given, in whatever order the set of metavariables is iterated. So `--mode=fix` with patterns made of their texts is the mode that the other properties of fixers describe.",
 "all built-in patterns, all orders of iteration, all Pythons that tokenize and parse these texts as the language reference says","arbitrary tokenizers and parsers (up to what is assumed of these texts), set iteration orders, group names",["refex/fix/fixers/correctness_fixers.py:SIMPLE_PYTHON_FIXERS","refex/fix/fixers/idiom_fixers.py:SIMPLE_PYTHON_FIXERS","refex/fix/fixers/unittest_fixers.py:SIMPLE_PYTHON_FIXERS","refex/python/matchers/syntax_matchers.py:_BaseAstPattern","refex/fix/find_fixer.py:from_pattern"])

p("C102","Comments in a Python file disable findings, from the comment to the edits",
 "A comment that ends in `refex: disable=c` or `pylint: disable=v` disables the category c (or pylint.v) and those below it in its scope: after code, its line from the beginning to the end of the comment; alone on its line, the rest of the block of tokens. A comment `enable=` ends this from where its own scope begins. What a command reports in a file, and applies, is what its searches find, without the findings whose match meets a part where one of their categories is disabled, and with all the others; in each round of iteration the comments of the new text count. With --force-enable nothing is left out.",
 "all files with a block structure, all comments, categories and findings, all commands in a Python mode, all numbers of rounds","arbitrary token streams and comment texts, arbitrary findings, unbounded files",["refex/parsed_file.py:Pragma.from_text","refex/python/matcher.py:_pragmas","refex/search.py:PragmaSuppressedSearcher","refex/search.py:_pragma_excluded_ranges","refex/cli.py:runner_from_options"])

p("C103","The text of a regex template",
 "The text of a `re` template is read as the documentation of `re.sub` says: `\\g<name>` and `\\g<12>` refer to a group by name and number, `\\1` and `\\12` by number unless there are three octal digits, which are a character, as are `\\0` with up to two more and the usual escapes; a backslash before another ASCII letter, or at the end, is refused; any other stands for itself; a text can be read in one way only. Up to Python 3.11 and as of Python 3.12, where the standard library hands the parts over in different forms, the template mentions the groups of its text and nothing else, is replaced by its parts one after the other, raises KeyError if a group has no text, and no assertion fails. So in mode `re` the new text of a file is the old one with each match replaced by what the text of the template says. (Up to Python 3.11 more texts are accepted: `\\g<1_0>`, which Python 3.12 refuses.)",
 "all texts of templates, all matches, all files, both versions of the standard library","arbitrary texts and matches",["refex/formatting.py:_parse_re_template","refex/formatting.py:_VariableToIndexDict","refex/formatting.py:RegexTemplate","refex/cli.py:_SUB_MODES"])

p("C104","What `--mode=fix` puts in the place of what it finds",
 "The templates of the built-in fixers, made of their texts, are what the texts say: `$x` stands for the code that the pattern found as `$x`, so they can all be made, and mode `fix` accepts the names of its groups and nothing else. Every edit that `refex --mode=fix` finds in a file is one of these, at a place where the fixer applies, of the text of what is replaced: for a rule, all of the match becomes a text (in parentheses if need be) that parses to a tree reading like the new code of the rule, with the same tree for each metavariable as in the old code; `default=[]` of attr.ib becomes `factory=list` (and so on); `logging.error` becomes `logging.exception`; `logging.exception(e)` gets a message with the text of the function that was called. An assertion that is rewritten succeeds exactly when the original does.",
 "all files, all places in them, all fixers and groups, all substitutions that are found in any round","arbitrary files; all rules at once",["refex/fix/fixers/correctness_fixers.py","refex/fix/fixers/idiom_fixers.py","refex/fix/fixers/unittest_fixers.py","refex/fix/fixer.py:SimplePythonFixer","refex/python/syntactic_template.py:PythonTemplate","refex/fix/find_fixer.py:from_pattern"])

p("C105","What parse_ast makes of what ast.parse returns",
 "parse_ast(text) raises ParseError exactly if ast.parse does; otherwise it returns a file with this text and a tree that has the same types, fields and constants at the same places as that of ast.parse, but no node or list of which stands in two places, whatever nodes without parts (such as Load()) ast.parse shares. So the parent of a node is the one it stands in, and the theorems about searches for fixes hold under assumptions on ast.parse alone.",
 "all texts, all trees of ast.parse with any sharing of nodes without parts, all positions","arbitrary trees and sharing",["refex/python/matcher.py:parse_ast","refex/python/matcher.py:_uniqueify_distinct_ast","refex/python/matcher.py:AstNav"])

p("C106","--mode=fix goes by the name of the file, wherever it is run from",
"The path that searchers are told (the shortest of the path given, the absolute path and the path relative to the current directory) ends in the same file name as the path given, for every current directory and every path that ends in a name and does not lead to the current directory or one above it. So whether a file counts as a Python file depends on its own name only, and a run of refex --mode=fix never writes to a file whose name does not end in '.py': it is afterwards what it was, whatever is found in it or in other files, whatever options are given and whatever the operating system reports. (The regular expression '\\.py$' also accepts a name that ends in '.py' and a newline.) From a directory called b.py, the path ../b.py is told as '.'.",
"all current directories, all paths, all options with --mode=fix, all file systems, all faults of the operating system",
"the ways to write a path ('..', '.', doubled slashes, absolute paths) and the places to run from cannot be enumerated",
["refex/cli.py:_shorten_path","refex/cli.py:RefexRunner.rewrite_files","refex/search.py:FileRegexFilteredSearcher","refex/fix/find_fixer.py:from_pattern"])
p("C107","An external command rewrites the file to what it writes",
"A searcher made of ExternalCommand (or another RewriteFile matcher that returns a text for the module) and no templates of its own turns a file into exactly the text the command writes for the text of the file: rewrite_string returns it, whatever the prefix for the metavariables, the number of iterations and the diff that difflib makes of the two texts. If rewrite returns None everywhere, nothing is found.",
"all files, all commands and outputs, all correct diffs, all prefixes, all numbers of iterations",
"arbitrary texts and outputs; difflib may split the change into any number of pieces",
["refex/python/matchers/extern_matchers.py:RewriteFile","refex/python/matchers/extern_matchers.py:ExternalCommand","refex/python/matcher.py:MatchInfo.from_diff","refex/search.py:rewrite_string"])
p("C108","A dry run shows what a run with -i shows",
"Without -i, refex prints what it prints with -i for the same files and options: every name of a file, every diff and every separator, in the same order; at most the note about the dry run comes after it. If the run with -i ends without an exception then so does the dry run, and the same files are reported as failed. This holds if no path is read after it was written in the same run; if a file is given twice, the run with -i shows the diff of the rewritten file the second time.",
"all searchers, files, options, file systems and faults of the operating system; all orders of the files",
"arbitrary lists of files; a write may influence a later read; failures in the middle",
["refex/cli.py:RefexRunner.rewrite_files","refex/cli.py:RefexRunner.log_changes","refex/cli.py:runner_from_options"])
p("C109","Files can be given in any order, and to several runs",
"What a run makes of a file depends on this file, the options and the operating system only: two runs over the same different files in different orders that end without an exception leave every file with the same content and record the same files as failed; so do one run over all files and two runs, one after the other, over a part of the files each.",
"all searchers, files, options, file systems, faults of the operating system; all permutations and splits of the list of files",
"arbitrary numbers and orders of files; state that is kept from file to file (renderer, failures)",
["refex/cli.py:RefexRunner.rewrite_files","refex/cli.py:RefexRunner.write","refex/cli.py:main"])

p("C110","A text replaced by other characters is gone, and running the command again does nothing",
 "After `refex --mode=re TEXT --sub=OTHER -i`, where TEXT is searched for literally, OTHER is not empty, contains no references, and has no character in common with TEXT, no file that was written contains TEXT any more, and the same command never writes it again. If OTHER is empty or has characters in common with TEXT, this need not hold.",
 "All texts of files, all literal regexes and replacements, all later runs.",
 "Whether the replacement makes new occurrences together with what stands beside it depends on the text; tests try some.",
 ["refex/search.py: RegexSearcher.find_iter_parsed, find_iter", "refex/cli.py: RefexRunner.rewrite_files", "refex/formatting.py: apply_substitutions"])

p("C111","Replacing a literal text can be undone",
 "After `refex --mode=re A --sub=B -i`, where A and B are searched for and put in literally, the command with A and B exchanged gives every file that both write its old text back, if no character of B was in the file. (It is not enough that B was not in it.)",
 "All texts of files, all literal texts A and B that are not empty, all file systems between the two runs that still hold what the first wrote.",
 "Whether B put in place of A is found again at the same places depends on the text around it; tests try some.",
 ["refex/search.py: RegexSearcher.find_iter_parsed, find_iter", "refex/cli.py: RefexRunner.rewrite_files", "refex/formatting.py: apply_substitutions"])

p("C112","A pattern that is its own template keeps the code",
 "After a Python search for a pattern, with the same text as template, where every metavariable occurs once and none is anonymous, every match whose metavariables stand for expressions is replaced by a text that (perhaps without the parentheses put around it) Python reads as the same tree that was matched.",
 "All patterns (expressions, statements, modules), all files, all matches of the search.",
 "It depends on how the code that stands for each metavariable is written, which can be anything; tests try some.",
 ["refex/python/syntactic_template.py: _BasePythonTemplate.substitute_match", "refex/python/matchers/syntax_matchers.py: _rewrite_submatchers, ExprPattern, StmtPattern", "refex/search.py: PyExprRewritingSearcher, PyStmtRewritingSearcher"])

p("C113","A more specific pattern finds nothing that the more general one misses",
 "If a Python pattern q is a pattern p with other code (perhaps with metavariables) for the metavariables of p, each of which occurs once in p, then everything that a search for q finds in a file is found by a search for p, or is inside of something that it finds. Patterns that differ in the names of their metavariables only find the same.",
 "All such pairs of patterns (expressions, statements, modules), all files.",
 "The search reports outermost matches only, and how patterns are nested in files is unbounded; tests try some.",
 ["refex/python/matchers/syntax_matchers.py: ExprPattern, StmtPattern, _ast_pattern", "refex/python/matcher.py: find_iter", "refex/search.py: PyExprRewritingSearcher, PyStmtRewritingSearcher"])

p("C114","Two replacements of literal texts can be done in either order",
 "The commands `refex --mode=re A --sub=B -i` and `refex --mode=re C --sub=D -i`, with literal texts that are not empty, where A and C, B and C, and A and D have no characters in common, leave the same text in either order in every file that both write. (If a text is just removed, the order can matter.)",
 "All texts of files, all such literal texts A, B, C and D, all file systems in between that still hold what was written.",
 "Whether one replacement makes or breaks places for the other depends on the text of the file; tests try some.",
 ["refex/search.py: RegexSearcher.find_iter_parsed, find_iter", "refex/cli.py: RefexRunner.rewrite_files", "refex/formatting.py: apply_substitutions"])

p("C115","How a file is written does not matter to a search for a pattern",
 "In two files that Python reads as the same tree (with other spaces, comments, parentheses or quotes, say), a search for a Python pattern, in which each metavariable occurs once, finds the same code at the same places of the tree.",
 "All patterns (expressions, statements, modules), all pairs of files with the same tree.",
 "There is no end of ways to write the same code; tests try some.",
 ["refex/python/matchers/syntax_matchers.py: ExprPattern, StmtPattern, _ast_pattern", "refex/python/matcher.py: find_iter, parse_ast", "refex/search.py: PyExprRewritingSearcher, PyStmtRewritingSearcher"])

p("C116","A pattern with a name finds nothing where the name is not",
 "Whatever a search for a Python pattern finds contains every name (variable) that is in the pattern and is not a metavariable; in a file without one of the names, it finds and reports nothing.",
 "All patterns (expressions, statements, modules), all names in them, all files.",
 "It is about every file without the name; tests try some.",
 ["refex/python/matchers/syntax_matchers.py: ExprPattern, StmtPattern, _ast_pattern", "refex/python/matcher.py: find_iter", "refex/search.py: PyExprRewritingSearcher, PyStmtRewritingSearcher"])

p("C117","A pattern without metavariables finds the same code",
 "A search for a Python pattern without metavariables finds, in document order, the outermost places of the file where the same code stands, however it is written (numbers compared by value, and without regard to whether names are read or assigned).",
 "All patterns without metavariables (expressions, statements, modules), all files.",
 "Which trees match depends on all node types and all depths; tests try some.",
 ["refex/python/matchers/syntax_matchers.py: ExprPattern, StmtPattern, _ast_pattern", "refex/python/matcher.py: find_iter", "refex/search.py: PyExprRewritingSearcher, PyStmtRewritingSearcher"])

p("C118","What is found in a part of a file does not depend on the rest of it",
 "If parts of two files are the same tree, and neither is inside of a match, then a search for a Python pattern, in which each metavariable occurs once, finds the same places in them, whatever else is in the files. (In a part that is inside of a match nothing is found.)",
 "All patterns (expressions, statements, modules), all files, all parts of their trees.",
 "What surrounds a part is unbounded; tests try some.",
 ["refex/python/matchers/syntax_matchers.py: ExprPattern, StmtPattern, _ast_pattern", "refex/python/matcher.py: find_iter", "refex/search.py: PyExprRewritingSearcher, PyStmtRewritingSearcher"])

p("C119","What --also and --also-not mean together",
 "With --also and --also-not, refex does to each file what it does without them if every regex of --also and none of --also-not is found in the file's text, and otherwise skips the file (or leaves it alone because it is excluded anyway). So the order in which the options are given does not matter, nor whether one is given twice: sets of options that the same texts satisfy give the same files, operations, report and exit status.",
 "all patterns, modes, options, regexes, files, file contents and failures of the file system","quantifies over all command lines and files",["refex/search.py:AlsoRegexpSearcher","refex/cli.py:runner_from_options","refex/cli.py:main"])
p("C120","--force-enable only adds findings, and only where pragmas disable something",
 "Without iteration, --force-enable makes no file fail or be skipped that would not be so without it, nor the other way round; it finds everything that is found without it, in the same order; and in a file in which no pragma of pylint or refex disables anything, it finds the same.",
 "all patterns, modes, options, files and file contents, without iteration","quantifies over all command lines and files",["refex/search.py:PragmaSuppressedSearcher","refex/search.py:_pragma_excluded_ranges","refex/cli.py:runner_from_options"])
if __name__=='__main__':
    with open(os.path.join(os.path.dirname(os.path.abspath(__file__)),'..','properties.jsonl'),'w') as f:
        for x in P: f.write(json.dumps(x,ensure_ascii=False)+'\n')
    print(len(P))
