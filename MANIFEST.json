{
 "claims": [
  {
   "property": "C01",
   "status": "proved",
   "theorems": [
    "C01_apply_splices",
    "C01_apply_splices_clamped",
    "C01_no_edits"
   ],
   "note": ""
  },
  {
   "property": "C02",
   "status": "proved",
   "theorems": [
    "C02_overlap_refused",
    "C02_only_valueError",
    "C02_disjoint_succeeds",
    "C02_search_only_breaks_edit_at_zero"
   ],
   "note": ""
  },
  {
   "property": "C03",
   "status": "proved",
   "theorems": [
    "C03_order_independence_false",
    "C03_order_independent"
   ],
   "note": "The proviso is needed: C03_order_independence_false has two edits at the same offset, where the order decides."
  },
  {
   "property": "C04",
   "status": "proved",
   "theorems": [
    "C04_category_iff",
    "C04_validate_iff",
    "C04_primary_span"
   ],
   "note": ""
  },
  {
   "property": "C05",
   "status": "proved",
   "theorems": [
    "C05_relative_none_iff",
    "C05_relative_commutes",
    "C05_relative_commutes_list"
   ],
   "note": ""
  },
  {
   "property": "C06",
   "status": "proved",
   "theorems": [
    "C06_all_categories",
    "C06_strictly_longer"
   ],
   "note": ""
  },
  {
   "property": "C07",
   "status": "proved",
   "theorems": [
    "C07_suppress_exact",
    "C07_meets_is_sharing"
   ],
   "note": ""
  },
  {
   "property": "C08",
   "status": "proved",
   "theorems": [
    "C08_labeled_spans",
    "C08_tiling_covers_once"
   ],
   "note": ""
  },
  {
   "property": "C09",
   "status": "proved",
   "theorems": [
    "C09_diff_items",
    "C09_diff_faithful",
    "C09_diff_faithful_false"
   ],
   "note": "C09_diff_items says for every substitution exactly which items are shown; C09_diff_faithful is the claim under the proviso; without it the claim is refuted (C09_diff_faithful_false)."
  },
  {
   "property": "C10",
   "status": "proved",
   "theorems": [
    "C10_disjoint_sound",
    "C10_disjoint_keeps_all"
   ],
   "note": ""
  },
  {
   "property": "C11",
   "status": "proved",
   "theorems": [
    "C11_dropped_for_preferred",
    "C11_dropped_overlaps_kept_false",
    "C11_isolated_kept"
   ],
   "note": "C11_dropped_for_preferred and C11_isolated_kept. The stronger claim, that a dropped substitution overlaps a kept one, is refuted (C11_dropped_overlaps_kept_false)."
  },
  {
   "property": "C12",
   "status": "proved",
   "theorems": [
    "C12_whole_lines",
    "C12_unique",
    "C12_python_offsets"
   ],
   "note": ""
  },
  {
   "property": "C13",
   "status": "proved",
   "theorems": [
    "C13_concatenate"
   ],
   "note": ""
  },
  {
   "property": "C14",
   "status": "proved",
   "theorems": [
    "C14_plain_text",
    "C14_match_display"
   ],
   "note": ""
  },
  {
   "property": "C15",
   "status": "proved",
   "theorems": [
    "C15_styles_in_order",
    "C15_styles_stable"
   ],
   "note": ""
  },
  {
   "property": "C16",
   "status": "proved",
   "theorems": [
    "C16_round_trip",
    "C16_round_trip_false"
   ],
   "note": "C16_round_trip, with C09_diff_faithful for the hypothesis; without it the claim is refuted (C16_round_trip_false)."
  },
  {
   "property": "C17",
   "status": "proved",
   "theorems": [
    "C17_substitute",
    "C17_variables",
    "C17_needs_references"
   ],
   "note": ""
  },
  {
   "property": "C18",
   "status": "proved",
   "theorems": [
    "C18_substitute",
    "C18_needs_names",
    "C18_variables",
    "C18_malformed_rejected"
   ],
   "note": ""
  },
  {
   "property": "C19",
   "status": "proved",
   "theorems": [
    "C19_right_labels",
    "C19_stringify"
   ],
   "note": ""
  },
  {
   "property": "C20",
   "status": "proved",
   "theorems": [
    "C20_no_iteration",
    "C20_outcome",
    "C20_searches_bounded",
    "C20_effect"
   ],
   "note": ""
  },
  {
   "property": "C21",
   "status": "proved",
   "theorems": [
    "C21_fixed_point_or_limit"
   ],
   "note": ""
  },
  {
   "property": "C22",
   "status": "proved",
   "theorems": [
    "C22_grouping",
    "C22_find_iter_by_groups",
    "C22_no_iteration_identity"
   ],
   "note": ""
  },
  {
   "property": "C23",
   "status": "proved",
   "theorems": [
    "C23_significance",
    "C23_url",
    "C23_insignificant_ignored",
    "C23_message_same_url",
    "C23_message_several",
    "C23_message_different_urls"
   ],
   "note": ""
  },
  {
   "property": "C24",
   "status": "proved",
   "theorems": [
    "C24_excluded_positions",
    "C24_scope_rule",
    "C24_scope_rule_false",
    "C24_suppressed_search",
    "C24_empty_range_suppresses"
   ],
   "note": "C24_excluded_positions and C24_suppressed_search are exact; C24_scope_rule is the rule of the latest pragma under the proviso; without it that rule is refuted (C24_scope_rule_false)."
  },
  {
   "property": "C25",
   "status": "proved",
   "theorems": [
    "C25_recognised_iff",
    "C25_faithful"
   ],
   "note": ""
  },
  {
   "property": "C26",
   "status": "proved",
   "theorems": [
    "C26_token_blocks",
    "C26_own_line_rule_false",
    "C26_file_pragmas"
   ],
   "note": "C26_token_blocks for every well-formed token stream, C26_file_pragmas for the pragmas of a file. A rule by indentation is refuted (C26_own_line_rule_false: a pragma comment at the left margin right after an indented block covers none of the code that follows it)."
  },
  {
   "property": "C27",
   "status": "proved",
   "theorems": [
    "C27_find",
    "C27_included",
    "C27_included_error",
    "C27_parse_most_specific",
    "C27_parse_comparable"
   ],
   "note": ""
  },
  {
   "property": "C28",
   "status": "proved",
   "theorems": [
    "C28_combined_approximates",
    "C28_combined_compiles",
    "C28_regex",
    "C28_regex_searcher",
    "C28_combined_false",
    "C28_names_clash_false",
    "C28_multiline_false",
    "C28_filter_sound",
    "C28_pragma_wrapper",
    "C28_numbers",
    "C28_combined_numbers",
    "C28_also"
   ],
   "note": "C28_combined_approximates and C28_combined_compiles need BackrefsFirst (members with back-references by number come before other members with groups); without it the claim is refuted by C28_combined_false: joining by | renumbers groups. C28_numbers, C28_combined_numbers: groupindex numbers the groups by their opening parentheses, also in the combined regex. C28_names_clash_false: two members with the same name of a group. C28_regex, C28_regex_searcher; C28_multiline_false: `^b` is found in a\\nb, but its approximate regex does not match it, since re.M is lost. Regexes are syntax trees with numbered and named groups, back-references, repetition, lookaround and anchors, with the semantics of a backtracking matcher; flags inside the regex, conditional, atomic and possessive forms are not modelled (a flag inside such as (?i) makes the combined regex an error as of Python 3.11)."
  },
  {
   "property": "C29",
   "status": "proved",
   "theorems": [
    "C29_match_dict",
    "C29_total",
    "C29_group_zero_false"
   ],
   "note": "C29_match_dict, C29_total. Without the provisos refuted (C29_group_zero_false: a template that mentions group 0 by number is accepted, and ends in a KeyError on every match)."
  },
  {
   "property": "C30",
   "status": "proved",
   "theorems": [
    "C30_reports",
    "C30_metadata_never_edit",
    "C30_succeeds_iff"
   ],
   "note": ""
  },
  {
   "property": "C31",
   "status": "proved",
   "theorems": [
    "C31_suite",
    "C31_nested",
    "C31_label_order_false",
    "C31_nested_semicolon_false",
    "C31_not_in_suite_refused",
    "C31_edits",
    "C31_search"
   ],
   "note": "C31_search and C31_edits go from the tree and the matcher to the findings of a search whose only template is the empty one for the whole match (trees without sharing, statements laid out as in Python source); C31_suite is about any labels removed in source order. The provisos are necessary: one match that removes two statements of a suite with the later label first (C31_label_order_false: no pass, overlapping edits) and a suite that ends in a semicolon inside a statement before a removed last one (C31_nested_semicolon_false). Expression statements removed by an expression matcher are not statements for this code and are out of scope."
  },
  {
   "property": "C32",
   "status": "proved",
   "theorems": [
    "C32_dry_run",
    "C32_only_files_with_matches"
   ],
   "note": ""
  },
  {
   "property": "C33",
   "status": "proved",
   "theorems": [
    "C33_failure_isolated",
    "C33_skipped_file"
   ],
   "note": ""
  },
  {
   "property": "C34",
   "status": "proved",
   "theorems": [
    "C34_old_or_new",
    "C34_not_applicable_false",
    "C34_interrupted_false",
    "C34_stopped",
    "C34_at_most_one"
   ],
   "note": "C34_stopped covers every point at which a run can stop (between two operations on files, or in the middle of writing bytes), every exception and every fault; C34_at_most_one; C34_old_or_new is the stronger claim for runs that come to their end and in which what is found can be applied (C02 says when). That no file at all is left incomplete is refuted: the file is opened for writing (emptied) before the substitutions are applied, so a ValueError leaves it empty (C34_not_applicable_false) and an interruption loses it (C34_interrupted_false). A crash of the operating system (unflushed buffers) is outside the model."
  },
  {
   "property": "C35",
   "status": "proved",
   "theorems": [
    "C35_normalised",
    "C35_no_cr",
    "C35_line_ends_false"
   ],
   "note": "C35_normalised for all files, C35_no_cr for files without carriage returns. That CR and CRLF are preserved is refuted (C35_line_ends_false: universal newlines on reading)."
  },
  {
   "property": "C36",
   "status": "proved",
   "theorems": [
    "C36_options_pair_up",
    "C36_positional"
   ],
   "note": ""
  },
  {
   "property": "C37",
   "status": "proved",
   "theorems": [
    "C37_error_iff",
    "C37_only_match_error",
    "C37_skip_iff",
    "C37_merged",
    "C37_order_irrelevant",
    "C37_empty",
    "C37_replacements",
    "C37_exact"
   ],
   "note": ""
  },
  {
   "property": "C38",
   "status": "proved",
   "theorems": [
    "C38_bound_are_declared",
    "C38_external_undeclared_false"
   ],
   "note": "C38_bound_are_declared, for all matchers without external commands; with them refuted (C38_external_undeclared_false)."
  },
  {
   "property": "C39",
   "status": "proved",
   "theorems": [
    "C39_search_same",
    "C39_search_same_false",
    "C39_type_filter_sound"
   ],
   "note": "C39_type_filter_sound in full; C39_search_same for matchers that raise nothing on excluded objects; otherwise refuted (C39_search_same_false)."
  },
  {
   "property": "C40",
   "status": "proved",
   "theorems": [
    "C40_anyOf_first",
    "C40_anyOf_iff",
    "C40_skips_errors_false"
   ],
   "note": "C40_anyOf_first without provisos, C40_anyOf_iff for alternatives that raise nothing and use no Once on the candidate. Otherwise refuted (C40_skips_errors_false: dispatch hides the error)."
  },
  {
   "property": "C41",
   "status": "proved",
   "theorems": [
    "C41_allOf_iff",
    "C41_allOf_fails",
    "C41_unless_iff"
   ],
   "note": ""
  },
  {
   "property": "C42",
   "status": "proved",
   "theorems": [
    "C42_no_star",
    "C42_star",
    "C42_split_is_found",
    "C42_match_is_split",
    "C42_overlap_false",
    "C42_bindings_false",
    "C42_not_a_sequence_false",
    "C42_items",
    "C42_any_items"
   ],
   "note": "C42_no_star and C42_star say exactly what Glob accepts, for item matchers that bind nothing; C42_split_is_found and C42_match_is_split compare it with splitting. C42_items and C42_any_items are for all item matchers, with the bindings. The stronger claims are refuted: C42_overlap_false, C42_bindings_false (no backtracking over bindings), C42_not_a_sequence_false (returns False, which callers take for a match)."
  },
  {
   "property": "C43",
   "status": "proved",
   "theorems": [
    "C43_items_are",
    "C43_not_a_sequence_false"
   ],
   "note": "C43_items_are. Without the proviso refuted (C43_not_a_sequence_false). bytes constants, which are sequences, are not modelled as such."
  },
  {
   "property": "C44",
   "status": "proved",
   "theorems": [
    "C44_keys_kept",
    "C44_first",
    "C44_after_success",
    "C44_rest_of_file",
    "C44_not_used_up",
    "C44_discarded_alternative_false"
   ],
   "note": "C44_discarded_alternative_false marks the limit of the claim: an alternative discarded inside a match that succeeds does use the Once up."
  },
  {
   "property": "C45",
   "status": "proved",
   "theorems": [
    "C45_reports_outermost",
    "C45_stateless",
    "C45_aborted_prefix",
    "C45_never_nested"
   ],
   "note": ""
  },
  {
   "property": "C46",
   "status": "proved",
   "theorems": [
    "C46_equal_is_equivalent",
    "C46_equivalent_is_equal",
    "C46_same_contexts",
    "C46_node_lists_false",
    "C46_after_contexts_false",
    "C46_bool_int_false",
    "C46_contexts",
    "C46_exact",
    "C46_told_apart"
   ],
   "note": "C46_exact is the exact criterion, C46_told_apart its negation; C46_same_contexts, C46_equal_is_equivalent and C46_equivalent_is_equal give the structural reading for trees without lists of nodes. That plain structural equality is the criterion is refuted for trees with lists of nodes (C46_node_lists_false: f(x) is not equivalent to another f(x)), after differing expression contexts (C46_after_contexts_false: nothing more is compared) and for True/1 (C46_bool_int_false)."
  },
  {
   "property": "C47",
   "status": "proved",
   "theorems": [
    "C47_literal",
    "C47_bool_int_false"
   ],
   "note": "C47_literal, for all trees of a grammar and every recursion limit that suffices for the size of the pattern (C62: more makes no difference). Plain structural equality is refuted (C47_bool_int_false: the pattern 1 matches True)."
  },
  {
   "property": "C48",
   "status": "proved",
   "theorems": [
    "C48_untokenize_text",
    "C48_text",
    "C48_terminates",
    "C48_rest_preserved",
    "C48_consistent",
    "C48_fresh",
    "C48_identifiers",
    "C48_tables",
    "C48_order_irrelevant",
    "C48_markers",
    "C48_markers_complete",
    "C48_text_preserved",
    "C48_text_capture_false"
   ],
   "note": "C48_text is the claim on the text of a pattern whose tokens are laid out as Layout says (only spaces between them); the others are about tokens, for every token stream. The tokenizer is an input. Freshness against names inside a token is refuted (C48_text_capture_false: a name inside an f-string that is one token is captured)."
  },
  {
   "property": "C49",
   "status": "proved",
   "theorems": [
    "C49_accepts_iff",
    "C49_lost_occurrence_false",
    "C49_anonymous_false"
   ],
   "note": "C49_accepts_iff. That every occurrence is checked is refuted (C49_lost_occurrence_false: foo.$x + $x; C49_anonymous_false: $_)."
  },
  {
   "property": "C50",
   "status": "proved",
   "theorems": [
    "C50_parent_sound",
    "C50_parent_exact",
    "C50_root",
    "C50_siblings",
    "C50_inverse",
    "C50_simple_node"
   ],
   "note": ""
  },
  {
   "property": "C51",
   "status": "proved",
   "theorems": [
    "C51_own_tree",
    "C51_fails_iff",
    "C51_same_object",
    "C51_held",
    "C51_collected_between_false"
   ],
   "note": "For histories in which nothing is collected while parse_ast runs. C51_collected_between_false marks the limit: a parsed file freed between the membership test and the lookup makes parse_ast raise KeyError (it never returns another text's tree)."
  },
  {
   "property": "C52",
   "status": "proved",
   "theorems": [
    "C52_reproduces",
    "C52_minimal",
    "C52_applied",
    "C52_bound_text"
   ],
   "note": ""
  },
  {
   "property": "C53",
   "status": "proved",
   "theorems": [
    "C53_slots",
    "C53_text",
    "C53_structure",
    "C53_refuses_unparsable",
    "C53_refuses_other",
    "C53_accepts",
    "C53_in_parent",
    "C53_substitute",
    "C53_statement_verbatim",
    "C53_substitute_structure",
    "C53_class_base_false"
   ],
   "note": "Proved for all templates (module, expression, statement), matches and parsers: C53_structure, C53_refuses_unparsable, C53_refuses_other, C53_accepts (with the limits of ast_equivalent: $x + $x with f(y) is refused), C53_text for the text, C53_substitute and C53_substitute_structure for the whole, C53_in_parent for where the result is put. Below statements with a body nothing is checked (C53_class_base_false: the base T of a class replaced by T1, T2). The tokenizer, the parser and the construction of templates are inputs. Termination is by construction of the model (the loop is over a finite dict)."
  },
  {
   "property": "C54",
   "status": "proved",
   "theorems": [
    "C54_calls",
    "C54_only_whitelisted",
    "C54_literals",
    "C54_unsupported_refused",
    "C54_supported_accepted",
    "C54_type_error_false",
    "C54_side_effects_false",
    "C54_value",
    "C54_compile",
    "C54_keyword_arguments"
   ],
   "note": "C54_calls and C54_only_whitelisted, C54_literals, C54_value, C54_unsupported_refused, C54_supported_accepted. The stronger claims are refuted: f().x raises TypeError instead of a reported SyntaxError (C54_type_error_false), and calls to the left of unsupported syntax are made before it is refused (C54_side_effects_false). -0.0 (which evaluates to 0.0) is outside the model of floats."
  },
  {
   "property": "C55",
   "status": "proved",
   "theorems": [
    "C55_has_parent",
    "C55_has_child",
    "C55_is_or_has_ancestor",
    "C55_has_ancestor",
    "C55_is_or_has_descendant",
    "C55_has_descendant",
    "C55_is_or_has_ancestor_any",
    "C55_is_or_has_descendant_any",
    "C55_leaf_false"
   ],
   "note": "For nodes and lists of trees without shared objects (what parse_ast makes), given enough recursion depth. The iff is for matchers that raise nothing and use no Once; the theorems ending in _any say for all matchers that a result comes from the first hit and that a failure means no hit. C55_leaf_false marks the limit: on strings and numbers HasParent looks up an identity that may be shared."
  },
  {
   "property": "C56",
   "status": "proved",
   "theorems": [
    "C56_last_import",
    "C56_sound",
    "C56_iff",
    "C56_two_names_false",
    "C56_default_name"
   ],
   "note": "C56_last_import is exact; C56_sound, C56_iff. That an import under another name does not matter is refuted (C56_two_names_false). Relative imports are not seen, nor later assignments to the name. The per-tree cache of the result is not modelled."
  },
  {
   "property": "C57",
   "status": "proved",
   "theorems": [
    "C57_confined",
    "C57_all_disabled",
    "C57_pragmas_ignored_when_iterating",
    "C57_pragmas_honoured"
   ],
   "note": "C57_confined is for every iteration limit, C57_pragmas_honoured without iteration, C57_all_disabled for files with disabled findings only. That a disabled category is never applied in its region when iterating is refuted by C57_pragmas_ignored_when_iterating: the chunk re-parsed in later iterations does not contain the pragma."
  },
  {
   "property": "C58",
   "status": "proved",
   "theorems": [
    "C58_no_iterate_false",
    "C58_no_iterate",
    "C58_iterate"
   ],
   "note": "C58_no_iterate for all modes but fix, C58_iterate for --iterate=N. For --mode=fix refuted (C58_no_iterate_false: --no-iterate stores None, which means 10 iterations there)."
  },
  {
   "property": "C59",
   "status": "proved",
   "theorems": [
    "C59_match_is_instance",
    "C59_instance_matches",
    "C59_exact_twice",
    "C59_absent_false",
    "C59_same_code_false",
    "C59_restrictions_checked"
   ],
   "note": "C59_match_is_instance and C59_instance_matches hold for all patterns, C59_exact_twice is exact for metavariables occurring at most twice, C59_restrictions_checked is about the check of restriction names. That absent code and equal code are treated as one expects is refuted by C59_absent_false (return $x matches return: $x bound to None) and C59_same_code_false ($x + $x does not match f(x) + f(x), a limit of ast_equivalent, see C46). Restrictions are assumed to bind no labels of their own."
  },
  {
   "property": "C60",
   "status": "proved",
   "theorems": [
    "C60_only_safe",
    "C60_existing_kept",
    "C60_available",
    "C60_overwrite",
    "C60_refusal"
   ],
   "note": ""
  },
  {
   "property": "C61",
   "status": "proved",
   "theorems": [
    "C61_first_ancestor",
    "C61_conflict_false",
    "C61_siblings",
    "C61_sibling_reported_false"
   ],
   "note": "C61_first_ancestor and C61_siblings say which object is looked at, and the outcome in terms of it. The stronger claims are refuted: C61_conflict_false (AttributeError where the bindings are in conflict), C61_sibling_reported_false (the sibling is reported)."
  },
  {
   "property": "C62",
   "status": "proved",
   "theorems": [
    "C62_depth_irrelevant",
    "C62_more_depth"
   ],
   "note": "The depth of the model is that of nested match calls. Matchers that catch RecursionError do not exist; the type filters' own recursion is included."
  },
  {
   "property": "C63",
   "status": "proved",
   "theorems": [
    "C63_uniqueify",
    "C63_compound_false"
   ],
   "note": "On a store of mutable objects, for trees in which lists and nodes with parts are not shared (as ast.parse makes them). C63_compound_false marks the limit: what is inside a shared node with parts stays shared, since the copy is shallow."
  },
  {
   "property": "C64",
   "status": "proved",
   "theorems": [
    "C64_reports_parts",
    "C64_reports",
    "C64_key_spans"
   ],
   "note": "C64_reports_parts, C64_key_spans: the part of the file (PartOfFile), i.e. the object directly in the nearest body above the match. For matchers without templates of their own below and without reserved labels (Ordinary). For a removed statement the span and the text are those of C31. Templates are arbitrary functions of the matches; what refex's kinds of templates compute is C16-C20, C53."
  },
  {
   "property": "C65",
   "status": "proved",
   "theorems": [
    "C65_accepted",
    "C65_shared_mapping_false",
    "C65_findings"
   ],
   "note": "C65_findings, C65_accepted. When two fixers share a mapping object refuted (C65_shared_mapping_false)."
  },
  {
   "property": "C66",
   "status": "proved",
   "theorems": [
    "C66_taken",
    "C66_history",
    "C66_builtin",
    "C66_from_pattern"
   ],
   "note": "Groups registered after import are not part of '*'."
  },
  {
   "property": "C73",
   "status": "proved",
   "theorems": [
    "C73_accepted",
    "C73_refused",
    "C73_unbound_false"
   ],
   "note": "C73_accepted, C73_refused. That accepted templates find their variables is refuted (C73_unbound_false: an alternative of AnyOf that binds less ends the search in a KeyError)."
  },
  {
   "property": "C74",
   "status": "proved",
   "theorems": [
    "C74_located",
    "C74_anything",
    "C74_equals",
    "C74_type_is",
    "C74_in_lines",
    "C74_matches_regex",
    "C74_file_matches_regex",
    "C74_has_item",
    "C74_contains",
    "C74_node",
    "C74_constant",
    "C74_bind",
    "C74_rebind",
    "C74_with_replacements",
    "C74_comments",
    "C74_comments_error",
    "C74_recursively_wrapped",
    "C74_maybe_wrapped"
   ],
   "note": "One theorem per matcher, relative to its inner matchers (Hits/Misses). AnyOf/AllOf/Unless are C40/C41, ItemsAre C43, Once C44, tree matchers C55/C61, imports C56. A float or complex constant carries the whole number that it equals, if any (1.0 == 1 == True; IsWhole); bytes, ellipses and other numbers equal only themselves (same type and repr)."
  },
  {
   "property": "C67",
   "status": "proved",
   "theorems": [
    "C67_recursive",
    "C67_once",
    "C67_top_down",
    "C67_files",
    "C67_in_order",
    "C67_given_twice"
   ],
   "note": "os.walk and os.path.join are modelled on POSIX systems. A file named twice, or lying below two named directories, is processed twice, the second time with what the first wrote (C67_given_twice)."
  },
  {
   "property": "C68",
   "status": "proved",
   "theorems": [
    "C68_words",
    "C68_refused"
   ],
   "note": "argparse's own parse_known_args is not modelled: the theorem is about its leftovers. A lone '-' counts as an unknown option."
  },
  {
   "property": "C69",
   "status": "proved",
   "theorems": [
    "C69_usage_error",
    "C69_runner",
    "C69_results",
    "C69_combined_parse",
    "C69_combined_included",
    "C69_combined_find",
    "C69_dry_run",
    "C69_only_named_files",
    "C69_fix_mode",
    "C69_results_only",
    "C69_not_searched"
   ],
   "note": "Modes (the factories) and substitution syntaxes are arbitrary functions; results are characterised for runs without iteration (with iteration: C20-C22); combined patterns: C27, C69_combined_parse."
  },
  {
   "property": "C70",
   "status": "proved",
   "theorems": [
    "C70_report",
    "C70_status"
   ],
   "note": "Tracebacks and the form of the dump are left out."
  },
  {
   "property": "C75",
   "status": "proved",
   "theorems": [
    "C75_file_regex",
    "C75_options_ignored",
    "C75_excluded_false"
   ],
   "note": "C75_file_regex; C75_options_ignored. That the options leave files out is refuted (C75_excluded_false)."
  },
  {
   "property": "C76",
   "status": "proved",
   "theorems": [
    "C76_output",
    "C76_names_only",
    "C76_listed_changed_false"
   ],
   "note": "C76_output, C76_names_only. That -l with substitutions lists only changed files is refuted (C76_listed_changed_false)."
  },
  {
   "property": "C77",
   "status": "proved",
   "theorems": [
    "C77_name_shown",
    "C77_shortest",
    "C77_empty_false"
   ],
   "note": "posixpath on POSIX systems; symbolic links are not looked at; '//x' counts as '/x'. The empty path raises ValueError (C77_empty_false)."
  },
  {
   "property": "C78",
   "status": "proved",
   "theorems": [
    "C78_match_is_the_object",
    "C78_search"
   ],
   "note": "For the matchers that the predicate ofItself accepts, which excludes exactly the exceptions named."
  },
  {
   "property": "C79",
   "status": "proved",
   "theorems": [
    "C79_colour_decorates"
   ],
   "note": "For sequences of calls from a new renderer; hypotheses: the escape sequences contain no line breaks, all line breaks in text and replacements are newlines (a form feed inside a styled piece would put the reset sequence on the next displayed line), and the format keeps decorations (defaultFormat_keeps)."
  },
  {
   "property": "C71",
   "status": "proved",
   "theorems": [
    "C71_outcome",
    "C71_syntax",
    "C71_rest_ignored_false",
    "C71_same_as_statement_pattern",
    "C71_unused_parameter_false",
    "C71_lambda_false"
   ],
   "note": "C71_outcome, C71_same_as_statement_pattern, C71_syntax. inspect.getsource is not modelled. C71_rest_ignored_false, C71_unused_parameter_false and C71_lambda_false are findings."
  },
  {
   "property": "C72",
   "status": "proved",
   "theorems": [
    "C72_outcome",
    "C72_binds",
    "C72_dunder_refused"
   ],
   "note": "C72_outcome, C72_binds. Tokenizer and parser are inputs; patterns are laid out with spaces (no tabs or backslashes between tokens)."
  },
  {
   "property": "C80",
   "status": "proved",
   "theorems": [
    "C80_one_place",
    "C80_verbatim",
    "C80_checked",
    "C80_outcome"
   ],
   "note": "For trees without shared nodes (what refex makes of every file, C49). In the third case (neither an enclosing object nor a compound statement) the code does not terminate; it cannot occur in a module, where every expression is in a statement with a place."
  },
  {
   "property": "C81",
   "status": "proved",
   "theorems": [
    "C81_pattern",
    "C81_texts",
    "C81_finds",
    "C81_finds_plain",
    "C81_finds_simple",
    "C81_comprehension",
    "C81_replaces",
    "C81_replaces_plain"
   ],
   "note": "C81_texts, C81_finds (with restrictions and guards), C81_finds_plain, C81_finds_simple, C81_comprehension, C81_replaces, C81_replaces_plain (C81_pattern for any code). The two regular expressions used are assumed to mean what Python's documentation says (RegexFits). The parser is represented by the tree of the code (Code.val) and a grammar; the names put for metavariables are assumed new (Mangles), which C72 shows of those made by the tokenizer step, and C101 of the names gensym_x that these patterns get."
  },
  {
   "property": "C82",
   "status": "proved",
   "theorems": [
    "C82_succeeds_det",
    "C82_assertions",
    "C82_order",
    "C82_alias",
    "C82_negation",
    "C82_comprehension",
    "C82_replaced"
   ],
   "note": "C82_assertions, C82_order, C82_alias, C82_negation, C82_comprehension, C82_replaced (C82_succeeds_det: what an assertion does is determined). Evaluation of expressions is an arbitrary function of the tree (ValueWorld, Evaluation); the conditions on it (Pythonic) are the meaning of `is not`, `not in`, comparisons of a number with an equal one, and of list/set and comprehensions."
  },
  {
   "property": "C83",
   "status": "proved",
   "theorems": [
    "C83_combine",
    "C83_dotted",
    "C83_assertion_messages",
    "C83_idiom_messages",
    "C83_template_kind",
    "C83_metadata"
   ],
   "note": "C83_combine (with C65, C66), C83_metadata, C83_assertion_messages, C83_idiom_messages, C83_dotted. Assumes that templates have the variables of their texts (TemplateVariables; met by exTemplates)."
  },
  {
   "property": "C84",
   "status": "proved",
   "theorems": [
    "C84_literal",
    "C84_constants",
    "C84_yaml",
    "C84_datetime",
    "C84_parens"
   ],
   "note": "C84_literal, C84_constants, C84_yaml, C84_datetime, C84_parens. The worlds (SetWorld, TimeWorld, FormatWorld) give values to trees; the laws asked of them are in Spec/RuleEffects.lean, and are met by exSetWorld, exTimeWorld, exFormatWorld. With C81 (what is put in place reads like the new code with the same trees) this describes the rewritten file."
  },
  {
   "property": "C85",
   "status": "proved",
   "theorems": [
    "C85_attrib",
    "C85_attrib_fixers",
    "C85_logging_error",
    "C85_logging_error_fixer",
    "C85_logging_exception",
    "C85_logging_exception_fixer",
    "C85_wrong_function_false"
   ],
   "note": "C85_attrib(_fixers), C85_logging_error(_fixer), C85_logging_exception(_fixer); refutation C85_wrong_function_false. Hypotheses: the candidate is a parsed tree, objects are unshared (C63), and what Python's grammar says about identifiers, arguments and bodies (PythonNames); exTry meets them."
  },
  {
   "property": "C86",
   "status": "proved",
   "theorems": [
    "C86_search",
    "C86_findings",
    "C86_exceptions",
    "C86_no_exception",
    "C86_unlocated"
   ],
   "note": "C86_search (matching), C86_findings (what find_iter reports, if no exception is raised), C86_exceptions (the exceptions, if nodes have positions, are those of a template of the first fixer that applies to an outermost place), C86_no_exception (none if templates raise only RewriteError), C86_unlocated (a finding: a match without position makes the search raise). Spec/BuiltinSearch.lean: FixerApplies, Site, FixerMarks; hypotheses PythonFile, met by bsFile_python, with a place to report (bsFile_site)."
  },
  {
   "property": "C87",
   "status": "proved",
   "theorems": [
    "C87_bound",
    "C87_terminates",
    "C87_rule"
   ],
   "note": "C87_bound (at most 2n applications), C87_terminates (no infinite sequence), C87_rule (what a rule of the program puts in the place of a match is an application in this sense, from C81_replaces). An application replaces one part of the tree by what Spec/Termination.Fixes says and leaves the rest the same tree; that the spliced text parses that way is Python's grammar (precedence, see C81/C53 for the parentheses). Hypothesis: names have no parts below their fields (Python's grammar). TerminationExamples: two applications in a row."
  },
  {
   "property": "C88",
   "status": "proved",
   "theorems": [
    "C88_fragment",
    "C88_replacement",
    "C88_pieces",
    "C88_given",
    "C88_tree",
    "C88_found",
    "C88_fixed",
    "C88_rules",
    "C88_given_rules",
    "C88_source",
    "C88_builtin"
   ],
   "note": "C88_fragment/C88_replacement/C88_pieces/C88_given say what the texts are; C88_tree: the tree of the example is the tree of the pattern with the name x for $x; C88_found and C88_fixed: the matcher finds it and the replacement parses to the example replacement (for rules without restrictions and guards, from C81); C88_rules/C88_given_rules/C88_builtin: the built-in fixers; C88_source: the generated file. That the text of the example parses to its tree is Python's grammar. ExamplesExamples: a file."
  },
  {
   "property": "C89",
   "status": "proved",
   "theorems": [
    "C89_dedent",
    "C89_dedented_unique",
    "C89_indented",
    "C89_dedent_again",
    "C89_strip",
    "C89_compiled",
    "C89_indent",
    "C89_message_line",
    "C89_message_lines",
    "C89_message_source",
    "C89_errors",
    "C89_message_total"
   ],
   "note": "C89_dedent (textwrap.dedent as a model of its loop) with C89_dedented_unique, C89_indented, C89_dedent_again; C89_strip; C89_compiled; C89_indent, C89_message_line/lines/source for the messages; C89_errors; C89_message_total (a SyntaxError with a text but no offset ends in TypeError). The parser is abstract. Lines with line ends other than \\n (form feed etc.) inside the shown line are outside the message theorems."
  },
  {
   "property": "C90",
   "status": "proved",
   "theorems": [
    "C90_round_trip",
    "C90_ascii",
    "C90_command",
    "C90_dump",
    "C90_report",
    "C90_debug"
   ],
   "note": "C90_round_trip and C90_ascii for json.dump/json.load (modelled without numbers, which a dump has not), C90_dump, C90_report, C90_command (shlex.quote against the words of a POSIX shell, Spec/ErrorDump.shellWords), C90_debug. Characters are Unicode scalar values (lone surrogates from undecodable arguments are outside). Pygments' highlighting and the names of temporary files are parameters."
  },
  {
   "property": "C91",
   "status": "proved",
   "theorems": [
    "C91_definition",
    "C91_filter",
    "C91_inside"
   ],
   "note": "C91_definition, C91_filter, C91_inside. The submatchers answer without exceptions (`Answers`), with bindings that are dictionaries (distinct keys); candidates are nodes and lists, of a tree whose objects are not shared (C50)."
  },
  {
   "property": "C92",
   "status": "proved",
   "theorems": [
    "C92_expression",
    "C92_objects_stay",
    "C92_constants",
    "C92_allof_value_false",
    "C92_arguments",
    "C92_made",
    "C92_value",
    "C92_rejects",
    "C92_rejects_node",
    "C92_wrapped",
    "C92_bind_errors"
   ],
   "note": "C92_arguments, C92_made (exactly the matchers of the specification, one constructor per class), C92_value, C92_rejects, C92_rejects_node, C92_bind_errors, C92_wrapped, C92_constants, C92_expression, C92_objects_stay. The `_fields` of a class of `ast` are distinct. TypeIs and matchers made of arguments of unfit types (which fail when they are used) are counted as broken; what a pattern's text makes is C57-C59. C92_allof_value_false: AllOf/AnyOf do not coerce."
  },
  {
   "property": "C93",
   "status": "proved",
   "theorems": [
    "C93_search",
    "C93_command",
    "C93_commands",
    "C93_rewritten",
    "C93_env_fits",
    "C93_template",
    "C93_edits",
    "C93_untokenizable",
    "C93_missing_pattern",
    "C93_variables",
    "C93_refuses",
    "C93_python_template",
    "C93_shell_template"
   ],
   "note": "C93_commands and C93_command (options to results, with --also, pragmas and several patterns), C93_rewritten (the bytes written into a file), C93_search (pattern text and file to reports), C93_template and C93_edits (template text and report to the new text and its tree), C93_variables, C93_refuses, C93_untokenizable, C93_shell_template, C93_python_template (what a template mentions, what it refuses and how), C93_env_fits (the templates made from texts meet the assumptions of C53 and C80). Tokenizer, parser, token positions and the recursion limit (patterns of size t need depth 2t+7) are parameters, with the assumptions of PythonFits; tokens of patterns and templates are separated by spaces only (no line continuation), as for C48. Removal of statements (templates without text) is C31."
  },
  {
   "property": "C94",
   "status": "proved",
   "theorems": [
    "C94_accepted",
    "C94_search",
    "C94_command",
    "C94_is_re_sub",
    "C94_rewritten"
   ],
   "note": "C94_accepted, C94_search, C94_command, C94_is_re_sub, C94_rewritten. Of the regex is assumed what CPython guarantees (FindsMatches: names of groups are identifiers, and here do not begin with `__`; one span per group; matches in order, not overlapping, no two with the same span). Templates must not refer to group 0 by number (accepted, but fails: C29_group_zero_false). The syntax of regexes and of templates is CPython's and not modelled."
  },
  {
   "property": "C95",
   "status": "proved",
   "theorems": [
    "C95_places",
    "C95_span"
   ],
   "note": "C95_places, C95_span. Assumed of the file (FileFits): spans of tokens are in the text, and regular expressions match inside of what they are given. RewriteFile is excluded: it reports spans of a diff (C33)."
  },
  {
   "property": "C96",
   "status": "proved",
   "theorems": [
    "C96_compiles",
    "C96_syntax",
    "C96_patterns",
    "C96_untokenizable",
    "C96_constants",
    "C96_anything",
    "C96_ordinary",
    "C96_search",
    "C96_missing",
    "C96_command",
    "C96_rewritten"
   ],
   "note": "C96_compiles, C96_syntax, C96_patterns, C96_ordinary, C96_search, C96_command, C96_rewritten, C96_missing. Python's parser, the tokenizer, the fields of the node classes, files and the recursion limit are parameters. What a match of a matcher is: the theorems about the matchers (C36-C47, C92). An expression that makes a matcher that is not modelled (restrictions that are no dict with names; other keys) is outside of C96_compiles."
  },
  {
   "property": "C97",
   "status": "proved",
   "theorems": [
    "C97_exceptions",
    "C97_starred_false",
    "C97_accepted",
    "C97_search",
    "C97_command",
    "C97_rewritten"
   ],
   "note": "C97_accepted, C97_search, C97_command, C97_rewritten. Assumed of Python: that the files are as PythonFile says (C86), that the tokenizer ends with an empty token and finds in the texts of the templates the metavariables of the rules (TokensFit), and for C97_accepted that the templates of the fixers can be made. The patterns of the rules are trees in the model (C86); C101 shows that these are what is made of their texts. The spans of tokens are in the text (C97_rewritten). Exceptions of a search: C97_exceptions (those of C99, where nodes have positions) and C97_starred_false (the finding), with Spec/FixErrors.lean."
  },
  {
   "property": "C98",
   "status": "proved",
   "theorems": [
    "C98_patterns",
    "C98_matchers",
    "C98_patterns_written",
    "C98_matchers_written"
   ],
   "note": "C98_patterns, C98_matchers, C98_patterns_written, C98_matchers_written (what is written into files, for templates with a text), under the assumptions of C93 and C96. Which statement a finding belongs to is said by `Reports` (PartOfFile). In further rounds, statements are searched as files of their own."
  },
  {
   "property": "C99",
   "status": "proved",
   "theorems": [
    "C99_search",
    "C99_raises",
    "C99_surroundings",
    "C99_only_rewrite_errors",
    "C99_starred_false"
   ],
   "note": "C99_raises (which exceptions, and when), C99_only_rewrite_errors, C99_search (searches of the command line, with Python and shell-style templates that are not empty), C99_surroundings and C99_starred_false (the finding). Assumed of Python: PythonFits (C93), and that the tokenizer makes ordinary tokens of identifiers. RecursionError depends on the depth of the stack, a parameter."
  },
  {
   "property": "C100",
   "status": "proved",
   "theorems": [
    "C100_edits",
    "C100_raises",
    "C100_unchanged",
    "C100_once",
    "C100_re_sub",
    "C100_command"
   ],
   "note": "C100_edits, C100_raises, C100_unchanged, C100_once (library), C100_re_sub, C100_command (the command line). Files listed twice are excluded (hnd): the second rewrite works on the result of the first."
  },
  {
   "property": "C101",
   "status": "proved",
   "theorems": [
    "C101_pattern",
    "C101_rule",
    "C101_groups",
    "C101_mode",
    "C101_command",
    "C101_names"
   ],
   "note": "C101_pattern, C101_rule, C101_groups, C101_mode, C101_command, C101_names. Assumed (ReadsPatterns in Spec/FixTexts.lean): for the text of each pattern the tokenizer gives the tokens of the line (lineTokens), and for the text with gensym_x in the place of $x the parser gives a tree of that code (up to identities and the ctx of names, ReadAlike). FixTextsExamples: such a Python."
  },
  {
   "property": "C102",
   "status": "proved",
   "theorems": [
    "C102_parts",
    "C102_positions",
    "C102_left_out",
    "C102_result",
    "C102_covered",
    "C102_kept",
    "C102_whole_file",
    "C102_line",
    "C102_command"
   ],
   "note": "C102_parts, C102_positions, C102_left_out, C102_covered, C102_kept, C102_whole_file, C102_line, C102_result (every Python mode, with C97_command and C98), C102_command (mode fix). Assumed (ReadsComments): the tokens of a file that parses have the block structure of Spec/PragmaScopes.lean, and lines end one after the other. An excluded range may be empty and still leave out a match around it (C24_empty_range_suppresses): DisabledPart says so."
  },
  {
   "property": "C103",
   "status": "proved",
   "theorems": [
    "C103_rewritten",
    "C103_versions_differ",
    "C103_read",
    "C103_read_before",
    "C103_template",
    "C103_accepted",
    "C103_plain",
    "C103_unique"
   ],
   "note": "C103_read, C103_read_before, C103_template, C103_accepted, C103_plain, C103_unique, C103_rewritten (mode re, from the text of the template), C103_versions_differ. The parser of templates is that of the standard library (sre_parse.parse_template up to 3.11, re._parser.parse_template as of 3.12), written down from memory since it is no part of the repository; identifiers, int() and MAXGROUPS are parameters (GroupNames, with the assumptions Usual); int()'s limit of 4300 digits is left out."
  },
  {
   "property": "C104",
   "status": "proved",
   "theorems": [
    "C104_template",
    "C104_tokens",
    "C104_made",
    "C104_accepted",
    "C104_edit",
    "C104_search",
    "C104_command",
    "C104_assertions"
   ],
   "note": "C104_template, C104_tokens, C104_made, C104_accepted, C104_edit (each kind of fixer), C104_search, C104_command, C104_assertions. Assumed: Python reads the texts of the patterns and templates as the code they are (ReadsPatterns, ReadsReplacements; the Python of Props/FixEditsExamples.lean does), and PythonFits. That the same tree stands for a metavariable is said of operands that have tokens and are expressions (others make the template refuse or are not spliced)."
  },
  {
   "property": "C105",
   "status": "proved",
   "theorems": [
    "C105_tree",
    "C105_error",
    "C105_file",
    "C105_parent",
    "C105_command"
   ],
   "note": "C105_tree, C105_error, C105_file, C105_parent, C105_command (C104 under assumptions on ast.parse). Assumed of ast.parse (ParsesTo): lists and nodes with parts stand in one place each, no list stands directly in a list, all fields are there; token positions (asttokens) are an oracle by identity of objects; a RecursionError is not told apart from ParseError; the cache is the subject of C51."
  },
  {
   "property": "C106",
   "status": "proved",
   "theorems": [
    "C106_name",
    "C106_python",
    "C106_command",
    "C106_up_false"
   ],
   "note": "C106_name, C106_python, C106_command; C106_up_false is the counterexample for the current directory itself. As in C77, symbolic links are not looked at and paths are POSIX. That two paths may name one file is outside of the model: a file system is a map from paths to contents."
  },
  {
   "property": "C107",
   "status": "proved",
   "theorems": [
    "C107_found",
    "C107_rewritten",
    "C107_nothing",
    "C107_command"
   ],
   "note": "C107_found, C107_rewritten, C107_command, C107_nothing. Assumed of difflib: its diff leads from the one text to the other (DiffBetween). A command that fails raises CalledProcessError, which the model of the matcher does not have (what a failing search does to a run is C33). A RewriteFile matcher that returns None for the module and texts for several nodes inside rewrites the whole file once per node; that is outside of the statement."
  },
  {
   "property": "C108",
   "status": "proved",
   "theorems": [
    "C108_same_output",
    "C108_command"
   ],
   "note": "C108_same_output, C108_command (the runners of the two commands differ in whether they write only). That the two commands read the same files with the same contents at the start is the hypothesis that both start from one file system."
  },
  {
   "property": "C109",
   "status": "proved",
   "theorems": [
    "C109_order",
    "C109_two_runs",
    "C109_command"
   ],
   "note": "C109_order, C109_two_runs, C109_command. The paths are different ones and rewritten in place. Whether a run ends with an exception may depend on the order (an exception in the renderer or in applying substitutions ends the run, C34), so both runs are assumed to end normally. What is printed follows the order of the files (C76)."
  },
  {
   "property": "C110",
   "status": "proved",
   "theorems": [
    "C110_text",
    "C110_gone",
    "C110_empty_false",
    "C110_common_false"
   ],
   "note": "C110_text (texts), C110_gone (the command, and the command again). That the regex stands for a literal text is a hypothesis on re (IsLiteral: its matches are occurrences, and at every occurrence there is a match or one that began before and is not over); LiteralExamples proves it of a scanner. Refuted without the conditions: C110_empty_false (ab out of aabb), C110_common_false (ab to b in aab). OTHER must not contain a carriage return, which the next run would read as a newline."
  },
  {
   "property": "C111",
   "status": "proved",
   "theorems": [
    "C111_text",
    "C111_undone",
    "C111_characters_false"
   ],
   "note": "C111_text (texts), C111_undone (the two commands; line ends come back as newlines, C35). As in C110, that a regex stands for a literal text is a hypothesis on re (IsLiteral). Refuted if the text may contain characters of B but not B (C111_characters_false: ab to cc and back in cab). LiteralUndo has two runs that meet the hypotheses."
  },
  {
   "property": "C112",
   "status": "proved",
   "theorems": [
    "C112_keeps"
   ],
   "note": "C112_keeps, resting on the completeness of the search (C93) and on what a template makes (C53). The premises say that each metavariable stands for one place and for an expression with a place in the file (SimpleHit), and that no metavariable is anonymous: what stood for an anonymous one is not kept. SelfTemplateExamples has a search whose match meets them."
  },
  {
   "property": "C113",
   "status": "proved",
   "theorems": [
    "C113_instance",
    "C113_hits",
    "C113_search",
    "C113_same",
    "C113_own_false"
   ],
   "note": "C113_instance (one place), C113_hits (all the places of a tree), C113_search (two searches), C113_same (two patterns that differ in the names of metavariables find the same). The identifiers made for the metavariables of q must not be names in p: they are made to be new in q only, which C113_own_false shows to matter. Of what is found, not of what is reported: a match without a place in the file is not reported (C45)."
  },
  {
   "property": "C114",
   "status": "proved",
   "theorems": [
    "C114_text",
    "C114_either_order",
    "C114_empty_false"
   ],
   "note": "C114_text (texts), C114_either_order (the commands). As in C110, that a regex stands for a literal text is a hypothesis on re (IsLiteral). Refuted if D may be empty (C114_empty_false: ab to z and x to nothing, in axb)."
  },
  {
   "property": "C115",
   "status": "proved",
   "theorems": [
    "C115_hits",
    "C115_search"
   ],
   "note": "C115_hits (trees), C115_search (two searches). The same tree: SameShape, equal but for the identities of objects. Of what is found; what is reported depends on positions (C45, C93)."
  },
  {
   "property": "C116",
   "status": "proved",
   "theorems": [
    "C116_hits",
    "C116_search"
   ],
   "note": "C116_hits (matches in a tree), C116_search (what a search reports). Names are identifiers of variable references; not attributes, arguments or imports."
  },
  {
   "property": "C117",
   "status": "proved",
   "theorems": [
    "C117_hits",
    "C117_search"
   ],
   "note": "C117_hits (trees), C117_search (a search). The same code is SameTree: the same nodes and leaves, but for the context of names and with numbers equal by value (True == 1)."
  },
  {
   "property": "C118",
   "status": "proved",
   "theorems": [
    "C118_hits",
    "C118_inside",
    "C118_search",
    "C118_inside_false"
   ],
   "note": "C118_hits (trees), C118_inside, C118_search (searches of two files). Refuted for parts inside of a match (C118_inside_false)."
  },
  {
   "property": "C119",
   "status": "proved",
   "theorems": [
    "C119_same_texts",
    "C119_order",
    "C119_search"
   ],
   "note": "C119_search (file by file, against the runner without these options), C119_same_texts, C119_order (the whole run). A compiled regex is its search predicate."
  },
  {
   "property": "C120",
   "status": "proved",
   "theorems": [
    "C120_search"
   ],
   "note": "C120_search. Without iteration, as what is found after an edit depends on the edits made before, so that disabling one changes the others."
  }
 ]
}