{
 "claims": [
  {
   "property": "C01",
   "status": "proved",
   "theorems": [
    "Adx.C01_text",
    "Adx.C01_tokenize",
    "Adx.C01_unicode",
    "Adx.C01_tokenize_unicode",
    "Adx.C01_shifted",
    "Adx.C01_ascii_up_to_here",
    "Adx.C01_too_long",
    "Adx.C01_too_late",
    "Adx.C01_again",
    "Adx.C01_own_callbacks",
    "Adx.C01_non_ascii_counterexample",
    "Adx.C01_pin_setter_counterexample"
   ],
   "note": ""
  },
  {
   "property": "C02",
   "status": "proved",
   "theorems": [
    "Adx.C02_placed",
    "Adx.C02_token",
    "Adx.C02_skip",
    "Adx.C02_not_consuming",
    "Adx.C02_tokenize",
    "Adx.C02_pin_counterexample"
   ],
   "note": ""
  },
  {
   "property": "C03",
   "status": "proved",
   "theorems": [
    "Adx.C03_children",
    "Adx.C03_distinct",
    "Adx.C03_window"
   ],
   "note": ""
  },
  {
   "property": "C04",
   "status": "proved",
   "theorems": [
    "Adx.C04_no_panic",
    "Adx.C04_tokenize",
    "Adx.C04_fatal_if",
    "Adx.C04_fatal_if_not",
    "Adx.C04_regex",
    "Adx.C04_unicode_example",
    "Adx.C04_non_ascii_counterexample",
    "Adx.C04_error_counterexample"
   ],
   "note": ""
  },
  {
   "property": "C05",
   "status": "proved",
   "theorems": [
    "Adx.C05_exec_frame",
    "Adx.C05_library_callbacks",
    "Adx.C05_tokenize_frame"
   ],
   "note": ""
  },
  {
   "property": "C06",
   "status": "proved",
   "theorems": [
    "Adx.C06_depth_independent",
    "Adx.C06_unique",
    "Adx.C06_no_panic_if_runs",
    "Adx.C06_tokenize_depth_independent"
   ],
   "note": ""
  },
  {
   "property": "C07",
   "status": "proved",
   "theorems": [
    "Adx.C07_debug_transparent",
    "Adx.C07_debug_no_other_result",
    "Adx.C07_library_callbacks",
    "Adx.C07_debug_around_pin_counterexample",
    "Adx.C07_register_debug_counterexample"
   ],
   "note": "The two falsified parts (Debug around a Pin, Register of a Debug) are excluded by hypothesis; both have counterexample theorems."
  },
  {
   "property": "C08",
   "status": "proved",
   "theorems": [
    "Adx.C08_scopes_balanced",
    "Adx.C08_setScope_isolates",
    "Adx.C08_library_callbacks"
   ],
   "note": ""
  },
  {
   "property": "C09",
   "status": "proved",
   "theorems": [
    "Adx.C09_scopes_refine_stacks",
    "Adx.C09_set_get",
    "Adx.C09_push_set_pop"
   ],
   "note": ""
  },
  {
   "property": "C10",
   "status": "proved",
   "theorems": [
    "Adx.C10_equals_sound",
    "Adx.C10_equals_total",
    "Adx.C10_equals"
   ],
   "note": ""
  },
  {
   "property": "C11",
   "status": "proved",
   "theorems": [
    "Adx.C11_matches_sound",
    "Adx.C11_matches_total",
    "Adx.C11_matches"
   ],
   "note": ""
  },
  {
   "property": "C12",
   "status": "proved",
   "theorems": [
    "Adx.C12_sequence_sound",
    "Adx.C12_sequence_panics",
    "Adx.C12_sequence_total",
    "Adx.C12_sequence",
    "Adx.C12_sequence_non_ascii_counterexample",
    "Adx.C12_sequence_matcher_argument",
    "Adx.C12_sequence_empty"
   ],
   "note": ""
  },
  {
   "property": "C13",
   "status": "proved",
   "theorems": [
    "Adx.C13_quote_round_trip",
    "Adx.C13_quote_panics"
   ],
   "note": ""
  },
  {
   "property": "C14",
   "status": "proved",
   "theorems": [
    "Adx.C14_program",
    "Adx.C14_tokens",
    "Adx.C14_fails"
   ],
   "note": ""
  },
  {
   "property": "C15",
   "status": "proved",
   "theorems": [
    "Adx.C15_switch",
    "Adx.C15_first_match",
    "Adx.C15_error",
    "Adx.C15_none",
    "Adx.C15_result"
   ],
   "note": ""
  },
  {
   "property": "C16",
   "status": "proved",
   "theorems": [
    "Adx.C16_loop",
    "Adx.C16_loop_out_of_matches",
    "Adx.C16_minimum_counterexample",
    "Adx.C16_zero_iterations_counterexample",
    "Adx.C16_partial_iteration_counterexample"
   ],
   "note": ""
  },
  {
   "property": "C17",
   "status": "proved",
   "theorems": [
    "Adx.C17_optional",
    "Adx.C17_optional_never_fails",
    "Adx.C17_optional_panics"
   ],
   "note": ""
  },
  {
   "property": "C18",
   "status": "proved",
   "theorems": [
    "Adx.C18_not",
    "Adx.C18_not_consumes_nothing"
   ],
   "note": ""
  },
  {
   "property": "C19",
   "status": "proved",
   "theorems": [
    "Adx.C19_discard_token",
    "Adx.C19_discard_other",
    "Adx.C19_discard_needs_body"
   ],
   "note": ""
  },
  {
   "property": "C20",
   "status": "proved",
   "theorems": [
    "Adx.C20_proxy_children",
    "Adx.C20_spliced",
    "Adx.C20_position_counterexample"
   ],
   "note": ""
  },
  {
   "property": "C21",
   "status": "proved",
   "theorems": [
    "Adx.C21_expand_range",
    "Adx.C21_in_program"
   ],
   "note": ""
  },
  {
   "property": "C22",
   "status": "proved",
   "theorems": [
    "Adx.C22_halt",
    "Adx.C22_error",
    "Adx.C22_tokenize",
    "Adx.C22_macros",
    "Adx.C22_catch_counterexample"
   ],
   "note": ""
  },
  {
   "property": "C23",
   "status": "proved",
   "theorems": [
    "Adx.C23_gather",
    "Adx.C23_once",
    "Adx.C23_nothing_lost",
    "Adx.C23_tokenize",
    "Adx.C23_tokenize_none",
    "Adx.C23_stale_parent_counterexample"
   ],
   "note": ""
  },
  {
   "property": "C24",
   "status": "proved",
   "theorems": [
    "Adx.C24_break",
    "Adx.C24_break_here",
    "Adx.C24_break_through",
    "Adx.C24_unwinds",
    "Adx.C24_addressed_loop",
    "Adx.C24_empty_program_counterexample"
   ],
   "note": ""
  },
  {
   "property": "C25",
   "status": "proved",
   "theorems": [
    "Adx.C25_continue",
    "Adx.C25_continue_counts",
    "Adx.C25_switch_counterexample",
    "Adx.C25_switch",
    "Adx.C25_dropped",
    "Adx.C25_program_counterexample"
   ],
   "note": ""
  },
  {
   "property": "C26",
   "status": "proved",
   "theorems": [
    "Adx.C26_store",
    "Adx.C26_store_string",
    "Adx.C26_store_then_fetch",
    "Adx.C26_store_string_then_fetch",
    "Adx.C26_names",
    "Adx.C26_constructed",
    "Adx.C26_constructed_token",
    "Adx.C26_dotted",
    "Adx.C26_equals_fetch",
    "Adx.C26_failing_store_counterexample"
   ],
   "note": ""
  },
  {
   "property": "C27",
   "status": "proved",
   "theorems": [
    "Adx.C27_register",
    "Adx.C27_register_lookup",
    "Adx.C27_ref",
    "Adx.C27_ref_direct"
   ],
   "note": ""
  },
  {
   "property": "C28",
   "status": "proved",
   "theorems": [
    "Adx.C28_pin",
    "Adx.C28_empty_pin"
   ],
   "note": ""
  },
  {
   "property": "C29",
   "status": "proved",
   "theorems": [
    "Adx.C29_pin",
    "Adx.C29_empty_pin",
    "Adx.C29_out_of_range",
    "Adx.C29_before_start",
    "Adx.C29_printed_range",
    "Adx.C29_stored_range",
    "Adx.C29_spellings",
    "Adx.C29_plus_zero_counterexample"
   ],
   "note": ""
  },
  {
   "property": "C30",
   "status": "proved",
   "theorems": [
    "Adx.C30_lines",
    "Adx.C30_columns",
    "Adx.C30_columns_one_line",
    "Adx.C30_total",
    "Adx.C30_error_string",
    "Adx.C30_error_string_point",
    "Adx.C30_two_lines_counterexample",
    "Adx.C30_inside_crlf_counterexample"
   ],
   "note": ""
  },
  {
   "property": "C31",
   "status": "proved",
   "theorems": [
    "Adx.C31_visit_preorder",
    "Adx.C31_visit_logs"
   ],
   "note": ""
  },
  {
   "property": "C32",
   "status": "proved",
   "theorems": [
    "Adx.C32_new",
    "Adx.C32_set_attribute",
    "Adx.C32_attribute_tests",
    "Adx.C32_set_name",
    "Adx.C32_set_captured",
    "Adx.C32_set_matched",
    "Adx.C32_pin_ranges",
    "Adx.C32_set_value",
    "Adx.C32_set_texts",
    "Adx.C32_add_child",
    "Adx.C32_value",
    "Adx.C32_texts",
    "Adx.C32_flags",
    "Adx.C32_flags_enabled",
    "Adx.C32_flags_inverse",
    "Adx.C32_equality",
    "Adx.C32_find_child",
    "Adx.C32_find_child_fuzzy",
    "Adx.C32_has_child"
   ],
   "note": ""
  },
  {
   "property": "C33",
   "status": "proved",
   "theorems": [
    "Adx.C33_nonempty"
   ],
   "note": ""
  },
  {
   "property": "C34",
   "status": "proved",
   "theorems": [
    "Adx.Peg.C34_terminates",
    "Adx.Peg.C34_tokenize",
    "Adx.Peg.C34_rounds",
    "Adx.Peg.C34_example",
    "Adx.Peg.C34_left_recursion"
   ],
   "note": "Same grammars as C35. Depth of recursion is bounded linearly; rounds of consuming loops are bounded by the bytes left."
  },
  {
   "property": "C35",
   "status": "proved",
   "theorems": [
    "Adx.Peg.C35_lock_step",
    "Adx.Peg.C35_sound",
    "Adx.Peg.C35_complete",
    "Adx.Peg.C35_no_panic",
    "Adx.Peg.C35_tokenize",
    "Adx.Peg.C35_example",
    "Adx.Peg.C35_unicode_example"
   ],
   "note": "For byte lengths up to isize::MAX, regular expressions whose matches are pieces of the text, and ASCII sources if the grammar has a Sequence (on other sources it can panic, see C12). The interpreter follows the library where it departs from textbook grammars; each departure has an example."
  },
  {
   "property": "C36",
   "status": "proved",
   "theorems": [
    "Adx.C36_tree",
    "Adx.C36_error_leaf",
    "Adx.C36_old",
    "Adx.C36_acyclic",
    "Adx.C36_unshared",
    "Adx.C36_walk",
    "Adx.C36_tokenize",
    "Adx.C36_macros",
    "Adx.C36_callback_counterexample"
   ],
   "note": ""
  },
  {
   "property": "C37",
   "status": "proved",
   "theorems": [
    "Adx.Peg.C37_same_tree",
    "Adx.Peg.C37_again"
   ],
   "note": "Same grammars as C35."
  },
  {
   "property": "C38",
   "status": "proved",
   "theorems": [
    "Adx.Peg.C38_text_iff",
    "Adx.Peg.C38_text_reject",
    "Adx.Peg.C38_numbers",
    "Adx.Peg.C38_no_maximum_only",
    "Adx.Peg.C38_text_example",
    "Adx.C38_range_iff",
    "Adx.C38_range_reject"
   ],
   "note": "For every ASCII text: the specifier's matcher reads exactly the texts of `RepeatText` and the range of its token is the one stated there (C38_text_iff, C38_text_reject; on tokens alone C38_range_iff). Falsified parts of the statement, with theorems: `{n}` is turned into 0..n (C38_numbers), `?` and `{,m}` are no repeat specifiers (C38_no_maximum_only), `{n m}` is accepted as 0..n. What a loop does with a range is the subject of C16: it runs for hi-lo rounds."
  },
  {
   "property": "C39",
   "status": "proved",
   "theorems": [
    "Adx.C39_imports",
    "Adx.C39_file",
    "Adx.C39_nonempty",
    "Adx.C39_not_script",
    "Adx.C39_ok_iff",
    "Adx.C39_err",
    "Adx.C39_terminates",
    "Adx.C39_errors_dropped"
   ],
   "note": "For scripts that were not read from a file: a definition that cannot be built is always reported (C39_ok_iff, C39_err). For scripts with imports: which errors are reported, down through the imported files (C39_imports, C39_file), and that there is always one (C39_nonempty). Falsified part: error tokens alone are dropped silently (C39_errors_dropped)."
  },
  {
   "property": "C40",
   "status": "proved",
   "theorems": [
    "Adx.C40_catch"
   ],
   "note": ""
  },
  {
   "property": "C41",
   "status": "proved",
   "theorems": [
    "Adx.C41_map"
   ],
   "note": ""
  },
  {
   "property": "C42",
   "status": "proved",
   "theorems": [
    "Adx.C42_fatal_if",
    "Adx.C42_fatal_if_not",
    "Adx.C42_assert_if",
    "Adx.C42_assert_if_not",
    "Adx.C42_error",
    "Adx.C42_panic",
    "Adx.C42_panic_range_counterexample",
    "Adx.C42_assert_if_not_consumes_nothing"
   ],
   "note": ""
  },
  {
   "property": "C43",
   "status": "proved",
   "theorems": [
    "Adx.C43_loop_range",
    "Adx.C43_inclusive_end",
    "Adx.C43_inclusive_counterexample"
   ],
   "note": ""
  },
  {
   "property": "C44",
   "status": "proved",
   "theorems": [
    "Adx.C44_build"
   ],
   "note": ""
  },
  {
   "property": "C45",
   "status": "proved",
   "theorems": [
    "Adx.C45_number",
    "Adx.C45_errors",
    "Adx.C45_keeps",
    "Adx.C45_keeps_scopes",
    "Adx.C45_from_str",
    "Adx.C45_rejected",
    "Adx.C45_terminates",
    "Adx.C45_frame",
    "Adx.C45_tree",
    "Adx.C45_scopes",
    "Adx.C45_text"
   ],
   "note": "The description of the result (C45_from_str, C45_rejected, C45_terminates) is for scripts that are not read from a file; the other theorems include imports. Worlds are those obtained by compiling scripts, with arbitrary heaps in between (`Compiled`)."
  },
  {
   "property": "C46",
   "status": "proved",
   "theorems": [
    "Adx.C46_script",
    "Adx.C46_file",
    "Adx.C46_ok",
    "Adx.C46_str",
    "Adx.C46_setScope",
    "Adx.C46_member"
   ],
   "note": "The text of each file is parsed in some world (`TextMeans`); that what is compiled does not depend on the world is C59. What members do when they run is C46_member; a whole imported file is a program in its own scope (IsFile)."
  },
  {
   "property": "C47",
   "status": "proved",
   "theorems": [
    "Adx.C47_set_name",
    "Adx.C47_set_name_wrapped",
    "Adx.C47_set_child",
    "Adx.C47_children",
    "Adx.C47_add_pattern",
    "Adx.C47_register_names",
    "Adx.C47_register",
    "Adx.C47_get_children",
    "Adx.C47_registered",
    "Adx.C47_register_one",
    "Adx.C47_fixed_names",
    "Adx.C47_fixed_register",
    "Adx.C47_given_names",
    "Adx.C47_default_names",
    "Adx.C47_parts",
    "Adx.C47_missing_attributes",
    "Adx.C47_attributes_run"
   ],
   "note": "Changes made to a matcher while it runs are not modelled."
  },
  {
   "property": "C48",
   "status": "proved",
   "theorems": [
    "Adx.C48_exec",
    "Adx.C48_tokenize",
    "Adx.C48_exec_ends",
    "Adx.C48_tokenize_ends",
    "Adx.C48_tree",
    "Adx.C48_fresh",
    "Adx.C48_fresh_panic",
    "Adx.C48_fresh_back",
    "Adx.C48_fatal_if",
    "Adx.C48_fatal_if_not",
    "Adx.C48_assert_if",
    "Adx.C48_assert_if_not",
    "Adx.C48_attributes",
    "Adx.C48_rename"
   ],
   "note": "Divergence at a given depth of recursion is compared for matchers whose callbacks keep token trees proper (`Grafts`)."
  },
  {
   "property": "C49",
   "status": "proved",
   "theorems": [
    "Adx.C49_parse",
    "Adx.C49_plants",
    "Adx.C49_compiles",
    "Adx.C49_file",
    "Adx.C49_str",
    "Adx.C49_result",
    "Adx.C49_unambiguous",
    "Adx.C49_one_meaning"
   ],
   "note": "That other texts are rejected is not shown here; what a script that compiles at all was parsed from is C45 and C46."
  },
  {
   "property": "C50",
   "status": "proved",
   "theorems": [
    "Adx.Interp.C50_lock_step",
    "Adx.Interp.C50_unique",
    "Adx.Interp.C50_sound",
    "Adx.Interp.C50_complete",
    "Adx.Interp.C50_no_panic",
    "Adx.Interp.C50_tokenize",
    "Adx.Interp.C50_script",
    "Adx.Interp.C50_fixed",
    "C50_any_time",
    "C50_text",
    "C50_text_first",
    "C50_text_ascii",
    "C50_text_first_ascii",
    "Adx.Interp.C50_same",
    "Adx.Interp.Example.C50_definitions_change",
    "Adx.Interp.Example.C50_example"
   ],
   "note": "The delimiter matcher only on ASCII texts, and regular expressions are assumed to find pieces of the text. The scope of the parse is one in which no other matcher has a name, as that of a new context."
  },
  {
   "property": "C51",
   "status": "proved",
   "theorems": [
    "Adx.C51_parent",
    "Adx.C51_old",
    "Adx.C51_older",
    "Adx.C51_tokenize",
    "Adx.C51_ages",
    "Adx.C51_climb",
    "Adx.C51_prints",
    "Adx.C51_layout",
    "Adx.C51_macros",
    "Adx.C51_compiled",
    "Adx.C51_expand_counterexample"
   ],
   "note": "ExpandRange is excluded from what is said about the right parents: its wrapper is not known to the token it wraps (C51_expand_counterexample). That parents are older, that trees are proper and that every tree can be printed (C51_older, C51_ages, C51_prints) includes it (kappa := False). Gathered errors keep their old parent (C23_stale_parent_counterexample); printing them still ends. The text of the attribute map is a parameter, because its order is that of a hash map."
  },
  {
   "property": "C52",
   "status": "proved",
   "theorems": [
    "Adx.C52_parse",
    "Adx.C52_compile",
    "Adx.C52_str",
    "Adx.C52_file"
   ],
   "note": "ASCII texts of at most isize::MAX bytes; file names and the acceptance of regular expressions are parameters (env). That a reason leads to a panic is shown for examples only, since an earlier error hides it. Imports must be no cycle (Loadable); with one the compiler recurses for ever."
  },
  {
   "property": "C53",
   "status": "proved",
   "theorems": [
    "Adx.Interp.C53_run",
    "Adx.Interp.C53_script",
    "Adx.Interp.C53_any_time",
    "C53_text",
    "C53_checked",
    "C53_fixed",
    "C53_imports",
    "C53_imports_checked",
    "C53_left_recursion",
    "Example.C53_example",
    "Example.C53_self"
   ],
   "note": "Regular expressions are assumed to find pieces of the text; which of them may match the empty text is given (calling all of them blank is always right). Delimited texts only in ASCII. Scripts with imports only if their definitions do not change (as in C50); the others are in C72. The way back is shown for recursion through first parts only; exactly which parses do not end, also behind parts that match nothing, is C62 and C64."
  },
  {
   "property": "C54",
   "status": "proved",
   "theorems": [
    "C54_strict",
    "C54_parse",
    "C54_compiled",
    "C54_file",
    "C54_str",
    "C54_rejected",
    "C54_starts"
   ],
   "note": "ASCII texts of at most isize::MAX bytes, also for all files that can be read. The language is an upper bound: some of its texts are rejected by later checks (a range n > m, numbers that are too big), and a rule may apply where the grammar takes another branch first."
  },
  {
   "property": "C55",
   "status": "proved",
   "theorems": [
    "Adx.C55_written",
    "Adx.C55_only",
    "Adx.C55_readable",
    "Adx.C55_compiles",
    "Adx.C55_str",
    "Adx.C55_tree",
    "Adx.C55_format"
   ],
   "note": "Texts are ASCII and not longer than isize::MAX bytes where they are compiled. The label of a named pattern is written but says nothing, since such patterns are always called Name. Only for the language of C49, not for its liberties (C54)."
  },
  {
   "property": "C56",
   "status": "proved",
   "theorems": [
    "Adx.C56_exec",
    "Adx.C56_tokenize",
    "Adx.C56_no_conflict",
    "Adx.C56_compiled",
    "Adx.C56_script",
    "Adx.C56_retain"
   ],
   "note": "The time a borrow lives is transcribed by hand from the scoping rules for temporaries. A few borrows are modelled although the code makes them only in debug mode or until a name is found. Callbacks are run as heap computations: their own borrows are theirs, nothing but matchers and contexts is borrowed when they run, and these are shared. The borrows of callbacks are C61. Building matchers from the tokens of a script is C58."
  },
  {
   "property": "C57",
   "status": "proved",
   "theorems": [
    "Adx.C57_visit",
    "Adx.C57_write"
   ],
   "note": "The time a borrow lives is transcribed by hand from the scoping rules for temporaries. Hooks are arbitrary computations on a state with flags."
  },
  {
   "property": "C58",
   "status": "proved",
   "theorems": [
    "Adx.C58_compile",
    "Adx.C58_no_conflict",
    "Adx.C58_ok",
    "Adx.C58_build",
    "Adx.C58_pattern"
   ],
   "note": "The time a borrow lives is transcribed by hand from the scoping rules for temporaries. The callbacks of the script grammar are heap computations without flags here; with flags they are C61."
  },
  {
   "property": "C59",
   "status": "proved",
   "theorems": [
    "Adx.C59_compile",
    "Adx.C59_part",
    "Adx.C59_matchers",
    "Adx.C59_verdict",
    "Adx.C59_parse"
   ],
   "note": "References are compared up to the renumbering `behind`; callbacks are compared by what they do at every heap (`Mimics`)."
  },
  {
   "property": "C60",
   "status": "proved",
   "theorems": [
    "Adx.C60_result",
    "Adx.C60_silent",
    "Adx.C60_rejected",
    "Adx.C60_rejected_str",
    "Adx.C60_rejected_not_silent",
    "Adx.C60_accepted",
    "Adx.C60_accepted_str"
   ],
   "note": "What is printed by a run that panics or does not end is not stated. Each eprintln! is one text. Errors deeper in the tree than right below the root are not printed when the script is accepted (that is what the code does)."
  },
  {
   "property": "C61",
   "status": "proved",
   "theorems": [
    "Adx.C61_exec",
    "Adx.C61_tokenize",
    "Adx.C61_no_conflict",
    "Adx.C61_crate",
    "Adx.C61_compiled",
    "Adx.C61_script",
    "Adx.C61_same"
   ],
   "note": "What user callbacks borrow is a hypothesis (Node.Follows); that the callbacks of the crate and of all compiled scripts satisfy it is proved."
  },
  {
   "property": "C62",
   "status": "proved",
   "theorems": [
    "Adx.Interp.C62_iff",
    "Adx.Interp.C62_depth",
    "Adx.Interp.C62_fixed_iff",
    "Adx.Interp.C62_fixed_depth",
    "Adx.Interp.C62_any_time",
    "Adx.Interp.C62_text_first",
    "Adx.Interp.C62_text",
    "Adx.Interp.C62_imports",
    "Adx.Interp.Example.C62_example"
   ],
   "note": "Regular expressions are assumed to find pieces of the text. Delimited texts only in ASCII. Scripts with imports only if their definitions do not change (as in C50); the others are in C64. The depth is an upper bound: it counts all ways in which names can stand for terms."
  },
  {
   "property": "C63",
   "status": "proved",
   "theorems": [
    "Adx.Interp.C63_unique",
    "Adx.Interp.C63_any_time",
    "Adx.Interp.C63_comes",
    "Adx.Interp.C63_text",
    "Adx.Interp.C63_text_ascii",
    "Adx.Interp.C63_own",
    "Adx.Interp.LinkedExample.C63_sharing"
   ],
   "note": "Regular expressions are assumed to find pieces of the text. Delimited texts only in ASCII. Each parse has a context of its own. The script must be in the language of C49, as must be what it imports."
  },
  {
   "property": "C64",
   "status": "proved",
   "theorems": [
    "Adx.Interp.C64_iff",
    "Adx.Interp.C64_depth",
    "Adx.Interp.C64_any_time",
    "Adx.Interp.C64_text",
    "Adx.Interp.C64_text_ascii",
    "Adx.Interp.LinkedExample.C64_second"
   ],
   "note": "Regular expressions are assumed to find pieces of the text. Delimited texts only in ASCII. Each parse has a context of its own. The script must be in the language of C49, as must be what it imports. The depth is an upper bound: it counts all ways in which names in all scopes can stand for things, and counts some names more than once."
  },
  {
   "property": "C65",
   "status": "proved",
   "theorems": [
    "Adx.C65_exponential",
    "Adx.C65_tokenize"
   ],
   "note": ""
  },
  {
   "property": "C66",
   "status": "proved",
   "theorems": [
    "Adx.C66_grammar",
    "Adx.C66_comment",
    "Adx.C66_identifier"
   ],
   "note": "Ties the small matcher that the model uses for the regular expressions of the grammar (Model/Regex) to the texts in the source. The classes \\d and \\w beyond ASCII are parameters. That the crate `regex` itself implements its documentation is assumed (leftmost-first, greedy)."
  },
  {
   "property": "C67",
   "status": "proved",
   "theorems": [
    "Adx.C67_result",
    "Adx.C67_same",
    "Adx.C67_engine",
    "Adx.C67_line",
    "Adx.C67_layout",
    "Adx.C67_tells",
    "Adx.C67_context",
    "Adx.C67_cut",
    "Adx.DebugPrintExample.C67_cut_counterexample"
   ],
   "note": "Each Debug matcher with the text that it prints itself (Model/DebugPrint); C67_engine: a whole run in which every Debug matcher that is reached makes its text is the run without the texts. The other lines that matchers print in debug mode are only modelled as far as the slices that they take. How Rust quotes strings and prints attributes are parameters. The runs start in a heap whose parents are older than their children (every parse starts in an empty heap, and every run preserves this: C51_older). C67_tells assumes of the quoting of strings that one can see where a quoted string ends. Grammars with ExpandRange are included (kappa := False) but for C67_layout."
  },
  {
   "property": "C68",
   "status": "proved",
   "theorems": [
    "Adx.C68_freed",
    "Adx.C68_settled",
    "Adx.C68_safe",
    "Adx.C68_drops",
    "Adx.C68_cycle",
    "Adx.C68_leak",
    "Adx.C68_tree",
    "Adx.C68_later",
    "Adx.C68_compiled",
    "Adx.MemoryExample.C68_pair_counterexample"
   ],
   "note": "Falsified as an expectation: C68_pair_counterexample and, for all trees, C68_leak and C68_tree. Counted references of tokens to tokens only (parent, children); those of scopes, matchers and contexts to tokens are references from outside. Nobody changes a token after the parse (set_parent(None) on the children would break the cycles). What is freed during a parse is judged by the heap at its end, which is right because a token that cannot be reached is not changed any more."
  },
  {
   "property": "C69",
   "status": "proved",
   "theorems": [
    "Adx.C69_print",
    "Adx.C69_text",
    "Adx.C69_cycle",
    "Adx.C69_runs",
    "Adx.C69_parses",
    "Adx.C69_compiled",
    "Adx.AcyclicExample.C69_one_parse"
   ],
   "note": "Of the printed text only which matchers and contexts are in it, in which order, is modelled (Model/MatcherPrint). C69_one_parse is the counterexample for grammars of the library; C69_parses needs no condition on the script or its imports. References to tokens are left out: from a token no matcher or scope can be reached."
  },
  {
   "property": "C70",
   "status": "proved",
   "theorems": [
    "Adx.Peg.C70_exact",
    "Adx.Peg.C70_tokenize",
    "Adx.Peg.C70_polynomial",
    "Adx.Peg.C70_exponential",
    "Adx.Peg.C70_paren",
    "Adx.Peg.C70_lines_cost",
    "Adx.Peg.C70_lines",
    "Adx.Peg.C70_idle_rounds"
   ],
   "note": "Cost is the number of tokens made, counted in the heap; time spent inside patterns and in searching texts is not counted. C70_idle_rounds shows that the condition on repetitions is needed. The bounds are stated for the fragment of C35 (`Grammar`)."
  },
  {
   "property": "C71",
   "status": "proved",
   "theorems": [
    "Adx.Interp.C71_exact",
    "Adx.Interp.C71_text",
    "Adx.Interp.C71_polynomial_any_time",
    "Adx.Interp.C71_exponential_any_time",
    "Adx.Interp.C71_bound",
    "Adx.Interp.Example.C71_many_cost",
    "Adx.Interp.Example.C71_example",
    "Adx.Interp.C71_imports_any_time",
    "Adx.Interp.C71_imports",
    "Adx.Interp.Example.C71_digits_cost"
   ],
   "note": "The count is exact for all scripts with imports (C71_text) and for every table of the form of C50 (C71_exact). The bounds are for scripts without imports, and for scripts with imports if using a definition does not change what names stand for (C71_imports); C72_tokens and C72_polynomial have them for all other scripts with imports. Cost is the number of tokens made; time spent inside patterns, in searching texts and in looking up names is not counted."
  },
  {
   "property": "C72",
   "status": "proved",
   "theorems": [
    "Adx.Interp.C72_run",
    "Adx.Interp.C72_text",
    "Adx.Interp.C72_tokens",
    "Adx.Interp.C72_polynomial",
    "Adx.Interp.C72_ascii",
    "Adx.Interp.C72_checked",
    "Adx.Interp.LinkedExample.C72_example",
    "Adx.Interp.LinkedExample.C72_cost",
    "Adx.Interp.C72_left_recursion",
    "Adx.Interp.C72_no_plans",
    "Adx.Interp.LinkedExample.C72_circle",
    "Adx.Interp.C72_plans",
    "Adx.Interp.C72_sound",
    "Adx.Interp.C72_demands"
   ],
   "note": "The condition is sufficient, not necessary: regular expressions that match without consuming are known to the plans only through a given predicate. It is one on the plans of each scope (C72_plans, C72_sound); the numbers that go with them always exist. A program looks for plans (Atlas.found, C72_checked); it is not proved to find them whenever there are some. Texts of more than one byte per character: C72_text. The way back (C72_left_recursion) is for recursion through first parts only."
  }
 ]
}