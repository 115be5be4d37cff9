{
 "claims": [
  {
   "property": "C01",
   "status": "proved",
   "theorems": [
    "Cheetah.NameMapper.C01_first_namespace_wins",
    "Cheetah.NameMapper.does.C01_hasKey_iff",
    "Cheetah.NameMapper.does.C01_none"
   ],
   "note": ""
  },
  {
   "property": "C02",
   "status": "proved",
   "theorems": [
    "Cheetah.NameMapper.does.C02_dotted_composition",
    "Cheetah.NameMapper.does.C02_valueForName"
   ],
   "note": ""
  },
  {
   "property": "C03",
   "status": "proved",
   "theorems": [
    "Cheetah.NameMapper.does.C03_value_or_notFound",
    "Cheetah.NameMapper.does.C03_notFound_iff",
    "Cheetah.NameMapper.does.C03_hasName_iff"
   ],
   "note": ""
  },
  {
   "property": "C04",
   "status": "proved",
   "theorems": [
    "Cheetah.NameMapper.does.C04_mapping_key_first",
    "Cheetah.NameMapper.does.C04_valueForKey_mapping",
    "Cheetah.NameMapper.does.C04_valueForKey_is_lookup",
    "Cheetah.NameMapper.does.C04_attributes_of_keys_irrelevant"
   ],
   "note": ""
  },
  {
   "property": "C05",
   "status": "proved",
   "theorems": [
    "Cheetah.NameMapper.does.C05_precedence",
    "Cheetah.NameMapper.does.C05_locals_first",
    "Cheetah.NameMapper.does.C05_not_found",
    "Cheetah.NameMapper.does.C05_valueFromFrame"
   ],
   "note": ""
  },
  {
   "property": "C06",
   "status": "proved",
   "theorems": [
    "Cheetah.NameMapper.does.C06_walk",
    "Cheetah.NameMapper.does.C06_off",
    "Cheetah.NameMapper.does.C06_calls_are_callables",
    "Cheetah.NameMapper.does.C06_raising_call_propagates"
   ],
   "note": ""
  },
  {
   "property": "C07",
   "status": "partial",
   "theorems": [
    "Cheetah.NameMapper.does.C07_chunks_agree",
    "Cheetah.NameMapper.does.C07_too_many_periods",
    "Cheetah.NameMapper.does.C07_chunks_differ_iff",
    "Cheetah.NameMapper.does.C07_agree",
    "Cheetah.NameMapper.does.C07_defaultdict_counterexample",
    "Cheetah.NameMapper.does.C07_raising_property_counterexample"
   ],
   "note": "Proved for objects whose mapping and attribute protocols agree (no side door such as defaultdict, no getter raising something other than AttributeError); without that the two differ (two counterexamples). The names on which they differ are characterised."
  },
  {
   "property": "C08",
   "status": "partial",
   "theorems": [
    "Cheetah.NameMapper.does.C08_wrapped_once",
    "Cheetah.NameMapper.does.C08_key_ok",
    "Cheetah.NameMapper.does.C08_c_first_annotation",
    "Cheetah.NameMapper.does.C08_c_wrapper_loses_message_counterexample"
   ],
   "note": "Proved for the Python implementation; the C wrapper loses the message of an annotated NotFound (counterexample), its first annotation is the one of the Python version (C08_c_first_annotation)."
  },
  {
   "property": "C09",
   "status": "proved",
   "theorems": [
    "Cheetah.Template.C09_getVar_varExists",
    "Cheetah.Template.C09_dollar_irrelevant",
    "Cheetah.Template.C09_exists_iff"
   ],
   "note": ""
  },
  {
   "property": "C10",
   "status": "proved",
   "theorems": [
    "Cheetah.Template.C10_search_order",
    "Cheetah.Template.C10_init_fails_iff",
    "Cheetah.Template.C10_include_chain",
    "Cheetah.Template.C10_include_sees_outer",
    "Cheetah.Template.C10_set_global_visible",
    "Cheetah.Template.C10_init_idempotent"
   ],
   "note": ""
  },
  {
   "property": "C11",
   "status": "partial",
   "theorems": [
    "Cheetah.Reader.C11_window_partial",
    "Cheetah.Reader.C11_breakpoint_in_source",
    "Cheetah.Reader.C11_error_leaves_cursor",
    "Cheetah.Reader.C11_ungetc_counterexample",
    "Cheetah.Reader.C11_setBreakPoint_counterexample"
   ],
   "note": "Window invariant holds for all operations except ungetc() below position 0 and setBreakPoint() past the end, which the counterexample theorems exhibit."
  },
  {
   "property": "C12",
   "status": "partial",
   "theorems": [
    "Cheetah.Reader.C12_reads_conserve_source",
    "Cheetah.Reader.C12_read_everything",
    "Cheetah.Reader.C12_readToEOL",
    "Cheetah.Reader.C12_getc_at_breakpoint_counterexample"
   ],
   "note": "Holds for reads before the break point; at the break point getc returns a character without consuming it (counterexample)."
  },
  {
   "property": "C13",
   "status": "proved",
   "theorems": [
    "Cheetah.Reader.C13_row_col_meaning",
    "Cheetah.Reader.C13_injective",
    "Cheetah.Reader.C13_fails_iff",
    "Cheetah.Reader.C13_monotone"
   ],
   "note": ""
  },
  {
   "property": "C14",
   "status": "partial",
   "theorems": [
    "Cheetah.Cache.C14_get_returns_latest",
    "Cheetah.Cache.C14_get_keyError",
    "Cheetah.Cache.C14_add",
    "Cheetah.Cache.C14_frame",
    "Cheetah.Cache.C14_replace_counterexample"
   ],
   "note": "The documented behaviour of replace() is violated (C14_replace_counterexample); everything else holds."
  },
  {
   "property": "C15",
   "status": "proved",
   "theorems": [
    "Cheetah.Cache.C15_shows_last_rendering",
    "Cheetah.Cache.C15_body_is_shown",
    "Cheetah.Cache.C15_body_runs_iff",
    "Cheetah.Cache.C15_interval",
    "Cheetah.Cache.C15_exception_keeps_content",
    "Cheetah.CacheCode.C15_generated_code"
   ],
   "note": "C15_generated_code runs the lines emitted for #cache with the arguments id, varyBy, test and timer; the objects of the runtime are given by the structure Objects."
  },
  {
   "property": "C16",
   "status": "proved",
   "theorems": [
    "Cheetah.Cache.C16_keys_injective",
    "Cheetah.Cache.C16_colon_prefix_counterexample"
   ],
   "note": "Needs prefixes without a colon; a colon in a user-chosen prefix can collide (counterexample)."
  },
  {
   "property": "C17",
   "status": "partial",
   "theorems": [
    "Cheetah.Cache.C17_refresh_all",
    "Cheetah.Cache.C17_refresh_region",
    "Cheetah.Cache.C17_refresh_item",
    "Cheetah.Cache.C17_refresh_raises_counterexample"
   ],
   "note": "Proved for refreshes that return normally; that a refresh can raise is shown by an example, the histories are not fully characterised."
  },
  {
   "property": "C18",
   "status": "proved",
   "theorems": [
    "Cheetah.Filters.C18_characterwise",
    "Cheetah.Filters.C18_no_angle_brackets",
    "Cheetah.Filters.C18_ampersands_and_also",
    "Cheetah.Filters.C18_injective",
    "Cheetah.Filters.C18_reserved_also_counterexample"
   ],
   "note": "Clauses about & and injectivity need the proviso on also; C18_reserved_also_counterexample shows why."
  },
  {
   "property": "C19",
   "status": "proved",
   "theorems": [
    "Cheetah.Filters.C19_default_filter",
    "Cheetah.Filters.C19_maxLen",
    "Cheetah.Filters.C19_maxLen_any"
   ],
   "note": ""
  },
  {
   "property": "C20",
   "status": "proved",
   "theorems": [
    "Cheetah.Filters.C20_strip_lines",
    "Cheetah.Filters.C20_strip",
    "Cheetah.Filters.C20_stripSqueeze",
    "Cheetah.Filters.C20_words_at_space"
   ],
   "note": ""
  },
  {
   "property": "C21",
   "status": "proved",
   "theorems": [
    "Cheetah.Filters.C21_decode_encode"
   ],
   "note": ""
  },
  {
   "property": "C22",
   "status": "partial",
   "theorems": [
    "Cheetah.Settings.C22_merge_reads",
    "Cheetah.Settings.C22_merge_idempotent",
    "Cheetah.Settings.C22_merge_empty",
    "Cheetah.Settings.C22_merge_assoc_partial",
    "Cheetah.Settings.C22_associativity_counterexample",
    "Cheetah.Settings.C22_update_overwrites",
    "Cheetah.Settings.C22_setting"
   ],
   "note": "Reads, idempotence, empty and overwrite laws hold; associativity needs compatible shapes (C22_merge_assoc_partial) and fails otherwise (C22_associativity_counterexample)."
  },
  {
   "property": "C23",
   "status": "partial",
   "theorems": [
    "Cheetah.Settings.C23_in_place",
    "Cheetah.Settings.C23_deepcopy",
    "Cheetah.Settings.C23_copy_partial",
    "Cheetah.Settings.C23_copy_counterexample",
    "Cheetah.Settings.C23_alias_counterexample",
    "Cheetah.Settings.C23_sharing_counterexample"
   ],
   "note": "In-place and deepcopy merging behave as stated for dictionaries without inner sharing; copy=True only protects the top level (C23_copy_partial, C23_copy_counterexample); two further aliasing counterexamples."
  },
  {
   "property": "C24",
   "status": "proved",
   "theorems": [
    "Cheetah.StrConst.C24_literal_evaluates_to_text"
   ],
   "note": ""
  },
  {
   "property": "C25",
   "status": "proved",
   "theorems": [
    "Cheetah.Compile.C25_output_is_concatenation",
    "Cheetah.Compile.C25_adjacent_text_is_merged"
   ],
   "note": ""
  },
  {
   "property": "C26",
   "status": "partial",
   "theorems": [
    "Cheetah.Compile.C26_indentation_balanced",
    "Cheetah.Compile.C26_reparses_to_same_nesting",
    "Cheetah.Compile.C26_empty_body_counterexample"
   ],
   "note": "Holds for every template whose control-flow directives have non-empty bodies; an empty body makes Python reject the module (C26_empty_body_counterexample)."
  },
  {
   "property": "C27",
   "status": "proved",
   "theorems": [
    "Cheetah.Compile.C27_control_flow_means_what_it_says",
    "Cheetah.Compile.C27_short_form_same_as_long",
    "Cheetah.Compile.C27_unless_is_if_not"
   ],
   "note": ""
  },
  {
   "property": "C28",
   "status": "partial",
   "theorems": [
    "Cheetah.Compile.C28_regions_partial",
    "Cheetah.Compile.C28_redirection_undone",
    "Cheetah.Compile.C28_caught_exception_counterexample",
    "Cheetah.Compile.C28_break_counterexample",
    "Cheetah.Compile.C28_break_filter_counterexample",
    "Cheetah.Compile.C28_same_number_counterexample"
   ],
   "note": "Holds when control leaves regions only at their end or by an exception not caught in the same method; the counterexamples show that the code violates the property otherwise."
  },
  {
   "property": "C29",
   "status": "partial",
   "theorems": [
    "Cheetah.Compile.C29_stop_returns_output_so_far",
    "Cheetah.Compile.C29_rest_is_not_run_partial",
    "Cheetah.Compile.C29_stop_in_region_counterexample"
   ],
   "note": "Holds for #stop outside regions (also inside #filter); violated inside #capture, #call and #cache (C29_stop_in_region_counterexample)."
  },
  {
   "property": "C30",
   "status": "proved",
   "theorems": [
    "Cheetah.GenVar.C30_generated_code_means_the_placeholder",
    "Cheetah.GenVar.C30_plain"
   ],
   "note": ""
  },
  {
   "property": "C31",
   "status": "partial",
   "theorems": [
    "Cheetah.SetDirective.C31_split_loses_nothing",
    "Cheetah.SetDirective.C31_global_target",
    "Cheetah.SetDirective.C31_local_target",
    "Cheetah.SetDirective.C31_assigns_only_the_name",
    "Cheetah.SetDirective.C31_style_partial",
    "Cheetah.SetDirective.C31_word_prefix_counterexample",
    "Cheetah.SetDirective.C31_tuple_counterexample"
   ],
   "note": "Style words are only proved when the target starts with $; C31_word_prefix_counterexample: a target name beginning with local/global/module loses that prefix; C31_tuple_counterexample: #set global with a tuple target assigns a wrong name."
  },
  {
   "property": "C32",
   "status": "partial",
   "theorems": [
    "Cheetah.Interval.C32_units",
    "Cheetah.Interval.C32_scientific",
    "Cheetah.Interval.C32_monotone",
    "Cheetah.Interval.C32_errors",
    "Cheetah.Interval.C32_cache_token",
    "Cheetah.Interval.C32_static_token",
    "Cheetah.Interval.C32_no_token",
    "Cheetah.Interval.C32_cache_directive",
    "Cheetah.Interval.C32_expiry_partial",
    "Cheetah.Interval.C32_zero_interval_counterexample",
    "Cheetah.Interval.C32_two_points_counterexample"
   ],
   "note": "Units, monotonicity, errors and expiry hold for positive intervals; an interval of 0 is cached for ever (C32_zero_interval_counterexample); exponents are read as powers of ten (C32_scientific); decimal arithmetic is exact in the model."
  },
  {
   "property": "C33",
   "status": "partial",
   "theorems": [
    "Cheetah.ErrorCatcher.C33_shared_iff_same_text",
    "Cheetah.ErrorCatcher.C33_wrapper_belongs_to_text",
    "Cheetah.ErrorCatcher.C33_own_code_partial",
    "Cheetah.ErrorCatcher.C33_evaluates_code_partial",
    "Cheetah.ErrorCatcher.C33_escape_counterexample",
    "Cheetah.ErrorCatcher.C33_changed_settings_counterexample",
    "Cheetah.ErrorCatcher.C33_transparent",
    "Cheetah.ErrorCatcher.C33_missing_name",
    "Cheetah.ErrorCatcher.C33_keyError_counterexample"
   ],
   "note": "The literal passed to eval is the code only when it has no backslash, CR, NUL or triple quote and no quote at the end (C33_escape_counterexample); settings changed between two uses and the KeyError catcher break the claim (counterexamples)."
  },
  {
   "property": "C34",
   "status": "proved",
   "theorems": [
    "Cheetah.Parser.C34_text_between_tags",
    "Cheetah.Parser.C34_source_without_tags"
   ],
   "note": "For every source with the default tokens and tag characters; the end of a tag-free stretch is characterised by a separate specification of where tags start (TagStart)."
  },
  {
   "property": "C35",
   "status": "partial",
   "theorems": [
    "Cheetah.Parser.C35_accepts_iff_balanced",
    "Cheetah.Parser.C35_unbalanced_is_named",
    "Cheetah.Parser.C35_accepted_is_nested_partial",
    "Cheetah.Parser.C35_line_counterexample",
    "Cheetah.Parser.C35_end_counterexample",
    "Cheetah.Parser.C35_word_counterexample"
   ],
   "note": "C35_accepts_iff_balanced: for every sequence of block directives (each alone on its line, possibly indented, with a one-word expression, arbitrary text lines between) the source is accepted iff the sequence is properly nested, and C35_unbalanced_is_named gives the error otherwise. C35_accepted_is_nested_partial: for every source whatever the expressions, acceptance implies nesting, provided no block directive or #end follows a colon on the same line and no simple directive's expression starts with a block directive's name; in both excluded cases the property is false (three counterexamples). Missing: the converse for arbitrary expressions."
  },
  {
   "property": "C36",
   "status": "proved",
   "theorems": [
    "Cheetah.Parser.C36_directive_is_whole_word",
    "Cheetah.Parser.C36_longer_word_is_not_directive"
   ],
   "note": "Full characterisation for every table of names, source and position; '-' and '@' count as name characters."
  },
  {
   "property": "C37",
   "status": "proved",
   "theorems": [
    "Cheetah.Parser.C37_expression_matched",
    "Cheetah.Parser.C37_call_matched",
    "Cheetah.Parser.C37_placeholder_matched",
    "Cheetah.Parser.C37_unclosed_reported",
    "Cheetah.Parser.C37_mismatch_reported",
    "Cheetah.Parser.C37_nested_accepted"
   ],
   "note": "For every tokenizer with the stated sanity conditions; regular expressions of Python tokens are a parameter of the model."
  },
  {
   "property": "C38",
   "status": "partial",
   "theorems": [
    "Cheetah.Parser.C38_comment_ends_where_balanced_partial",
    "Cheetah.Parser.C38_nested_counterexample",
    "Cheetah.Parser.C38_unclosed_counterexample",
    "Cheetah.Parser.C38_reader_error_counterexample"
   ],
   "note": "Violated: one character after every nested token is skipped, so adjacent tokens are missed (counterexamples); unclosed comments are accepted. Proved for comments whose nested tokens are followed by a character outside tokens, without white-space gobbling."
  },
  {
   "property": "C39",
   "status": "partial",
   "theorems": [
    "Cheetah.Parser.C39_expression_terminates_partial",
    "Cheetah.Parser.C39_parse_terminates",
    "Cheetah.Parser.C39_progress_partial",
    "Cheetah.Parser.C39_breakpoint_counterexample",
    "Cheetah.Parser.C39_error_counterexample"
   ],
   "note": "Termination is proved for every source (C39_parse_terminates, with a bound of three steps per character). Progress is proved except for #breakpoint, which consumes nothing and ends the parse (counterexample); an error need not be a ParseError: an IndexError at the end of the source (counterexample). #compiler, #compiler-settings and #defmacro are not modelled."
  },
  {
   "property": "C40",
   "status": "partial",
   "theorems": [
    "Cheetah.Parser.C40_unescape_partial",
    "Cheetah.Parser.C40_escaped_is_no_tag_partial",
    "Cheetah.Parser.C40_end_of_line_counterexample",
    "Cheetah.Parser.C40_same_token_counterexample"
   ],
   "note": "Violated for a # at the end of a line (the line-joining token ignores the escape) and when both tokens are equal; proved for one-character different tokens."
  },
  {
   "property": "C41",
   "status": "partial",
   "theorems": [
    "Cheetah.Parser.C41_arguments_partial",
    "Cheetah.Parser.C41_signature_partial",
    "Cheetah.Parser.C41_missing_comma_counterexample",
    "Cheetah.Parser.C41_equals_counterexample",
    "Cheetah.Parser.C41_colon_counterexample",
    "Cheetah.Parser.C41_index_error_counterexample"
   ],
   "note": "Proved for well-formed lists whose defaults contain no top-level '=', ',', ':', '#', '$' or bracket pair directly followed by a bracket. Four counterexamples show what goes wrong otherwise: a missing comma, '==' in a default, a lambda default, a default without a name."
  },
  {
   "property": "C42",
   "status": "proved",
   "theorems": [
    "Cheetah.RegexEsc.C42_every_character_is_literal",
    "Cheetah.RegexEsc.C42_matches_exactly",
    "Cheetah.RegexEsc.C42_alternatives"
   ],
   "note": "Regular-expression semantics is the textbook one, over the constructs the escaped pattern can contain."
  },
  {
   "property": "C43",
   "status": "partial",
   "theorems": [
    "Cheetah.Transaction.C43_concatenation",
    "Cheetah.Transaction.C43_given_chunks",
    "Cheetah.Transaction.C43_transformer_once",
    "Cheetah.Transaction.C43_method_output",
    "Cheetah.Transaction.C43_transform_partial",
    "Cheetah.Transaction.C43_text_before_transform_counterexample",
    "Cheetah.Transaction.C43_transform_in_transaction_counterexample"
   ],
   "note": "Concatenation holds for every history; #transform covers the whole output only when it precedes all output and the method is called without a transaction (C43_transform_partial and two counterexamples)."
  },
  {
   "property": "C44",
   "status": "partial",
   "theorems": [
    "Cheetah.Indent.C44_level_never_negative",
    "Cheetah.Indent.C44_push_pop_restores",
    "Cheetah.Indent.C44_indent_text",
    "Cheetah.Indent.C44_isolated_partial",
    "Cheetah.Indent.C44_shared_stack_counterexample"
   ],
   "note": "Levels are never negative and push/pop restore them for every history; independence of templates holds when the others are balanced, and fails otherwise because LevelStack is a class attribute (C44_shared_stack_counterexample)."
  },
  {
   "property": "C45",
   "status": "proved",
   "theorems": [
    "Cheetah.Version.C45_value",
    "Cheetah.Version.C45_rejects_the_rest",
    "Cheetah.Version.C45_order"
   ],
   "note": "Numbers are what Python int accepts (ASCII digits in the model)."
  },
  {
   "property": "C46",
   "status": "proved",
   "theorems": [
    "Cheetah.ModuleName.C46_character_by_character",
    "Cheetah.ModuleName.C46_identifier_characters",
    "Cheetah.ModuleName.C46_limits"
   ],
   "note": "POSIX paths (no drive)."
  },
  {
   "property": "C47",
   "status": "partial",
   "theorems": [
    "Cheetah.WebInput.C47_one_entry_per_name",
    "Cheetah.WebInput.C47_entry",
    "Cheetah.WebInput.C47_raises",
    "Cheetah.WebInput.C47_refused_source",
    "Cheetah.WebInput.C47_same_name_counterexample",
    "Cheetah.WebInput.C47_stale_form_counterexample"
   ],
   "note": "Two requests sharing the bare name keep the last one (C47_same_name_counterexample); the CGI form is read once per process (C47_stale_form_counterexample)."
  },
  {
   "property": "C48",
   "status": "partial",
   "theorems": [
    "Cheetah.CompileSched.C48_lock_released",
    "Cheetah.CompileSched.C48_exclusive",
    "Cheetah.CompileSched.C48_same_key",
    "Cheetah.CompileSched.C48_distinct_modules",
    "Cheetah.CompileSched.C48_progress_partial",
    "Cheetah.CompileSched.C48_nested_counterexample"
   ],
   "note": "Names, modules, cache and lock are proved for every schedule, failure and nesting. The lock is a plain Lock, so a module that calls compile while it is executed waits for ever (C48_nested_counterexample); progress is proved without such calls."
  },
  {
   "property": "C49",
   "status": "partial",
   "theorems": [
    "Cheetah.CompileCache.C49_equal_settings",
    "Cheetah.CompileCache.C49_order_irrelevant",
    "Cheetah.CompileCache.C49_one_part_partial",
    "Cheetah.CompileCache.C49_changed_file",
    "Cheetah.CompileCache.C49_names_partial",
    "Cheetah.CompileCache.C49_names_counterexample",
    "Cheetah.CompileCache.C49_empty_counterexample",
    "Cheetah.CompileCache.C49_minus_counterexample",
    "Cheetah.CompileCache.C49_numbers_partial",
    "Cheetah.CompileCache.C49_large_number_counterexample"
   ],
   "note": "Equal settings have equal keys; requests differing in one part are characterised. Violated for names joined without separator (C49_names_counterexample), empty list against empty dictionary (C49_empty_counterexample) and -1 against -2 (C49_minus_counterexample) and 2^61-1 against 0 (C49_large_number_counterexample); for all other numbers below 2^61-1 one changed number changes the key (C49_numbers_partial, for an injective tuple hash). Floats, tuples and objects as settings are not modelled."
  },
  {
   "property": "C50",
   "status": "proved",
   "theorems": [
    "Cheetah.Wrapper.C50_old_contents_survive",
    "Cheetah.Wrapper.C50_completed",
    "Cheetah.Wrapper.C50_nobackup_loses",
    "Cheetah.Wrapper.C50_second_run_loses"
   ],
   "note": "A crash of the process at any point; the operating system survives. C50_second_run_loses shows the limit: a second run after a crash overwrites the good backup."
  },
  {
   "property": "C51",
   "status": "partial",
   "theorems": [
    "Cheetah.Wrapper.C51_bounded",
    "Cheetah.Wrapper.C51_all_waited_for",
    "Cheetah.Wrapper.C51_all_processed",
    "Cheetah.Wrapper.C51_failure_reported_partial",
    "Cheetah.Wrapper.C51_failure_not_missed",
    "Cheetah.Wrapper.C51_killed_counterexample"
   ],
   "note": "A child killed by a signal counts as successful (C51_killed_counterexample)."
  },
  {
   "property": "C52",
   "status": "proved",
   "theorems": [
    "Cheetah.Wrapper.C52_reports",
    "Cheetah.Wrapper.C52_aborts_iff",
    "Cheetah.Wrapper.C52_flat_destination",
    "Cheetah.Wrapper.C52_tree_destination"
   ],
   "note": "The order in which the report lists the colliding files is left out."
  },
  {
   "property": "C53",
   "status": "partial",
   "theorems": [
    "Cheetah.ImportLock.C53_mutual_exclusion_partial",
    "Cheetah.ImportLock.C53_reentrant_partial",
    "Cheetah.ImportLock.C53_released_partial",
    "Cheetah.ImportLock.C53_release_step_partial",
    "Cheetah.ImportLock.C53_race_counterexample",
    "Cheetah.ImportLock.C53_raised_counterexample"
   ],
   "note": "Violated: C53_race_counterexample (two threads inside) and C53_raised_counterexample (lock held for ever after an import raised). Proved when lines 583-585 are not interleaved and no import raises."
  },
  {
   "property": "C54",
   "status": "proved",
   "theorems": [
    "Cheetah.ModuleName.C54_last_dot",
    "Cheetah.ModuleName.C54_nameSplit",
    "Cheetah.ModuleName.C54_nameSplit_joins_back",
    "Cheetah.ModuleName.C54_trailing_dot_lost"
   ],
   "note": ""
  },
  {
   "property": "C55",
   "status": "proved",
   "theorems": [
    "Cheetah.Mondo.C55_roman",
    "Cheetah.Mondo.C55_value",
    "Cheetah.Mondo.C55_injective"
   ],
   "note": "Any integer; below 1 a TypeError (not the intended ValueError) is raised."
  },
  {
   "property": "C56",
   "status": "proved",
   "theorems": [
    "Cheetah.Mondo.C56_page",
    "Cheetah.Mondo.C56_page_too_long",
    "Cheetah.Mondo.C56_page_other",
    "Cheetah.Mondo.C56_pages_cover",
    "Cheetah.Mondo.C56_all"
   ],
   "note": ""
  },
  {
   "property": "C57",
   "status": "proved",
   "theorems": [
    "Cheetah.Preprocess.C57_defaults",
    "Cheetah.Preprocess.C57_settings",
    "Cheetah.Preprocess.C57_bad_tokens",
    "Cheetah.Preprocess.C57_pipeline"
   ],
   "note": "String and list tokens, dictionary compilerSettings."
  },
  {
   "property": "C58",
   "status": "partial",
   "theorems": [
    "Cheetah.Template.C58_include_snapshot",
    "Cheetah.Template.C58_initial_filter",
    "Cheetah.Template.C58_raw_then_parsed_counterexample"
   ],
   "note": "A raw include followed by a parsed include of the same argument fails (counterexample); the rest holds for every history."
  },
  {
   "property": "C59",
   "status": "partial",
   "theorems": [
    "Cheetah.FileTools.C59_found_iff",
    "Cheetah.FileTools.C59_multiplicity",
    "Cheetah.FileTools.C59_once_partial",
    "Cheetah.FileTools.C59_twice_counterexample"
   ],
   "note": "Membership and multiplicity are proved for every tree; each file once only if no name matches two patterns (C59_twice_counterexample)."
  },
  {
   "property": "C60",
   "status": "proved",
   "theorems": [
    "Cheetah.FileTools.C60_adds_up",
    "Cheetah.FileTools.C60_summary",
    "Cheetah.FileTools.C60_summary_adds_up"
   ],
   "note": "The summary counts a file given twice once."
  },
  {
   "property": "C61",
   "status": "partial",
   "theorems": [
    "Cheetah.Indent.C61_lines",
    "Cheetah.Indent.C61_line_by_line",
    "Cheetah.Indent.C61_off_keeps_layout",
    "Cheetah.Indent.C61_chars_counterexample",
    "Cheetah.Indent.C61_space_counterexample",
    "Cheetah.Indent.C61_chars"
   ],
   "note": "Holds for all lines but #indent chars (C61_chars_counterexample; C61_chars says what becomes of it in general) and lines that start with white space other than blanks and tabs (C61_space_counterexample)."
  },
  {
   "property": "C62",
   "status": "partial",
   "theorems": [
    "Cheetah.Mondo.C62_position",
    "Cheetah.Mondo.C62_letter",
    "Cheetah.Mondo.C62_lastValue",
    "Cheetah.Mondo.C62_firstValue_partial",
    "Cheetah.Mondo.C62_firstValue_of_first",
    "Cheetah.Mondo.C62_firstValue_counterexample",
    "Cheetah.Mondo.C62_next_counterexample",
    "Cheetah.Mondo.C62_prev_counterexample",
    "Cheetah.Mondo.C62_median"
   ],
   "note": "firstValue of the first record compares with the last (C62_firstValue_counterexample); next() always raises or is None (C62_next_counterexample). Floats (mean, percentOfTotal) are not modelled."
  },
  {
   "property": "C63",
   "status": "partial",
   "theorems": [
    "Cheetah.FileTools.C63_counterexample",
    "Cheetah.FileTools.C63_counted_partial"
   ],
   "note": "Violated for empty lines and for comments not preceded by exactly one blank (C63_counterexample)."
  },
  {
   "property": "C64",
   "status": "partial",
   "theorems": [
    "Cheetah.Wrapper.C64_absolute_destination",
    "Cheetah.Wrapper.C64_absolute_elsewhere",
    "Cheetah.Wrapper.C64_absolute_counterexample",
    "Cheetah.Wrapper.C64_distinct_partial",
    "Cheetah.Wrapper.C64_counterexample",
    "Cheetah.Wrapper.C64_hangs_counterexample"
   ],
   "note": "Relative sources (C64_distinct_partial); absolute sources below a directory that leads to the output directory (C64_absolute_destination) and elsewhere (C64_absolute_elsewhere). Violated by C64_counterexample (two sources, one destination), C64_absolute_counterexample (a name that merely begins like the output directory) and C64_hangs_counterexample (the loop that cuts the parent does not end)."
  },
  {
   "property": "C65",
   "status": "proved",
   "theorems": [
    "Cheetah.CompileCache.C65_underscores",
    "Cheetah.CompileCache.C65_identifier"
   ],
   "note": "Identifiers are ASCII in C65_identifier; C65_underscores is for every name."
  },
  {
   "property": "C66",
   "status": "partial",
   "theorems": [
    "Cheetah.CompileCache.C66_coding_line",
    "Cheetah.CompileCache.C66_cached_text_partial",
    "Cheetah.CompileCache.C66_counterexample"
   ],
   "note": "Violated for encodings other than ASCII (C66_counterexample)."
  },
  {
   "property": "C67",
   "status": "partial",
   "theorems": [
    "Cheetah.Parser.C67_placeholder_end_partial",
    "Cheetah.Parser.C67_swallowed_counterexample"
   ],
   "note": "Proved when the next character is not an opening bracket; false otherwise (counterexample)."
  },
  {
   "property": "C68",
   "status": "partial",
   "theorems": [
    "Cheetah.Parser.C68_expression_translated",
    "Cheetah.Parser.C68_arguments_translated",
    "Cheetah.Parser.C68_generator_argument_counterexample",
    "Cheetah.Parser.C68_nested_keyword_counterexample"
   ],
   "note": "C68_expression_translated and C68_arguments_translated: for every expression tree of tokens, blanks, brackets, placeholders, keyword arguments of placeholders written with $ and comprehensions between square or curly brackets. Violated for a generator as call argument (C68_generator_argument_counterexample) and for a keyword with $ in a call within call arguments (C68_nested_keyword_counterexample). Missing: tabs and line breaks inside brackets (line breaks are dropped by the code), comprehension targets other than names separated by a comma and a blank."
  },
  {
   "property": "C69",
   "status": "partial",
   "theorems": [
    "Cheetah.Driver.C69_nested_compiles",
    "Cheetah.Driver.C69_accepted_compiles_partial",
    "Cheetah.Driver.C69_arg_counterexample",
    "Cheetah.Driver.C69_psp_counterexample",
    "Cheetah.Driver.C69_word_counterexample"
   ],
   "note": "C69_nested_compiles: for every properly nested command list (PSP blocks nested too, #arg only inside #call) compilation succeeds or fails for one of ten listed reasons about a directive's contents; never by indentation. C69_accepted_compiles_partial lifts it to sources through C35, excluding what C35 excludes, #arg and block-opening PSP text; for each of these the property is false (three counterexamples)."
  },
  {
   "property": "C70",
   "status": "partial",
   "theorems": [
    "Cheetah.EndToEnd.C70_source_means_what_it_says_partial",
    "Cheetah.EndToEnd.C70_blanks_before_arg_counterexample",
    "Cheetah.EndToEnd.C70_stop_in_capture_counterexample",
    "Cheetah.EndToEnd.C70_else_if_in_string_counterexample",
    "Cheetah.EndToEnd.C70_bracket_after_placeholder_counterexample",
    "Cheetah.EndToEnd.C70_text_after_call_counterexample",
    "Cheetah.EndToEnd.C70_subscript_after_call_counterexample",
    "Cheetah.EndToEnd.C70_comment_only_block_counterexample"
   ],
   "note": "C70_source_means_what_it_says_partial: from the characters of the source to what a call of the generated method writes, for every source tree (text with tag characters and escapes; placeholders with dotted names, call arguments, subscripts, chains $a.b(1).c[2][3].d, ${...} expressions and $!; comments ## and #* *# over any number of lines; the listed directives, #try/#except/#finally, #if c then a else b, #set and #set global with the twelve assignment operators, #include, each on a line of its own, within a line (#if $x#yes#end if#) or at the end of a line; #capture, #call $f args with or without #args, and #filter around any source, with the numbers the compiler draws for them distinct; #slurp, #raw, #def and #block on lines of their own; nested to any depth), every tokenizer that reads identifiers and brackets, every reading of Python expressions. Missing: the one-line forms with a colon, #def and #raw within a line, #cache regions, control flow that leaves a #capture/#call/#filter (C70_stop_in_capture_counterexample, see C28), cached placeholders. The exceptions that are real defects are counterexamples: #elif expressions with the words else if (rewritten even in strings), a bracket right behind ${x + 1}, text right behind $f(1), a bracket right behind it (text, though a subscript inside expressions: C70_subscript_after_call_counterexample), a block with only a comment in it, the blanks in front of an #arg, which are written although the line is otherwise removed (C70_blanks_before_arg_counterexample); names may not clash with words of the generated code."
  },
  {
   "property": "C71",
   "status": "partial",
   "theorems": [
    "Cheetah.EndToEnd.C71_definitions_become_methods_partial",
    "Cheetah.EndToEnd.C71_respond_counterexample",
    "Cheetah.EndToEnd.C71_trans_argument_counterexample",
    "Cheetah.EndToEnd.C71_nested_counterexample",
    "Cheetah.EndToEnd.C71_block_arguments_counterexample"
   ],
   "note": "C71_definitions_become_methods_partial: for every source tree of C70, the finished methods are those of the #defs and #blocks in the order of their ends, then respond; each with its name, arguments and the meaning of its body. Missing: star arguments, decorators, one-line and nested #def (a closure: C71_nested_counterexample). Excluded because they fail: #def respond (shadowed by the main method), an argument named trans (appears twice in the signature), both counterexamples; also recorded: the call left by a #block passes no arguments."
  },
  {
   "property": "C72",
   "status": "partial",
   "theorems": [
    "Cheetah.Driver.C72_imports_at_the_top",
    "Cheetah.Driver.C72_extends_partial",
    "Cheetah.Driver.C72_imported_package_counterexample",
    "Cheetah.Driver.C72_name_cut_twice_counterexample",
    "Cheetah.Driver.C72_imported_module_counterexample",
    "Cheetah.Driver.C72_brackets_counterexample",
    "Cheetah.Driver.C72_two_names_counterexample",
    "Cheetah.Driver.C72_star_import_lost_counterexample",
    "Cheetah.Driver.C72_late_extends_counterexample",
    "Cheetah.EndToEnd.C72_header_partial",
    "Cheetah.EndToEnd.C72_template_with_base_partial"
   ],
   "note": "C72_imports_at_the_top for every sequence of commands; C72_extends_partial for every list of classes none of which is written through an imported module. The rest is false: seven counterexamples (C72_imported_package, C72_name_cut_twice, C72_imported_module, C72_brackets, C72_two_names, and without useLegacyImportMode C72_star_import_lost, C72_late_extends). C72_header_partial and C72_template_with_base_partial start from the source: header directives (#import, #from, #attr, #encoding, #shBang, #implements), at most one #extends among them, and then a document of C70; they give the base classes, imports, attributes, encoding and first line, and what the main method and the definitions do. handlerForExtendsDirective is not modelled."
  },
  {
   "property": "C73",
   "status": "partial",
   "theorems": [
    "Cheetah.ErrReport.C73_report_shows_the_place_partial",
    "Cheetah.ErrReport.C73_caret_below_the_place",
    "Cheetah.ErrReport.C73_report_fails_iff",
    "Cheetah.ErrReport.C73_report_of_a_line",
    "Cheetah.ErrReport.C73_python_table_partial",
    "Cheetah.ErrReport.C73_first_line_counterexample",
    "Cheetah.ErrReport.C73_form_feed_counterexample",
    "Cheetah.ErrReport.C73_windows_end_counterexample",
    "Cheetah.ErrReport.C73_python_lines_counterexample",
    "Cheetah.ErrReport.C73_guessed_place_counterexample"
   ],
   "note": "C73_report_shows_the_place_partial and C73_caret_below_the_place for every text whose only line separators are \\n, \\r, \\r\\n; C73_report_fails_iff says exactly when a report cannot be printed; C73_python_table_partial gives the exact table for Python errors. The rest is false: C73_first_line, C73_form_feed, C73_windows_end, C73_python_lines and C73_guessed_place counterexamples."
  },
  {
   "property": "C74",
   "status": "partial",
   "theorems": [
    "Cheetah.Plumb.C74_nothing_is_hidden",
    "Cheetah.Plumb.C74_own_str_kept",
    "Cheetah.Plumb.C74_required_there",
    "Cheetah.Plumb.C74_str_runs_main_partial",
    "Cheetah.Plumb.C74_own_main_method_counterexample",
    "Cheetah.Plumb.C74_late_main_method_counterexample"
   ],
   "note": "C74_nothing_is_hidden, C74_own_str_kept and C74_required_there hold for every hierarchy; C74_str_runs_main_partial: str(t) runs the main method of the first template of the hierarchy. Of a derived template with another main method it does not run that one (C74_own_main_method_counterexample); C74_late_main_method_counterexample: the last branch calls a string."
  },
  {
   "property": "C75",
   "status": "partial",
   "theorems": [
    "Cheetah.Plumb.C75_attributes_stay_partial",
    "Cheetah.Plumb.C75_template_attributes",
    "Cheetah.Plumb.C75_false_attribute_counterexample",
    "Cheetah.Plumb.C75_inherited_attribute_counterexample",
    "Cheetah.Plumb.C75_method_without_self_counterexample",
    "Cheetah.Plumb.C75_template_hidden_counterexample"
   ],
   "note": "C75_attributes_stay_partial (true values, own attributes, no leading __) and C75_template_attributes; the rest is false: C75_false_attribute, C75_inherited_attribute, C75_method_without_self and C75_template_hidden counterexamples."
  },
  {
   "property": "C76",
   "status": "partial",
   "theorems": [
    "Cheetah.Doc.C76_comments_stay_comments",
    "Cheetah.Doc.C76_header_is_comments",
    "Cheetah.Doc.C76_method_doc_is_a_literal",
    "Cheetah.Doc.C76_module_doc_is_a_literal_partial",
    "Cheetah.Doc.C76_class_doc_is_a_literal_partial",
    "Cheetah.Doc.C76_special_variables",
    "Cheetah.Doc.C76_special_variable_value",
    "Cheetah.Doc.C76_def_note_is_a_comment",
    "Cheetah.Doc.C76_documentation_is_what_was_written",
    "Cheetah.Doc.C76_method_doc_value_partial",
    "Cheetah.Doc.C76_class_doc_value_partial",
    "Cheetah.Doc.C76_module_doc_value_partial",
    "Cheetah.Doc.C76_module_doc_counterexample",
    "Cheetah.Doc.C76_class_doc_counterexample",
    "Cheetah.Doc.C76_method_doc_changed_counterexample",
    "Cheetah.Doc.C76_method_doc_refused_counterexample",
    "Cheetah.Doc.C76_special_name_counterexample",
    "Cheetah.Doc.C76_one_line_def_counterexample"
   ],
   "note": "Comments and header lines are always comments, method docstrings always one literal, special variables always read back. Class and module docstrings are literals only without three quotes (C76_class_doc_counterexample, C76_module_doc_counterexample: the rest becomes code); the value of a docstring is what was written without backslashes and, for methods, percent signs (C76_method_doc_changed_counterexample, C76_method_doc_refused_counterexample); C76_special_name_counterexample; C76_one_line_def_counterexample."
  },
  {
   "property": "C77",
   "status": "partial",
   "theorems": [
    "Cheetah.Config.C77_text_is_never_run",
    "Cheetah.Config.C77_text_stays",
    "Cheetah.Config.C77_words",
    "Cheetah.Config.C77_integers",
    "Cheetah.Config.C77_config_is_read",
    "Cheetah.Config.C77_settings_in_text_partial",
    "Cheetah.Config.C77_reset_partial",
    "Cheetah.Config.C77_empty_value_counterexample",
    "Cheetah.Config.C77_sum_counterexample",
    "Cheetah.Config.C77_importSettings_counterexample",
    "Cheetah.Config.C77_globals_counterexample",
    "Cheetah.Config.C77_reset_counterexample"
   ],
   "note": "Values, sections and settings proved for every text and every list of sections. The code falls short: an empty value is an IndexError, (1+2) is evaluated, importSettings always fails, an option called globals is lost, a reset keeps settings without a default and drops those passed from outside (the C77 counterexample theorems)."
  },
  {
   "property": "C78",
   "status": "partial",
   "theorems": [
    "Cheetah.Imports.C78_second_import",
    "Cheetah.Imports.C78_template_is_imported",
    "Cheetah.Imports.C78_python_first",
    "Cheetah.Imports.C78_no_such_module",
    "Cheetah.Imports.C78_files_kept",
    "Cheetah.Imports.C78_byte_code_stays_true",
    "Cheetah.Imports.C78_relative_import",
    "Cheetah.Imports.C78_relative_no_such_module",
    "Cheetah.Imports.C78_from_package_import",
    "Cheetah.Imports.C78_edited_template_counterexample",
    "Cheetah.Imports.C78_same_second_counterexample",
    "Cheetah.Imports.C78_broken_module_counterexample",
    "Cheetah.Imports.C78_no_package_counterexample",
    "Cheetah.Imports.C78_bad_byte_code_counterexample",
    "Cheetah.Imports.C78_dots_counterexample",
    "Cheetah.Imports.C78_late_directory_counterexample",
    "Cheetah.Imports.C78_relative_counterexample",
    "Cheetah.Imports.C78_attribute_counterexample",
    "Cheetah.Imports.C78_cache_directory_counterexample",
    "Cheetah.Imports.C78_reload_counterexample"
   ],
   "note": "Finding, entering, second imports, missing names, files kept and true byte code proved for every world. The code falls short: an edited template is not compiled again in a new process (C78_edited_template_counterexample, general), and ten more counterexample theorems: byte code of the same second, modules that raise stay, KeyError for a submodule of a module, TypeError for bad byte code, dots ignored, late directories, None left by relative imports, attributes taken for modules, only the first cache directory, reload."
  },
  {
   "property": "C79",
   "status": "partial",
   "theorems": [
    "Cheetah.Parser.C79_forbidden_is_absent",
    "Cheetah.Parser.C79_only_refuses",
    "Cheetah.Parser.C79_settings",
    "Cheetah.Parser.C79_capital_letters_counterexample",
    "Cheetah.Parser.C79_other_ways_counterexample"
   ],
   "note": "C79_forbidden_is_absent, C79_only_refuses and C79_settings hold for every source and all settings. The code falls short: names are put in lower case but the settings are not, so errorCatcher and shBang cannot be named (C79_capital_letters_counterexample); forbidding a tag does not forbid what it does (C79_other_ways_counterexample: #else if, statements after a semicolon, # at the end of a line). #compiler, #compiler-settings (which can change the two settings from within a template), #defmacro and #i18n are not modelled."
  },
  {
   "property": "C80",
   "status": "partial",
   "theorems": [
    "Cheetah.Parser.C80_code_is_shown_partial",
    "Cheetah.Parser.C80_only_refuses",
    "Cheetah.Parser.C80_accepted_unchanged",
    "Cheetah.Parser.C80_word_partial",
    "Cheetah.Parser.C80_call_arguments_counterexample",
    "Cheetah.Parser.C80_filter_arguments_counterexample",
    "Cheetah.Parser.C80_ternary_counterexample",
    "Cheetah.Parser.C80_type_counterexample"
   ],
   "note": "C80_code_is_shown_partial and C80_word_partial cover every command but those of #call, #def, #block, #closure, #implements and #super, of which the hooks see the source text (for #call only the name); for #if .. then .. else .. what is compiled is pieces of what was shown. C80_only_refuses and C80_accepted_unchanged are complete. The code falls short of the property: C80_call_arguments_counterexample (arguments of #call are never shown), C80_filter_arguments_counterexample, C80_ternary_counterexample, C80_type_counterexample. Hooks that change the expression, macros (whose arguments are evaluated at compile time without being shown) and #compiler are not modelled."
  },
  {
   "property": "C81",
   "status": "partial",
   "theorems": [
    "Cheetah.EndToEnd.C81_names_of_a_class",
    "Cheetah.EndToEnd.C81_methods_last",
    "Cheetah.EndToEnd.C81_main_method",
    "Cheetah.EndToEnd.C81_names_of_a_template_partial",
    "Cheetah.EndToEnd.C81_names_of_a_template_with_base_partial",
    "Cheetah.EndToEnd.C81_definition_lost_counterexample",
    "Cheetah.EndToEnd.C81_main_method_hidden_counterexample"
   ],
   "note": "C81_names_of_a_class, C81_methods_last (outputMethodsBeforeAttributes off) and C81_main_method hold for every list of finished methods and attributes; C81_names_of_a_template_partial and C81_names_of_a_template_with_base_partial start from the source, with the header directives and the documents of C70. Not there: docstrings in the methods, decorators from the source. That every definition can be called is false: C81_definition_lost_counterexample, C81_main_method_hidden_counterexample."
  },
  {
   "property": "C82",
   "status": "partial",
   "theorems": [
    "Cheetah.Driver.C82_methods",
    "Cheetah.Driver.C82_names",
    "Cheetah.Driver.C82_return_or_yield",
    "Cheetah.Driver.C82_pieces_partial",
    "Cheetah.Driver.C82_rest_lost_counterexample"
   ],
   "note": "C82_methods, C82_names and C82_return_or_yield hold for every sequence of commands. C82_pieces_partial: texts and #yield alone, without other directives. That all of the text is given is false: C82_rest_lost_counterexample (what is written behind the last #yield is lost)."
  },
  {
   "property": "C83",
   "status": "partial",
   "theorems": [
    "Cheetah.Setup.C83_parameters",
    "Cheetah.Setup.C83_lines",
    "Cheetah.Setup.C83_static",
    "Cheetah.Setup.C83_static_text",
    "Cheetah.Setup.C83_dictionary",
    "Cheetah.Setup.C83_static_names_partial",
    "Cheetah.Setup.C83_static_names_counterexample",
    "Cheetah.Setup.C83_signature"
   ],
   "note": "C83_parameters, C83_lines, C83_signature, C83_static, C83_static_text and C83_dictionary hold for every method without an open region, with the settings of EndToEnd.Usual. That every name read is a parameter is false of class and static methods: with a dictionary of their own or a parameter trans they read KWS, which they do not have (C83_static_names_counterexample; without these C83_static_names_partial). A parameter trans is given twice (C71_trans_argument_counterexample)."
  },
  {
   "property": "C84",
   "status": "partial",
   "theorems": [
    "Cheetah.Psp.C84_page",
    "Cheetah.Psp.C84_indented_code_counterexample",
    "Cheetah.Psp.C84_end_in_string_counterexample"
   ],
   "note": "C84_page holds for every template of texts and well nested Python sections, from the source to the lines. Other tags between the sections are not in it, nor line separators of Python other than \\n, \\r and \\r\\n. The code falls short where all lines of a section are indented (C84_indented_code_counterexample: the first loses its indentation) and where %> stands in a string (C84_end_in_string_counterexample)."
  },
  {
   "property": "C85",
   "status": "partial",
   "theorems": [
    "Cheetah.EndToEnd.C85_names_of_a_module",
    "Cheetah.EndToEnd.C85_own_imports",
    "Cheetah.EndToEnd.C85_first_line",
    "Cheetah.EndToEnd.C85_encoding_counterexample",
    "Cheetah.EndToEnd.C85_module_statements",
    "Cheetah.EndToEnd.C85_encoding"
   ],
   "note": "C85_names_of_a_module says what the last binding of each name at the top level of the module is; C85_own_imports, C85_first_line, C85_encoding and C85_module_statements (from the commands, at any depth) complete it. bytes(compiler) encodes the module without declaring #encoding (C85_encoding_counterexample). #set module with a value of several lines or a dotted name is not read."
  },
  {
   "property": "C86",
   "status": "proved",
   "theorems": [
    "Cheetah.CmdLine.C86_options",
    "Cheetah.CmdLine.C86_printed_iff",
    "Cheetah.CmdLine.C86_unknown",
    "Cheetah.CmdLine.C86_last_wins",
    "Cheetah.CmdLine.C86_set_global_counterexample",
    "Cheetah.CmdLine.C86_stdin_twice"
   ],
   "note": "C86_options and C86_printed_iff (both directions, every command line), C86_unknown, C86_last_wins through C01, C86_stdin_twice. getopt of the Python library is modelled with the options of the script, without its messages; reading a file or standard input is a parameter. C86_set_global_counterexample notes that #set global has no effect on a name that an option has."
  },
  {
   "property": "C87",
   "status": "partial",
   "theorems": [
    "Cheetah.Null.C87_nothing_comes_of_nothing",
    "Cheetah.Null.C87_text_and_equality_partial",
    "Cheetah.Null.C87_truth_counterexample",
    "Cheetah.Null.C87_own_attribute_counterexample"
   ],
   "note": "C87_nothing_comes_of_nothing holds for every chain whose names do not begin with two underscores; C87_text_and_equality_partial for every value whose truth can be told. In Python 3 testing a null raises TypeError, and so does comparing two (C87_truth_counterexample); names that every object has are found by the Python name mapper only (C87_own_attribute_counterexample)."
  },
  {
   "property": "C88",
   "status": "partial",
   "theorems": [
    "Cheetah.MakeDirs.C88_packages",
    "Cheetah.MakeDirs.C88_one_outcome",
    "Cheetah.MakeDirs.C88_stopped",
    "Cheetah.MakeDirs.C88_restart_partial",
    "Cheetah.MakeDirs.C88_stopped_counterexample",
    "Cheetah.MakeDirs.C88_parallel_counterexample",
    "Cheetah.MakeDirs.C88_parallel_partial"
   ],
   "note": "C88_packages and C88_one_outcome: whole runs. C88_stopped: every point at which a run can stop; C88_restart_partial: a second run completes it, unless the first stopped between a directory and its __init__.py, which is then never made (C88_stopped_counterexample). Two workers only ever make missing directories, in any order of their steps (C88_parallel_partial), but where both need the same new directory the second fails (C88_parallel_counterexample). Paths are lists of names."
  },
  {
   "property": "C89",
   "status": "partial",
   "theorems": [
    "Cheetah.ClassCode.C89_class_code_partial",
    "Cheetah.ClassCode.C89_cut_counterexample",
    "Cheetah.ClassCode.C89_docstring_counterexample",
    "Cheetah.ClassCode.C89_none_counterexample"
   ],
   "note": "C89_class_code_partial: exact result for every module without look-alike lines. A line of the class that begins with the end marker cuts the result (C89_cut_counterexample), a docstring line that begins with class extends it (C89_docstring_counterexample), and without a compilation there is an AttributeError (C89_none_counterexample). The parts of the module are arbitrary texts; the package is called Cheetah."
  },
  {
   "property": "C90",
   "status": "partial",
   "theorems": [
    "Cheetah.TemplateArgs.C90_accepted_partial",
    "Cheetah.TemplateArgs.C90_named",
    "Cheetah.TemplateArgs.C90_refused_partial",
    "Cheetah.TemplateArgs.C90_not_both",
    "Cheetah.TemplateArgs.C90_not_both_lists",
    "Cheetah.TemplateArgs.C90_found",
    "Cheetah.TemplateArgs.C90_collisions_partial",
    "Cheetah.TemplateArgs.C90_silent_counterexample",
    "Cheetah.TemplateArgs.C90_single_namespace_counterexample",
    "Cheetah.TemplateArgs.C90_tuple_counterexample",
    "Cheetah.TemplateArgs.C90_filtersLib_counterexample",
    "Cheetah.TemplateArgs.C90_class_counterexample"
   ],
   "note": "C90_accepted_partial and C90_refused_partial: both directions; C90_named: the error names a wrong argument; C90_not_both, C90_not_both_lists, C90_found; C90_collisions_partial: exactly the hidden names of a list or tuple searchList are logged. Violated for classes that are no filters (C90_class_counterexample), a text as filtersLib (C90_filtersLib_counterexample), a single object as searchList (C90_single_namespace_counterexample), a tuple with the setting (C90_tuple_counterexample); nothing is logged for namespaces and single dictionaries (C90_silent_counterexample)."
  },
  {
   "property": "C91",
   "status": "partial",
   "theorems": [
    "Cheetah.ServerPath.C91_place",
    "Cheetah.ServerPath.C91_own",
    "Cheetah.ServerPath.C91_again",
    "Cheetah.ServerPath.C91_backslash_counterexample"
   ],
   "note": "C91_place: the place and the form of the result, for every path and every normal working directory; C91_again: stable under repetition; C91_own: without a path. Symbolic links are not modelled. A file whose name has a backslash cannot be reached on POSIX systems (C91_backslash_counterexample)."
  },
  {
   "property": "C92",
   "status": "partial",
   "theorems": [
    "Cheetah.Turbo.C92_current_partial",
    "Cheetah.Turbo.C92_stuck_counterexample",
    "Cheetah.Turbo.C92_stale_counterexample",
    "Cheetah.Turbo.C92_arguments",
    "Cheetah.Turbo.C92_precompiled"
   ],
   "note": "C92_current_partial: all histories whose versions compile and differ in time; C92_arguments; C92_precompiled. A template that was loaded once while it did not compile can never be loaded again, whatever is done to its file (C92_stuck_counterexample); a change that keeps the time is not noticed (C92_stale_counterexample). Compilation is a parameter; render, the files of packages and threads are not modelled."
  },
  {
   "property": "C93",
   "status": "partial",
   "theorems": [
    "Cheetah.LoadPath.C93_directory_partial",
    "Cheetah.LoadPath.C93_here",
    "Cheetah.LoadPath.C93_root_counterexample",
    "Cheetah.LoadPath.C93_suffix",
    "Cheetah.LoadPath.C93_no_suffix",
    "Cheetah.LoadPath.C93_modules",
    "Cheetah.LoadPath.C93_replaced_counterexample"
   ],
   "note": "C93_directory_partial: all directories but the root; C93_here, C93_suffix, C93_no_suffix, C93_modules. A template in the root directory is looked for in the working directory (C93_root_counterexample); a loaded module of the same name is replaced, even if the template then fails (C93_replaced_counterexample). The search in the directory is a parameter here; drives and missing directories are not modelled."
  }
 ]
}