{
 "claims": [
  {
   "property": "C01",
   "status": "partial",
   "theorems": [
    "Tgt.C01_index_in_range_iff",
    "Tgt.C01_index_in_range_partial",
    "Tgt.C01_false",
    "Tgt.C01_false_lv"
   ],
   "note": "The full statement is false (C01_false: rows lv and sl of the table can yield an index >= nplurals or the wrong rule; the counterexamples are proved). C01_index_in_range_iff characterises exactly which table rows satisfy it, for all n."
  },
  {
   "property": "C02",
   "status": "partial",
   "theorems": [
    "Tgt.C02_nplurals_announced_partial",
    "Tgt.C02_false"
   ],
   "note": "False for one row (C02_false); proved for all others."
  },
  {
   "property": "C03",
   "status": "proved",
   "theorems": [
    "Tgt.C03_plural_is_expression",
    "Tgt.C03_expression_wellformed",
    "Tgt.C03_lv_repaired"
   ],
   "note": ""
  },
  {
   "property": "C04",
   "status": "proved",
   "theorems": [
    "Tgt.C04_whitespace_irrelevant",
    "Tgt.C04_accepted_iff",
    "Tgt.C04_rejected"
   ],
   "note": ""
  },
  {
   "property": "C05",
   "status": "proved",
   "theorems": [
    "Tgt.C05_match_is_score",
    "Tgt.C05_match_range",
    "Tgt.C05_match_symm",
    "Tgt.C05_match_nine"
   ],
   "note": ""
  },
  {
   "property": "C06",
   "status": "proved",
   "theorems": [
    "Tgt.C06_country_monotone",
    "Tgt.C06_modifier_monotone"
   ],
   "note": ""
  },
  {
   "property": "C07",
   "status": "proved",
   "theorems": [
    "Tgt.C07_from_spec_no_abort",
    "Tgt.C07_from_spec_language"
   ],
   "note": ""
  },
  {
   "property": "C08",
   "status": "proved",
   "theorems": [
    "Tgt.C08_from_spec_best",
    "Tgt.C08_from_spec_exact"
   ],
   "note": ""
  },
  {
   "property": "C09",
   "status": "proved",
   "theorems": [
    "Tgt.C09_env_roundtrip",
    "Tgt.C09_name_roundtrip",
    "Tgt.C09_str_injective"
   ],
   "note": ""
  },
  {
   "property": "C10",
   "status": "proved",
   "theorems": [
    "Tgt.C10_from_env_splits"
   ],
   "note": ""
  },
  {
   "property": "C11",
   "status": "proved",
   "theorems": [
    "Tgt.C11_alias_any_case",
    "Tgt.C11_case_insensitive",
    "Tgt.C11_not_alias",
    "Tgt.C11_uppercase_alias_unreachable"
   ],
   "note": ""
  },
  {
   "property": "C12",
   "status": "proved",
   "theorems": [
    "Tgt.C12_undefined",
    "Tgt.C12_defined",
    "Tgt.C12_localized_default"
   ],
   "note": ""
  },
  {
   "property": "C13",
   "status": "proved",
   "theorems": [
    "Tgt.C13_throws_iff",
    "Tgt.C13_no_underscore",
    "Tgt.C13_upcases_country",
    "Tgt.C13_upcases_country_no_suffix",
    "Tgt.C13_language_files"
   ],
   "note": ""
  },
  {
   "property": "C14",
   "status": "proved",
   "theorems": [
    "Tgt.C14_translate_latest",
    "Tgt.C14_others_irrelevant"
   ],
   "note": ""
  },
  {
   "property": "C15",
   "status": "proved",
   "theorems": [
    "Tgt.C15_translate_plural",
    "Tgt.C15_translate_ctxt_plural"
   ],
   "note": ""
  },
  {
   "property": "C16",
   "status": "proved",
   "theorems": [
    "Tgt.C16_no_context_unaffected",
    "Tgt.C16_context_unaffected"
   ],
   "note": ""
  },
  {
   "property": "C17",
   "status": "proved",
   "theorems": [
    "Tgt.C17_untranslated"
   ],
   "note": ""
  },
  {
   "property": "C18",
   "status": "proved",
   "theorems": [
    "Tgt.C18_fallback_chain",
    "Tgt.C18_own_wins",
    "Tgt.C18_missing_asks_fallback",
    "Tgt.C18_plural_ignores_fallback",
    "Tgt.C18_context_fallback",
    "Tgt.C18_cycle_diverges"
   ],
   "note": ""
  },
  {
   "property": "C19",
   "status": "proved",
   "theorems": [
    "Tgt.C19_collision_iff",
    "Tgt.C19_equal_addition_noop",
    "Tgt.C19_readd_idempotent"
   ],
   "note": ""
  },
  {
   "property": "C20",
   "status": "proved",
   "theorems": [
    "Tgt.C20_foreach",
    "Tgt.C20_foreach_ctxt"
   ],
   "note": ""
  },
  {
   "property": "C21",
   "status": "proved",
   "theorems": [
    "Tgt.C21_same_charset_identity",
    "Tgt.C21_sequence"
   ],
   "note": ""
  },
  {
   "property": "C22",
   "status": "proved",
   "theorems": [
    "Tgt.C22_convert_output",
    "Tgt.C22_convert_fault",
    "Tgt.C22_sequence",
    "Tgt.C22_set_charsets"
   ],
   "note": ""
  },
  {
   "property": "C23",
   "status": "partial",
   "theorems": [
    "Tgt.C23_handles_partial",
    "Tgt.C23_handles_all_opens_succeed_partial",
    "Tgt.C23_false"
   ],
   "note": "Full statement is false (C23_false): after a failed iconv_open the value (iconv_t)-1 is passed to iconv_close. Proved: apart from exactly one such bogus close per failed open, every history of calls is clean; in full if opens succeed."
  },
  {
   "property": "C24",
   "status": "proved",
   "theorems": [
    "Tgt.C24_memory_safe",
    "Tgt.C24_no_out_of_bounds",
    "Tgt.C24_no_abort"
   ],
   "note": ""
  },
  {
   "property": "C25",
   "status": "proved",
   "theorems": [
    "Tgt.C25_terminates",
    "Tgt.C25_lines_read"
   ],
   "note": ""
  },
  {
   "property": "C26",
   "status": "partial",
   "theorems": [
    "Tgt.C26_endless",
    "Tgt.C26_wellformed_exact_partial",
    "Tgt.C26_clean_exact_partial",
    "Tgt.C26_exact",
    "Tgt.C26_terminates_partial",
    "Tgt.C26_unterminated_comment_hangs",
    "Tgt.C26_false"
   ],
   "note": "The full statement is false (C26_false): a comment or an open string as unterminated last line makes the parser loop for ever. C26_terminates_partial: every input whose last line is terminated or harmless (no comment, no quote first, no msgstr[) terminates. C26_wellformed_exact_partial / C26_clean_exact_partial: for files that are well-formed (equivalently: load without an error message) the exact condition, both directions. C26_exact: for all texts, well-formed or not, the parse comes back if and only if the text has a reading (C63) that comes to an end or throws. Partial because the statement itself is false of the code."
  },
  {
   "property": "C27",
   "status": "proved",
   "theorems": [
    "Tgt.C27_round_trip",
    "Tgt.C27_round_trip_no_header",
    "Tgt.C27_distinct"
   ],
   "note": ""
  },
  {
   "property": "C28",
   "status": "proved",
   "theorems": [
    "Tgt.C28_decode",
    "Tgt.C28_reject",
    "Tgt.C28_unique",
    "Tgt.C28_escape_round_trip"
   ],
   "note": ""
  },
  {
   "property": "C29",
   "status": "proved",
   "theorems": [
    "Tgt.C29_layout",
    "Tgt.C29_layout_messages",
    "Tgt.C29_split"
   ],
   "note": ""
  },
  {
   "property": "C30",
   "status": "partial",
   "theorems": [
    "Tgt.C30_after_blank",
    "Tgt.C30_entry_loaded_partial",
    "Tgt.C30_sequential_partial",
    "Tgt.C30_contained_partial",
    "Tgt.C30_false"
   ],
   "note": "The full statement is false (C30_false): if the error is found on the blank line itself, recovery skips that line first and so runs through the next entry. Proved for two blank lines: for any lines without a header start, whatever follows two blank lines is loaded as if it stood alone (C30_sequential_partial), and a bad block in the middle of a file, header included, neither changes what was loaded before nor what comes after (C30_contained_partial). For every text and every blank line, exactly: C30_after_blank (either there is an error message about the blank line itself and the parser goes on at the next separating line, or it resumes right after the blank line); C30_entry_loaded_partial: an entry after a blank line without such a message is loaded."
  },
  {
   "property": "C31",
   "status": "proved",
   "theorems": [
    "Tgt.C31_flags_ignored",
    "Tgt.C31_flags_ignored_messages",
    "Tgt.C31_flagged_left_out",
    "Tgt.C31_any_text"
   ],
   "note": ""
  },
  {
   "property": "C32",
   "status": "proved",
   "theorems": [
    "Tgt.C32_pedantic"
   ],
   "note": ""
  },
  {
   "property": "C33",
   "status": "proved",
   "theorems": [
    "Tgt.C33_crlf"
   ],
   "note": ""
  },
  {
   "property": "C34",
   "status": "proved",
   "theorems": [
    "Tgt.C34_quotes_line"
   ],
   "note": ""
  },
  {
   "property": "C35",
   "status": "proved",
   "theorems": [
    "Tgt.C35_bom"
   ],
   "note": ""
  },
  {
   "property": "C36",
   "status": "proved",
   "theorems": [
    "Tgt.C36_parse_is_additions",
    "Tgt.C36_nothing_removed",
    "Tgt.C36_nothing_removed_ctxt"
   ],
   "note": ""
  },
  {
   "property": "C37",
   "status": "proved",
   "theorems": [
    "Tgt.C37_source_charset",
    "Tgt.C37_other_lines",
    "Tgt.C37_last_wins",
    "Tgt.C37_default"
   ],
   "note": ""
  },
  {
   "property": "C38",
   "status": "proved",
   "theorems": [
    "Tgt.C38_rule_stays",
    "Tgt.C38_first_wins",
    "Tgt.C38_only_recognised",
    "Tgt.C38_mismatch_warning",
    "Tgt.C38_unknown_warning",
    "Tgt.C38_any_text"
   ],
   "note": ""
  },
  {
   "property": "C39",
   "status": "proved",
   "theorems": [
    "Tgt.C39_unavailable",
    "Tgt.C39_only_cause",
    "Tgt.C39_any_text"
   ],
   "note": ""
  },
  {
   "property": "C40",
   "status": "proved",
   "theorems": [
    "Tgt.C40_only_translated",
    "Tgt.C40_one_to_ten"
   ],
   "note": ""
  },
  {
   "property": "C41",
   "status": "proved",
   "theorems": [
    "Tgt.C41_big5_converted",
    "Tgt.C41_big5_verbatim"
   ],
   "note": ""
  },
  {
   "property": "C42",
   "status": "proved",
   "theorems": [
    "Tgt.C42_locale_independent"
   ],
   "note": ""
  },
  {
   "property": "C43",
   "status": "proved",
   "theorems": [
    "Tgt.C43_gaps",
    "Tgt.C43_gaps_messages"
   ],
   "note": ""
  },
  {
   "property": "C44",
   "status": "proved",
   "theorems": [
    "Tgt.C44_no_language",
    "Tgt.C44_empty_is_empty",
    "Tgt.C44_current",
    "Tgt.C44_same_object"
   ],
   "note": ""
  },
  {
   "property": "C45",
   "status": "proved",
   "theorems": [
    "Tgt.C45_cached",
    "Tgt.C45_contents_kept"
   ],
   "note": ""
  },
  {
   "property": "C46",
   "status": "proved",
   "theorems": [
    "Tgt.C46_loads_afresh",
    "Tgt.C46_nothing_kept"
   ],
   "note": ""
  },
  {
   "property": "C47",
   "status": "proved",
   "theorems": [
    "Tgt.C47_live",
    "Tgt.C47_no_dangling",
    "Tgt.C47_no_crash",
    "Tgt.C47_deleted_once"
   ],
   "note": ""
  },
  {
   "property": "C48",
   "status": "proved",
   "theorems": [
    "Tgt.C48_search_path",
    "Tgt.C48_no_duplicates",
    "Tgt.C48_remove_undoes_add"
   ],
   "note": ""
  },
  {
   "property": "C49",
   "status": "proved",
   "theorems": [
    "Tgt.C49_best_files",
    "Tgt.C49_best_unique"
   ],
   "note": ""
  },
  {
   "property": "C50",
   "status": "proved",
   "theorems": [
    "Tgt.C50_priority",
    "Tgt.C50_others"
   ],
   "note": ""
  },
  {
   "property": "C51",
   "status": "partial",
   "theorems": [
    "Tgt.C51_lowest_priority_wins_partial",
    "Tgt.C51_false"
   ],
   "note": "The full statement is false (C51_false): for every path and contents the lowest-priority directory that declares a rule wins (C51_lowest_priority_wins_partial)."
  },
  {
   "property": "C52",
   "status": "partial",
   "theorems": [
    "Tgt.C52_falls_back",
    "Tgt.C52_chain_at_most_one",
    "Tgt.C52_lookups_end",
    "Tgt.C52_always_partial",
    "Tgt.C52_false"
   ],
   "note": "Chain length and termination are proved for every history, and the fallback for every new dictionary; for cached dictionaries it is proved for histories in which no call threw (C52_always_partial). After an exception the full statement is false (C52_false): the half-loaded dictionary stays cached without fallback."
  },
  {
   "property": "C53",
   "status": "partial",
   "theorems": [
    "Tgt.C53_flag_ignored_partial",
    "Tgt.C53_false"
   ],
   "note": "The full statement is false (C53_false): the flag is never passed to the parser; C53_flag_ignored_partial: get_dictionary does the same whatever the flag is."
  },
  {
   "property": "C54",
   "status": "partial",
   "theorems": [
    "Tgt.C54_failure_is_cached",
    "Tgt.C54_false"
   ],
   "note": "The full statement is false in every case (C54_failure_is_cached: after a failed first load the manager holds the half-loaded dictionary and later calls return it without retrying; C54_false: a concrete history)."
  },
  {
   "property": "C55",
   "status": "partial",
   "theorems": [
    "Tgt.C55_languages_partial",
    "Tgt.C55_order_independent",
    "Tgt.C55_canonical_names",
    "Tgt.C55_false"
   ],
   "note": "The full statement is false (C55_false): unknown names make the undefined language appear and names are read differently from get_dictionary. Proved: the exact result for all listings (C55_languages_partial), independence of order, and the full statement for canonical file names."
  },
  {
   "property": "C56",
   "status": "proved",
   "theorems": [
    "Tgt.C56_charset"
   ],
   "note": ""
  },
  {
   "property": "C57",
   "status": "proved",
   "theorems": [
    "Tgt.C57_returns",
    "Tgt.C57_only_listing_throws",
    "Tgt.C57_unreadable"
   ],
   "note": ""
  },
  {
   "property": "C58",
   "status": "proved",
   "theorems": [
    "Tgt.C58_passive",
    "Tgt.C58_delivered",
    "Tgt.C58_each",
    "Tgt.C58_set",
    "Tgt.C58_null"
   ],
   "note": ""
  },
  {
   "property": "C59",
   "status": "proved",
   "theorems": [
    "Tgt.C59_text_is_entries",
    "Tgt.C59_says"
   ],
   "note": ""
  },
  {
   "property": "C60",
   "status": "proved",
   "theorems": [
    "Tgt.C60_comment_after_entry",
    "Tgt.C60_final_newline"
   ],
   "note": ""
  },
  {
   "property": "C61",
   "status": "proved",
   "theorems": [
    "Tgt.C61_accepted_iff",
    "Tgt.C61_nothing_lost",
    "Tgt.C61_wellformed_silent",
    "Tgt.C61_pedantic_iff"
   ],
   "note": ""
  },
  {
   "property": "C62",
   "status": "proved",
   "theorems": [
    "Tgt.C62_translated",
    "Tgt.C62_translated_country"
   ],
   "note": ""
  },
  {
   "property": "C63",
   "status": "proved",
   "theorems": [
    "Tgt.C63_total",
    "Tgt.C63_reading",
    "Tgt.C63_endless"
   ],
   "note": ""
  },
  {
   "property": "C64",
   "status": "proved",
   "theorems": [
    "Tgt.C64_in_order"
   ],
   "note": ""
  },
  {
   "property": "C65",
   "status": "proved",
   "theorems": [
    "Tgt.C65_reload"
   ],
   "note": ""
  },
  {
   "property": "C66",
   "status": "proved",
   "theorems": [
    "Tgt.C66_reports",
    "Tgt.C66_silent_iff"
   ],
   "note": ""
  },
  {
   "property": "C67",
   "status": "proved",
   "theorems": [
    "Tgt.C67_translated",
    "Tgt.C67_plural",
    "Tgt.C67_missing",
    "Tgt.C67_cannot_open"
   ],
   "note": ""
  },
  {
   "property": "C68",
   "status": "proved",
   "theorems": [
    "Tgt.C68_language",
    "Tgt.C68_env_again"
   ],
   "note": ""
  },
  {
   "property": "C69",
   "status": "proved",
   "theorems": [
    "Tgt.C69_unknown_language",
    "Tgt.C69_no_language",
    "Tgt.C69_translated",
    "Tgt.C69_translated_country",
    "Tgt.C69_language_dir",
    "Tgt.C69_cannot_list"
   ],
   "note": ""
  },
  {
   "property": "C70",
   "status": "proved",
   "theorems": [
    "Tgt.C70_tinygettext_test_ends",
    "Tgt.C70_number_overflow",
    "Tgt.C70_po_parser_test_ends"
   ],
   "note": ""
  },
  {
   "property": "C71",
   "status": "proved",
   "theorems": [
    "Tgt.C71_listed"
   ],
   "note": ""
  },
  {
   "property": "C72",
   "status": "proved",
   "theorems": [
    "Tgt.C72_error_after_line",
    "Tgt.C72_error_in_line",
    "Tgt.C72_unreadable"
   ],
   "note": ""
  },
  {
   "property": "C73",
   "status": "proved",
   "theorems": [
    "Tgt.C73_throwing_callback"
   ],
   "note": ""
  },
  {
   "property": "C74",
   "status": "proved",
   "theorems": [
    "Tgt.C74_recoded_round_trip"
   ],
   "note": ""
  },
  {
   "property": "C75",
   "status": "proved",
   "theorems": [
    "Tgt.C75_equality",
    "Tgt.C75_order",
    "Tgt.C75_hash",
    "Tgt.C75_set_order"
   ],
   "note": ""
  },
  {
   "property": "C76",
   "status": "proved",
   "theorems": [
    "Tgt.C76_language",
    "Tgt.C76_use_fuzzy"
   ],
   "note": ""
  },
  {
   "property": "C77",
   "status": "proved",
   "theorems": [
    "Tgt.C77_changes_nothing",
    "Tgt.C77_any_order",
    "Tgt.C77_removable"
   ],
   "note": ""
  },
  {
   "property": "C78",
   "status": "proved",
   "theorems": [
    "Tgt.C78_consumed",
    "Tgt.C78_unread"
   ],
   "note": ""
  },
  {
   "property": "C79",
   "status": "proved",
   "theorems": [
    "Tgt.C79_addition",
    "Tgt.C79_lookup",
    "Tgt.C79_parse",
    "Tgt.C79_load"
   ],
   "note": ""
  },
  {
   "property": "C80",
   "status": "proved",
   "theorems": [
    "Tgt.C80_same_start",
    "Tgt.C80_cut_at",
    "Tgt.C80_cut",
    "Tgt.C80_wellformed_start"
   ],
   "note": ""
  },
  {
   "property": "C81",
   "status": "partial",
   "theorems": [
    "Tgt.C81_exact",
    "Tgt.C81_no_abort_partial",
    "Tgt.C81_release",
    "Tgt.C81_false"
   ],
   "note": "The full statement is false (C81_false): the buffer has four bytes for each byte of the text, and charsets such as TSCII, in which a byte stands for four characters, need more, so the assertion 'This should never be reached' fails (compiled without assertions, the string is silently cut: C81_release). C81_exact: for every iconv that keeps to POSIX and every text, exactly when. C81_no_abort_partial: never, if no conversion makes more than four bytes of one."
  },
  {
   "property": "C82",
   "status": "proved",
   "theorems": [
    "Tgt.C82_histories",
    "Tgt.C82_warnings",
    "Tgt.C82_additions",
    "Tgt.C82_files",
    "Tgt.C82_texts",
    "Tgt.C82_catalogues"
   ],
   "note": ""
  },
  {
   "property": "C83",
   "status": "proved",
   "theorems": [
    "Tgt.C83_get_dictionary",
    "Tgt.C83_other_files",
    "Tgt.C83_listing_order",
    "Tgt.C83_sessions"
   ],
   "note": ""
  },
  {
   "property": "C84",
   "status": "proved",
   "theorems": [
    "Tgt.C84_parse_same",
    "Tgt.C84_parse_no_abort",
    "Tgt.C84_convert",
    "Tgt.C84_sessions",
    "Tgt.C84_no_crash",
    "Tgt.C84_undefined"
   ],
   "note": ""
  },
  {
   "property": "C85",
   "status": "partial",
   "theorems": [
    "Tgt.C85_false",
    "Tgt.C85_race",
    "Tgt.C85_one_after_the_other",
    "Tgt.C85_after_init_partial"
   ],
   "note": "The full statement is false (C85_false: the second of two threads that call from_env(\"de\") at the start of the program can be told that there is no such language; C85_race: the same call in two threads is a data race, for every call). Proved: calls one after the other are answered right, and after the first use of the tables every interleaving of any threads is free of races and answered right (C85_after_init_partial). Missing: threads that begin while a table is still being filled, where it fails."
  },
  {
   "property": "C86",
   "status": "partial",
   "theorems": [
    "Tgt.C86_silent",
    "Tgt.C86_memoryless_partial",
    "Tgt.C86_valid_partial",
    "Tgt.C86_no_abort",
    "Tgt.C86_bad_string",
    "Tgt.C86_false",
    "Tgt.C86_false_memory"
   ],
   "note": "The full statement is false (C86_false, C86_bad_string: a bad string is cut without a message; C86_false_memory: with a converter with memory valid strings after it are converted wrongly; C86_silent: the message never appears in any parse). Proved: the same but for that message with converters without memory (C86_memoryless_partial), the same in everything if no string is bad (C86_valid_partial), no aborts (C86_no_abort)."
  },
  {
   "property": "C87",
   "status": "proved",
   "theorems": [
    "Tgt.C87_same_answer",
    "Tgt.C87_guarded",
    "Tgt.C87_translated",
    "Tgt.C87_endless",
    "Tgt.C87_muted"
   ],
   "note": ""
  },
  {
   "property": "C88",
   "status": "proved",
   "theorems": [
    "Tgt.C88_still_world",
    "Tgt.C88_two_loads",
    "Tgt.C88_steady",
    "Tgt.C88_live",
    "Tgt.C88_no_crash",
    "Tgt.C88_two_worlds"
   ],
   "note": ""
  },
  {
   "property": "C89",
   "status": "proved",
   "theorems": [
    "Tgt.C89_returned",
    "Tgt.C89_enough",
    "Tgt.C89_failed",
    "Tgt.C89_terminated",
    "Tgt.C89_again",
    "Tgt.C89_persistent",
    "Tgt.C89_careless",
    "Tgt.C89_singular",
    "Tgt.C89_traces"
   ],
   "note": ""
  },
  {
   "property": "C90",
   "status": "partial",
   "theorems": [
    "Tgt.C90_false",
    "Tgt.C90_wrong_answers",
    "Tgt.C90_exact",
    "Tgt.C90_rule",
    "Tgt.C90_after_first_partial",
    "Tgt.C90_enough"
   ],
   "note": "The full statement is false (C90_false: from_env(\"de\") throws bad_alloc once, and from then on says that there is no such language; C90_wrong_answers: from_env(\"de_AT\") gives German, from_env(\"aa\") aborts, plural rules and aliases are lost). Proved: exactly what is returned in every run (C90_exact: there is one point for each table up to which it was filled), from_string never returns a wrong rule (C90_rule), and after a first use that came back everything that comes back is right (C90_after_first_partial). Missing: calls after a failed first use, where it fails."
  },
  {
   "property": "C91",
   "status": "partial",
   "theorems": [
    "Tgt.C91_incomplete",
    "Tgt.C91_false",
    "Tgt.C91_statement_without_shortage",
    "Tgt.C91_live",
    "Tgt.C91_contents",
    "Tgt.C91_noticed",
    "Tgt.C91_enough",
    "Tgt.C91_additions",
    "Tgt.C91_fresh",
    "Tgt.C91_leak",
    "Tgt.C91_loses_one",
    "Tgt.C91_no_crash",
    "Tgt.C91_closes_twice",
    "Tgt.C91_ends_the_program",
    "Tgt.C91_nothing_foreign"
   ],
   "note": "The full statement is false (C91_false, from C91_incomplete: the call returns normally, one of two messages is missing, and every later call gives the same). Proved: pointers (C91_live), what the dictionaries hold (C91_contents, C91_additions, C91_nothing_foreign), when a shortage had no effect (C91_noticed, C91_enough), that a change of the configuration repairs everything (C91_fresh), what is lost (C91_leak, C91_loses_one), how the program can die (C91_no_crash, C91_closes_twice, C91_ends_the_program). The parser's allocations are counted between its events, not one by one."
  },
  {
   "property": "C92",
   "status": "partial",
   "theorems": [
    "Tgt.C92_listening",
    "Tgt.C92_asking_partial",
    "Tgt.C92_same_contents",
    "Tgt.C92_false",
    "Tgt.C92_mixed_up",
    "Tgt.C92_own_fallback",
    "Tgt.C92_writes_behind",
    "Tgt.C92_half_loaded",
    "Tgt.C92_ends_the_program"
   ],
   "note": "The full statement is false (C92_false: use after free; also C92_mixed_up, C92_own_fallback, C92_writes_behind, C92_half_loaded, C92_ends_the_program). Proved: callbacks that call nothing (C92_listening) and callbacks that only ask, at any depth (C92_asking_partial, C92_same_contents). Missing: nothing is said about when nested calls end at all (a callback whose own calls log may nest for ever, C87), nor about callbacks that write but happen to be harmless. One callback stands for all; a callback that throws by itself is C73."
  },
  {
   "property": "C93",
   "status": "proved",
   "theorems": [
    "Tgt.C93_streams",
    "Tgt.C93_in_order",
    "Tgt.C93_complete"
   ],
   "note": ""
  },
  {
   "property": "C94",
   "status": "proved",
   "theorems": [
    "Tgt.C94_searches",
    "Tgt.C94_memory",
    "Tgt.C94_nothing_left",
    "Tgt.C94_new"
   ],
   "note": ""
  },
  {
   "property": "C95",
   "status": "partial",
   "theorems": [
    "Tgt.C95_returns_partial",
    "Tgt.C95_safe",
    "Tgt.C95_overrun",
    "Tgt.C95_too_long"
   ],
   "note": "The full statement is false (C95_overrun: the current directory changes during _wopendir; C95_too_long: invalid parameter with Microsoft's compiler). Proved: these are the only cases (C95_returns_partial), so it holds where neither occurs (C95_safe)."
  },
  {
   "property": "C96",
   "status": "proved",
   "theorems": [
    "Tgt.C96_memory",
    "Tgt.C96_memory_same_charset",
    "Tgt.C96_memory_unterminated",
    "Tgt.C96_dictionary"
   ],
   "note": ""
  },
  {
   "property": "C97",
   "status": "proved",
   "theorems": [
    "Tgt.C97_messages",
    "Tgt.C97_flood",
    "Tgt.C97_not_linear"
   ],
   "note": ""
  },
  {
   "property": "C98",
   "status": "partial",
   "theorems": [
    "Tgt.C98_only_adds_partial",
    "Tgt.C98_new_ones",
    "Tgt.C98_false",
    "Tgt.C98_fallback_changes",
    "Tgt.C98_settled_partial",
    "Tgt.C98_settled_new"
   ],
   "note": "The full statement is false (C98_false: the plural rule of the new, lowest directory wins; C98_fallback_changes shows it cannot be widened to answers of the fallback either). Proved: all lookups without a number, and those with a number if the new directory declares no rule (C98_only_adds_partial); what is stored before stays as a prefix of what is stored, and what is new is what the directory alone gives (C98_new_ones). Missing: lookups with a number when the new directory declares a rule. The same of any two managers in use, one with any number of directories behind those of the other (C98_settled_partial, C98_settled_new)."
  },
  {
   "property": "C99",
   "status": "proved",
   "theorems": [
    "Tgt.C99_exactly_what_was_asked",
    "Tgt.C99_count",
    "Tgt.C99_memory"
   ],
   "note": ""
  },
  {
   "property": "C100",
   "status": "proved",
   "theorems": [
    "Tgt.C100_as_new",
    "Tgt.C100_settings",
    "Tgt.C100_same_settings"
   ],
   "note": ""
  },
  {
   "property": "C101",
   "status": "proved",
   "theorems": [
    "Tgt.C101_listed_iff_served",
    "Tgt.C101_every_listed_served",
    "Tgt.C101_unlisted_empty",
    "Tgt.C101_exact"
   ],
   "note": ""
  },
  {
   "property": "C102",
   "status": "partial",
   "theorems": [
    "Tgt.C102_concatenated_partial",
    "Tgt.C102_false",
    "Tgt.C102_false_big5"
   ],
   "note": "The full statement is false (C102_false: without a header the second text is taken to be in the charset of the first; C102_false_big5: Big5 mode is never left). Proved: the full conclusion if the first text does not announce Big5 and the second one starts with a header (C102_concatenated_partial); for first texts without header see C30_sequential_partial."
  },
  {
   "property": "C103",
   "status": "proved",
   "theorems": [
    "Tgt.C103_log",
    "Tgt.C103_once"
   ],
   "note": ""
  },
  {
   "property": "C104",
   "status": "partial",
   "theorems": [
    "Tgt.C104_others_partial",
    "Tgt.C104_opens",
    "Tgt.C104_seen",
    "Tgt.C104_false",
    "Tgt.C104_stable",
    "Tgt.C104_rule"
   ],
   "note": "The full statement is false (C104_false): the first addition in a context makes this context known to the dictionary, and lookups in it for other messages, answered by the message before, are then passed on to the fallback and looked up there without context; C104_opens says exactly what happens. Proved with this one exception: C104_others_partial; C104_seen, C104_rule and C104_stable hold without it."
  },
  {
   "property": "C105",
   "status": "partial",
   "theorems": [
    "Tgt.C105_same_contents",
    "Tgt.C105_same_answers_partial",
    "Tgt.C105_false",
    "Tgt.C105_settled_contents",
    "Tgt.C105_settled_partial"
   ],
   "note": "The full statement is false (C105_false): translate_ctxt for a message without translation in a context of the file asks the fallback, without context, so a country gets the context-free translation where the bare language gets the message. Proved: the contents are the same, those of the fallback too (C105_same_contents); all lookups without context or with a number, and those in a context if the language has no country or the message has a translation in it (C105_same_answers_partial); the same of managers that have been in use (C105_settled_contents, C105_settled_partial)."
  },
  {
   "property": "C106",
   "status": "proved",
   "theorems": [
    "Tgt.C106_settled",
    "Tgt.C106_returns",
    "Tgt.C106_unserved"
   ],
   "note": ""
  },
  {
   "property": "C107",
   "status": "partial",
   "theorems": [
    "Tgt.C107_settled_partial",
    "Tgt.C107_twice_partial",
    "Tgt.C107_false"
   ],
   "note": "The full statement is false (C107_false): the lowest directory's plural rule wins, so a directory listed a second time below others makes its rule override theirs. Proved: all lookups without a number, with their messages, and those with a number if the directories between the two names declare no rule (C107_twice_partial)."
  },
  {
   "property": "C108",
   "status": "proved",
   "theorems": [
    "Tgt.C108_tell_all",
    "Tgt.C108_copy"
   ],
   "note": ""
  },
  {
   "property": "C109",
   "status": "proved",
   "theorems": [
    "Tgt.C109_same",
    "Tgt.C109_both",
    "Tgt.C109_current",
    "Tgt.C109_named"
   ],
   "note": ""
  },
  {
   "property": "C110",
   "status": "proved",
   "theorems": [
    "Tgt.C110_order",
    "Tgt.C110_returns"
   ],
   "note": ""
  },
  {
   "property": "C111",
   "status": "proved",
   "theorems": [
    "Tgt.C111_covered"
   ],
   "note": ""
  }
 ]
}