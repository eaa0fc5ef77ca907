{
 "C01": {
  "status": "partial",
  "note": "The full statement is false (C01_false: rows lv and sl of the table can yield an index >= nplurals or the wrong rule; the counterexamples are proved). C01_index_in_range_iff characterises exactly which table rows satisfy it, for all n."
 },
 "C02": {
  "status": "partial",
  "note": "False for one row (C02_false); proved for all others."
 },
 "C23": {
  "status": "partial",
  "note": "Full statement is false (C23_false): after a failed iconv_open the value (iconv_t)-1 is passed to iconv_close. Proved: apart from exactly one such bogus close per failed open, every history of calls is clean; in full if opens succeed."
 },
 "C26": {
  "status": "partial",
  "note": "The full statement is false (C26_false): a comment or an open string as unterminated last line makes the parser loop for ever. C26_terminates_partial: every input whose last line is terminated or harmless (no comment, no quote first, no msgstr[) terminates. C26_wellformed_exact_partial / C26_clean_exact_partial: for files that are well-formed (equivalently: load without an error message) the exact condition, both directions. C26_exact: for all texts, well-formed or not, the parse comes back if and only if the text has a reading (C63) that comes to an end or throws. Partial because the statement itself is false of the code."
 },
 "C54": {
  "status": "partial",
  "note": "The full statement is false in every case (C54_failure_is_cached: after a failed first load the manager holds the half-loaded dictionary and later calls return it without retrying; C54_false: a concrete history)."
 },
 "C51": {
  "status": "partial",
  "note": "The full statement is false (C51_false): for every path and contents the lowest-priority directory that declares a rule wins (C51_lowest_priority_wins_partial)."
 },
 "C52": {
  "status": "partial",
  "note": "Chain length and termination are proved for every history, and the fallback for every new dictionary; for cached dictionaries it is proved for histories in which no call threw (C52_always_partial). After an exception the full statement is false (C52_false): the half-loaded dictionary stays cached without fallback."
 },
 "C53": {
  "status": "partial",
  "note": "The full statement is false (C53_false): the flag is never passed to the parser; C53_flag_ignored_partial: get_dictionary does the same whatever the flag is."
 },
 "C55": {
  "status": "partial",
  "note": "The full statement is false (C55_false): unknown names make the undefined language appear and names are read differently from get_dictionary. Proved: the exact result for all listings (C55_languages_partial), independence of order, and the full statement for canonical file names."
 },
 "C30": {
  "status": "partial",
  "note": "The full statement is false (C30_false): if the error is found on the blank line itself, recovery skips that line first and so runs through the next entry. Proved for two blank lines: for any lines without a header start, whatever follows two blank lines is loaded as if it stood alone (C30_sequential_partial), and a bad block in the middle of a file, header included, neither changes what was loaded before nor what comes after (C30_contained_partial). For every text and every blank line, exactly: C30_after_blank (either there is an error message about the blank line itself and the parser goes on at the next separating line, or it resumes right after the blank line); C30_entry_loaded_partial: an entry after a blank line without such a message is loaded."
 },
 "C81": {
  "status": "partial",
  "note": "The full statement is false (C81_false): the buffer has four bytes for each byte of the text, and charsets such as TSCII, in which a byte stands for four characters, need more, so the assertion 'This should never be reached' fails (compiled without assertions, the string is silently cut: C81_release). C81_exact: for every iconv that keeps to POSIX and every text, exactly when. C81_no_abort_partial: never, if no conversion makes more than four bytes of one."
 },
 "C85": {
  "status": "partial",
  "note": "The full statement is false (C85_false: the second of two threads that call from_env(\"de\") at the start of the program can be told that there is no such language; C85_race: the same call in two threads is a data race, for every call). Proved: calls one after the other are answered right, and after the first use of the tables every interleaving of any threads is free of races and answered right (C85_after_init_partial). Missing: threads that begin while a table is still being filled, where it fails."
 },
 "C86": {
  "status": "partial",
  "note": "The full statement is false (C86_false, C86_bad_string: a bad string is cut without a message; C86_false_memory: with a converter with memory valid strings after it are converted wrongly; C86_silent: the message never appears in any parse). Proved: the same but for that message with converters without memory (C86_memoryless_partial), the same in everything if no string is bad (C86_valid_partial), no aborts (C86_no_abort)."
 },
 "C90": {
  "status": "partial",
  "note": "The full statement is false (C90_false: from_env(\"de\") throws bad_alloc once, and from then on says that there is no such language; C90_wrong_answers: from_env(\"de_AT\") gives German, from_env(\"aa\") aborts, plural rules and aliases are lost). Proved: exactly what is returned in every run (C90_exact: there is one point for each table up to which it was filled), from_string never returns a wrong rule (C90_rule), and after a first use that came back everything that comes back is right (C90_after_first_partial). Missing: calls after a failed first use, where it fails."
 },
 "C91": {
  "status": "partial",
  "note": "The full statement is false (C91_false, from C91_incomplete: the call returns normally, one of two messages is missing, and every later call gives the same). Proved: pointers (C91_live), what the dictionaries hold (C91_contents, C91_additions, C91_nothing_foreign), when a shortage had no effect (C91_noticed, C91_enough), that a change of the configuration repairs everything (C91_fresh), what is lost (C91_leak, C91_loses_one), how the program can die (C91_no_crash, C91_closes_twice, C91_ends_the_program). The parser's allocations are counted between its events, not one by one."
 },
 "C92": {
  "status": "partial",
  "note": "The full statement is false (C92_false: use after free; also C92_mixed_up, C92_own_fallback, C92_writes_behind, C92_half_loaded, C92_ends_the_program). Proved: callbacks that call nothing (C92_listening) and callbacks that only ask, at any depth (C92_asking_partial, C92_same_contents). Missing: nothing is said about when nested calls end at all (a callback whose own calls log may nest for ever, C87), nor about callbacks that write but happen to be harmless. One callback stands for all; a callback that throws by itself is C73."
 },
 "C95": {
  "status": "partial",
  "note": "The full statement is false (C95_overrun: the current directory changes during _wopendir; C95_too_long: invalid parameter with Microsoft's compiler). Proved: these are the only cases (C95_returns_partial), so it holds where neither occurs (C95_safe)."
 },
 "C98": {
  "status": "partial",
  "note": "The full statement is false (C98_false: the plural rule of the new, lowest directory wins; C98_fallback_changes shows it cannot be widened to answers of the fallback either). Proved: all lookups without a number, and those with a number if the new directory declares no rule (C98_only_adds_partial); what is stored before stays as a prefix of what is stored, and what is new is what the directory alone gives (C98_new_ones). Missing: lookups with a number when the new directory declares a rule. The same of any two managers in use, one with any number of directories behind those of the other (C98_settled_partial, C98_settled_new)."
 },
 "C102": {
  "status": "partial",
  "note": "The full statement is false (C102_false: without a header the second text is taken to be in the charset of the first; C102_false_big5: Big5 mode is never left). Proved: the full conclusion if the first text does not announce Big5 and the second one starts with a header (C102_concatenated_partial); for first texts without header see C30_sequential_partial."
 },
 "C104": {
  "status": "partial",
  "note": "The full statement is false (C104_false): the first addition in a context makes this context known to the dictionary, and lookups in it for other messages, answered by the message before, are then passed on to the fallback and looked up there without context; C104_opens says exactly what happens. Proved with this one exception: C104_others_partial; C104_seen, C104_rule and C104_stable hold without it."
 },
 "C105": {
  "status": "partial",
  "note": "The full statement is false (C105_false): translate_ctxt for a message without translation in a context of the file asks the fallback, without context, so a country gets the context-free translation where the bare language gets the message. Proved: the contents are the same, those of the fallback too (C105_same_contents); all lookups without context or with a number, and those in a context if the language has no country or the message has a translation in it (C105_same_answers_partial); the same of managers that have been in use (C105_settled_contents, C105_settled_partial)."
 },
 "C107": {
  "status": "partial",
  "note": "The full statement is false (C107_false): the lowest directory's plural rule wins, so a directory listed a second time below others makes its rule override theirs. Proved: all lookups without a number, with their messages, and those with a number if the directories between the two names declare no rule (C107_twice_partial)."
 }
}