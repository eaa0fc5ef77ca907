#!/usr/bin/env python3
"""Writes /verif/properties.jsonl (kept as a script so that ids stay consistent)."""
import json, os
P=[]
def p(title, statement, quantifier, why, anchors):
    P.append(dict(id="C%02d"%(len(P)+1), title=title, statement=statement, quantifier=quantifier, why_tests_cant=why, anchors=anchors))
PF="src/plural_forms.cpp"; PFH="include/tinygettext/plural_forms.hpp"
LA="src/language.cpp"; DI="src/dictionary.cpp"; DH="include/tinygettext/dictionary.hpp"
PO="src/po_parser.cpp"; IC="src/iconv.cpp"; DM="src/dictionary_manager.cpp"; FS="src/unix_file_system.cpp"; LG="src/log.cpp"
# ---- plural forms
p("Plural index is in range",
  "For every Plural-Forms header line that PluralForms::from_string accepts, and every count n, get_plural(n) < get_nplural(), so an entry with exactly get_nplural() msgstr[] strings always has the selected one.",
  "all accepted header lines, all int counts n (negative ones included)",
  "The count ranges over all 2^32 ints; the selecting functions are nested modular conditionals whose corner residues a sample misses.",
  [PF+": PluralForms::from_string, plural1 .. plural6_ar", PFH+": PluralForms::get_plural, get_nplural"])
p("Number of plural forms is the one announced",
  "For every accepted header line, get_nplural() equals the number written after 'nplurals=' in that line.",
  "all accepted header lines (any whitespace layout)",
  "The set of accepted lines is infinite (whitespace is free) and the table is typed by hand.",
  [PF+": PluralForms::from_string"])
p("Plural selection computes the header's C expression",
  "For every accepted header line whose 'plural=' part is a well-formed C expression, get_plural(n) equals the value of that C expression at n, for every n.",
  "all accepted header lines, all int counts n",
  "Every n must agree, over 24 hand-transcribed expressions with period-100 behaviour, precedence and negative remainders.",
  [PF+": plural1 .. plural6_ar, PluralForms::from_string"])
p("Plural-Forms recognition ignores whitespace and nothing else",
  "from_string(s) depends only on s with its whitespace removed; it yields a usable PluralForms exactly when the stripped line is one of the 25 known lines, and an undefined one (false, get_nplural()=0, get_plural(n)=0) otherwise.",
  "all byte strings s",
  "Infinitely many strings and whitespace placements.",
  [PF+": PluralForms::from_string", PFH+": PluralForms"])
# ---- language
p("Language match score contract",
  "Language::match(a,b) is 0 exactly when the language codes differ and otherwise lies in 1..9; it is symmetric; it is 9 exactly when language, country and modifier all agree.",
  "all pairs of Language values, undefined ones included",
  "All pairs of table entries plus arbitrary requested specs.",
  [LA+": Language::match"])
p("Match score orders candidates sensibly",
  "Making the country closer (different -> unspecified -> equal) or the modifier closer, with the other one unchanged, strictly raises the score.",
  "all pairs of Languages",
  "Relational over pairs of pairs.",
  [LA+": Language::match"])
p("from_spec is total and keeps the language code",
  "Language::from_spec(l,c,m) never aborts; it returns the undefined Language exactly when l is not a known language code, otherwise a Language whose code is l.",
  "all byte strings l, c, m (with embedded NULs, separators, any length)",
  "Arbitrary strings; the assert must be unreachable for all of them.",
  [LA+": Language::from_spec"])
p("from_spec returns the best match, earliest first",
  "The Language returned by from_spec(l,c,m) has the highest match score against (l,c,m) among all known languages, and is the first known language with that score; a known triple is returned exactly.",
  "all byte strings l, c, m",
  "Optimality over the whole table for arbitrary strings.",
  [LA+": Language::from_spec, Language::match"])
p("Language <-> string round trip",
  "For every defined Language L, from_env(L.str()) == L and from_name(L.str()) == L; two Languages are equal exactly when their str() are equal.",
  "all known languages, all pairs of languages",
  "Holds for the whole table; a new or edited row can break it without any test noticing.",
  [LA+": Language::str, from_env, from_name, operator=="])
p("from_env splits locale strings and ignores the codeset",
  "For ll, CC, codeset, mod free of the characters '_', '.', '@' (where each of _CC, .codeset, @mod may be absent), from_env(ll_CC.codeset@mod) == from_spec(ll, CC, mod).",
  "all such byte strings",
  "Arbitrary strings and all 8 part combinations; size_t wrap-around arithmetic in the code.",
  [LA+": Language::from_env"])
p("Language names resolve case-insensitively",
  "from_name(s) == from_name(s') whenever s is an alias up to ASCII case; every reachable alias resolves to a defined Language; a string that is not an alias resolves as by from_env.",
  "all byte strings s",
  "All spellings of all aliases.",
  [LA+": resolve_language_alias, Language::from_name"])
p("Accessors of undefined and partial languages",
  "An undefined Language is false, equals only itself and returns the empty string from every accessor; get_localized_name() of a Language without a localized name is get_name(); every defined Language has a non-empty name.",
  "all Languages",
  "Whole-table statement.",
  [LA+": Language accessors"])
p("Filename to language conversion",
  "convertFilename2Language(f) throws exactly when f is shorter than 3 bytes; otherwise it removes a trailing '.po' and upper-cases only the run of letters directly after the first '_'; for every known language L, the file name L.str()+'.po', also with lower-case country, maps back to L.",
  "all byte strings f, all known languages",
  "Arbitrary file names.",
  [DM+": DictionaryManager::convertFilename2Language"])
# ---- dictionary
p("translate returns the latest translation",
  "After any sequence of add_translation calls, translate(msgid) returns the (first) string of the most recent addition for msgid without context; additions for other msgids or in contexts have no influence.",
  "all histories of add_translation calls, all msgids",
  "Arbitrary histories mixing four overloads and overwrites.",
  [DI+": Dictionary::add_translation, translate"])
p("translate_plural returns the selected plural of the latest addition",
  "After any history, translate_plural(msgid, plural, n) returns the get_plural(n)-th string of the most recent plural addition for msgid (with its first string replaced by any later singular addition) if it exists and is non-empty; if that string is empty, or msgid is unknown, it returns msgid for n=1 and the plural msgid otherwise; if the entry has too few strings it returns msgid.",
  "all histories, all msgids, all counts",
  "Arbitrary histories x counts.",
  [DI+": Dictionary::add_translation, translate_plural"])
p("Contexts are isolated",
  "Additions in one context never change any lookup in another context or without context; the empty context is different from no context.",
  "all histories, all contexts and msgids",
  "Arbitrary histories.",
  [DI+": Dictionary::translate_ctxt, translate_ctxt_plural, add_translation"])
p("Untranslated messages come back unchanged",
  "With no matching addition (and no fallback), translate and translate_ctxt return the msgid, translate_plural and translate_ctxt_plural return msgid if n is 1 and the plural msgid otherwise.",
  "all histories without a matching addition, all messages and counts",
  "Arbitrary histories.",
  [DI+": Dictionary::translate*"])
p("Fallback semantics of translate",
  "translate(msgid) on a dictionary whose entry is missing returns what its fallback returns; entries present locally are never overridden by the fallback; lookup along any finite fallback chain terminates with the first dictionary that has the entry; plural lookups never consult the fallback, context lookups consult it (without context) only when the context itself exists.",
  "all dictionaries, all acyclic fallback chains of any length",
  "Chains of any length and all contents.",
  [DI+": Dictionary::translate, translate_ctxt", DH+": Dictionary::addFallback"])
p("Re-adding is idempotent, collisions are reported exactly once",
  "Adding a translation equal to the stored one changes nothing and reports nothing; a warning is reported exactly when an existing different translation is overwritten.",
  "all dictionary states and additions",
  "All states.",
  [DI+": Dictionary::add_translation"])
p("foreach visits every message exactly once",
  "foreach calls its function exactly once for each msgid ever added without context, with the current strings; foreach_ctxt does so for each (context, msgid) pair.",
  "all histories, any iteration order of the hash table",
  "Arbitrary histories.",
  [DH+": Dictionary::foreach, foreach_ctxt"])
# ---- iconv
p("Conversion between equal charsets is the identity",
  "If the two charset names given to IConv are equal up to ASCII case, convert(text) == text and no converter is opened.",
  "all charset names, all texts",
  "All byte strings.",
  [IC+": IConv::set_charsets, convert"])
p("convert returns exactly what the converter produced",
  "convert(text) returns precisely the bytes the converter wrote (the prefix converted before an invalid sequence), never filler bytes, never more than 4 bytes per input byte; the converter used is the one the library has for the two charsets given last, fed the texts converted since the last reset; set_charsets throws exactly if the library has none.",
  "all texts, all converters satisfying the iconv contract",
  "All texts and all converter behaviours.",
  [IC+": IConv::convert"])
p("Converter handles are closed exactly once",
  "In every sequence of set_charsets/convert calls followed by destruction, every converter handle successfully opened is closed exactly once, no closed handle is used, and only opened handles are closed.",
  "all call sequences, all open results",
  "Arbitrary histories with failures.",
  [IC+": IConv::set_charsets, IConv::~IConv"])
# ---- parser
p("Parsing never reads out of bounds",
  "POParser::parse accesses every line only within its bounds, for every input stream.",
  "all byte streams, all starting dictionaries, charsets",
  "All inputs; a one-off in an index path is only visible with a sanitizer on the right input.",
  [PO+": POParser::get_string_line, get_string, parse, parse_header, is_empty_line"])
p("Parsing terminates on newline-terminated input",
  "POParser::parse returns (normally or by exception) for every input in which the last line ends with a newline, after at most two reads beyond the end of the file.",
  "all newline-terminated byte streams",
  "Termination cannot be tested.",
  [PO+": POParser::parse, get_string, error, next_line"])
p("Parsing terminates on every input",
  "POParser::parse returns for every finite input stream.",
  "all finite byte streams",
  "Termination cannot be tested.",
  [PO+": POParser::parse, get_string, next_line"])
p("PO round trip",
  "Writing any list of messages (optional context, msgid, optional plural, translations) as a canonical PO file and parsing it yields exactly the additions of those messages, in order, with no diagnostics.",
  "all lists of messages over arbitrary bytes",
  "All message contents, all lengths.",
  [PO+": POParser::parse, get_string, get_string_line"])
p("String literal decoding",
  "A quoted line decodes to the bytes between the quotes with \\a \\b \\v \\n \\t \\r \\\" \\\\ replaced; any other escape is kept verbatim with a warning; decoding the escaped form of any byte string gives it back.",
  "all byte strings",
  "All byte strings.",
  [PO+": POParser::get_string_line"])
p("Continuation lines concatenate",
  "A string split over any number of quoted lines denotes the concatenation of the pieces.",
  "all splits of all strings into pieces",
  "All splits.",
  [PO+": POParser::get_string"])
p("Errors are contained",
  "A malformed entry never prevents a well-formed entry that follows a blank line from being loaded, and never alters entries parsed before.",
  "all byte streams containing malformed blocks",
  "All malformed contents and positions.",
  [PO+": POParser::error, parse"])
p("Fuzzy entries",
  "With use_fuzzy, a '#, fuzzy' flag has no effect on the loaded translations; without it, exactly the flagged entries are left out.",
  "all lists of messages with arbitrary flags; also all texts, well-formed or not",
  "All files.",
  [PO+": POParser::parse"])
p("Pedantic mode affects diagnostics only",
  "The dictionary, the outcome and all non-pedantic diagnostics of a parse are the same with POParser::pedantic on and off.",
  "all byte streams",
  "Two-run property over all inputs.",
  [PO+": POParser::get_string, POParser::pedantic"])
p("Line ending independence",
  "Converting a newline-terminated PO file from LF to CRLF line ends does not change the resulting dictionary or outcome.",
  "all newline-terminated byte streams",
  "Two-run property over all inputs.",
  [PO+": POParser::get_string_line, is_empty_line"])
p("Diagnostics quote the right line",
  "Every parse diagnostic that carries a line number N within the file quotes exactly the N-th line of the input.",
  "all byte streams, every diagnostic",
  "All inputs.",
  [PO+": POParser::warning, error, next_line"])
p("Byte order mark is transparent",
  "Prefixing an input with the UTF-8 byte order mark does not change the resulting dictionary, outcome or diagnostics.",
  "all byte streams not already starting with the mark",
  "All inputs.",
  [PO+": POParser::parse"])
p("A parse is a list of additions",
  "The effect of POParser::parse on a dictionary is a sequence of additions determined by the input and the dictionary's charset alone, plus setting Plural-Forms if none was set; nothing is ever removed and existing contents never influence what is added.",
  "all byte streams, all starting dictionaries",
  "All inputs x all dictionaries.",
  [PO+": POParser::parse, parse_header"])
p("Header charset detection",
  "A header 'Content-Type: text/plain; charset=X' line selects X (upper-cased) as source charset, the last such line winning; a missing charset or CHARSET means UTF-8; other header lines do not matter.",
  "all header texts",
  "All header texts.",
  [PO+": POParser::parse_header"])
p("First Plural-Forms wins",
  "The first recognised Plural-Forms reaching a dictionary stays; later different ones are ignored with a warning; unrecognised ones never change it.",
  "all byte streams, all starting dictionaries",
  "All inputs and orders.",
  [PO+": POParser::parse_header"])
p("Unavailable charset",
  "When no converter exists for the declared charset, parsing stops with an exception and the dictionary holds exactly the additions made before the header.",
  "all byte streams, all converter libraries",
  "All inputs.",
  [PO+": POParser::parse_header", IC+": IConv::set_charsets"])
p("Empty translations are not stored",
  "Parsing stores no singular translation for an entry whose msgstr is empty and no plural entry all of whose msgstr[N] are empty; a stored plural entry has between 1 and 10 strings.",
  "all byte streams",
  "All inputs.",
  [PO+": POParser::parse"])
p("Big5 strings",
  "In a Big5 file, a lead byte 0x81..0xFE and its trail byte are copied verbatim even if the trail byte is a quote or backslash.",
  "all byte strings",
  "All byte strings.",
  [PO+": POParser::get_string_line"])
p("Locale independence on ASCII",
  "For 7-bit input the result of parsing does not depend on how the C library classifies bytes >= 0x80.",
  "all 7-bit streams, all ctype behaviours on bytes >= 0x80",
  "All inputs x all locales.",
  [PO+": isspace/isdigit/toupper uses"])
p("Blank lines and comments between entries do not matter",
  "Inserting blank lines or '#' comment lines (without a fuzzy flag) between entries does not change the resulting dictionary.",
  "all message lists, all insertions",
  "All files.",
  [PO+": POParser::parse, is_empty_line"])
# ---- manager
p("Current dictionary",
  "get_dictionary() returns the empty dictionary while no language is set, and after set_language(L) the very object get_dictionary(L) returns.",
  "all histories of manager calls",
  "Arbitrary histories.",
  [DM+": DictionaryManager::get_dictionary, set_language"])
p("Caching",
  "Asking again for the dictionary of a language, with no intervening configuration change, returns the same object without touching the file system.",
  "all histories",
  "Arbitrary histories.",
  [DM+": DictionaryManager::get_dictionary"])
p("Configuration changes invalidate",
  "After set_charset, set_use_fuzzy, adding a new directory or removing a present one, the next get_dictionary(L) loads afresh with the new configuration.",
  "all histories",
  "Arbitrary histories.",
  [DM+": clear_cache, set_charset, set_use_fuzzy, add_directory, remove_directory"])
p("No dangling dictionaries",
  "The manager never dereferences a deleted dictionary: in every history the current dictionary, all cached ones and all their fallbacks are live, and every dictionary is deleted exactly once.",
  "all histories, file system failures included",
  "Arbitrary histories with exceptions.",
  [DM+": DictionaryManager::clear_cache, get_dictionary, ~DictionaryManager"])
p("Search path discipline",
  "The search path never holds a directory twice; add_directory appends (or prepends with precedence) a new directory and ignores a known one; remove_directory undoes add_directory.",
  "all histories",
  "Arbitrary histories.",
  [DM+": add_directory, remove_directory"])
p("Best file per directory",
  "From each directory exactly one .po file is loaded: the first one with the highest positive match score for the requested language, or none if no .po file has that language.",
  "all directory listings, all languages",
  "All listings.",
  [DM+": DictionaryManager::get_dictionary"])
p("Directory priority",
  "If the best file of several directories translates a message, translate returns the translation of the earliest directory in the search path.",
  "all search paths, all file contents",
  "All paths x all files.",
  [DM+": DictionaryManager::get_dictionary"])
p("Plural rules follow directory priority",
  "The plural rule used for a language is the one of the highest-priority directory that declares one.",
  "all search paths, all file contents",
  "All paths x all files.",
  [DM+": get_dictionary", PO+": parse_header"])
p("Country dictionaries fall back to the language",
  "For every language with a country, translate on its dictionary falls back to the dictionary of the bare language, the fallback chain has length at most one and lookups always terminate.",
  "all languages, all file systems, all msgids",
  "Whole table and all contents; a cyclic fallback would be infinite recursion.",
  [DM+": get_dictionary", DI+": translate"])
p("use_fuzzy is honoured",
  "After set_use_fuzzy(false) no fuzzy entry is visible in dictionaries obtained from the manager.",
  "all histories and files",
  "All files.",
  [DM+": set_use_fuzzy, get_dictionary", PO+": POParser::parse (static)"])
p("Failures are not cached",
  "If get_dictionary(L) throws, a later get_dictionary(L) tries again instead of returning a partially loaded dictionary.",
  "all file system failures",
  "All failure points.",
  [DM+": get_dictionary"])
p("Available languages",
  "get_languages() is exactly the set of languages denoted by the .po files in the search path, without duplicates, independent of listing order.",
  "all search paths and listings",
  "All listings.",
  [DM+": get_languages"])
p("Charset of returned dictionaries",
  "Every dictionary returned by get_dictionary(L) has the charset most recently set on the manager.",
  "all histories",
  "Arbitrary histories.",
  [DM+": set_charset, get_dictionary"])
p("Failing files do not disturb loading",
  "A file that cannot be opened or whose parse throws leaves the other directories' translations loaded, and get_dictionary returns normally.",
  "all search paths, all failing subsets of files",
  "All failure subsets.",
  [DM+": get_dictionary", FS+": open_file"])
p("Logging is passive",
  "Which log callbacks are installed (or none) never changes any result; each message is delivered once, in order, to the callback of its level installed at that time.",
  "all histories, all callback configurations",
  "All configurations.",
  [LG+": Log", "include/tinygettext/log_stream.hpp: log_error, log_warning, log_info"])
p("Nothing is invented",
  "Whatever the text, parsing it does what loading a list of PO entries does, each of which is a block of consecutive lines of the text (in order, without overlap) that forms an entry; the list depends only on the text, not on the converter, the settings or the dictionary.",
  "all byte streams, all converters, settings and dictionaries",
  "All inputs, including malformed ones.",
  [PO+": POParser::parse"])
p("Missing final newline",
  "A text whose last line lacks its newline is loaded like the text with the newline appended (same dictionary, same outcome; only messages differ), when that line is not a comment, does not begin with a quote and is not a msgstr[N] line.",
  "all byte streams with an unterminated last line of that kind, all settings and dictionaries",
  "All texts.",
  [PO+": POParser::next_line, POParser::parse"])
p("No error reported means nothing lost",
  "If a parse returns and the parser reported no error, then the text is a well-formed PO file and the dictionary is what loading all its entries gives; conversely a well-formed file never gives rise to an error message. In pedantic mode there is no message about the form of the text exactly if it is strictly well-formed.",
  "all texts of lines, all settings, converters and dictionaries",
  "All inputs, including malformed ones.",
  [PO+": POParser::parse, POParser::error, POParser::warning"])
p("What is written in installed catalogues is what lookups return",
  "Configure a manager with any search path and put a PO catalogue (any messages, written in the manager's charset or any other that the library can convert them from, one common recognised plural rule) or nothing for a language into each directory. Then get_dictionary(language) returns a dictionary that translates every message to exactly the string written in the first directory that has it, converted to the manager's charset (plural messages: the string the rule selects for the count), and every other msgid to itself; a language with a country falls back to the catalogues of the bare language for messages without context.",
  "all prior histories ending in a configuration change, all search paths, all file systems, all catalogues over arbitrary bytes, all languages, all counts",
  "This is the composition of the writer's format, the parser, the choice of files, priorities, plural selection and fallback; tests only sample a few trees of files.",
  [DM+": DictionaryManager::get_dictionary", PO+": POParser::parse", DI+": Dictionary::translate, translate_plural, translate_ctxt, translate_ctxt_plural"])
p("Every text is read as specified, every message included",
  "What parsing a text does is exactly what loading its reading does: which blocks of lines are entries, which lines are at fault, where reading resumes after a fault, which strings are converted, what is added to the dictionary, which exception is thrown, and all messages, in order, with their level, text, line number and quoted line. Every text has a reading; a reading that does not come to an end (possible only when the last line has no newline) is a parse that does not come back.",
  "all byte strings (lines below 4 GiB, fewer than 2^31 - 9 lines), all settings, converters and dictionaries",
  "All inputs, including malformed ones in every combination of faults.",
  [PO+": POParser::parse, POParser::error, POParser::warning, POParser::get_string, POParser::get_string_line, POParser::parse_header"])
p("Messages come in the order of the lines",
  "The line numbers in the messages of one parse never decrease; each is the number of a line of the text, or at most one more (at most four more if the last line has no newline).",
  "all byte strings, all settings, converters and dictionaries, parses that return or throw",
  "All inputs, with any combination of faults.",
  [PO+": POParser::parse, POParser::error, POParser::warning"])
p("Loading the same text again changes nothing",
  "Parsing a text into a dictionary it has been parsed into before ends in the same way and leaves the dictionary exactly as it is, also if the text defines messages repeatedly.",
  "all byte streams, all starting dictionaries, settings and converters",
  "All inputs and all prior contents.",
  [PO+": POParser::parse", DI+": Dictionary::add_translation"])
T1="test/tinygettext_test.cpp"; T2="test/po_parser_test.cpp"
p("po_parser_test reports exactly what is wrong",
  "po_parser_test prints, file by file in the order of the command line, exactly the messages of parsing that file into an empty dictionary, the exception text if it throws, or that the file cannot be accessed; nothing said about one file depends on another, and the exit status is 0. It prints nothing exactly if every file can be read, is strictly well-formed and loads without a conversion message.",
  "all command lines, all file contents, all converters",
  "All inputs and combinations of files; state (callbacks, dictionaries) could leak from one file to the next.",
  [T2+": main, my_log_callback", PO+": POParser::parse", "src/log.cpp: Log::set_log_info_callback, set_log_warning_callback, set_log_error_callback"])
p("tinygettext_test translate prints what the catalogue says",
  "tinygettext_test translate FILE MESSAGE (or CONTEXT MESSAGE, or MESSAGE_S MESSAGE_P NUM, or with a context) prints the string that the catalogue in FILE gives for the message (for plural messages the one its plural rule selects for NUM), prints an unknown message itself and says so on the error output; if FILE cannot be opened it prints only that.",
  "all catalogues over arbitrary bytes, all messages, all int values (negative ones, and numerals with white space, a sign or trailing text, included)",
  "Composition of argument handling, parser, dictionary and output for all inputs.",
  [T1+": main, read_dictionary", PO+": POParser::parse", DI+": Dictionary::translate"])
p("tinygettext_test language describes the language a name stands for",
  "tinygettext_test language NAME prints the five attributes of Language::from_name(NAME) or 'not found'; given what it printed as Env of any language, it prints the same description again.",
  "all byte strings, all languages",
  "All inputs.",
  [T1+": main", "src/language.cpp: Language::from_name, Language::str"])
p("tinygettext_test directory and language-dir print what the manager finds",
  "directory DIR MESSAGE LANG prints the translation given by the best matching catalogue of DIR (for a language with country falling back to the language), the message itself if there is none; an unknown LANG is refused with exit status 1; without LANG the message is printed unchanged; language-dir prints exactly the languages of the .po files of DIR; a directory that cannot be listed gives the exception text.",
  "all directories, files, catalogues, languages and messages",
  "Composition for all file systems and inputs.",
  [T1+": main", DM+": DictionaryManager::get_dictionary, get_languages, add_directory, set_language"])
p("The programs come to an end without a crash",
  "For every command line, if all files end in a newline (and a count, if it is a numeral at all, fits an int; otherwise the behaviour is undefined), tinygettext_test and po_parser_test come to an end without undefined behaviour or assertion failure, destroying the manager included; the exit status is 0, or 1 exactly for an unknown language.",
  "all argument lists, all file systems with newline-terminated files, all converters whose errors are the documented ones",
  "All inputs, including malformed files and directories.",
  [T1+": main", T2+": main", DM+": ~DictionaryManager"])
p("list-msgstrs prints every message once",
  "tinygettext_test list-msgstrs FILE prints every message of the catalogue in FILE exactly once, with its context and all its strings, those without context first, and nothing else, in whatever order the hash maps are traversed.",
  "all catalogues over arbitrary bytes with distinct messages, all traversal orders",
  "All inputs and all iteration orders.",
  [T1+": main, print_msg, print_msg_ctxt", "include/tinygettext/dictionary.hpp: Dictionary::foreach, foreach_ctxt"])
p("A read error while parsing is an end of file",
  "If the stream given to POParser::parse fails (read error, directory opened as a file) after complete lines, the parse behaves exactly as if the file ended there: same outcome, same dictionary, same messages, no exception and no message about the error. If it fails in the middle of a line, the outcome and the dictionary are those of the same bytes with the end of the file there, whenever such a parse comes to an end.",
  "all byte strings, all positions of the read error, all dictionaries and converters",
  "All inputs and all failure points.",
  [PO+": POParser::next_line, POParser::parse", "src/unix_file_system.cpp: UnixFileSystem::open_file"])
p("A log callback that throws ends the process, and nothing else happens",
  "An exception that leaves a log callback never reaches the program or the library: the process ends (std::terminate) at the first message on which a callback throws. Up to that point every call came back and every callback call was made as in the session in which no callback throws.",
  "all sessions of manager calls and callback changes, all callbacks, all sets of messages on which they throw",
  "All histories and all points at which a callback may throw.",
  ["src/log.cpp: Log::~Log", "include/tinygettext/log_stream.hpp: log_error, log_warning, log_info"])
p("Catalogues in other charsets",
  "A catalogue written in a charset other than the dictionary's, that the library can convert, is loaded with every translation (each plural form included) converted to the dictionary's charset, and with msgids and contexts exactly as they stand in the file, without any message; lookups, get_dictionary and the programs give the converted translations.",
  "all catalogues over arbitrary bytes, all pairs of charsets, all converters that convert these texts without error (whatever they converted before), all starting dictionaries",
  "All texts and converters; a missed or doubled conversion, or one of the wrong string, shows only for some texts.",
  [PO+": POParser::parse, parse_header", IC+": IConv::convert, set_charsets"])
LH="include/tinygettext/language.hpp"
p("Languages as keys",
  "Two Language objects are equal exactly if their language code, country and modifier are; operator< is a strict total order that agrees with ==; Language_hash gives equal values exactly for equal languages. None of this, nor the order in which a set of languages is traversed, depends on where the program is loaded.",
  "all languages, all addresses of the table of languages",
  "All pairs and triples of languages, and all load addresses.",
  [LH+": operator<, Language_hash", LA+": Language::operator==, operator!="])
p("Settings can be read back",
  "After any history of calls, get_language() returns the argument of the last set_language (an undefined language at first) and get_use_fuzzy() that of the last set_use_fuzzy (true at first), whatever else was called, failing calls included.",
  "all histories of calls, all file systems and contents",
  "All histories.",
  [DM+": set_language, get_language, set_use_fuzzy, get_use_fuzzy"])
p("Asking changes nothing",
  "Lookups, get_language, get_use_fuzzy and get_languages leave the manager and all dictionaries as they are: any number of them in any order have each the answer it would have alone, and making them in the middle of any session changes no other outcome of the session, nor the final state, messages apart.",
  "all managers, all sessions, all lookups, all positions and orders",
  "All interleavings of questions with all histories.",
  [DI+": Dictionary::translate, translate_plural, translate_ctxt, translate_ctxt_plural", DM+": get_language, get_use_fuzzy, get_languages"])
p("A parse reads its stream to the end",
  "When POParser::parse returns, nothing is left in the stream; when it ends by an exception, the part read ends with a line and everything after it is still in the stream.",
  "all byte streams (also ones that fail), all settings, converters and dictionaries",
  "All inputs.",
  [PO+": POParser::parse, next_line"])
p("What messages say",
  "Every message that log callbacks hear has its exact wording: an addition that replaces different strings gives one warning naming the message and quoting the old and new strings (and any other addition nothing); a lookup without translation names the message (a plural one also lists exactly the messages there are, or the number of the missing plural form), and one with a translation says nothing; while a file is parsed, each message is 'file:line: severity: what: quoted line', with the number and text of a line of the file, or a replaced translation, or a string that cannot be converted; loading a language warns of each file whose name names no language, reports the files that cannot be opened or parsed, in the order of the search path from last to first, and says nothing if the language is loaded already.",
  "all dictionaries, additions, lookups, streams, managers, file systems",
  "All histories and inputs; a wrong number, name or order in a message shows only for some.",
  [DI+": Dictionary::add_translation, translate, translate_plural", PO+": POParser::error, warning", DM+": get_dictionary", IC+": IConv::convert", "include/tinygettext/log_stream.hpp: log_error, log_warning, log_info"])
p("Files that are cut off",
  "What is loaded from the beginning of a text does not depend on what follows. Two texts that begin with the same complete lines are read alike up to a line among these, with the same additions and messages. If a file was cut off after any number of bytes and both it and the whole file are parsed, then everything the cut-off file loads is what the whole file loads first, apart from at most one message or the plural rule of one header; the messages about the common part come first in both. Well-formed entries followed by a blank line are loaded as if the text ended there, whatever follows.",
  "all texts, all positions at which they are cut off, all continuations, all settings and dictionaries",
  "Crash points: a file may be cut off at every byte, and followed by anything.",
  [PO+": POParser::parse, next_line, error"])
p("There is room for every conversion",
  "Whatever bytes a catalogue contains and whatever charset its header names, converting its strings never makes the program abort: with every iconv that keeps to POSIX the converted string is returned whole, and an error is logged exactly for strings that are not valid in that charset.",
  "all texts, all charsets, all implementations of iconv that keep to POSIX, stateful ones included",
  "All converters and all texts; the buffer is too small only for charsets in which a byte stands for several characters.",
  [IC+": IConv::convert", PO+": POParser::parse"])
p("Order does not matter",
  "The answers of a dictionary depend only on the order of additions for the same message (and on the last plural rule and fallback), not on how calls for different messages are mixed; the same warnings are given, in whatever order. In particular, the messages of a catalogue may stand in any order, and two texts, well-formed or not, without common messages and with the same plural rule in the end may be loaded in either order.",
  "all histories of calls, all reorderings, all well-formed files with any entries, all pairs of texts, all converters without memory",
  "All orders of all histories.",
  [DI+": Dictionary::add_translation, translate, translate_plural", PO+": POParser::parse"])
p("Other files do not matter",
  "get_dictionary(language) depends on nothing in the file system but, for every directory of the search path, whether it can be listed, which file serves the language best (for a language with a country or modifier also the bare language) and what that file contains: other files may be added, removed and changed, and directories may list their files in another order (if no two files serve the language equally well), without changing the result. Files that serve no language best are never opened: changing them changes no outcome and no message of any session.",
  "all languages, search paths, managers in any state, all pairs of file systems (failing ones included), all sessions",
  "All pairs of worlds.",
  [DM+": DictionaryManager::get_dictionary, get_languages", "src/unix_file_system.cpp: UnixFileSystem::open_directory, open_file"])
p("Builds without assertions",
  "Compiled with NDEBUG, the library does exactly the same as with assertions in every session in which no assertion fails, messages included. No catalogue and no converter can make it abort, and no call uses a deleted dictionary. get_dictionary() of an undefined language then gives an empty dictionary, always the same one (or throws, if a directory cannot be listed).",
  "all streams, settings, converters (also ones that break their contract), dictionaries, sessions of calls on a manager, file systems",
  "All inputs and histories, in two builds.",
  [IC+": IConv::convert", DM+": DictionaryManager::get_dictionary", PO+": POParser::parse"])
p("Threads",
  "Language::from_name/from_env/from_spec and the recognition of plural rules may be called from several threads (for example by different managers) at any time: in every interleaving every call returns what it returns alone, and the shared tables are accessed without data races. (They are filled on first use, without a lock. At least: calls made one after the other are all answered right; and once a thread has made its calls, no later calls that use the same tables ever write again, so any number of threads get the right answers, after a bounded number of steps.)",
  "all numbers of threads, all calls and arguments, all interleavings of their accesses to the shared tables",
  "The outcome depends on the schedule; tests see only a few schedules.",
  ["src/plural_forms.cpp: PluralForms::from_string", "src/language.cpp: Language::from_spec, resolve_language_alias, from_env, from_name"])
p("SDL builds",
  "A build with SDL (TINYGETTEXT_WITH_SDL) loads every catalogue like one with the system's iconv: same translations, same messages, in particular the message about strings that are not valid in their charset. (SDL_iconv reports failures by other return values than the code looks for. At least: without bad strings everything is the same; with converters without memory only that message is missing; and no conversion makes the program abort.)",
  "all streams, settings, dictionaries, all converters, with memory or without",
  "All texts and converters, in two builds.",
  ["include/tinygettext/iconv.hpp: iconv", IC+": IConv::convert", PO+": POParser::parse"])
p("Callbacks that call the library",
  "A log callback may itself look messages up, through any dictionary that is alive, and set callbacks. A lookup that comes back then has the same answer as if callbacks only listened, and no lookup throws or crashes. It comes back if callbacks look up only translated messages (and each message is then heard once), if callbacks ask nothing beyond some depth of nesting (a guard against recursion), or if they remove the callbacks before their lookups. A callback for info messages that always looks up something untranslated makes every untranslated lookup recurse for ever.",
  "all callbacks, whose behaviour may depend on everything that happened to callbacks before; all managers in any state, all lookups",
  "Callbacks are arbitrary programs with arbitrary memory; calls nest without bound.",
  [LG+": Log::~Log, Log::set_log_info_callback", DI+": Dictionary::translate, translate_plural, translate_ctxt, translate_ctxt_plural"])
p("Files that change while they are loaded",
  "The file system may change while a call runs: directories and files appear, disappear, are rewritten. A call that loads at most one dictionary (or lists languages) then does exactly what it does in some file system that does not change and in which every directory and file is as it was at some moment of the call. If get_dictionary(language) for a country loads the dictionary of the bare language as well, each of the two has the contents of such a file system, the second one of later moments; the two need not fit together (the call may throw for a directory that had just been read). Whatever happens, managers stay sound: every dictionary in use exists, and no call crashes.",
  "all file systems and all changes of them at any point of any call; all managers in any state, all calls, all histories of such calls",
  "The outcome depends on when other programs write; all points of all calls, all changes.",
  [DM+": DictionaryManager::get_dictionary, get_languages", "src/unix_file_system.cpp: UnixFileSystem::open_directory, open_file", FS+": FileSystem"])
p("Additions when memory runs out",
  "add_translation may run out of memory at any allocation. If it returns it has done exactly what it does with unlimited memory. If it throws std::bad_alloc, nothing has changed but perhaps the strings of its own message, which are then as before, or none, or (for several strings) the first few new and the rest old; a failed addition of one string leaves every answer of translate as it was. Made again, it leaves exactly the dictionary it would have left at first; so a program that repeats failed additions ends up with the dictionary of its history, and in one that gives them up all messages whose additions succeeded are right. The program is terminated only while a collision is being reported.",
  "all choices of the allocations that fail, all additions, dictionaries, and histories of calls with repetitions or losses",
  "Every allocation of every call is a crash point; all combinations of failures over all histories.",
  [DI+": Dictionary::add_translation (4 overloads)", LG+": Log::~Log"])
p("Tables after running out of memory",
  "Language::from_env, from_name, from_spec and PluralForms::from_string may run out of memory; a later call for which there is memory returns what it should. (They fill static tables on first use and never again: a first use that throws std::bad_alloc leaves a table that stays incomplete for the rest of the program, so that later calls do not find languages, find others, abort, or find no plural rule. At least: a plural rule that is returned is the right one or the undefined one; and after a first use that came back all later calls that come back are right, whatever runs out of memory in between.)",
  "all choices of the allocations that fail, all sequences of calls, all arguments and locales",
  "Every allocation of every call is a crash point, and the effect shows in all later calls.",
  ["src/plural_forms.cpp: PluralForms::from_string", LA+": Language::from_spec, from_env, from_name, resolve_language_alias"])
p("Loading when memory runs out",
  "Memory may run out at any allocation of any call on a DictionaryManager, and while a file is read. A get_dictionary during which that happened leaves no trace: a later one, with enough memory, gives the full dictionary, and nothing is lost for good. (It is not so: get_dictionary catches the std::bad_alloc of a parse itself, logs it and keeps the incomplete dictionary for ever, and std::getline hides the shortage altogether. At least: pointers stay valid in every history; dictionaries that existed are untouched; every new one holds, directory by directory, the first few additions of the best file, perhaps with traces of the next one, so that no text is foreign to the files; if a call neither throws nor logs std::bad_alloc and no file was cut short, it did what it does with unlimited memory; a change of the configuration, even one that throws, drops everything incomplete; a call loses at most one Dictionary, and only when it throws; and a shortage crashes the program only by a log message that cannot be delivered or by a conversion descriptor that is closed twice.)",
  "all choices of the allocations that fail and of the points at which reading stops, all calls in all histories of such calls, all file systems and contents",
  "Every allocation of every call and every byte of every file is a crash point; the effect shows in all later calls.",
  [DM+": DictionaryManager::get_dictionary, get_languages, set_charset, add_directory", PO+": POParser::parse", IC+": IConv::set_charsets", LG+": Log::~Log"])
p("Callbacks that call the manager",
  "A log callback may call any function of the DictionaryManager, and of the dictionaries it gave out, while a call on the same manager is logging (src/log.hpp forbids none of this). The outer call still does what it should. (It is not so: add_directory in a callback during a load frees the array whose iterator get_dictionary uses next; set_language changes, by reference, the language that is being loaded, so that the dictionary cached for one language is filled from the files of another, or becomes its own fallback, and then untranslated lookups never end; add_translation on the dictionary being loaded can make the interrupted addition write behind the end of a vector; a callback that throws because a directory cannot be listed ends the program; and a callback is given dictionaries that are only half loaded.) At least: callbacks that call nothing change nothing; and callbacks that only ask - for dictionaries, languages, settings, translations - however deep these calls nest, disturb neither the settings, the language, nor any existing dictionary; the outer call, if it returns, returns the right dictionary, complete, with the same contents as without callbacks; and no undefined behaviour arises.",
  "all callbacks (any choice of calls depending on everything they know), all depths of nesting, all calls in all histories, all file systems and contents",
  "Every message of every call is a point at which any sequence of calls may happen, each of which logs again.",
  [DM+": DictionaryManager::get_dictionary", DI+": Dictionary::add_translation, translate, translate_plural", PO+": POParser::parse", LG+": Log::~Log"])
DE="include/tinygettext/dirent.h"
p("Directory streams on Windows",
  "On Windows, opendir/readdir/rewinddir/closedir (and their wide counterparts) behave as directory streams, whatever the interleaving of calls on several streams and however often the system fails or changes its mind: a stream delivers, in order and each once, the entries its directory had when it was opened or last rewound (wherever the current directory is meanwhile), then NULL for ever; the name shown is the long one, else the short one, else '?'; an open fails only for want of a name, memory, a path or a first entry, and then errno says which (except that a name that cannot be converted leaves errno alone); reading, rewinding and closing do not touch errno; closing NULL gives -1 and EBADF.",
  "all histories of calls on any number of open streams, all directories and their changes, all failures of memory and of the system",
  "All interleavings of calls on all streams, with the system's answer free at every step.",
  [DE+": opendir, readdir, rewinddir, closedir, _wopendir, _wreaddir, _wrewinddir, _wclosedir"])
p("Directory streams on Windows leave nothing behind",
  "At any time every search handle and every block of memory held for directory streams belongs to a stream that is open: one handle and three blocks at most for each. When all streams are closed, or could not be opened, nothing is left. A stream that is opened is none of those that are open.",
  "all histories of calls on any number of open streams, all directories and their changes, all failures of memory and of the system",
  "Every failure at every step of every history is a possible leak.",
  [DE+": _wopendir, _wclosedir, _wrewinddir, opendir, closedir, dirent_next"])
p("Directory streams on Windows are safe",
  "Calls on streams that are open always return: no memory is written or read out of bounds, before it is set or after it is freed, no handle is used after it is closed, and the C library is given no invalid parameters. (It is not so if another thread changes the current directory while a relative name is opened, because the buffer is allocated for the old path; nor with Microsoft's compiler for names that do not fit into PATH_MAX characters. In all other cases it is so.)",
  "all histories of calls on any number of open streams, all directories and their changes, all failures of memory and of the system",
  "The overrun needs a change between two system calls; all histories, all answers of the system.",
  [DE+": _wopendir, opendir, readdir, dirent_mbstowcs_s, dirent_wcstombs_s"])
p("Memory use is proportional to the file",
  "Loading a .po file makes a Dictionary grow by at most four times the size of the file, counted as all bytes of messages, contexts and translations plus one for each of them - whatever the file contains, whatever was loaded before, whatever iconv makes of it and whether the parse returns or throws; by no more than the size of the file if conversions never make a text longer. (The last line must end with a newline; without it, it may count up to five more times.) So a dictionary a DictionaryManager loads holds at most four times the bytes of the files it is loaded from, one in each directory.",
  "all texts, dictionaries, converters, locales and modes; all ends of a parse; all histories of a manager",
  "A small file that blows up must be found among all files; the bound must hold for every one of them.",
  [PO+": POParser::parse, get_string", IC+": IConv::convert", DI+": Dictionary::add_translation", DM+": DictionaryManager::get_dictionary"])
p("The number of messages is proportional to the file",
  "Parsing a newline-terminated text of n bytes logs at most n messages, whatever the text and however the parse ends. (Their length is another matter: each unknown escape sequence is reported with the whole line, so a line with k of them, 2k+9 bytes long, logs k(2k+8) bytes, and no multiple of the size of the file bounds the size of the log.)",
  "all texts, dictionaries, converters, locales and modes; all ends of a parse",
  "A file that floods the log must be found among all files.",
  [PO+": POParser::parse, get_string_line, error, warning, parse_header", IC+": IConv::convert", DI+": Dictionary::add_translation"])
p("A directory of lowest priority only adds",
  "Adding a directory at the end of the search path only adds translations: after add_directory(dir), a lookup on get_dictionary(L) that was answered from that dictionary without a message is answered as before, and a message that had no translation there now has what dir alone gives it. (It is not so for lookups with a number: the plural rule of the lowest directory wins, C51, so the chosen form may change; it is so if dir declares no rule. Nor are answers that came from the fallback kept: the country file of the new directory comes before the language file of the old ones.)",
  "all histories of a manager, all languages, directories, file contents and lookups",
  "All contents of all files of all directories, for all lookups.",
  [DM+": DictionaryManager::add_directory, get_dictionary", DI+": Dictionary::add_translation, translate, translate_ctxt, translate_plural"])
p("A manager does not grow without bound",
  "After any history the dictionaries of a DictionaryManager are exactly: the empty one, one for each language asked for since the configuration last changed (asking again returns that very one), and those of the bare languages these fall back to. So there are never more than 242, nor more than twice the number of requests since then, and if the files in each directory are bounded, what all of them hold together is bounded too, however long the program runs.",
  "all histories of calls, each in a world of its own (files, file system failures, exceptions, converters)",
  "A leak that needs a particular long history; the bound must hold after every one.",
  [DM+": DictionaryManager::get_dictionary, clear_cache, set_charset, set_use_fuzzy, add_directory, remove_directory, set_language", LA+": Language"])
p("A change of the configuration makes a manager as good as new",
  "After a call that changes the configuration (set_charset, set_use_fuzzy, adding a directory, removing one), a DictionaryManager behaves in every session that follows like a newly constructed one that was told the same settings: the same results of all calls, the same lookups, the same exceptions, the same messages; only the Dictionary objects are at other addresses. Nothing of what was asked, loaded, added to dictionaries or went wrong before can be noticed. (Provided nothing was added to the dictionary that get_dictionary() returns when no language is set.)",
  "all histories of calls before, all changes, all sessions of calls after, each call in a world of its own",
  "Something left over may show up only after particular calls in a particular order, before and after.",
  [DM+": DictionaryManager::clear_cache, set_charset, set_use_fuzzy, add_directory, remove_directory, get_dictionary"])
p("What get_languages lists, get_dictionary finds",
  "If the directories of the search path can be listed: get_languages() names a language (with whatever country and modifier) exactly if get_dictionary() for any Language of this language code has a file to load. In particular each language listed (the undefined one aside, C55) has a file, a dictionary newly made for a language that is not named has no messages, and if a directory has a file for the very Language asked for, that is the kind of file loaded from it. (The two functions read file names differently: only get_dictionary capitalises countries and scores files.)",
  "all histories, search paths, listings, file names, languages, character classifications",
  "Two functions that parse file names in different ways must agree on all names that directories may contain.",
  [DM+": DictionaryManager::get_languages, get_dictionary, convertFilename2Language, has_suffix", LA+": Language::from_env, from_spec, match"])
p("Texts can be put one after the other",
  "Parsing a text that consists of two texts does what parsing the first and then the second does, into the same Dictionary, provided the parser is between entries after the first (a well-formed file and a blank line, or anything and two blank lines): same additions, same first plural rule, same exceptions. (It holds if the first text does not announce Big5 and the second starts with a header, whatever the charsets; otherwise charset and Big5 mode of the first text carry over.)",
  "all pairs of texts, dictionaries, converters, locales and modes",
  "What the parser keeps from one entry to the next (charset, converter, Big5 mode, strings already seen) could interfere after any first text with any second one.",
  [PO+": POParser::parse, parse_header, error", IC+": IConv::set_charsets"])
p("No call logs more than it has reason to",
  "Setters, get_languages() and Dictionary::set_plural_forms log nothing; an addition logs at most one message; a lookup at most one, or two if the dictionary has a fallback (a plural lookup at most two and one for each message there is); get_dictionary() logs, for each search of the search path that it needs (none if the language is loaded; one; two if the language has a country and the language without it is not loaded), at most one message for each name in each directory, one for each byte of the largest file of each directory, and two for each file that cannot be read - after any history, however the call ends.",
  "all histories of a manager, all calls, file systems, file contents, converters; all ends of a call",
  "A call that floods the log may need a particular history and particular files; the bound must hold for every one.",
  [DM+": DictionaryManager::get_dictionary, get_languages, set_language, add_directory", DI+": Dictionary::add_translation, translate, translate_ctxt, translate_plural", PO+": POParser::parse"])
p("An addition changes nothing but its message",
  "An addition to a Dictionary of a DictionaryManager, between two lookups, changes the answer to no other lookup than those for its message: in this Dictionary (same context or none), and, for a message without context, in those that fall back to this Dictionary and have no translation of their own. Those it does change are then answered by the added string. set_plural_forms changes only lookups with a number, and only in the Dictionary it is called on. Apart from these, as long as the manager is not configured, no call at all changes an answer.",
  "all histories of a manager, all dictionaries, additions and lookups",
  "A change that leaks into other messages, contexts or dictionaries shows up only for the right pair of addition and lookup after the right history.",
  [DI+": Dictionary::add_translation, translate, translate_ctxt, translate_plural, translate_ctxt_plural, set_plural_forms", DM+": DictionaryManager::get_dictionary"])
p("A language without files of its own is answered like the bare language",
  "If nowhere in the search path anything is made for the country or the modifier of a Language (no file names them; in each directory there is a file for the bare language, or none for the language at all), then get_dictionary() for it gives a Dictionary with the same contents as get_dictionary() for the bare language, and all lookups on the one are answered like those on the other: asking for a more specific language than there is costs nothing.",
  "all histories before, search paths, listings, file names and contents, languages, lookups",
  "The best file is chosen separately for each language, and the more specific one has a fallback, too: both ways of finding a translation must agree for all sets of files.",
  [DM+": DictionaryManager::get_dictionary", LA+": Language::match, from_env", DI+": Dictionary::translate, translate_ctxt"])
p("Directories without files for a language do not matter for it",
  "A directory that can be listed and has no file for a language, whatever else it contains, makes no difference to it: whether it is in the search path and where, get_dictionary() returns or not alike, and lookups on the dictionaries give the same answers and the same messages. (For newly made dictionaries, whatever happened before; for others if the files did not change and all calls returned normally since the configuration was last changed, and nothing was added by hand.)",
  "all pairs of histories, search paths that differ in such directories, their listings, languages, lookups",
  "All listings with all file names; the directory may stand anywhere in the search path.",
  [DM+": DictionaryManager::get_dictionary, convertFilename2Language", DI+": Dictionary::add_translation, translate"])
p("A directory that is in the search path twice counts once",
  "If the same directory is in the search path under two names (a link, or a name with and without a slash at the end), the one of lower priority changes nothing: same translations, same answers, same messages of lookups. (It is not so for lookups with a number: the plural rule is that of the lowest directory, C51, and so listing a directory a second time, below, makes its rule win over those in between; it is so if the directories in between declare no rule.)",
  "all pairs of histories, search paths, listings, file contents, languages, lookups",
  "All contents of the directories before, between and after the two names.",
  [DM+": DictionaryManager::add_directory, get_dictionary", DI+": Dictionary::add_translation, translate, set_plural_forms"])
p("A dictionary can be copied",
  "foreach and foreach_ctxt tell everything about the messages of a Dictionary: if everything they pass to their callbacks is added to a new Dictionary of the same charset, in any order, with any msgid_plural, with either overload where there is one string, and it is given the same plural rule and fallback, then it answers all lookups like the original, with the same messages (candidate lists in some order), is visited like it, and nothing is logged while it is filled. So two dictionaries that are visited alike answer alike.",
  "all histories of additions and other calls, all orders of visiting the tables and of adding, all lookups",
  "Strings, contexts and messages without translation must survive for every history, in every order of the hash tables.",
  [DI+": Dictionary::foreach, foreach_ctxt, add_translation, set_plural_forms, addFallback"])
p("The files and the configuration decide",
  "While the files do not change, what lookups answer depends only on the search path and the charset: two DictionaryManagers with the same ones return (or not) dictionaries for a language alike, and these answer every lookup alike, with the same messages - whatever other languages were asked for before and in whatever order, and however the managers came to be configured so. With the same language set, so do the dictionaries of get_dictionary(). (Provided all calls since the last change of the configuration returned normally, C54, and nothing was added by hand.)",
  "all pairs of histories, all languages, files, lookups",
  "A dictionary may be loaded as such or as the fallback of another one, before or after it; the order must not show, for every set of requests.",
  [DM+": DictionaryManager::get_dictionary, set_language, get_languages, clear_cache, add_directory, remove_directory, set_charset"])
p("The order of directories without anything in common does not matter",
  "If directories that stand next to each other in the search path have, any two of them, no message (of a context, or without) in common, and not two different plural rules, for a language and for what it falls back to, then they may stand in any other order: all lookups on the dictionary for the language have the same answers, those without a number also the same messages, whatever stands before and behind, and however the managers have been used before. And whether get_dictionary returns at all does not depend on the order, whatever the directories contain.",
  "all pairs of histories, search paths, permutations, file contents, languages, lookups",
  "All numbers of directories, all orders, and all contents.",
  [DM+": DictionaryManager::add_directory, get_dictionary", DI+": Dictionary::add_translation, translate, translate_plural"])
p("A directory that has nothing of its own",
  "If every message (of a context, or without) that a directory gives for a language, and for what it falls back to, is given by a directory before it in the search path, too, then the directory counts for nothing in lookups without a number: they are answered as if it were not in the search path, with the same messages, wherever the others stand before it and however the managers have been used before. (It is not so for lookups with a number: its plural rule counts, C51, and strings of a plural message survive singular additions of the same message.)",
  "all pairs of histories, search paths, file contents, languages, lookups without a number",
  "All contents, any number of directories that give the messages between them, and all lookups.",
  [DM+": DictionaryManager::add_directory, get_dictionary", DI+": Dictionary::add_translation, translate, translate_ctxt"])
out=os.path.join(os.path.dirname(os.path.abspath(__file__)),"..","properties.jsonl")
with open(out,"w") as f:
    for q in P: f.write(json.dumps(q,ensure_ascii=False)+"\n")
print(len(P))
for q in P: print(q["id"],q["title"])
