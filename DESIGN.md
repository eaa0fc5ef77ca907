# tinygettext: formal model and proofs in Lean 4 — design

Source: `/repo` (tinygettext, C++17, about 2000 lines). Nothing was built or run; every
definition of the model cites the file and lines it was read from.

## 1. Layout

| Lean module (`lean/Verif/…`) | contents |
|---|---|
| `Base` | bytes, byte strings, `b!"…"` literals, C-string truncation, `find`/`substr`/`compare`, the ctype parameter |
| `Model/PluralForms` | the 24 plural functions, the header table, `from_string` |
| `Model/LanguageTable`, `Model/Language` | the language table (all rows, all columns), the alias table, `from_spec`, `from_name`, `from_env`, `match`, accessors |
| `Model/Dictionary` | entries, contexts, fallback pointers, all `translate*` and `add_translation` overloads, `foreach*` |
| `Model/IConv` | `IConv` with the C library converter as parameter |
| `Model/Stream` | `std::istream` / `std::getline` (eofbit, "string untouched if the stream is not good") |
| `Model/POParser` | the complete PO parser: every loop, `goto`, exception, diagnostic |
| `Model/Manager` | `DictionaryManager` on a heap of dictionaries with an abstract file system |
| `Model/Log` | log macros and callbacks |
| `Model/Programs` | the two command line programs `tinygettext_test` and `po_parser_test`, the default log callback |
| `Spec/*` | small independent specifications (C plural expressions, PO writer, history specifications) |
| `Proofs/*` | helper lemmas |
| `Props/*` | the property theorems, named `Cxx_…`, each with a concrete non-vacuity `example` |

## 2. Modelling decisions

* A C++ `std::string` is `List UInt8`. `size_t`/`unsigned int` arithmetic that can wrap in the
  code is modelled with the wrap (`static_cast<unsigned int>(size())` is `% 2^32`, `substr`
  counts are `% 2^64`).
* `current_line[i]` is a *checked* read: in range → the byte, `i = size()` → NUL (legal since
  C++11), `i > size()` → the outcome `fault outOfBounds`. `line_number += 1` at INT_MAX is
  `fault signedOverflow`. `assert(false)` is `fault assertFailed`. Access to a deleted or null
  dictionary is `fault`. Undefined behaviour is thus an outcome, never assumed away.
* Exceptions (`POParserError`, `std::exception`) are outcomes that keep the state, because
  dictionary updates made before the throw persist.
* Unbounded loops take fuel; exhaustion is the outcome `diverge`. Termination theorems show
  enough fuel always exists, non-termination theorems show no fuel suffices.
* `isspace`, `toupper`, `tolower`, `isalpha` are a parameter (`CType`), constrained to the C
  locale on bytes < 0x80 and *arbitrary* on bytes >= 0x80 (where the code passes negative
  `char`s, formally undefined; assumed to return some value and not crash).
* `iconv_open`/`iconv` are a parameter (`IconvLib`): any deterministic, stateful converter
  that respects the output-buffer size.
* The file system (`FileSystem` virtual class) is a parameter that may change between calls and
  may throw from `open_directory`, return null or throw from `open_file`.
* `std::unordered_map` is an association list with unique keys; iteration order only matters
  for `foreach`/"Candidates" logging and is quantified over.
* A stream delivers some bytes and then comes to the end of the file or fails (badbit, e.g. a directory opened as a file);
  `getline` behaves as libstdc++'s. A stream that throws (`exceptions(…)` set by the user) is not modelled.
* Memory is unlimited, except in C89, C90 and C91 (and the models they use), where any allocation may fail.
* Not modelled: threads beyond the shared tables of C85 (the library has no threads of its own), SDL
  itself, CMake files.

## 3. Plan per property

| id | model / proof plan |
|---|---|
| C01 | finite table of (line, nplural, function); per row a proof for all `Int` by case split + `omega`. False for the `lv` and `sl` rows: prove the negation with a witness, `_partial` for the others |
| C02 | independent reading of the decimal after `nplurals=`; finite table. False for the `lv` row: negation + `_partial` |
| C03 | independent tokenizer + parser + evaluator for C expressions (`Spec/CExpr`); table rows evaluated by the kernel to ASTs; agreement for all `Int` by case analysis. The `lv` row's expression does not parse (unbalanced parenthesis), stated |
| C04 | `from_string` characterised by stripping whitespace; all byte strings |
| C05,C06 | case analysis on the 3x3 table |
| C07,C08 | induction over candidate scan (generic "first maximum" lemma), whole table |
| C09 | generic split lemma + uniqueness of table triples (`decide +kernel` on the finite table) |
| C10 | `find`/`substr` lemmas for arbitrary strings |
| C11 | alias lookup through lower-casing; finite alias table; the upper-case alias keys are proved unreachable |
| C12 | finite table |
| C13 | induction over the name; table part via C09/C10 |
| C14–C17,C19,C20 | history specification over `List Add` (last matching addition), refinement by induction |
| C18 | induction over the chain |
| C21–C23 | case analysis, induction over sequences of `convert` calls; state machine with ghost trace for handles. "only opened handles are closed" is false after a failed open (`iconv_close((iconv_t)-1)`): negation + `_partial` |
| C24 | Hoare-style walk through the whole parser: no `outOfBounds` outcome |
| C25 | fuel bound = number of lines; induction on remaining lines |
| C26 | false: a last line without newline that is a comment, a continuation line or a `msgstr[N]` line loops forever; negation for whole families of inputs, plus C25; the exact condition (iff) for well-formed files, by following the same grammar on a tape that repeats its last line (`Proofs/Hang`, `Props/PoEndless`); the exact condition for all texts in terms of the readings of C63 (`C26_exact`) |
| C27–C29 | symbolic execution of the model on the output of a PO writer, induction over messages/pieces |
| C30 | false when the error is detected on the blank line itself (`error` skips a line first, swallowing the next entry): negation; `_partial`: errors cost at most the current block and the next one |
| C31 | C27 with flags for both values of `use_fuzzy`; `C31_any_text` for fuzzy entries inside arbitrary texts |
| C32,C33,C42 | relational (two-run) walk through the parser |
| C34 | invariant over the parser state |
| C35 | direct |
| C36,C38,C40 | invariant on the recorded list of dictionary operations; C38 for arbitrary texts via C59 with the header messages of each item |
| C37 | header scanner against a line-based specification |
| C39 | walk + C36; for arbitrary texts via the items the text was read as (C59 with its messages) |
| C41 | C28 for Big5 mode, for any dictionary charset |
| C43 | insertion lemma in the round-trip format |
| C44–C49,C56 | state machine invariants over arbitrary call histories |
| C50 | C36 + last-writer-wins |
| C51 | false (the lowest-priority file is parsed first and the first header wins): negation + what holds |
| C52 | table check that the bare language of every row has no country + C18 |
| C53 | false: the flag is never passed to the parser; negation; and independence theorem |
| C54 | false: the dictionary is entered into the cache before loading; negation |
| C55 | membership characterisation |
| C57 | per-directory fold |
| C58 | the model's log is a record of the executed log statements; prove that no code reads it (prefix-obliviousness of every call), then a session semantics in which callbacks are installed, replaced and called |
| C59 | inverse parsing: from an arbitrary text to the blocks of lines that were read as entries, together with the messages these items cause |
| C60 | congruence between a tape that repeats its last line and one that ends with it, function by function, up to diagnostics; comments directly after an entry by the grammar on the open tape |
| C61 | inversion of every reading function (ends normally without a message ⇒ the lines it passed have the form the grammar asks for), errors always leave a message, induction over the main loop; then from events to messages |
| C62 | composition: C27 (a written catalogue is loaded as written) for each directory, fold over the search path, lookups after additions with distinct keys, fallback link; existence of the result by computing the call |
| C63 | complete specification of what an arbitrary text is read as (`Spec/PoRead`: strings, keyword lines, entries, every fault with its message text and line, gaps, and blocks that never end because the last line has no newline) and of what loading it does with all messages in order and in place (`loadPieces`); exact simulation of the tape code by induction over a reading, totality of the specification by induction on the lines left |
| C64 | the remarks of a reading (C63) are about ascending lines within the blocks they belong to; messages are a thinning of them (`Proofs/ReadOrder`) |
| C65 | from C36 (a parse is a list of additions) and idempotence of any list of additions: per message it is a constant, a change of the first string, or nothing; the order of keys does not change (`Props/PoReload`) |
| C66 | model of `po_parser_test`; the report about a file is computed from what the parse of that file does; with C61: silence exactly if all files are strictly well-formed and convert without a message |
| C67 | model of `tinygettext_test translate`; C27 (a written catalogue is loaded as written), the lookups of C27_distinct, `atoi` on numerals |
| C68 | model of `tinygettext_test language`; C09 for the second theorem |
| C69 | model of `tinygettext_test directory` / `language-dir`: the manager theorems (C55, C62) at the manager the program builds; destruction of the manager keeps quiet |
| C70 | a small Hoare logic (`Fine`) over the programs: every call ends without a fault if files end in a newline; uses C24, C25 and the manager invariant |
| C71 | model of `list-msgstrs`; C27, distinct keys, the traversal order of the hash maps is an arbitrary permutation |
| C72 | streams with a read error in `Model/Stream`; two-tape simulation (`Proofs/Broken`): both tapes have the same lines and ends when the error comes after a complete line; in the middle of a line they differ by one position of the end, which only error recovery and the outer loop look at |
| C73 | sessions in which a delivery may end the process (`~Log` is `noexcept`); prove by induction over the session that it agrees with the session without throwing callbacks up to the first message on which one throws |
| C74 | C27's proof with a converter that acts as a function on the strings of the file; the catalogues of C62, C67, C69 and C71 may be in any such charset |
| C75 | the table at an arbitrary address; arithmetic on addresses, distinct rows have distinct triples; insertion into a set ordered by `operator<` equals the model's `setInsert` |
| C76 | induction over the history with the manager's invariant: the current language and the flag change only by their setters |
| C77 | questions keep the state (case analysis), and calls do not depend on the log (C58); induction over the session |
| C78 | invariant of the tape of lines: what has been read and what is left; the main loop ends only at end of file |
| C79 | texts of all messages against `Spec/Texts.lean` and `Spec/Said.lean` (own notion of decimal numerals); additions and lookups via the history theorems, parses via the event streams (every event carries a listed text), loading by induction over the search path |
| C80 | `Spec/PoCut.lean`: blocks of lines (gap, entry, faulty block) of the readings of C63, and how far a text is read; blocks depend only on their lines, so two texts with common complete lines share their blocks (induction on lines left); after the common lines of a cut-off text at most one more block follows. Finding: a multi-line msgstr cut between two lines is loaded truncated without any message, and a file cut inside its last line may make the parser loop for ever (C26) |
| C81 | `Spec/Convert.lean`: what POSIX says of `iconv` with a given room (`Posix`); case analysis on the result against the `4 * size` buffer, then C24 for the whole parse. False: a charset like TSCII (one byte = 12 bytes of UTF-8) fails the assertion; negation + exact condition + `_partial` |
| C82 | `Spec/Answers.lean`: when no question tells two dictionaries apart, and which calls concern which message; stored strings, rule and fallback of a history depend only on the calls that concern them (induction), warnings per message; files through C27's grammar, arbitrary texts through C36 |
| C83 | Two worlds (`Env`s) with the same machine; `SameFor env env' l dir` compares what a directory offers a language (listing failure, no file, best file and how it opens). By induction over the search path and the fallback recursion, both runs of `get_dictionary` agree but for messages; the variants with filtered and permuted listings follow. `C83_sessions`: same listings, best files open alike ⇒ identical sessions, messages included. |
| C84 | `Model/Release.lean`: without assertions `IConv::convert` treats all failures but EILSEQ/EINVAL like success, i.e. it is `convert` with another (always "tame") converter; `get_dictionary(language)` loses its first line. A relation "does the same unless the left side fails an assertion" is carried through every function of parser and manager (`Proofs/Release.lean`), then through sessions by induction; C24/C47 applied to the tame converter give the absence of aborts. |
| C85 | `Model/Globals.lean`: the three tables as shared state and the functions that use them as programs that make one access at a time; `Spec/Threads.lean`: any number of threads, any interleaving, races. False from the start of the program (proved by a run, and a race for every call). After first use: a relation "reads only, this many times, and returns this" is preserved by every step of every thread (induction over schedules). |
| C86 | `Model/Sdl.lean`: `SDL_iconv` returns -2, -3, -4 where the code looks for -1, so the rest of `convert` sees another converter, one that hardly ever fails. The events of a parse do not depend on the converter; a simulation along the events relates the states of the two builds (same but for the messages and, with memory, up to the first bad string). False in full: three concrete runs. |
| C87 | `Model/Reentrant.lean`: the lookups with every logging statement in its place, run with callbacks whose body is an arbitrary function of everything that happened to callbacks before (bounded only by a nesting depth that all theorems quantify over). A lookup is shown to be the logging of its ordinary messages followed by its ordinary answer; the rest is induction on the depth. |
| C88 | `Model/Changing.lean`: the loading code with every access to the file system answered by the file system of its moment (`fs : Nat → FileSys`, arbitrary). Induction over the search path builds the still file system: each directory and its files are frozen as they were accessed (search paths have no duplicates, and plain file names determine their directory). `C88_steady` ties this model to `Model/Manager.lean`; the invariant of managers is proved again for it. `C88_two_worlds` shows that two loads need two worlds. |
| C89 | `Model/Memory.lean`: the four overloads as sequences of operations that allocate, each of which may throw (an oracle `oom : Nat → Bool` says which); `vec = msgstrs` goes string by string. The key notion of the proof: two dictionaries are the same but for the vector of one message if writing that vector makes them equal; every operation preserves it, so that a repeated addition gives *equal* dictionaries. Histories by induction over a relation (repeat until success, or give up). |
| C90 | `Model/TablesMemory.lean`: the programs of `Model/Globals.lean` run with the same oracle at every access that allocates. False (runs evaluated by the kernel). Exact description: an invariant "each table is empty or is its first lines (with half a line more)" that is transported *backwards* over the calls, so that one cut describes a whole run. |
| C91 | `Model/Starved.lean`: the manager's calls with an oracle for every allocation (`fails`) and for the byte at which `std::getline` gives up (`cut`); the parser as the interpretation of its events (`Refine3`), with one allocation between any two. False (a run evaluated by the kernel). Proof of the rest: a simulation of the unlimited model, function by function from the parser's steps up to every call (`NearParse`, `NearLoad`, `NearGet`): same result, or `std::bad_alloc`/termination/double close with some allocation having failed, and in every case the invariant of the manager and `PathPart` (a prefix of the additions of each file, plus at most one half-made addition) for the new dictionaries. |
| C92 | `Model/Nested.lean`: the manager's calls, with the parser (through its events) and the dictionaries they use, where every logging statement runs a callback; a callback is any function from what there is to know (state, answers so far) to its next call; the language of `get_dictionary(language)` is a reference (a function of the state); iterators are checked when used again. False (runs evaluated by the kernel; the own fallback by induction on the fuel). Proof of the rest: a simulation of the plain model with an arbitrary relation between the dictionary being loaded and the state (`Voice`: `add_sim`, `parse_sim`, `loadDirs_sim`), used once with equality (callbacks that call nothing) and once with `Loading`/`Keeps` (callbacks that only ask), by induction on the nesting depth; the contents after a finished load are a function of the state before (`viewOf`). |
| C93 | `Model/Dirent.lean`: all functions of include/tinygettext/dirent.h over a heap, search handles and `errno`; Windows is a parameter that may answer differently each time (memory, paths, listings, failures).  `Spec/Dirent.lean` is a machine of open streams; every history of legal calls is a run of it with the same answers and the same `errno` (`C93_streams`), by an invariant that says who owns which block and handle; hence what `readdir` shows (`C93_in_order`, `C93_complete`). |
| C94 | From the same invariant: owners of handles and blocks, nothing left when all streams are closed, new streams are new. |
| C95 | Every outcome that is not a return is one of two kinds (`C95_returns_partial`, `C95_safe`); both occur (`C95_overrun`, `C95_too_long`). |
| C96 | The tape description of the parser is given a bill: what each event can add to the dictionary, paid by the bytes of the lines read (`Proofs/Bill`: a weakest-precondition calculus over bills); the interpretation of events stays within the bill (`Proofs/BillRun`); `C96_memory`, `C96_memory_same_charset`, `C96_memory_unterminated`, and by C49 `C96_dictionary`. The measure is `Spec/Size`. |
| C97 | The same bill counts messages: `C97_messages`. `C97_flood`, `C97_not_linear`: their bytes are not bounded so. |
| C98 | Effects of directories (C50) applied on top of other directories keep, as a prefix, what they store in an empty dictionary (`Mgr.kept_path`); a lookup logs nothing exactly if its own dictionary has the string (`Mgr.silent_says`, `Mgr.says_silent`): `C98_only_adds_partial`, `C98_new_ones`; any number of directories behind those of managers in use (invariant of C109): `C98_settled_partial`, `C98_settled_new`. `C98_false`, `C98_fallback_changes`: two small worlds. |
| C99 | `Spec/Held` says from the calls alone which languages have been asked for since the configuration last changed; the manager invariant is extended by it (`Mgr.Did`, `Mgr.Holds`): `C99_exactly_what_was_asked`, by counting `C99_count`, and with C96 `C99_memory`. |
| C100 | The model does the same at other addresses (`Mgr.laterM`: every dictionary moved, function by function up to `Mgr.run_later`) and ignores what was logged (C58); a manager after a change of its configuration is a new one, moved, with a log (`Mgr.changed_renewed`): `C100_as_new` for whole sessions (`Spec/Renewal`: everything a program sees), `C100_same_settings`; `C100_settings`: the new manager is what the constructor and the setters make. |
| C101 | Capitalising the country changes nothing before the first `_`, hence not what `from_env` takes for the language (`Mgr.codeOf_upcase`), so the score of a file is positive exactly if the name taken as it is denotes the same language (`Mgr.score_pos_iff`): `C101_listed_iff_served`, `C101_every_listed_served`, `C101_unlisted_empty` (with C49), `C101_exact`. |
| C102 | Events of closed lines and of what follows them (`closed_split`, from C30); a header sets the converter whatever was before (`POParser.krel_header`), plural rules that are kept are rules (`ruled_interp`), Big5 mode is what readings of C63 say (`evb_big5`): `C102_concatenated_partial`. `C102_false` (the second text has no header), `C102_false_big5`. |
| C103 | Log growth of each call (`Few`): parses by C97, scans by `scanLog_le`, searches through `getFor_miss`, lookups with the invariant that a fallback has no fallback: `C103_log`, `C103_once`. `Holds` bounds listings and file sizes; `searches` counts the searches needed. |
| C104 | Lookups of a reachable manager in closed form (`told`, `toldN`: what is stored, else what the fallback has, else the message), then case analysis over which dictionary and which message the addition is for: `C104_others_partial`, `C104_seen`, `C104_rule`; `C104_stable` by the frame property of histories. |
| C105 | Files for the bare language have the highest score if nothing names country or modifier (`plain_best`, from the score table), so the best file is the same (`same_best`), the loads are the same relation (`path_same`), which is deterministic (`path_det`): `C105_same_contents`; lookups by the closed forms of C104: `C105_same_answers_partial`.  Managers in use, by the invariant of C109: `C105_settled_contents`, `C105_settled_partial`. |
| C106 | What a newly made dictionary holds is a function of the search path (`new_contents`); an unserved directory contributes nothing (`dirEff_unserved`), so it can be filtered out (`pathEff_filter`); dictionaries with the same texts and rules, and fallbacks alike, answer and log alike (`same_all`): `C106_unserved`; with the invariant of C109 also for managers in use: `C106_settled`, `C106_returns`. |
| C107 | Seen from one message, a list of additions is the identity, a constant, or puts a new head before what is there (`steps_kind`), so repeating it below changes nothing (`steps_again`, `twice_text`); the rule is the last one declared (`twice_rule`): `C107_twice_partial`, and for managers in use `C107_settled_partial`; a link to a directory below one with another rule: `C107_false`. |
| C108 | The visits are exactly the stored strings, each message once (`mem_visits`, `nodup_visits`, from C20); additions for distinct new messages store what they say and log nothing (`fresh`); dictionaries with the same strings, rule and fallback answer alike (`Order.same_answers`, shared with C82): `C108_copy`, `C108_tell_all`. |
| C109 | Invariant `Fed`: each cached dictionary holds what loading its language from the present search path gives, and a country's falls back to the cached one of the bare language (`entries`, by induction over the recursion of get_dictionary; `fed_call` for each call); loading is a function (`loads_unique`): `C109_same`; if loading succeeds in one manager it does in the other: `C109_both`; the dictionary of `get_dictionary()` is the cached one of the current language (`Inv.cur`): `C109_current`, `C109_named`. |
| C110 | The effects (C50) of two directories without a common message and with at most one rule commute, up to what lookups can see (`Apart.swap`: strings of each message, contexts known, plural function); by induction over the permutation (`Apart.perm`), under whatever comes on top (`Apart.path_alike`); contents by the invariant of C109: `C110_order`. A parse ends, in any dictionary of the same charset, or in none (`Apart.ended_any`), so whether all directories can be loaded is a property of each (`Apart.dirs_good`): `C110_returns`. |
| C111 | Additions to a message decide its first string, whatever was there before (`Covered.head_decided`, from the normal forms of sequences of additions of C110); so the effect (C50) of a covered directory is lost on the first strings and on the contexts known (`Covered.heads`), which is all that lookups without a number see (`Covered.replies`); contents by the invariant of C109. |

Trusted base and final status: sections 4–6 (kept current).

## 4. Trusted base

* **Lean 4.33.0's kernel.** No `native_decide`, `bv_decide`, no axioms of our own, no unproved goals. Every declaration
  in namespace `Tgt` depends on a subset of `propext`, `Quot.sound`, `Classical.choice` (checked over
  *all* declarations with `collectAxioms`; vcheck repeats it for the manifest theorems). Concrete runs use
  `decide +kernel`, i.e. kernel evaluation. Mathlib is not used.
* **The model is a correct reading of the C++.** Nothing connects `/repo` to the model mechanically, except that the
  language and plural tables were transcribed by a script (`tools/gentables.py`) from the source text.
  The model is a shallow embedding: every C++ function is a Lean function over an explicit state (`Prog σ α`, with outcomes ok,
  two kinds of exception, fault, divergence), with the same order of effects; comments cite lines.
* **Environment assumptions**, all visible as parameters or hypotheses: `CType` (C-locale on bytes < 0x80),
  `IconvLib` (any deterministic converter; hypotheses such as "the charset is available" are in the theorems),
  `FileSys` (arbitrary, may change from call to call, in C88 also within a call), `fuel` (arbitrary; theorems say when it is enough).

### What is modelled

| code | model | not modelled |
|---|---|---|
| src/plural_forms.cpp, plural_forms.hpp | all; the table as a constant, and (Model/Globals.lean) as shared state that is filled on first use | — |
| src/language.cpp, language.hpp | all, full tables (the hash maps are only looked up, never iterated); the maps also as shared state (Model/Globals.lean), and with failing allocations (Model/TablesMemory.lean) | threads: finer steps than one access to a map |
| src/dictionary.cpp, dictionary.hpp | all; additions also with failing allocations (Model/Memory.lean) | `std::unordered_map` iteration order = list order |
| src/iconv.cpp, iconv.hpp | all incl. the output buffer and the error branches; `assert` is a fault; the build without assertions is modelled as well (Model/Release.lean), and so is the build with SDL (Model/Sdl.lean), with the return values that SDL documents | SDL itself |
| src/po_parser.cpp, po_parser.hpp | all, including streams that fail while they are read | streams with `exceptions()` set; `ostringstream` is string append |
| src/dictionary_manager.cpp, .hpp | all incl. destructor; also with failing allocations (Model/Starved.lean: one per statement that allocates, and one between any two events of the parser); also with callbacks that call the manager (Model/Nested.lean) | — |
| src/unix_file_system.cpp | `open_directory`, `open_file` over an abstract OS | the order/encoding of `directory_iterator`; names with non-UTF-8 bytes |
| src/log.cpp, log_stream.hpp | macros, callbacks, setters, also callbacks that set callbacks, throw or look messages up (Model/Reentrant.lean), or call the manager (Model/Nested.lean) | — |
| test/tinygettext_test.cpp, test/po_parser_test.cpp | all: arguments, output on both streams, exit status, lifetime of the manager | flushing/failing of `cout`; `atoi` overflow is `fault` |
| include/tinygettext/dirent.h (the directory streams of Windows builds) | Model/Dirent | all functions; not `d_ino`, `d_reclen`, `d_off` and the macros; Windows and the C library's conversions are parameters; addresses and handles are never reused |
| test/helloworld.cpp, src/tinygettext.cpp, CMake | — | helloworld uses libintl, not this library; tinygettext.cpp contains no code; build files |

## 5. Properties that are false of the code

These are kept as `Cxx_Statement` definitions (the full claim) with a proved negation and the strongest variant we can prove.

* **C01, C02** — the `lv` table row has an unbalanced parenthesis and wrong count, `sl` uses a wrong rule.
* **C23** — after a failed `iconv_open` the destructor or the next `set_charsets` calls `iconv_close((iconv_t)-1)`.
* **C26** — a last line without newline that is a comment (or an open string, `msgstr[`) loops forever: `std::getline` on a
  stream at eof leaves `current_line` untouched and the loop only tests the line.
* **C30** — error recovery skips a line before looking for a blank one; an error noticed *on* the blank line swallows the
  next entry.  Two blank lines always resynchronise; `C30_after_blank` says
  exactly when one blank line does.
* **C51** — with several directories the rule of the *lowest*-priority file wins.
* **C52** — after a throwing `open_directory` the half-built dictionary stays cached without its fallback.
* **C53** — `set_use_fuzzy` has no effect at all (the flag is never passed to `POParser::parse`).
* **C54** — a dictionary is cached before it is loaded, so a failed load is never retried.
* **C55** — `get_languages` may contain the undefined language, and reads file names differently from `get_dictionary`.
* **C81** — `convert` has room for four bytes of result for each byte of text, and asserts that this is enough; for charsets in
  which a byte stands for several characters (TSCII), or that need a prefix (UTF-16/32 with BOM as target), it is not.
* **C85** — the three tables are filled on first use without a lock: a thread that comes while another fills one finds it not
  empty but incomplete.  An accessor that fills the table before any thread starts (or a lock around the first use) is enough.
* **C90** — a first use of a table that throws `std::bad_alloc` leaves it partly filled, and since it is then not empty it is never completed.
* **C91** — `get_dictionary` catches the `std::bad_alloc` of a parse like any other exception, and the incomplete dictionary stays cached; `dictionaries[language]` without
  memory leaks the new `Dictionary`; `set_charsets` closes the old descriptor before it copies the names, so that `~IConv` closes it again if the copy throws.
* **C92** — `get_dictionary` keeps iterators of `search_path`, a reference to `current_language` and the new `Dictionary&` across logging statements, and the dictionary is
  already in the cache: callbacks that change the manager break the load.  Passing the language by value and copying the search path would be enough for the manager;
  `add_translation` would have to log before it looks up the vector.
* **C95** — `_wopendir` asks for the length of the path, allocates, and asks for the path; if another thread changes the current directory in between and the path is longer, the
  second answer is a required size, which is taken for a length: the pattern is written behind the buffer.  With Microsoft's `mbstowcs_s` and `wcstombs_s` a name that does not
  fit is an invalid parameter (the handler ends the program) and not an error code, since `count` is not `_TRUNCATE`.
* **C97** (a property that is not claimed) — the bytes logged are not bounded by a multiple of the bytes read: a line with `k` unknown escapes is quoted whole in `k` messages.
* **C98** — adding a directory at the end of the search path can change the plural form chosen for a message that other directories translate (`C98_false`), and the translation of a message that came from the fallback (`C98_fallback_changes`).
* **C86** — `SDL_iconv` reports failures by `(size_t)-2`, `-3`, `-4`, but `convert` compares with `(size_t)-1`: in builds with SDL bad
  strings are cut silently, and the descriptor is not reset.
* **C102** — `parse_header` never sets `big5` back to false, and a text without header keeps the converter of what was before; nor is a byte order mark skipped in the
  middle of a text.
* **C104** — `translate_ctxt` answers with the message if it has nothing in the context, and asks the fallback (without context) only if it has something in the context:
  the first addition in a context therefore changes the answers for the other messages in it (`C104_false`, `C104_opens`).
* **C105** — the same asymmetry of `translate_ctxt`: the dictionary of a country falls back, without context, to the very file it was loaded from (`C105_false`).
* **C107** — the lowest plural rule wins (C51), so listing a directory a second time, below others, overrides their rule by its own (`C107_false`).

## 6. How the bigger proofs work

* **Parser on tapes.** `Proofs/Tape` re-expresses the parser as a function on the list of remaining lines that emits events;
  `Proofs/Parse` proves it equal to the model of the code on the stream for *all* inputs (`run_obs`).  All later parser proofs
  use this refinement; the theorems are stated about `POParser.run`.
* **C24/C25/C26** weakest-precondition calculus (`Proofs/Wp`) with a variant on lines left.
* **C27–C29, C31, C43** a grammar of PO files (`Spec/PoFile`: entries, comments, gaps, pieces) with a declarative `load`; a
  file built from the grammar is parsed to `load` of its entries (`Proofs/Grammar*`).
* **C59/C40** the converse: every text, malformed or not, acts as the `load` of entries each of which is a block of its lines
  (`Proofs/Items`).
* **C63** `Spec/PoRead` describes lines by inductive predicates; `Proofs/Read`, `Read2`, `Read3` run the tape code over each of
  them, `ReadLe` shows that they exclude each other and stay within the text, `ReadHang` follows the blocks that never end,
  `Read5` shows that every text has a reading, `Read4` that the events of a reading are what `loadPieces` says.
* **C30** `Proofs/Delta`, `Split`, `Wall`: two blank lines are a wall no run of the entry code passes.
* **C32, C33, C42** two-run simulation (`Proofs/Sim`, `Canon`).
* **Manager**: invariant over histories (`Proofs/MgrInv`), every call keeps it (`MgrCalls`), loading as a fold (`MgrLoad`).
* **C58** obliviousness of every call with respect to the log, then induction over sessions.

## 7. Seeded bugs

`seeded/LOG.jsonl` records each edit of the model made in a scratch copy, the claim it breaks and the theorems that failed.
