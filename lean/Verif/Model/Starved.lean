import Verif.Model.Manager
import Verif.Model.Memory
import Verif.Proofs.Refine3
/-
The calls of a `DictionaryManager` when memory may run out (src/dictionary_manager.cpp, src/po_parser.cpp).  (`Model/Manager.lean` takes memory as
unlimited.)  Which allocations fail is a parameter: `fails t` says that the `t`-th operation that allocates throws `std::bad_alloc`.

Simplifications.  The parser is taken through its events (`Proofs/Refine3.lean`; `run_eq` there: a parse is the interpretation of its events): all
allocations the parser makes between two of them (reading a line, putting strings together) are one operation.  Memory that runs out inside
`std::getline` is not thrown: the stream catches it, sets `badbit` and keeps what it has read, so for the parser the file ends there; where that happens
is the parameter `cut`.  When memory runs out while the text of a message is put together, the stream swallows the exception and the message is cut
short: here it counts as delivered.  The static tables of languages and plural rules are taken as filled (see `Model/TablesMemory.lean`).
-/
namespace Tgt.Starved
open Manager POParser

/-- When memory runs out: `fails t`: at the `t`-th operation that allocates; `cut t = some n`: while the parser reads the `n`-th byte of the file it
begins to parse at moment `t`. -/
structure Shortage where
  fails : Nat → Bool
  cut : Nat → Option Nat

/-- How code ends: it returns; an exception is thrown; the program is terminated (an exception leaves a destructor); the program crashes; not at all.  `t`: the number of
the next operation that allocates. -/
inductive Out (σ α : Type) where
  | ok (a : α) (s : σ) (t : Nat)
  | thrown (what : Str) (s : σ) (t : Nat)
  | terminated
  | crashed (f : Fault)
  | unfinished

/-- Code. -/
abbrev Sh (σ α : Type) := σ → Nat → Out σ α

variable {σ α β : Type}

/-- `return` -/
def pure (a : α) : Sh σ α := fun s t => .ok a s t

/-- `;` -/
def bind (p : Sh σ α) (f : α → Sh σ β) : Sh σ β := fun s t =>
  match p s t with
  | .ok a s t => f a s t
  | .thrown w s t => .thrown w s t
  | .terminated => .terminated
  | .crashed f => .crashed f
  | .unfinished => .unfinished

/-- `what()` of `std::bad_alloc`. -/
def badAlloc : Str := b!"std::bad_alloc"

/-- `throw` -/
def throw (w : Str) : Sh σ α := fun s t => .thrown w s t

/-- A crash. -/
def crash (f : Fault) : Sh σ α := fun _ _ => .crashed f

/-- A change of the state. -/
def modify (f : σ → σ) : Sh σ Unit := fun s t => .ok () (f s) t

/-- An operation that allocates. -/
def alloc (sh : Shortage) : Sh σ Unit := fun s t => if sh.fails t then .thrown badAlloc s (t + 1) else .ok () s (t + 1)

/-- `catch(std::exception& e)` -/
def catching (p : Sh σ α) (h : Str → Sh σ α) : Sh σ α := fun s t =>
  match p s t with
  | .thrown w s t => h w s t
  | r => r

/-! ### The parser -/

/-- The strings `msgstr[N]` collected so far, and the parser. -/
abbrev PS := List Str × PState

/-- The end of a `log_… << …` statement (`Log::~Log`, src/log.cpp:56-59): a copy of the text is made.  The destructor is `noexcept`. -/
def sayP (sh : Shortage) (m : Diag) : Sh PS Unit := fun x t =>
  if sh.fails t then .terminated else .ok () (x.1, { x.2 with log := x.2.log ++ [m] }) (t + 1)

/-- Several messages. -/
def saysP (sh : Shortage) : List Diag → Sh PS Unit
  | [] => pure ()
  | m :: ms => bind (sayP sh m) fun _ => saysP sh ms

/-- `dict.add_translation(…)` (src/dictionary.cpp:174-242). -/
def addP (sh : Shortage) (a : Add) : Sh PS Unit := fun x t =>
  match Memory.add sh.fails a (x.2.dict, x.2.log) t with
  | .done y t => .ok () (x.1, { x.2 with dict := y.1, log := y.2 }) t
  | .badAlloc y t => .thrown badAlloc (x.1, { x.2 with dict := y.1, log := y.2 }) t
  | .terminated => .terminated

/-- `conv.convert(text)` (src/iconv.cpp:85-128). -/
def convertP (sh : Shortage) (c : Cfg) (text : Str) : Sh PS Str :=
  bind (alloc sh) fun _ => fun x t =>
    match x.2.conv.convert c.lib text with
    | .ok r cv d => bind (saysP sh d) (fun _ => bind (modify fun x => (x.1, { x.2 with conv := cv })) fun _ => pure r) x t
    | .fault f => .crashed f

/-- One line of the header (src/po_parser.cpp:245-284). -/
def headerLineP (sh : Shortage) (c : Cfg) (l : Str) : Sh PS Unit :=
  bind (alloc sh) fun _ => fun x t =>
    let y := hdrEffect c x.2.lineNumber x.2.currentLine (x.2.dict, x.2.log) l
    bind (saysP sh (y.2.drop x.2.log.length)) (fun _ => modify fun x => (x.1, { x.2 with dict := y.1 })) x t

/-- The loop over the header (src/po_parser.cpp:239-287). -/
def headerLinesP (sh : Shortage) (c : Cfg) : List Str → Sh PS Unit
  | [] => pure ()
  | l :: ls => bind (headerLineP sh c l) fun _ => headerLinesP sh c ls

/-- `conv.set_charsets(from_charset, dict.get_charset())` (src/po_parser.cpp:299, src/iconv.cpp:53-92): the old descriptor is closed (:56-57) before the names of the
charsets are copied (:59-60).  If that throws, `cd` still holds the closed descriptor, and `~IConv` (:47-51), run when the exception leaves the parser,
closes it again. -/
def setCharsetsP (sh : Shortage) (c : Cfg) (fromC : Str) : Sh PS Unit :=
  bind (alloc sh) fun _ => fun x t =>
    if sh.fails t then
      match x.2.conv.cd with
      | .opened _ _ _ _ => .crashed .useAfterFree
      | _ => .thrown badAlloc x (t + 1)
    else
      let r := x.2.conv.setCharsets c.ct c.lib fromC x.2.dict.charset
      match r.2 with
      | none => .ok () (x.1, { x.2 with conv := r.1 }) (t + 1)
      | some w => .thrown w (x.1, { x.2 with conv := r.1 }) (t + 1)

/-- The warning about a header without charset (src/po_parser.cpp:289-293). -/
def charsetWarningP (sh : Shortage) (c : Cfg) (text : Str) : Sh PS Unit := fun x =>
  saysP sh (if (headerCharset c.ct text).isEmpty || headerCharset c.ct text = b!"CHARSET" then
      [.po .warning c.filename x.2.lineNumber b!"charset not specified for .po, fallback to utf-8" x.2.currentLine] else []) x

/-- `parse_header` (src/po_parser.cpp:236-300). -/
def headerP (sh : Shortage) (c : Cfg) (text : Str) : Sh PS Unit :=
  bind (headerLinesP sh c (headerLines text [])) fun _ =>
  bind (alloc sh) fun _ =>
  bind (charsetWarningP sh c text) fun _ =>
  bind (modify fun x => (x.1, { x.2 with big5 := x.2.big5 || (headerCharset c.ct text == b!"BIG5") })) fun _ =>
  setCharsetsP sh c (sourceCharset (headerCharset c.ct text))

/-- The warnings about the number of plural forms (src/po_parser.cpp:419-427). -/
def pluralWarningP (sh : Shortage) (c : Cfg) (T : Tape) (p : Nat) : Sh PS Unit := fun x =>
  saysP sh (if !x.2.dict.pluralForms.isDefined then
        [.po .warning c.filename (p + 1) b!"msgstr[N] seen, but no Plural-Forms given" (T p).line]
      else if x.1.length ≠ x.2.dict.pluralForms.getNplural then
        [.po .warning c.filename (p + 1) b!"msgstr[N] count doesn't match Plural-Forms.nplural" (T p).line]
      else []) x

/-- One event: a message (src/po_parser.cpp:62-89), a conversion of `msgstr[N]` (:398-406), the addition of a message (:413-440, :450-475), the header (:445). -/
def stepP (sh : Shortage) (c : Cfg) (T : Tape) : Ev → Sh PS Unit
  | .diag lv p msg ped => if ped && !c.pedantic then pure () else sayP sh (.po lv c.filename (p + 1) msg (T p).line)
  | .clear => modify fun x => ([], x.2)
  | .conv n t => bind (convertP sh c t) fun r => bind (alloc sh) fun _ => modify fun x => (setAt x.1 n r, x.2)
  | .singular fz ctxt id t =>
    if c.useFuzzy || !fz then bind (convertP sh c t) fun r => bind (alloc sh) fun _ => addP sh (.singular ctxt id r)
    else pure ()
  | .plural p fz ctxt id idp =>
    if c.useFuzzy || !fz then
      bind (pluralWarningP sh c T p) fun _ => fun x => addP sh (.plural ctxt id idp x.1) x
    else pure ()
  | .header p t => bind (modify fun x => (x.1, mv T x.2 p)) fun _ => headerP sh c t

/-- All events. -/
def eventsP (sh : Shortage) (c : Cfg) (T : Tape) : List Ev → Sh PS Unit
  | [] => alloc sh
  | e :: w => bind (alloc sh) fun _ => bind (stepP sh c T e) fun _ => eventsP sh c T w

/-- The file as `std::getline` delivers it. -/
def delivered (sh : Shortage) (input : Stream) (t : Nat) : Stream :=
  match sh.cut t with
  | none => input
  | some n => { input with rest := input.rest.take n, broken := true }

/-- The fuel for the events of a parse. -/
def evFuel (c : Cfg) (input : Stream) : Nat := c.fuel + input.rest.length + 1

/-- `POParser::parse(filename, in, dict)` (src/po_parser.cpp:41-49, :330-491), on a dictionary and the messages so far. -/
def parse (sh : Shortage) (c : Cfg) (input : Stream) : Sh (Dictionary × List Diag) Unit := fun x t =>
  let inp := delivered sh input t
  let ev := events c.ct (evFuel c inp) inp
  match eventsP sh c (startTape inp) ev.1 ([], initState inp x.1) t with
  | .ok _ y t =>
    match ev.2 with
    | .ok _ _ => .ok () (y.2.dict, x.2 ++ y.2.log) t
    | .err _ => .thrown b!"POParserError" (y.2.dict, x.2 ++ y.2.log) t
    | .overflow => .crashed .signedOverflow
    | .diverge => .unfinished
  | .thrown w y t => .thrown w (y.2.dict, x.2 ++ y.2.log) t
  | .terminated => .terminated
  | .crashed f => .crashed f
  | .unfinished => .unfinished

/-! ### The manager -/

/-- A manager, and (ghost) the number of `Dictionary` objects to which no pointer is left. -/
structure Store where
  m : Manager
  leaked : Nat

/-- Code that does not allocate.  (None of it throws `POParserError`.) -/
def lift (p : M α) : Sh Store α := fun s t =>
  match p s.m with
  | .ok a m => .ok a { s with m := m } t
  | .poError m => .thrown b!"POParserError" { s with m := m } t
  | .exn w m => .thrown w { s with m := m } t
  | .fault f => .crashed f
  | .diverge => .unfinished

/-- The end of a `log_… << …` statement. -/
def say (sh : Shortage) (d : Diag) : Sh Store Unit := fun s t =>
  if sh.fails t then .terminated else .ok () { s with m := { s.m with log := s.m.log ++ [d] } } (t + 1)

/-- Several messages. -/
def says (sh : Shortage) : List Diag → Sh Store Unit
  | [] => pure ()
  | m :: ms => bind (say sh m) fun _ => says sh ms

/-- The scan of one directory's files (src/dictionary_manager.cpp:125-151): the strings made for a name (:132), and the copy of the best name (:147), need memory. -/
def scanFiles (sh : Shortage) (env : Env) (language : Language) : List Str → Str × Nat → Sh Store (Str × Nat)
  | [], best => pure best
  | filename :: rest, best =>
    if hasSuffix filename b!".po" then
      bind (alloc sh) fun _ =>
      match convertFilename2Language env.ct filename with
      | none => throw b!"basic_string::substr: __pos (which is 18446744073709551615) > this->size()"
      | some name =>
        let poLanguage := Language.fromEnv name
        if !poLanguage.isDefined then bind (say sh (.unknownLanguage filename)) fun _ => scanFiles sh env language rest best
        else
          let score := Language.match language poLanguage
          if score > best.2 then bind (alloc sh) fun _ => scanFiles sh env language rest (filename, score)
          else scanFiles sh env language rest best
    else scanFiles sh env language rest best

/-- `POParser::parse(pofile, *in, *dict)` on the heap object `id` (src/dictionary_manager.cpp:165). -/
def parseInto (sh : Shortage) (env : Env) (id : DictId) (pofile : Str) (input : Stream) : Sh Store Unit := fun s t =>
  match s.m.heap.get? id with
  | none => .crashed .useAfterFree
  | some d =>
    match parse sh ⟨env.ct, env.lib, env.pedantic, pofile, true, env.fuel⟩ input (d, s.m.log) t with
    | .ok _ x t => .ok () { s with m := { s.m with heap := s.m.heap.set id x.1, log := x.2 } } t
    | .thrown w x t => .thrown w { s with m := { s.m with heap := s.m.heap.set id x.1, log := x.2 } } t
    | .terminated => .terminated
    | .crashed f => .crashed f
    | .unfinished => .unfinished

/-- Loading the best file of one directory (src/dictionary_manager.cpp:153-173): the path is put together before the `try`; `catch(std::exception&)`
catches `std::bad_alloc` too. -/
def loadFile (sh : Shortage) (env : Env) (id : DictId) (dir bestFilename : Str) : Sh Store Unit :=
  if !bestFilename.isEmpty then
    let pofile := dir ++ b!"/" ++ bestFilename
    bind (alloc sh) fun _ =>
    catching (bind (alloc sh) fun _ =>
        match env.fs.openFile pofile with
        | .throws w => throw w
        | .null => say sh (.openFailure pofile)
        | .stream s => parseInto sh env id pofile s)
      fun w => bind (say sh (.parseFailure pofile)) fun _ => say sh (.parseFailureWhat w)
  else pure ()

/-- The loop over the search path (src/dictionary_manager.cpp:121-174). -/
def loadDirs (sh : Shortage) (env : Env) (id : DictId) (language : Language) : List Str → Sh Store Unit
  | [] => pure ()
  | dir :: rest =>
    bind (alloc sh) fun _ =>
    match env.fs.openDirectory dir with
    | .error w => throw w
    | .ok files =>
      bind (scanFiles sh env language files ([], 0)) fun best =>
      bind (loadFile sh env id dir best.1) fun _ => loadDirs sh env id language rest

/-- `Dictionary* dict = new Dictionary(charset); dictionaries[language] = dict;` (src/dictionary_manager.cpp:117-119): when the map has no memory for
its node, nobody knows the new dictionary. -/
def newDict (sh : Shortage) (language : Language) : Sh Store DictId :=
  bind (alloc sh) fun _ => fun s t =>
    if sh.fails t then .thrown badAlloc { s with leaked := s.leaked + 1 } (t + 1) else lift (Manager.newDict language) s (t + 1)

/-- `get_dictionary(language)` (src/dictionary_manager.cpp:102-183). -/
def getDictionaryFor (sh : Shortage) (env : Env) : Nat → Language → Sh Store DictId
  | 0, _ => fun _ _ => .unfinished
  | f + 1, language =>
    if !language.isDefined then crash .assertFailed
    else fun s t =>
      match s.m.dictionaries.get? language with
      | some id => .ok id s t
      | none =>
        bind (newDict sh language) (fun id =>
        bind (loadDirs sh env id language s.m.searchPath.reverse) fun _ =>
        bind (if !language.getCountry.isEmpty then
            bind (alloc sh) fun _ =>
            bind (getDictionaryFor sh env f (Language.fromSpec language.getLanguage [] [])) fun fb => lift (addFallback id fb)
          else pure ()) fun _ =>
        pure id) s t

/-- `get_dictionary()` (src/dictionary_manager.cpp:81-100). -/
def getDictionary (sh : Shortage) (env : Env) : Sh Store DictId := fun s t =>
  match s.m.currentDict with
  | some p => .ok p s t
  | none =>
    if s.m.currentLanguage.isDefined then
      bind (getDictionaryFor sh env env.fuel s.m.currentLanguage) (fun p =>
        bind (modify fun s => { s with m := { s.m with currentDict := some p } }) fun _ => pure p) s t
    else .ok emptyDict s t

/-- The inner loop of `get_languages` (src/dictionary_manager.cpp:194-200). -/
def collectFiles (sh : Shortage) : List Str → List Language → Sh Store (List Language)
  | [], acc => pure acc
  | f :: rest, acc =>
    if hasSuffix f b!".po" then
      bind (alloc sh) fun _ => collectFiles sh rest (setInsert (Language.fromEnv (substr f 0 (f.length - 3))) acc)
    else collectFiles sh rest acc

/-- The outer loop of `get_languages` (src/dictionary_manager.cpp:190-201). -/
def collectDirs (sh : Shortage) (env : Env) : List Str → List Language → Sh Store (List Language)
  | [], acc => pure acc
  | dir :: rest, acc =>
    bind (alloc sh) fun _ =>
    match env.fs.openDirectory dir with
    | .error w => throw w
    | .ok files => bind (collectFiles sh files acc) fun acc => collectDirs sh env rest acc

/-- `get_languages` (src/dictionary_manager.cpp:185-203). -/
def getLanguages (sh : Shortage) (env : Env) : Sh Store (List Language) := fun s t => collectDirs sh env s.m.searchPath [] s t

/-- `set_charset` (src/dictionary_manager.cpp:221-226): the assignment of the string comes after `clear_cache()`. -/
def setCharset (sh : Shortage) (charset : Str) : Sh Store Unit :=
  bind (lift clearCache) fun _ => bind (alloc sh) fun _ => modify fun s => { s with m := { s.m with charset := charset } }

/-- `add_directory` (src/dictionary_manager.cpp:241-251): the insertion comes after `clear_cache()`. -/
def addDirectory (sh : Shortage) (pathname : Str) (precedence : Bool) : Sh Store Unit := fun s t =>
  if pathname ∈ s.m.searchPath then .ok () s t
  else
    bind (lift clearCache) (fun _ => bind (alloc sh) fun _ => modify fun s => { s with m := { s.m with searchPath :=
      if precedence then pathname :: s.m.searchPath else s.m.searchPath ++ [pathname] } }) s t

/-- `add_translation` through a `Dictionary&` handed out earlier (src/dictionary.cpp:174-242). -/
def add (sh : Shortage) (id : DictId) (a : Add) : Sh Store Unit := fun s t =>
  match s.m.heap.get? id with
  | none => .crashed .useAfterFree
  | some d =>
    match Memory.add sh.fails a (d, s.m.log) t with
    | .done x t => .ok () { s with m := { s.m with heap := s.m.heap.set id x.1, log := x.2 } } t
    | .badAlloc x t => .thrown badAlloc { s with m := { s.m with heap := s.m.heap.set id x.1, log := x.2 } } t
    | .terminated => .terminated

/-- A lookup through a `Dictionary&` handed out earlier (src/dictionary.cpp:74-172): its messages, and the copy of the text it returns. -/
def ask (sh : Shortage) (fuel : Nat) (id : DictId) (q : Query) : Sh Store Str := fun s t =>
  match Manager.ask fuel id q s.m with
  | .ok r m => bind (says sh (m.log.drop s.m.log.length)) (fun _ => bind (alloc sh) fun _ => pure r) s t
  | .poError m => .thrown b!"POParserError" { s with m := m } t
  | .exn w m => .thrown w { s with m := m } t
  | .fault f => .crashed f
  | .diverge => .unfinished

end Tgt.Starved
