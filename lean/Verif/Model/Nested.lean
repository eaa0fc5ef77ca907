import Verif.Model.Memory
import Verif.Proofs.Refine3
import Verif.Spec.Manager
/-
Log callbacks that call the manager: the calls of a `DictionaryManager` (src/dictionary_manager.cpp), with the parser (src/po_parser.cpp) and the
dictionaries (src/dictionary.cpp) they use, where every logging statement runs the callback (src/log.cpp:53-62, include/tinygettext/log_stream.hpp:27-29),
which may call any function of the manager and of the dictionaries it knows.

Simplifications.  The parser is taken through its events (`Proofs/Refine3.lean`; `run_eq` there: a parse is the interpretation of its events); which events a
file has depends on its text alone.  The world (files, converters, `POParser::pedantic`) does not change during a call.  One callback gets all messages (a
callback that is not installed does nothing).  Reading through an iterator that a callback has invalidated counts as an access to a deleted
object; iterators of the search path are checked by comparing the path, those of a dictionary's messages by comparing their keys, when they are
used again.
-/
namespace Tgt.Nested
open Manager POParser Spec

/-- How code ends: it returns, throws, the program is terminated (an exception leaves a destructor), undefined behaviour or a failed assertion, or not at all. -/
inductive Out (α : Type) where
  | ok (a : α) (m : Manager)
  | exn (w : Str) (m : Manager)
  | terminated
  | fault (f : Fault)
  | diverge
  deriving Repr, DecidableEq

/-- Code that works on a manager. -/
abbrev N (α : Type) := Manager → Out α

variable {α β : Type}

/-- `return` -/
def pure (a : α) : N α := fun m => .ok a m

/-- `;` -/
def bind (p : N α) (f : α → N β) : N β := fun m =>
  match p m with
  | .ok a m => f a m
  | .exn w m => .exn w m
  | .terminated => .terminated
  | .fault f => .fault f
  | .diverge => .diverge

/-- `throw` -/
def throw (w : Str) : N α := fun m => .exn w m

/-- Undefined behaviour, or a failed assertion. -/
def fail (f : Fault) : N α := fun _ => .fault f

/-- `catch(std::exception& e)` -/
def catching (p : N α) (h : Str → N α) : N α := fun m =>
  match p m with
  | .exn w m => h w m
  | r => r

/-- Code without logging statements.  (None of it throws `POParserError`.) -/
def lift (p : M α) : N α := fun m =>
  match p m with
  | .ok a m => .ok a m
  | .poError m => .exn b!"POParserError" m
  | .exn w m => .exn w m
  | .fault f => .fault f
  | .diverge => .diverge

/-- Reading a dictionary. -/
def withDict (id : DictId) (f : Dictionary → N α) : N α := fun m =>
  match m.heap.get? id with
  | none => .fault .useAfterFree
  | some d => f d m

/-- Writing to a dictionary. -/
def write (id : DictId) (f : Dictionary → Dictionary) : N Unit := fun m =>
  match m.heap.get? id with
  | none => .fault .useAfterFree
  | some d => .ok () { m with heap := m.heap.set id (f d) }

/-- A logging statement. -/
abbrev Say := Diag → N Unit

/-- Several. -/
def says (say : Say) : List Diag → N Unit
  | [] => pure ()
  | d :: ds => bind (say d) fun _ => says say ds

/-! ### Dictionaries -/

/-- `std::vector<std::string>& vec = entries[msgid];` or `ctxt_entries[msgctxt][msgid];` (src/dictionary.cpp:178, :195, :213, :230). -/
def slotted (d : Dictionary) : Option Str → Str → Dictionary
  | none, msgid => { d with entries := Memory.slot d.entries msgid }
  | some c, msgid => { d with ctxtEntries := d.ctxtEntries.set c (Memory.slot (Dictionary.ctxtAt d.ctxtEntries c) msgid) }

/-- The four overloads of `add_translation` (src/dictionary.cpp:174-190, :192-206, :208-225, :227-242): the callback runs before `vec = msgstrs` and
`vec[0] = msgstr`. -/
def add (say : Say) (id : DictId) : Add → N Unit
  | .singular ctxt msgid msgstr =>
    bind (write id fun d => slotted d ctxt msgid) fun _ =>
    withDict id fun d =>
      match Memory.vec d ctxt msgid with
      | [] => write id fun d => Memory.setVec d ctxt msgid [msgstr]
      | v0 :: _ =>
        if v0 ≠ msgstr then
          bind (say (.collisionSingular ctxt msgid v0 msgstr)) fun _ =>
          withDict id fun d =>
            match Memory.vec d ctxt msgid with
            | [] => fail .outOfBounds
            | _ :: rest => write id fun d => Memory.setVec d ctxt msgid (msgstr :: rest)
        else pure ()
  | .plural ctxt msgid msgidPlural msgstrs =>
    bind (write id fun d => slotted d ctxt msgid) fun _ =>
    withDict id fun d =>
      let old := Memory.vec d ctxt msgid
      if old.isEmpty then write id fun d => Memory.setVec d ctxt msgid msgstrs
      else if old ≠ msgstrs then
        bind (say (.collisionPlural ctxt msgid msgidPlural old msgstrs)) fun _ => write id fun d => Memory.setVec d ctxt msgid msgstrs
      else pure ()

/-- private `translate(dict, msgid)` (src/dictionary.cpp:123-138): `m_has_fallback` is read after the callback ran. -/
def translateIn (say : Say) : Nat → DictId → Entries → Str → N Str
  | 0, _, _, _ => fun _ => .diverge
  | fuel + 1, id, e, msgid =>
    match e.get? msgid with
    | some (s :: _) => pure s
    | _ =>
      bind (say (.couldntTranslate msgid)) fun _ =>
      withDict id fun d =>
        if d.hasFallback then
          match d.fallback with
          | none => fail .nullDeref
          | some p => withDict p fun d' => translateIn say fuel p d'.entries msgid
        else pure msgid

/-- The messages without context, or those in a context. -/
def entriesOf (d : Dictionary) : Option Str → Entries
  | none => d.entries
  | some c => Dictionary.ctxtAt d.ctxtEntries c

/-- `for (it = dict.begin(); it != dict.end(); ++it) log_info << …` (src/dictionary.cpp:106-107). -/
def candidates (say : Say) (id : DictId) (ctxt : Option Str) (keys : List Str) : List Str → N Unit
  | [] => pure ()
  | k :: ks =>
    bind (say (.candidate k)) fun _ =>
    withDict id fun d => if (entriesOf d ctxt).keys = keys then candidates say id ctxt keys ks else fail .useAfterFree

/-- private `translate_plural(dict, …)` (src/dictionary.cpp:80-115). -/
def translatePluralIn (say : Say) (id : DictId) (ctxt : Option Str) (d : Dictionary) (msgid msgidPlural : Str) (count : Int) : N Str :=
  match (entriesOf d ctxt).get? msgid with
  | some msgstrs =>
    let n := d.pluralForms.getPlural count
    match msgstrs[n]? with
    | none => bind (say (.pluralMissing msgid)) fun _ => bind (say (.pluralMissingForm n)) fun _ => pure msgid
    | some s => if !s.isEmpty then pure s else pure (Dictionary.english msgid msgidPlural count)
  | none =>
    bind (say (.couldntTranslate msgid)) fun _ =>
    bind (say .candidatesHead) fun _ =>
    withDict id fun d =>
    bind (candidates say id ctxt (entriesOf d ctxt).keys (entriesOf d ctxt).keys) fun _ =>
    pure (Dictionary.english msgid msgidPlural count)

/-- `translate`, `translate_plural`, `translate_ctxt`, `translate_ctxt_plural` (src/dictionary.cpp:74-78, 117-121, 140-172) through a `Dictionary&`. -/
def ask (say : Say) (fuel : Nat) (id : DictId) (q : Query) : N Str :=
  withDict id fun d =>
    match q with
    | .translate i => translateIn say fuel id d.entries i
    | .ctxt c i =>
      match d.ctxtEntries.get? c with
      | some e => translateIn say fuel id e i
      | none => bind (say (.couldntTranslate i)) fun _ => pure i
    | .plural i p n => translatePluralIn say id none d i p n
    | .ctxtPlural c i p n =>
      match d.ctxtEntries.get? c with
      | some _ => translatePluralIn say id (some c) d i p n
      | none => bind (say (.couldntTranslate i)) fun _ => pure (if n ≠ 1 then p else i)

/-! ### The parser -/

/-- The strings `msgstr[N]` collected so far, and the converter. -/
structure PSt where
  vec : List Str
  conv : IConv

/-- `conv.convert(text)` (src/iconv.cpp:85-128). -/
def convert (say : Say) (c : Cfg) (text : Str) (s : PSt) : N (Str × PSt) :=
  match s.conv.convert c.lib text with
  | .ok r cv d => bind (says say d) fun _ => pure (r, { s with conv := cv })
  | .fault f => fail f

/-- One line of the header (src/po_parser.cpp:245-284): it may set the plural rule, or there is a warning. -/
def headerLine (say : Say) (c : Cfg) (id : DictId) (n : Nat) (cur : Str) (l : Str) : N Unit :=
  withDict id fun d =>
    match hdrEffect c n cur (d, []) l with
    | (d', []) => write id fun _ => d'
    | (_, ds) => says say ds

/-- The loop over the header (src/po_parser.cpp:239-287). -/
def headerLinesIn (say : Say) (c : Cfg) (id : DictId) (n : Nat) (cur : Str) : List Str → N Unit
  | [] => pure ()
  | l :: ls => bind (headerLine say c id n cur l) fun _ => headerLinesIn say c id n cur ls

/-- `parse_header` (src/po_parser.cpp:236-300). -/
def header (say : Say) (c : Cfg) (T : Tape) (id : DictId) (p : Nat) (text : Str) (s : PSt) : N PSt :=
  bind (headerLinesIn say c id (p + 1) (T p).line (headerLines text [])) fun _ =>
  bind (says say (if (headerCharset c.ct text).isEmpty || headerCharset c.ct text = b!"CHARSET" then
      [.po .warning c.filename (p + 1) b!"charset not specified for .po, fallback to utf-8" (T p).line] else [])) fun _ =>
  withDict id fun d =>
    let r := s.conv.setCharsets c.ct c.lib (sourceCharset (headerCharset c.ct text)) d.charset
    match r.2 with
    | none => pure { s with conv := r.1 }
    | some w => throw w

/-- The warnings about the number of plural forms (src/po_parser.cpp:419-427). -/
def pluralWarning (c : Cfg) (T : Tape) (p : Nat) (d : Dictionary) (v : List Str) : List Diag :=
  if !d.pluralForms.isDefined then [.po .warning c.filename (p + 1) b!"msgstr[N] seen, but no Plural-Forms given" (T p).line]
  else if v.length ≠ d.pluralForms.getNplural then
    [.po .warning c.filename (p + 1) b!"msgstr[N] count doesn't match Plural-Forms.nplural" (T p).line]
  else []

/-- One event: a message (src/po_parser.cpp:62-89), a conversion of `msgstr[N]` (:398-406), the addition of a message (:413-440, :450-475), the header (:445). -/
def step (say : Say) (c : Cfg) (T : Tape) (id : DictId) (s : PSt) : Ev → N PSt
  | .diag lv p msg ped => if ped && !c.pedantic then pure s else bind (say (.po lv c.filename (p + 1) msg (T p).line)) fun _ => pure s
  | .clear => pure { s with vec := [] }
  | .conv n t => bind (convert say c t s) fun r => pure { r.2 with vec := setAt r.2.vec n r.1 }
  | .singular fz ctxt i t =>
    if c.useFuzzy || !fz then bind (convert say c t s) fun r => bind (add say id (.singular ctxt i r.1)) fun _ => pure r.2
    else pure s
  | .plural p fz ctxt i ip =>
    if c.useFuzzy || !fz then
      withDict id fun d =>
      bind (says say (pluralWarning c T p d s.vec)) fun _ =>
      bind (add say id (.plural ctxt i ip s.vec)) fun _ => pure s
    else pure s
  | .header p t => header say c T id p t s

/-- All events. -/
def steps (say : Say) (c : Cfg) (T : Tape) (id : DictId) : List Ev → PSt → N PSt
  | [], s => pure s
  | e :: w, s => bind (step say c T id s e) fun s => steps say c T id w s

/-- `POParser::parse(pofile, *in, *dict)` (src/dictionary_manager.cpp:165, src/po_parser.cpp:41-49, :330-491). -/
def parse (say : Say) (env : Env) (id : DictId) (pofile : Str) (input : Stream) : N Unit :=
  let c : Cfg := ⟨env.ct, env.lib, env.pedantic, pofile, true, env.fuel⟩
  let ev := events c.ct c.fuel input
  withDict id fun _ =>
  if input.rest.length < c.fuel then
    bind (steps say c (startTape input) id ev.1 ⟨[], IConv.init⟩) fun _ =>
      match ev.2 with
      | .ok _ _ => pure ()
      | .err _ => throw b!"POParserError"
      | .overflow => fail .signedOverflow
      | .diverge => fun _ => .diverge
  else fun _ => .diverge

/-! ### Loading -/

/-- The scan of one directory's files (src/dictionary_manager.cpp:125-151).  The language is a reference: `language m` is its value in state `m`. -/
def scanFiles (say : Say) (env : Env) (language : Manager → Language) : List Str → Str × Nat → N (Str × Nat)
  | [], best => pure best
  | filename :: rest, best =>
    if hasSuffix filename b!".po" then
      match convertFilename2Language env.ct filename with
      | none => throw b!"basic_string::substr: __pos (which is 18446744073709551615) > this->size()"
      | some name =>
        let poLanguage := Language.fromEnv name
        if !poLanguage.isDefined then bind (say (.unknownLanguage filename)) fun _ => scanFiles say env language rest best
        else fun m =>
          let score := Language.match (language m) poLanguage
          scanFiles say env language rest (if score > best.2 then (filename, score) else best) m
    else scanFiles say env language rest best

/-- Loading the best file of one directory (src/dictionary_manager.cpp:153-173). -/
def loadFile (say : Say) (env : Env) (id : DictId) (dir bestFilename : Str) : N Unit :=
  if !bestFilename.isEmpty then
    let pofile := dir ++ b!"/" ++ bestFilename
    catching (match env.fs.openFile pofile with
        | .throws w => throw w
        | .null => say (.openFailure pofile)
        | .stream s => parse say env id pofile s)
      fun w => bind (say (.parseFailure pofile)) fun _ => say (.parseFailureWhat w)
  else pure ()

/-- The iterator of the search path is used. -/
def onPath (path : List Str) : N Unit := fun m => if m.searchPath = path then .ok () m else .fault .useAfterFree

/-- The loop over the search path (src/dictionary_manager.cpp:121-174). -/
def loadDirs (say : Say) (env : Env) (id : DictId) (language : Manager → Language) (path : List Str) : List Str → N Unit
  | [] => onPath path
  | dir :: rest =>
    bind (onPath path) fun _ =>
    match env.fs.openDirectory dir with
    | .error w => throw w
    | .ok files =>
      bind (scanFiles say env language files ([], 0)) fun best =>
      bind (onPath path) fun _ =>
      bind (loadFile say env id dir best.1) fun _ => loadDirs say env id language path rest

/-- `get_dictionary(language)` (src/dictionary_manager.cpp:102-183). -/
def getDictionaryFor (say : Say) (env : Env) : Nat → (Manager → Language) → N DictId
  | 0, _ => fun _ => .diverge
  | f + 1, language => fun m =>
    if !(language m).isDefined then .fault .assertFailed
    else
      match m.dictionaries.get? (language m) with
      | some id => .ok id m
      | none =>
        bind (lift (newDict (language m))) (fun id =>
        bind (loadDirs say env id language m.searchPath m.searchPath.reverse) fun _ => fun m' =>
          if !(language m').getCountry.isEmpty then
            bind (getDictionaryFor say env f (fun _ => Language.fromSpec (language m').getLanguage [] [])) (fun fb =>
            bind (write id fun d => d.addFallback (some fb)) fun _ => pure id) m'
          else .ok id m') m

/-- `get_dictionary()` (src/dictionary_manager.cpp:81-100): what it passes to `get_dictionary(language)` is the member `current_language` itself. -/
def getDictionary (say : Say) (env : Env) : N DictId := fun m =>
  match m.currentDict with
  | some p => .ok p m
  | none =>
    if m.currentLanguage.isDefined then
      bind (getDictionaryFor say env env.fuel (fun m => m.currentLanguage)) (fun p => fun m => .ok p { m with currentDict := some p }) m
    else .ok emptyDict m

/-- Run a call. -/
def perform (say : Say) (env : Env) : Call → N Answer
  | .getDictionary => bind (getDictionary say env) fun p => pure (.dict p)
  | .getDictionaryFor l => bind (getDictionaryFor say env env.fuel fun _ => l) fun p => pure (.dict p)
  | .add id a => bind (add say id a) fun _ => pure .done
  | .ask id q => bind (ask say env.fuel id q) fun s => pure (.text s)
  | c => lift (c.run env)

/-! ### Callbacks -/

/-- What the body of the callback does: its next call (or none: it returns), given everything there is to know and what the calls it made in this run returned. -/
abbrev Body := Manager → List Answer → Option Call

/-- The callback runs; `k` bounds the number of its calls. -/
def talk (say : Say) (env : Env) (body : Body) : Nat → List Answer → N Unit
  | 0, _ => fun _ => .diverge
  | k + 1, as => fun m =>
    match body m as with
    | none => .ok () m
    | some c => bind (perform say env c) (fun a => talk say env body k (as ++ [a])) m

/-- An exception leaves a destructor (`Log::~Log`, src/log.cpp:56-59). -/
def noexcept (p : N α) : N α := fun m =>
  match p m with
  | .exn _ _ => .terminated
  | r => r

/-- A logging statement: the message is delivered and the callback runs; `n` bounds how deep callbacks are nested, and the number of calls each makes. -/
def say (env : Env) (body : Body) : Nat → Say
  | 0, _ => fun _ => .diverge
  | n + 1, d => noexcept fun m => talk (say env body n) env body (n + 1) [] { m with log := m.log ++ [d] }

/-- A call by the program. -/
def call (env : Env) (body : Body) (n : Nat) (c : Call) : N Answer := perform (say env body n) env c

end Tgt.Nested
