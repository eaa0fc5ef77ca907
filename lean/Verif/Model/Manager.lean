import Verif.Model.POParser
import Verif.Model.Language
/-
Model of src/dictionary_manager.cpp, include/tinygettext/dictionary_manager.hpp,
include/tinygettext/file_system.hpp and src/unix_file_system.cpp.

`Dictionary` objects live on a heap so that deletion, sharing and dangling pointers are visible.
-/
namespace Tgt

/-- Result of `FileSystem::open_file` (file_system.hpp:36). -/
inductive OpenFile where
  /-- a null `unique_ptr` -/
  | null
  /-- a `std::exception` with this `what()` -/
  | throws (what : Str)
  /-- a stream (possibly not `good()`) -/
  | stream (s : Stream)
  deriving DecidableEq, Repr

/-- `class FileSystem` (file_system.hpp:30-37): any implementation.  `open_directory` returns the
names in some order or throws (`Except.error what`). -/
structure FileSys where
  openDirectory : Str → Except Str (List Str)
  openFile : Str → OpenFile

/-- What the operating system offers `UnixFileSystem`: a directory listing if the directory can be
read, the bytes of a file if it can be opened, and whether reading it ends with an error (as for a directory opened like a
file) instead of the end of the file. -/
structure OS where
  listing : Str → Option (List Str)
  content : Str → Option Str
  readFails : Str → Bool := fun _ => false

/-- `UnixFileSystem` (src/unix_file_system.cpp:39-54): `directory_iterator` throws
`filesystem_error` if the directory cannot be read; `open_file` always returns a non-null stream,
which is in a failed state if the file cannot be opened. -/
def unixFileSystem (os : OS) : FileSys where
  openDirectory p :=
    match os.listing p with
    | some l => .ok l
    | none => .error b!"filesystem error: directory iterator cannot open directory"
  openFile f :=
    match os.content f with
    | some bytes => .stream ⟨bytes, true, os.readFails f⟩
    | none => .stream Stream.failed

/-- The world a manager call runs in: C library, converter, the static `POParser::pedantic`, the file
system, fuel for loops.  May differ from call to call. -/
structure Env where
  ct : CType
  lib : IconvLib
  pedantic : Bool
  fs : FileSys
  fuel : Nat

namespace AMap
variable {κ ν : Type} [DecidableEq κ]
/-- `m.erase(k)`. -/
def erase (m : AMap κ ν) (k : κ) : AMap κ ν :=
  match m with
  | [] => []
  | (k', v) :: t => if k' = k then t else (k', v) :: erase t k
end AMap

/-- `class DictionaryManager` (dictionary_manager.hpp:37-58), plus the heap of `Dictionary` objects
(object 0 is the member `empty_dict`), the next free address, the addresses deleted so far (ghost,
newest first) and the messages logged so far. -/
structure Manager where
  dictionaries : AMap Language DictId
  searchPath : List Str
  charset : Str
  useFuzzy : Bool
  currentLanguage : Language
  currentDict : Option DictId
  heap : AMap DictId Dictionary
  nextId : DictId
  freed : List DictId
  log : List Diag
  deriving DecidableEq, Repr

/-- Manager code. -/
abbrev M := Prog Manager

namespace Manager
open Prog

/-- Address of the member `empty_dict`. -/
def emptyDict : DictId := 0

/-- `DictionaryManager::DictionaryManager` (src/dictionary_manager.cpp:49-59).  `empty_dict()` has
the default charset UTF-8 (dictionary.hpp:55), whatever `charset_` is. -/
def init (charset : Str) : Manager where
  dictionaries := []
  searchPath := []
  charset := charset
  useFuzzy := true
  currentLanguage := none
  currentDict := none
  heap := [(emptyDict, Dictionary.init b!"UTF-8")]
  nextId := 1
  freed := []
  log := []

/-- Log messages. -/
def emit (d : List Diag) : M Unit := fun m => .ok () { m with log := m.log ++ d }

/-- `delete p`. -/
def deleteDict (p : DictId) : M Unit := fun m =>
  match m.heap.get? p with
  | none => .fault .useAfterFree
  | some _ => .ok () { m with heap := m.heap.erase p, freed := p :: m.freed }

/-- `delete i->second` for every cached dictionary (src/dictionary_manager.cpp:63-66, 72-75). -/
def deleteAll : AMap Language DictId → M Unit
  | [] => Prog.pure ()
  | (_, p) :: t => do
    deleteDict p
    deleteAll t

/-- `clear_cache` (src/dictionary_manager.cpp:69-79). -/
def clearCache : M Unit := do
  let m ← get
  deleteAll m.dictionaries
  modify (fun m => { m with dictionaries := [], currentDict := none })

/-- `~DictionaryManager` (src/dictionary_manager.cpp:61-67).  (The members themselves, `empty_dict`
included, are destroyed afterwards by the compiler.) -/
def destroy : M Unit := do
  let m ← get
  deleteAll m.dictionaries

/-- `has_suffix` (src/dictionary_manager.cpp:36-42). -/
def hasSuffix (lhs rhs : Str) : Bool :=
  if lhs.length < rhs.length then false
  else (lhs.drop (lhs.length - rhs.length)).take rhs.length == rhs

/-- The upper-casing loop (src/dictionary_manager.cpp:279-294); the flag is `underscore_found`. -/
def upcaseCountry (ct : CType) : Bool → Str → Str
  | _, [] => []
  | true, c :: t => if !ct.isalpha c then c :: t else ct.toupper c :: upcaseCountry ct true t
  | false, c :: t => c :: upcaseCountry ct (c == 95) t

/-- `convertFilename2Language` (src/dictionary_manager.cpp:271-296).  For names shorter than 3 bytes
`s_in.size()-3` wraps and `substr` throws `std::out_of_range`: `none`.  (The loop index is an
`unsigned int`; names of 4 GiB or more are not considered.) -/
def convertFilename2Language (ct : CType) (s : Str) : Option Str :=
  if s.length < 3 then none
  else
    let s' := if substr s (s.length - 3) 3 = b!".po" then substr s 0 (s.length - 3) else s
    some (upcaseCountry ct false s')

/-- The scan of one directory's files (src/dictionary_manager.cpp:125-151): state is
`(best_filename, best_score)`; files with unknown languages are reported. -/
def scanFiles (env : Env) (language : Language) : List Str → Str × Nat → M (Str × Nat)
  | [], best => Prog.pure best
  | filename :: t, best =>
    if hasSuffix filename b!".po" then
      match convertFilename2Language env.ct filename with
      | none => throwExn b!"basic_string::substr: __pos (which is 18446744073709551615) > this->size()"
      | some name =>
        let poLanguage := Language.fromEnv name
        if !poLanguage.isDefined then do
          emit [.unknownLanguage filename]
          scanFiles env language t best
        else
          let score := Language.match language poLanguage
          if score > best.2 then scanFiles env language t (filename, score)
          else scanFiles env language t best
    else scanFiles env language t best

/-- `POParser::parse(pofile, *in, *dict)` on the heap object `id`, inside the `try`/`catch` of
src/dictionary_manager.cpp:156-172. -/
def parseInto (env : Env) (id : DictId) (pofile : Str) (input : Stream) : M Unit := fun m =>
  match m.heap.get? id with
  | none => .fault .useAfterFree
  | some d =>
    match POParser.parse ⟨env.ct, env.lib, env.pedantic, pofile, true, env.fuel⟩ input d with
    | .ok _ s => .ok () { m with heap := m.heap.set id s.dict, log := m.log ++ s.log }
    | .exn w s =>
      .ok () { m with heap := m.heap.set id s.dict
                      log := m.log ++ s.log ++ [.parseFailure pofile, .parseFailureWhat w] }
    | .poError s => .poError { m with heap := m.heap.set id s.dict, log := m.log ++ s.log }
    | .fault f => .fault f
    | .diverge => .diverge

/-- Loading the best file of one directory (src/dictionary_manager.cpp:153-173). -/
def loadFile (env : Env) (id : DictId) (dir bestFilename : Str) : M Unit :=
  if !bestFilename.isEmpty then
    let pofile := dir ++ b!"/" ++ bestFilename
    match env.fs.openFile pofile with
    | .throws w => emit [.parseFailure pofile, .parseFailureWhat w]
    | .null => emit [.openFailure pofile]
    | .stream s => parseInto env id pofile s
  else Prog.pure ()

/-- The loop over the search path (src/dictionary_manager.cpp:121-174); the caller passes the path
reversed (`rbegin … rend`).  A throwing `open_directory` (:123) is not caught. -/
def loadDirs (env : Env) (id : DictId) (language : Language) : List Str → M Unit
  | [] => Prog.pure ()
  | dir :: t =>
    match env.fs.openDirectory dir with
    | .error w => throwExn w
    | .ok files => do
      let best ← scanFiles env language files ([], 0)
      loadFile env id dir best.1
      loadDirs env id language t

/-- `new Dictionary(charset)` and `dictionaries[language] = dict`
(src/dictionary_manager.cpp:117-119). -/
def newDict (language : Language) : M DictId := fun m =>
  .ok m.nextId { m with
    heap := m.heap.set m.nextId (Dictionary.init m.charset)
    nextId := m.nextId + 1
    dictionaries := m.dictionaries.set language m.nextId }

/-- `dict->addFallback(&fb)` (src/dictionary_manager.cpp:179). -/
def addFallback (id fb : DictId) : M Unit := fun m =>
  match m.heap.get? id with
  | none => .fault .useAfterFree
  | some d => .ok () { m with heap := m.heap.set id (d.addFallback (some fb)) }

/-- `get_dictionary(language)` (src/dictionary_manager.cpp:102-183); the first argument bounds the
recursion for fallbacks (:179). -/
def getDictionaryFor (env : Env) : Nat → Language → M DictId
  | 0, _ => diverge
  | f + 1, language =>
    if !language.isDefined then fault .assertFailed
    else do
      let m ← get
      match m.dictionaries.get? language with
      | some id => Prog.pure id
      | none => do
        let id ← newDict language
        loadDirs env id language m.searchPath.reverse
        (if !language.getCountry.isEmpty then do
          let fb ← getDictionaryFor env f (Language.fromSpec language.getLanguage [] [])
          addFallback id fb
        else Prog.pure ())
        Prog.pure id

/-- `get_dictionary()` (src/dictionary_manager.cpp:81-100). -/
def getDictionary (env : Env) : M DictId := do
  let m ← get
  match m.currentDict with
  | some p => Prog.pure p
  | none =>
    if m.currentLanguage.isDefined then do
      let p ← getDictionaryFor env env.fuel m.currentLanguage
      modify (fun m => { m with currentDict := some p })
      Prog.pure p
    else Prog.pure emptyDict

/-- `std::set<Language>::insert`: a sorted list of pointers (null first, then table order). -/
def setInsert (l : Language) : List Language → List Language
  | [] => [l]
  | x :: t =>
    if l = x then x :: t
    else if (match l, x with
      | none, _ => true
      | some _, none => false
      | some a, some b => decide (a < b)) then l :: x :: t
    else x :: setInsert l t

/-- The inner loop of `get_languages` (src/dictionary_manager.cpp:194-200). -/
def collectFiles : List Str → List Language → List Language
  | [], acc => acc
  | f :: t, acc =>
    if hasSuffix f b!".po" then
      collectFiles t (setInsert (Language.fromEnv (substr f 0 (f.length - 3))) acc)
    else collectFiles t acc

/-- The outer loop of `get_languages` (src/dictionary_manager.cpp:190-201). -/
def collectDirs (env : Env) : List Str → List Language → M (List Language)
  | [], acc => Prog.pure acc
  | dir :: t, acc =>
    match env.fs.openDirectory dir with
    | .error w => throwExn w
    | .ok files => collectDirs env t (collectFiles files acc)

/-- `get_languages` (src/dictionary_manager.cpp:185-203). -/
def getLanguages (env : Env) : M (List Language) := do
  let m ← get
  collectDirs env m.searchPath []

/-- `set_language` (src/dictionary_manager.cpp:205-213). -/
def setLanguage (l : Language) : M Unit := fun m =>
  if m.currentLanguage ≠ l then .ok () { m with currentLanguage := l, currentDict := none }
  else .ok () m

/-- `get_language` (src/dictionary_manager.cpp:215-219). -/
def getLanguage : M Language := fun m => .ok m.currentLanguage m

/-- `set_charset` (src/dictionary_manager.cpp:221-226). -/
def setCharset (charset : Str) : M Unit := do
  clearCache
  modify (fun m => { m with charset := charset })

/-- `set_use_fuzzy` (src/dictionary_manager.cpp:228-233). -/
def setUseFuzzy (t : Bool) : M Unit := do
  clearCache
  modify (fun m => { m with useFuzzy := t })

/-- `get_use_fuzzy` (src/dictionary_manager.cpp:235-239). -/
def getUseFuzzy : M Bool := fun m => .ok m.useFuzzy m

/-- `add_directory` (src/dictionary_manager.cpp:241-251). -/
def addDirectory (pathname : Str) (precedence : Bool) : M Unit := do
  let m ← get
  if pathname ∈ m.searchPath then Prog.pure ()
  else do
    clearCache
    modify (fun m => { m with searchPath :=
      if precedence then pathname :: m.searchPath else m.searchPath ++ [pathname] })

/-- `remove_directory` (src/dictionary_manager.cpp:253-261). -/
def removeDirectory (pathname : Str) : M Unit := do
  let m ← get
  if pathname ∈ m.searchPath then do
    clearCache
    modify (fun m => { m with searchPath := m.searchPath.erase pathname })
  else Prog.pure ()

/-- Use of a `Dictionary&` handed out earlier: an update through it. -/
def onDict (id : DictId) (f : Dictionary → Dictionary × List Diag) : M Unit := fun m =>
  match m.heap.get? id with
  | none => .fault .useAfterFree
  | some d => .ok () { m with heap := m.heap.set id (f d).1, log := m.log ++ (f d).2 }

/-- A lookup on a dictionary (dictionary.hpp:64-81). -/
inductive Query where
  | translate (msgid : Str)
  | plural (msgid msgidPlural : Str) (num : Int)
  | ctxt (msgctxt msgid : Str)
  | ctxtPlural (msgctxt msgid msgidPlural : Str) (num : Int)
  deriving DecidableEq, Repr

/-- The lookup on a dictionary object, fallbacks resolved on the heap (src/dictionary.cpp:74-78, 117-121,
140-172). -/
def Query.on (heap : DictId → Option Dictionary) (fuel : Nat) (d : Dictionary) : Query → Prog (List Diag) Str
  | .translate i => d.translate heap fuel i
  | .ctxt c i => d.translateCtxt heap fuel c i
  | .plural i p n => fun log => .ok (d.translatePlural i p n).1 (log ++ (d.translatePlural i p n).2)
  | .ctxtPlural c i p n => fun log => .ok (d.translateCtxtPlural c i p n).1 (log ++ (d.translateCtxtPlural c i p n).2)

/-- A lookup through a `Dictionary&` handed out earlier. -/
def ask (fuel : Nat) (id : DictId) (q : Query) : M Str := fun m =>
  match m.heap.get? id with
  | none => .fault .useAfterFree
  | some d =>
    match q.on m.heap.get? fuel d m.log with
    | .ok r log => .ok r { m with log := log }
    | .poError log => .poError { m with log := log }
    | .exn w log => .exn w { m with log := log }
    | .fault f => .fault f
    | .diverge => .diverge

end Manager
end Tgt
