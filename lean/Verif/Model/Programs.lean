import Verif.Model.Manager
/-
Model of the two command line programs of the distribution, test/tinygettext_test.cpp and
test/po_parser_test.cpp, and of `Log::default_log_callback` (src/log.cpp:29-33).
-/
namespace Tgt

/-- One write to a standard stream.  (`std::cerr` is tied to `std::cout`, so writes appear in program order.) -/
inductive Out where
  | out (text : Str)
  | err (text : Str)
  deriving DecidableEq, Repr

/-- The log callbacks that exist in these programs: `Log::default_log_callback` (src/log.cpp:29-33) and
`my_log_callback` (test/po_parser_test.cpp:32-35). -/
inductive LogFn where
  | standard
  | mine
  deriving DecidableEq, Repr

/-- The bodies of the callbacks. -/
def LogFn.call : LogFn → Str → Out
  | standard, text => .err (b!"tinygettext: " ++ text)
  | mine, text => .err text

/-- A running program: the callback pointers, the `DictionaryManager` of the running branch (if it has one), and
what has been written so far. -/
structure Proc where
  callbacks : Callbacks LogFn
  manager : Manager
  output : List Out

/-- Program code. -/
abbrev Main := Prog Proc

/-- What the programs find around them: the C library, the converter, the files, `strerror(errno)` after a file could
not be opened, fuel for loops, and the order in which `std::unordered_map`s are iterated over: an arbitrary
rearrangement.  `POParser::pedantic` keeps its initial value `true` (src/po_parser.cpp:38). -/
structure Sys where
  ct : CType
  lib : IconvLib
  os : OS
  why : Str → Str
  fuel : Nat
  order : List (Str × List Str) → List (Str × List Str)
  orderCtxt : List (Str × Str × List Str) → List (Str × Str × List Str)
  order_perm : ∀ l, (order l).Perm l
  orderCtxt_perm : ∀ l, (orderCtxt l).Perm l

namespace Program
open Prog

/-- A program at the start of `main`; the callbacks have their initial values (src/log.cpp:25-27). -/
def start : Proc := ⟨.default .standard, .init b!"UTF-8", []⟩

/-- `std::cout << …`. -/
def print (text : Str) : Main Unit := fun p => .ok () { p with output := p.output ++ [.out text] }

/-- `std::cout << … << std::endl`. -/
def printLine (text : Str) : Main Unit := print (text ++ [10])

/-- `std::cerr << … << std::endl`. -/
def complain (text : Str) : Main Unit := fun p => .ok () { p with output := p.output ++ [.err (text ++ [10])] }

/-- The messages of a library call, delivered to the callbacks (src/log.cpp:60-63); no call of these programs writes to
`std::cout` in between. -/
def deliver (p : Proc) (ds : List Diag) : Proc :=
  let l := ds.foldl (Logger.say (fun _ _ c => c)) ⟨p.callbacks, []⟩
  { p with output := p.output ++ l.calls.map (fun c => c.1.call c.2) }

/-- `POParser::parse(filename, in, dict)` on a local dictionary. -/
def parseFile (y : Sys) (filename : Str) (input : Stream) (d : Dictionary) : Main Dictionary := fun p =>
  match POParser.parse ⟨y.ct, y.lib, true, filename, true, y.fuel⟩ input d with
  | .ok _ s => .ok s.dict (deliver p s.log)
  | .exn w s => .exn w (deliver p s.log)
  | .poError s => .poError (deliver p s.log)
  | .fault f => .fault f
  | .diverge => .diverge

/-- A lookup on a local dictionary (which has no fallback, and whose log is the program's). -/
def lookup (y : Sys) (d : Dictionary) (q : Manager.Query) : Main Str := fun p =>
  match q.on (fun _ => none) y.fuel d [] with
  | .ok r log => .ok r (deliver p log)
  | .exn w log => .exn w (deliver p log)
  | .poError log => .poError (deliver p log)
  | .fault f => .fault f
  | .diverge => .diverge

/-- A call on the program's manager.  (Its `log` is a record of all messages so far; the new ones are delivered.) -/
def call {α : Type} (f : M α) : Main α := fun p =>
  let told (m : Manager) := deliver { p with manager := m } (m.log.drop p.manager.log.length)
  match f p.manager with
  | .ok a m => .ok a (told m)
  | .exn w m => .exn w (told m)
  | .poError m => .poError (told m)
  | .fault f => .fault f
  | .diverge => .diverge

/-- The environment of the manager's calls: `UnixFileSystem`. -/
def env (y : Sys) : Env := ⟨y.ct, y.lib, true, unixFileSystem y.os, y.fuel⟩

/-- The value of a digit sequence. -/
def digits : Nat → Str → Nat
  | acc, [] => acc
  | acc, b :: t => if isdigit b then digits (acc * 10 + (b.toNat - 48)) t else acc

/-- The number a string starts with: an optional sign, digits. -/
def signed : Str → Int
  | 45 :: t => - (digits 0 t : Int)
  | 43 :: t => digits 0 t
  | s => digits 0 s

/-- `atoi` of the C library (test/tinygettext_test.cpp:139, 151): white space, then a number; undefined if the value is
not an `int`. -/
def atoi (y : Sys) (s : Str) : Main Int :=
  let v := signed (s.dropWhile y.ct.isspace)
  if -2147483648 ≤ v ∧ v ≤ 2147483647 then Prog.pure v else fault .signedOverflow

/-- `print_msg`'s loop (test/tinygettext_test.cpp:37-40, 47-50). -/
def printAll : List Str → Main Unit
  | [] => Prog.pure ()
  | s :: t => do
    printLine s
    printAll t

/-- `dict.foreach(print_msg)` (test/tinygettext_test.cpp:34-41, 196). -/
def printMsgs : List (Str × List Str) → Main Unit
  | [] => Prog.pure ()
  | (msgid, msgstrs) :: t => do
    printLine (b!"Msgid: " ++ msgid)
    printAll msgstrs
    printMsgs t

/-- `dict.foreach_ctxt(print_msg_ctxt)` (test/tinygettext_test.cpp:43-51, 197). -/
def printMsgsCtxt : List (Str × Str × List Str) → Main Unit
  | [] => Prog.pure ()
  | (ctxt, msgid, msgstrs) :: t => do
    printLine (b!"Msgctxt: " ++ ctxt)
    printLine (b!"Msgid: " ++ msgid)
    printAll msgstrs
    printMsgsCtxt t

/-- `print_usage` (test/tinygettext_test.cpp:53-61). -/
def usage (name : Str) : Main Unit := do
  printLine (b!"Usage: " ++ name ++ b!" translate FILE MESSAGE")
  printLine (b!"       " ++ name ++ b!" translate FILE MESSAGE_S MESSAGE_P NUM")
  printLine (b!"       " ++ name ++ b!" directory DIRECTORY MESSAGE [LANG]")
  printLine (b!"       " ++ name ++ b!" language LANGUAGE")
  printLine (b!"       " ++ name ++ b!" language-dir DIR")
  printLine (b!"       " ++ name ++ b!" list-msgstrs FILE")

/-- `read_dictionary` on a new dictionary (test/tinygettext_test.cpp:63-76; the charset of `Dictionary dict` is UTF-8,
dictionary.hpp:55). -/
def readDictionary (y : Sys) (filename : Str) : Main Dictionary :=
  match y.os.content filename with
  | none => throwExn (b!"Couldn't open " ++ filename)
  | some bytes => parseFile y filename ⟨bytes, true, y.os.readFails filename⟩ (.init b!"UTF-8")

/-- The description of a language (test/tinygettext_test.cpp:93-97, 107-111). -/
def describe (l : Language) : Main Unit := do
  printLine (b!"Env:       " ++ l.str)
  printLine (b!"Name:      " ++ l.getName)
  printLine (b!"Language:  " ++ l.getLanguage)
  printLine (b!"Country:   " ++ l.getCountry)
  printLine (b!"Modifier:  " ++ l.getModifier)

/-- The loop of `language-dir` (test/tinygettext_test.cpp:90-99). -/
def describeAll : List Language → Main Unit
  | [] => Prog.pure ()
  | l :: t => do
    describe l
    printLine []
    describeAll t

/-- The scope of a local `DictionaryManager`: it is destroyed when the block is left, normally or by an exception, but
not by `exit(code)` (`some code`). -/
def withManager (body : Main (Option Nat)) : Main Nat := fun p =>
  match body { p with manager := .init b!"UTF-8" } with
  | .ok (some code) p => .ok code p
  | .ok none p => (do call Manager.destroy; Prog.pure 0 : Main Nat) p
  | .exn w p => (do call Manager.destroy; throwExn w : Main Nat) p
  | .poError p => (do call Manager.destroy; throwPo : Main Nat) p
  | .fault f => .fault f
  | .diverge => .diverge

/-- `language-dir DIR` (test/tinygettext_test.cpp:84-100). -/
def languageDir (y : Sys) (dir : Str) : Main Nat := withManager do
  call (Manager.addDirectory dir false)
  let languages ← call (Manager.getLanguages (env y))
  printLine (b!"Number of languages: " ++ decimal languages.length)
  describeAll languages
  Prog.pure none

/-- The optional LANG argument of `directory` (test/tinygettext_test.cpp:166-178); `false`: `exit(EXIT_FAILURE)` is next. -/
def chooseLanguage (y : Sys) : Option Str → Main Bool
  | none => Prog.pure true
  | some name =>
    let lang := Language.fromName y.ct name
    if lang.isDefined then do
      call (Manager.setLanguage lang)
      Prog.pure true
    else do
      printLine (b!"Unknown language: " ++ name)
      Prog.pure false

/-- `directory DIR MESSAGE [LANG]` (test/tinygettext_test.cpp:157-189).  (`get_language`, which only reads a member, is called
once instead of five times.) -/
def directory (y : Sys) (dir message : Str) (language : Option Str) : Main Nat := withManager do
  call (Manager.addDirectory dir false)
  let known ← chooseLanguage y language
  if !known then Prog.pure (some 1)
  else do
    printLine (b!"Directory:   '" ++ dir ++ b!"'")
    printLine (b!"Message:     '" ++ message ++ b!"'")
    let l ← call Manager.getLanguage
    printLine (b!"Language:    '" ++ l.str ++ b!"' (name: '" ++ l.getName ++ b!"', language: '" ++ l.getLanguage
      ++ b!"', country: '" ++ l.getCountry ++ b!"', modifier: '" ++ l.getModifier ++ b!"')")
    print b!"Translation: '"
    let d ← call (Manager.getDictionary (env y))
    let t ← call (Manager.ask y.fuel d (.translate message))
    printLine (t ++ b!"'")
    Prog.pure none

/-- The branches of `main` (test/tinygettext_test.cpp:84-202). -/
def branch (y : Sys) (name : Str) (args : List Str) : Main Nat :=
  match args with
  | [cmd, a] =>
    if cmd = b!"language-dir" then languageDir y a
    else if cmd = b!"language" then do
      let l := Language.fromName y.ct a
      (if l.isDefined then describe l else printLine b!"not found")
      Prog.pure 0
    else if cmd = b!"list-msgstrs" then do
      let d ← readDictionary y a
      printMsgs (y.order d.foreach)
      printMsgsCtxt (y.orderCtxt d.foreachCtxt)
      Prog.pure 0
    else do usage name; Prog.pure 0
  | [cmd, a, b] =>
    if cmd = b!"translate" then do
      let d ← readDictionary y a
      print b!"TRANSLATION: \"\"\""
      let t ← lookup y d (.translate b)
      printLine (t ++ b!"\"\"\"")
      Prog.pure 0
    else if cmd = b!"directory" then directory y a b none
    else do usage name; Prog.pure 0
  | [cmd, a, b, c] =>
    if cmd = b!"translate" then do
      let d ← readDictionary y a
      let t ← lookup y d (.ctxt b c)
      printLine t
      Prog.pure 0
    else if cmd = b!"directory" then directory y a b (some c)
    else do usage name; Prog.pure 0
  | [cmd, a, b, c, n] =>
    if cmd = b!"translate" then do
      let num ← atoi y n
      let d ← readDictionary y a
      let t ← lookup y d (.plural b c num)
      printLine t
      Prog.pure 0
    else do usage name; Prog.pure 0
  | [cmd, a, b, c, e, n] =>
    if cmd = b!"translate" then do
      let num ← atoi y n
      let d ← readDictionary y a
      let t ← lookup y d (.ctxtPlural b c e num)
      printLine t
      Prog.pure 0
    else do usage name; Prog.pure 0
  | _ => do usage name; Prog.pure 0

/-- `main` of test/tinygettext_test.cpp (:80-210): `argv[0]` and the other arguments; the result is the exit status.
`catch(std::exception&)` does not catch a `POParserError`. -/
def tinygettextTest (y : Sys) (name : Str) (args : List Str) : Main Nat := fun p =>
  match branch y name args p with
  | .exn w p => (do printLine (b!"Exception: " ++ w); Prog.pure 0 : Main Nat) p
  | r => r

/-- One file of po_parser_test (test/po_parser_test.cpp:53-72).  The only exceptions of `parse` are `std::runtime_error`s. -/
def checkFile (y : Sys) (name file : Str) : Main Unit :=
  match y.os.content file with
  | none => complain (name ++ b!": cannot access " ++ file ++ b!": " ++ y.why file)
  | some bytes => fun p =>
    match parseFile y file ⟨bytes, true, y.os.readFails file⟩ (.init b!"UTF-8") p with
    | .ok _ p => .ok () p
    | .exn w p => printLine (file ++ b!": exception: " ++ w) p
    | .poError p => .poError p
    | .fault f => .fault f
    | .diverge => .diverge

/-- The loop over the files (test/po_parser_test.cpp:51-73). -/
def checkFiles (y : Sys) (name : Str) : List Str → Main Unit
  | [] => Prog.pure ()
  | f :: t => do
    checkFile y name f
    checkFiles y name t

/-- `Log::set_log_…_callback(my_log_callback)` (test/po_parser_test.cpp:47-49). -/
def setCallback (k : LogFn) (lv : Level) : Main Unit := fun p => .ok () { p with callbacks := p.callbacks.set (some k) lv }

/-- `main` of test/po_parser_test.cpp (:39-75). -/
def poParserTest (y : Sys) (name : Str) (files : List Str) : Main Nat :=
  match files with
  | [] => do
    printLine (name ++ b!" FILENAME...")
    Prog.pure 0
  | _ => do
    setCallback .mine .info
    setCallback .mine .warning
    setCallback .mine .error
    checkFiles y name files
    Prog.pure 0

end Program
end Tgt
