import Verif.Base
/-
Diagnostics: the messages the code writes to `log_info`, `log_warning`, `log_error`
(include/tinygettext/log_stream.hpp:27-29, src/log.cpp), and their delivery to callbacks.
-/
namespace Tgt

/-- The three log channels (log_stream.hpp:27-29). -/
inductive Level where
  | info | warning | error
  deriving DecidableEq, Repr

/-- Every message the library logs, with the data that is printed into it. -/
inductive Diag where
  /-- `POParser::warning` / `POParser::error` (src/po_parser.cpp:67-77) -/
  | po (level : Level) (filename : Str) (line : Nat) (msg : Str) (cur : Str)
  /-- plural collision (src/dictionary.cpp:185-187, :220-222) -/
  | collisionPlural (ctxt : Option Str) (msgid msgidPlural : Str) (old new : List Str)
  /-- singular collision (src/dictionary.cpp:202-203, :237-239) -/
  | collisionSingular (ctxt : Option Str) (msgid old new : Str)
  /-- src/iconv.cpp:122 -/
  | iconvInvalid (text : Str)
  /-- src/dictionary.cpp:105, 133, 150, 166 -/
  | couldntTranslate (msgid : Str)
  /-- src/dictionary.cpp:106 -/
  | candidatesHead
  /-- src/dictionary.cpp:108 -/
  | candidate (msgid : Str)
  /-- src/dictionary.cpp:90 -/
  | pluralMissing (msgid : Str)
  /-- src/dictionary.cpp:91 -/
  | pluralMissingForm (n : Nat)
  /-- src/dictionary_manager.cpp:138 -/
  | unknownLanguage (filename : Str)
  /-- src/dictionary_manager.cpp:161 -/
  | openFailure (pofile : Str)
  /-- src/dictionary_manager.cpp:170 -/
  | parseFailure (pofile : Str)
  /-- src/dictionary_manager.cpp:171 -/
  | parseFailureWhat (what : Str)
  deriving DecidableEq, Repr

/-- Decimal digits of a natural number, as `ostream << int` prints it. -/
def decimal (n : Nat) : Str := (Nat.toDigits 10 n).map (fun c => UInt8.ofNat c.toNat)

/-- `operator<<(ostream&, vector<string>)` (src/dictionary.cpp:29-38). -/
def showVec : List Str → Str
  | [] => []
  | [a] => b!"'" ++ a ++ b!"'"
  | a :: t => b!"'" ++ a ++ b!"', " ++ showVec t

namespace Diag

/-- The channel a message goes to. -/
def level : Diag → Level
  | po l _ _ _ _ => l
  | collisionPlural .. => .warning
  | collisionSingular .. => .warning
  | iconvInvalid .. => .error
  | couldntTranslate .. => .info
  | candidatesHead => .info
  | candidate .. => .info
  | pluralMissing .. => .error
  | pluralMissingForm .. => .error
  | unknownLanguage .. => .warning
  | openFailure .. => .error
  | parseFailure .. => .error
  | parseFailureWhat .. => .error

/-- The text handed to the callback (same line references as the constructors). -/
def text : Diag → Str
  | po .info f n m c => f ++ b!":" ++ decimal n ++ b!": info: " ++ m ++ b!": " ++ c ++ [10]
  | po .warning f n m c => f ++ b!":" ++ decimal n ++ b!": warning: " ++ m ++ b!": " ++ c ++ [10]
  | po .error f n m c => f ++ b!":" ++ decimal n ++ b!": error: " ++ m ++ b!": " ++ c ++ [10]
  | collisionPlural none i p o n =>
    b!"collision in add_translation: '" ++ i ++ b!"', '" ++ p ++ b!"' -> [" ++ showVec o
      ++ b!"] vs [" ++ showVec n ++ b!"]" ++ [10]
  | collisionPlural (some c) i p o n =>
    b!"collision in add_translation: '" ++ c ++ b!"', '" ++ i ++ b!"', '" ++ p ++ b!"' -> ["
      ++ showVec o ++ b!"] vs [" ++ showVec n ++ b!"]" ++ [10]
  | collisionSingular none i o n =>
    b!"collision in add_translation: '" ++ i ++ b!"' -> '" ++ n ++ b!"' vs '" ++ o ++ b!"'" ++ [10]
  | collisionSingular (some c) i o n =>
    b!"collision in add_translation: '" ++ c ++ b!"', '" ++ i ++ b!"' -> '" ++ o ++ b!"' vs '"
      ++ n ++ b!"'" ++ [10]
  | iconvInvalid t => b!"error: tinygettext:iconv: invalid multibyte sequence in:  \"" ++ t ++ b!"\"" ++ [10]
  | couldntTranslate m => b!"Couldn't translate: " ++ m ++ [10]
  | candidatesHead => b!"Candidates: " ++ [10]
  | candidate m => b!"'" ++ m ++ b!"'" ++ [10]
  | pluralMissing m =>
    b!"Plural translation not available (and not set to empty): '" ++ m ++ b!"'" ++ [10]
  | pluralMissingForm n => b!"Missing plural form: " ++ decimal n ++ [10]
  | unknownLanguage f => f ++ b!": warning: ignoring, unknown language" ++ [10]
  | openFailure f => b!"error: failure opening: " ++ f ++ [10]
  | parseFailure f => b!"error: failure parsing: " ++ f ++ [10]
  | parseFailureWhat w => w ++ [10]

end Diag

/-- The static callback pointers `Log::log_info_callback`, `log_warning_callback`, `log_error_callback`
(include/tinygettext/log.hpp:32-34; src/log.cpp:25-27); `none` is a null pointer.  `κ` names the functions that
can be installed. -/
structure Callbacks (κ : Type) where
  info : Option κ
  warning : Option κ
  error : Option κ
  deriving DecidableEq, Repr

namespace Callbacks
variable {κ : Type}

/-- The initial callbacks (src/log.cpp:25-27): `default_log_callback` on every channel. -/
def default (defaultLogCallback : κ) : Callbacks κ := ⟨some defaultLogCallback, some defaultLogCallback, some defaultLogCallback⟩

/-- The callback a macro of include/tinygettext/log_stream.hpp:27-29 reads. -/
def installed (c : Callbacks κ) : Level → Option κ
  | .info => c.info
  | .warning => c.warning
  | .error => c.error

/-- `set_log_info_callback`, `set_log_warning_callback`, `set_log_error_callback` (src/log.cpp:35-51). -/
def set (c : Callbacks κ) (k : Option κ) : Level → Callbacks κ
  | .info => { c with info := k }
  | .warning => { c with warning := k }
  | .error => { c with error := k }

end Callbacks

/-- The callbacks, and the calls made to them so far (oldest first). -/
structure Logger (κ : Type) where
  callbacks : Callbacks κ
  calls : List (κ × Str)
  deriving DecidableEq, Repr

namespace Logger
variable {κ : Type}

/-- One logging statement `log_x << …` (include/tinygettext/log_stream.hpp:27-29; src/log.cpp:53-68): nothing if the
callback is null, otherwise a `Log` is built with it and calls it with the whole text when destroyed.  `react` is
what the body of a callback does to the callback pointers (it may call `set_log_…_callback`; other calls of the
library from inside a callback are not modelled; for callbacks that throw see `deliver`). -/
def say (react : κ → Str → Callbacks κ → Callbacks κ) (l : Logger κ) (d : Diag) : Logger κ :=
  match l.callbacks.installed d.level with
  | none => l
  | some k => ⟨react k d.text l.callbacks, l.calls ++ [(k, d.text)]⟩

/-- The same if the callback may throw (`throws`): the callback is called by `~Log` (src/log.cpp:59-62), a destructor and therefore
`noexcept` (it has no exception specification, and those of its members are `noexcept`), so that an exception that leaves the callback
ends the process (`std::terminate`): `.error` with the calls made.  Neither the library nor the program gets control back. -/
def deliver (react : κ → Str → Callbacks κ → Callbacks κ) (throws : κ → Str → Bool) (l : Logger κ) (d : Diag) :
    Except (List (κ × Str)) (Logger κ) :=
  match l.callbacks.installed d.level with
  | none => .ok l
  | some k =>
    if throws k d.text then .error (l.calls ++ [(k, d.text)])
    else .ok ⟨react k d.text l.callbacks, l.calls ++ [(k, d.text)]⟩

end Logger
end Tgt
