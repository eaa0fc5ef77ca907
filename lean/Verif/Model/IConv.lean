import Verif.Model.Log
import Verif.Model.Outcome
/-
Model of src/iconv.cpp and include/tinygettext/iconv.hpp (the non-SDL variant).
-/
namespace Tgt

/-- Result of `iconv_open` (src/iconv.cpp:74-91). -/
inductive OpenResult where
  | ok
  /-- `(iconv_t)-1` with errno EINVAL -/
  | einval
  /-- `(iconv_t)-1` with another errno, given by its `strerror` -/
  | other (strerror : Str)
  deriving DecidableEq, Repr

/-- errno after `iconv` (src/iconv.cpp:115-135). -/
inductive ConvStatus where
  | ok | eilseq | einval | e2big | ebadf | other
  deriving DecidableEq, Repr

/-- What one `iconv` call did: the bytes written to the output buffer, and how it ended. -/
structure ConvRun where
  out : Str
  status : ConvStatus
  deriving DecidableEq, Repr

/-- The C library's converter, a parameter of the model.  `conv to from hist text cap`: the call
`iconv(cd, text, 4*size …)` on a descriptor opened for `from`→`to` that has converted `hist` since it
was opened or reset; any stateful deterministic converter is allowed.  Contract: it never writes
more than the `cap` bytes it is given. -/
structure IconvLib where
  iconvOpen : (to «from» : Str) → OpenResult
  conv : (to «from» : Str) → (hist : List Str) → (text : Str) → (cap : Nat) → ConvRun
  conv_cap : ∀ to «from» hist text cap, (conv to «from» hist text cap).out.length ≤ cap

/-- An `iconv_t`: null, an open descriptor (numbered by order of opening), or `(iconv_t)-1`. -/
inductive Cd where
  | null
  | opened (id : Nat) (to «from» : Str) (hist : List Str)
  | invalid
  deriving DecidableEq, Repr

/-- Calls made to the C library (ghost trace, newest first). -/
inductive IconvEvent where
  | opened (id : Nat)
  | openFailed
  | used (id : Nat)
  | closed (id : Nat)
  /-- `iconv_close((iconv_t)-1)` -/
  | closedInvalid
  deriving DecidableEq, Repr

/-- `class IConv` (iconv.hpp:78-97) plus the ghost trace of library calls. -/
structure IConv where
  toCharset : Str
  fromCharset : Str
  cd : Cd
  trace : List IconvEvent
  deriving DecidableEq, Repr

namespace IConv

/-- `IConv::IConv()` (src/iconv.cpp:33-37). -/
def init : IConv := ⟨[], [], .null, []⟩

/-- Number of descriptors opened so far. -/
def countOpened : List IconvEvent → Nat
  | [] => 0
  | .opened _ :: t => countOpened t + 1
  | _ :: t => countOpened t

/-- `if (cd) iconv_close(cd);` (src/iconv.cpp:49-50, 56-57). -/
def closeCd (c : IConv) : IConv :=
  match c.cd with
  | .null => c
  | .opened id _ _ _ => { c with trace := .closed id :: c.trace }
  | .invalid => { c with trace := .closedInvalid :: c.trace }

/-- `IConv::~IConv` (src/iconv.cpp:47-51). -/
def destroy (c : IConv) : IConv := c.closeCd

/-- `what()` of the exception thrown at src/iconv.cpp:79-82. -/
def notAvailable (fromC toC : Str) : Str :=
  b!"IConv construction failed: conversion from '" ++ fromC ++ b!"' to '" ++ toC ++ b!"' not available"

/-- `IConv::set_charsets` (src/iconv.cpp:53-92).  The second component is the `what()` of a thrown
`std::runtime_error`, in which case `cd` stays `(iconv_t)-1`. -/
def setCharsets (ct : CType) (lib : IconvLib) (c : IConv) (fromC toC : Str) :
    IConv × Option Str :=
  let c := c.closeCd
  let toU := toC.map ct.toupper
  let fromU := fromC.map ct.toupper
  let c := { c with fromCharset := fromU, toCharset := toU }
  if toU = fromU then ({ c with cd := .null }, none)
  else
    match lib.iconvOpen (cstr toU) (cstr fromU) with
    | .ok =>
      let id := countOpened c.trace
      ({ c with cd := .opened id (cstr toU) (cstr fromU) [], trace := .opened id :: c.trace }, none)
    | .einval =>
      ({ c with cd := .invalid, trace := .openFailed :: c.trace }, some (notAvailable fromU toU))
    | .other e =>
      ({ c with cd := .invalid, trace := .openFailed :: c.trace },
       some (b!"IConv: construction failed: " ++ e))

/-- Result of `IConv::convert`. -/
inductive ConvertRes where
  | ok (text : Str) (c : IConv) (log : List Diag)
  | fault (f : Fault)
  deriving DecidableEq, Repr

/-- `result.resize(4*text.size() - outbytesleft)` (src/iconv.cpp:110-138): the output buffer holds
the `written` bytes followed by filler `X`s; `outbytesleft` is the capacity minus the bytes
written. -/
def resizeResult (cap : Nat) (written : Str) : Str :=
  let buffer := written ++ List.replicate (cap - written.length) (88 : UInt8)
  let outbytesleft := cap - written.length
  buffer.take (cap - outbytesleft)

/-- `IConv::convert` (src/iconv.cpp:94-142).  On an invalid or incomplete input sequence the
descriptor is reset and the text converted so far is returned.  `iconv` on `(iconv_t)-1` fails with
EBADF, which runs into the assertion of line 130. -/
def convert (lib : IconvLib) (c : IConv) (text : Str) : ConvertRes :=
  match c.cd with
  | .null => .ok text c []
  | .invalid => .fault .assertFailed
  | .opened id to «from» hist =>
    let cap := 4 * text.length
    let run := lib.conv to «from» hist text cap
    let c' := { c with trace := .used id :: c.trace }
    let result := resizeResult cap run.out
    match run.status with
    | .ok => .ok result { c' with cd := .opened id to «from» (hist ++ [text]) } []
    | .eilseq => .ok result { c' with cd := .opened id to «from» [] } [.iconvInvalid text]
    | .einval => .ok result { c' with cd := .opened id to «from» [] } [.iconvInvalid text]
    | .e2big => .fault .assertFailed
    | .ebadf => .fault .assertFailed
    | .other => .fault .assertFailed

/-- The string that `IConv::convert` (src/iconv.cpp:94-142) returns when it is compiled with `NDEBUG`, so that the assertions of
lines 126, 130 and 134 are gone: after these errors, too, the result is cut to what was written.  `iconv` on `(iconv_t)-1` writes
nothing.  (Only the string is modelled, not the state of the converter after such an error.) -/
def convertRelease (lib : IconvLib) (c : IConv) (text : Str) : Str × List Diag :=
  match c.cd with
  | .null => (text, [])
  | .invalid => (resizeResult (4 * text.length) [], [])
  | .opened _ to «from» hist =>
    let cap := 4 * text.length
    let run := lib.conv to «from» hist text cap
    let result := resizeResult cap run.out
    match run.status with
    | .ok => (result, [])
    | .eilseq => (result, [.iconvInvalid text])
    | .einval => (result, [.iconvInvalid text])
    | .e2big => (result, [])
    | .ebadf => (result, [])
    | .other => (result, [])

end IConv
end Tgt
