import Verif.Base
/-
Model of the part of `std::istream` the parser uses: `std::getline(in, current_line)`
(src/po_parser.cpp:91).
-/
namespace Tgt

/-- An input stream: the bytes not yet extracted, `good()` (no eofbit/failbit/badbit), and whether reading fails after these
bytes (an I/O error, or a "file" that is a directory) instead of coming to the end of the file. -/
structure Stream where
  rest : Str
  good : Bool
  broken : Bool
  deriving DecidableEq, Repr

/-- Split at the first newline: the bytes before it and the bytes after it. -/
def splitLine : Str → Option (Str × Str)
  | [] => none
  | c :: t =>
    if c = 10 then some ([], t)
    else match splitLine t with
      | some (l, r) => some (c :: l, r)
      | none => none

/-- `std::getline(in, str)` as the C++ standard ([string.io]) defines it: a stream that is not
`good()` fails *without touching* `str`; otherwise `str` is cleared and filled up to the newline
(extracted, not stored) or the end of input (eofbit); it fails if nothing at all was extracted.
On a read error badbit is set and `str` holds the bytes extracted before it.  Returns success, the new value of `str`, the
stream.  `max_size()` is not modelled. -/
def Stream.getline (s : Stream) (str : Str) : Bool × Str × Stream :=
  if !s.good then (false, str, s)
  else match splitLine s.rest with
    | some (l, r) => (true, l, ⟨r, true, s.broken⟩)
    | none =>
      if s.broken then (false, s.rest, ⟨[], false, true⟩)
      else if s.rest.isEmpty then (false, [], ⟨[], false, false⟩) else (true, s.rest, ⟨[], false, false⟩)

/-- A freshly opened stream over some bytes (`std::istringstream`, successful `std::ifstream`). -/
def Stream.ofBytes (b : Str) : Stream := ⟨b, true, false⟩

/-- A stream that delivers some bytes and then fails. -/
def Stream.brokenAfter (b : Str) : Stream := ⟨b, true, true⟩

/-- An `std::ifstream` whose file could not be opened (src/unix_file_system.cpp:53 returns such a
stream, not a null pointer). -/
def Stream.failed : Stream := ⟨[], false, false⟩

end Tgt
