import Verif.Spec.PoFile
import Verif.Spec.History
/-
A canonical PO writer, for round trip statements.
-/
namespace Tgt.Spec.Po

/-- A byte inside a quoted string. -/
def escapeByte (b : Byte) : Str :=
  match escapes.find? (fun x => x.2 == b) with
  | some (e, _) => [92, e]
  | none => [b]

/-- Escaped text. -/
def escape (s : Str) : Str := s.flatMap escapeByte

/-- `keyword "text"`. -/
def writeField (kw text : Str) : Str := kw ++ [32, 34] ++ escape text ++ [34]

/-- A translated message. -/
structure Message where
  ctxt : Option Str
  msgid : Str
  /-- `none`: one translation -/
  plural : Option Str
  strs : List Str
  deriving DecidableEq, Repr

/-- Messages a file can hold: one non-empty translation of a non-empty msgid, or one to ten plural
translations, not all empty. -/
def Message.Ok (m : Message) : Prop :=
  match m.plural with
  | none => m.msgid ≠ [] ∧ ∃ s, m.strs = [s] ∧ s ≠ []
  | some _ => m.strs.length ≤ 10 ∧ ∃ s ∈ m.strs, s ≠ []

/-- A message with one translation, or a plural message. -/
def Message.Shaped (m : Message) : Prop := m.plural = none → ∃ s, m.strs = [s]

/-- The call that adds a message. -/
def Message.add (m : Message) : Add :=
  match m.plural with
  | none => .singular m.ctxt m.msgid (m.strs.headD [])
  | some p => .plural m.ctxt m.msgid p m.strs

/-- The `msgstr[N]` lines. -/
def writeStrs : Nat → List Str → List Str
  | _, [] => []
  | n, s :: r => writeField (msgstrN n) s :: writeStrs (n + 1) r

/-- The `msgctxt` line, if there is a context. -/
def writeCtxt : Option Str → List Str
  | none => []
  | some c => [writeField b!"msgctxt" c]

/-- The lines of a message. -/
def writeMessage (m : Message) : List Str :=
  writeCtxt m.ctxt ++
  [writeField b!"msgid" m.msgid] ++
  (match m.plural with
    | none => [writeField b!"msgstr" (m.strs.headD [])]
    | some p => writeField b!"msgid_plural" p :: writeStrs 0 m.strs)

/-- Messages, each followed by an empty line. -/
def writeMessages (ms : List Message) : List Str := ms.flatMap (fun m => writeMessage m ++ [[]])

/-- The header: charset and, optionally, a Plural-Forms line. -/
def headerText (charset : Str) (pluralLine : Option Str) : Str :=
  b!"Content-Type: text/plain; charset=" ++ charset ++ [10] ++
  (match pluralLine with | none => [] | some l => l ++ [10])

/-- A complete file. -/
def writeCatalog (charset : Str) (pluralLine : Option Str) (ms : List Message) : List Str :=
  [writeField b!"msgid" [], writeField b!"msgstr" (headerText charset pluralLine), []] ++ writeMessages ms

/-! ### Split strings -/

/-- A string in one or more pieces. -/
structure Pieces where
  first : Str
  more : List Str
  deriving DecidableEq, Repr

/-- The string. -/
def Pieces.join (x : Pieces) : Str := x.first ++ x.more.flatten

/-- `keyword "piece"`, and each further piece quoted on a line of its own. -/
def writeSplit (kw : Str) (x : Pieces) : List Str :=
  writeField kw x.first :: x.more.map (fun t => [34] ++ escape t ++ [34])

/-- A message whose strings come in pieces. -/
structure SplitMessage where
  ctxt : Option Pieces
  msgid : Pieces
  plural : Option Pieces
  strs : List Pieces
  deriving DecidableEq, Repr

/-- The message. -/
def SplitMessage.join (m : SplitMessage) : Message :=
  ⟨m.ctxt.map Pieces.join, m.msgid.join, m.plural.map Pieces.join, m.strs.map Pieces.join⟩

/-- The `msgstr[N]` lines. -/
def writeSplitStrs : Nat → List Pieces → List Str
  | _, [] => []
  | n, s :: r => writeSplit (msgstrN n) s ++ writeSplitStrs (n + 1) r

/-- The `msgctxt` lines, if there is a context. -/
def writeSplitCtxt : Option Pieces → List Str
  | none => []
  | some c => writeSplit b!"msgctxt" c

/-- The lines of a message with split strings. -/
def writeSplitMessage (m : SplitMessage) : List Str :=
  writeSplitCtxt m.ctxt ++
  writeSplit b!"msgid" m.msgid ++
  (match m.plural with
    | none => writeSplit b!"msgstr" (m.strs.headD ⟨[], []⟩)
    | some p => writeSplit b!"msgid_plural" p ++ writeSplitStrs 0 m.strs)

/-- Messages with split strings, each followed by an empty line. -/
def writeSplitMessages (ms : List SplitMessage) : List Str := ms.flatMap (fun m => writeSplitMessage m ++ [[]])

/-- The messages logged by additions, one after the other. -/
def addLog : Dictionary → List Add → List Diag
  | _, [] => []
  | d, a :: r => (a.apply d).2 ++ addLog (a.apply d).1 r

end Tgt.Spec.Po
