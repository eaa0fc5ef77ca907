import Verif.Model.Log
/-
Specification of the wording of messages, as a user (or a log callback) sees them.
-/
namespace Tgt.Spec

/-- The number a string of decimal digits stands for, given the number `v` the digits before it stand for. -/
def digitsValue : Nat → Str → Nat
  | v, [] => v
  | v, b :: t => digitsValue (10 * v + (b.toNat - 48)) t

/-- The decimal notation of a number: digits only, at least one, no needless leading zero. -/
structure Decimal (n : Nat) (s : Str) : Prop where
  digits : ∀ b ∈ s, 48 ≤ b.toNat ∧ b.toNat ≤ 57
  nonempty : s ≠ []
  short : s.head? = some 48 → s = [48]
  value : digitsValue 0 s = n

/-- The errors a PO file can contain. -/
def parserErrors : List Str := [
  b!"unexpected end of line", b!"expected start of string '\"'", b!"invalid big5 encoding", b!"unexpected end of string",
  b!"unexpected end of string in handling '\\'", b!"string must start with '\"'", b!"expected 'msgid'",
  b!"expected 'msgstr[N] (0 <= N <= 9)'", b!"expected 'msgstr[N]'", b!"expected 'msgstr[N]' or empty line",
  b!"expected 'msgstr' or 'msgid_plural'", b!"expected empty line"]

/-- What a PO file can be warned about, apart from unknown escape sequences. -/
def parserWarnings : List Str := [
  b!"unexpected garbage after string ignoren", b!"keyword and string must be seperated by a single space",
  b!"leading whitespace before string", b!"malformed Content-Type header", b!"unknown Plural-Forms given",
  b!"Plural-Forms missmatch between .po file and dictionary", b!"charset not specified for .po, fallback to utf-8",
  b!"msgstr[N] seen, but no Plural-Forms given", b!"msgstr[N] count doesn't match Plural-Forms.nplural"]

/-- `m` is something the parser says on channel `lv`. -/
def Worded (lv : Level) (m : Str) : Prop :=
  (lv = .error ∧ m ∈ parserErrors) ∨
  (lv = .warning ∧ (m ∈ parserWarnings ∨ ∃ e : Byte, m = b!"unhandled escape '\\" ++ [e] ++ b!"'"))

/-- The word for a channel in messages about PO files. -/
def severity : Level → Str
  | .info => b!"info"
  | .warning => b!"warning"
  | .error => b!"error"

/-- The message `t` complains about line `n` of `file`, saying `what` and quoting `quoted`:
`file:n: severity: what: quoted`. -/
def Placed (file : Str) (n : Nat) (lv : Level) (what quoted t : Str) : Prop :=
  ∃ number, Decimal n number ∧
    t = file ++ b!":" ++ number ++ b!": " ++ severity lv ++ b!": " ++ what ++ b!": " ++ quoted ++ b!"\n"

/-- Strings in quotes, separated by commas. -/
def quotedList (v : List Str) : Str := (b!", ").intercalate (v.map (fun s => b!"'" ++ s ++ b!"'"))

/-- What log callbacks hear: the channel and the text of each message. -/
def heard (ds : List Diag) : List (Level × Str) := ds.map (fun d => (d.level, d.text))

end Tgt.Spec
