import Verif.Model.Dictionary
/-
How much a dictionary holds.
-/
namespace Tgt.Spec

/-- What a list of strings holds: its bytes, and one for each string. -/
def stringsSize : List Str → Nat
  | [] => 0
  | s :: v => 1 + s.length + stringsSize v

/-- What a table of translations holds: the strings, the bytes of the messages, and one for each message. -/
def entriesSize : Entries → Nat
  | [] => 0
  | (k, v) :: e => 1 + k.length + stringsSize v + entriesSize e

/-- What the tables of all contexts hold, with the bytes of the contexts and one for each context. -/
def contextsSize : AMap Str Entries → Nat
  | [] => 0
  | (c, e) :: m => 1 + c.length + entriesSize e + contextsSize m

/-- What a dictionary holds: all bytes of messages, contexts and translations, and one for each of them. -/
def dictSize (d : Dictionary) : Nat := entriesSize d.entries + contextsSize d.ctxtEntries

end Tgt.Spec
