import Verif.Spec.PoFile
import Verif.Spec.PoRead
/-
Texts one after the other.
-/
namespace Tgt.Spec.Po

/-- Some header of the text, as it is read, says that it is in Big5. -/
def AnnouncesBig5 (ct : CType) (s : Str) : Prop :=
  ∃ ps e, Reading ct (lineAt (withoutBom s)) (lineCount s) false 0 ps e ∧ ps.any (saysBig5 ct) = true

/-- Lines that start with a header: an entry with an empty `msgid` and one string, followed by a blank line. -/
def HeaderFirst (ct : CType) (ls : List Str) : Prop :=
  ∃ st hls e sep rest, ls = hls ++ sep :: rest ∧ EntryLines ct false st hls e ∧ e.header? ≠ none ∧ Separator ct sep

end Tgt.Spec.Po
