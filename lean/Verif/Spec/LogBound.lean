import Verif.Spec.Lines
import Verif.Spec.Loading
/-
How many messages a call may log.
-/
namespace Tgt.Spec
open Manager POParser

/-- What is known of the directories: `names dir` bounds the length of the listing of `dir`, and every file in it that can be opened for
reading has at most `size dir` bytes and ends with a newline. -/
def Holds (env : Env) (path : List Str) (names size : Str → Nat) : Prop :=
  ∀ dir ∈ path, (∀ files, env.fs.openDirectory dir = .ok files → files.length ≤ names dir) ∧
    ∀ f st, env.fs.openFile (dir ++ b!"/" ++ f) = .stream st → st = .failed ∨ ∃ t, st = .ofBytes t ∧ Terminated t ∧ t.length ≤ size dir

/-- The most messages of one search of a path: one for each name, one for each byte, two for a file that cannot be read. -/
def searchMost (path : List Str) (names size : Str → Nat) : Nat := (path.map (fun dir => names dir + size dir + 2)).sum

/-- How often the path is searched for a language: not at all if it is loaded, once if it has no country or the language without country
is loaded, else twice. -/
def searches (m : Manager) (l : Language) : Nat :=
  if (m.dictionaries.get? l).isSome then 0
  else if l.getCountry = [] ∨ (m.dictionaries.get? (Language.fromSpec l.getLanguage [] [])).isSome then 1
  else 2

/-- The most messages of a lookup: one for a dictionary in which there is nothing to be found; two, and one for each message there is, for a plural. -/
def Query.most (d : Dictionary) : Query → Nat
  | .translate _ | .ctxt _ _ => if d.hasFallback then 2 else 1
  | .plural _ _ _ => d.entries.length + 2
  | .ctxtPlural c _ _ _ => ((d.ctxtEntries.get? c).getD []).length + 2

/-- The most messages of a call on a manager `m`, if `k` is the most of one search. -/
def Call.most (m : Manager) (k : Nat) : Call → Nat
  | .getDictionary => searches m m.currentLanguage * k
  | .getDictionaryFor l => searches m l * k
  | .add _ _ => 1
  | .ask id q => match m.heap.get? id with
    | some d => Query.most d q
    | none => 0
  | _ => 0

end Tgt.Spec
