import Verif.Spec.Manager
import Verif.Spec.Loading
/-
Which languages a manager lists and serves.
-/
namespace Tgt.Spec
open Manager

/-- All directories of the search path can be listed, and their file names are strings that can exist. -/
def Listable (env : Env) (m : Manager) : Prop :=
  ∀ dir ∈ m.searchPath, ∃ files, env.fs.openDirectory dir = .ok files ∧ ∀ f ∈ files, Fits f

/-- Some directory of the search path has a file for `get_dictionary(l)` to load. -/
def Served (env : Env) (m : Manager) (l : Language) : Prop :=
  ∃ dir ∈ m.searchPath, ∃ files, env.fs.openDirectory dir = .ok files ∧ ∃ f, BestFile env.ct l files f

/-- The list names the language of `l`, perhaps with another country or modifier. -/
def Names (ls : List Language) (l : Language) : Prop := ∃ x ∈ ls, x.isDefined = true ∧ x.getLanguage = l.getLanguage

end Tgt.Spec
