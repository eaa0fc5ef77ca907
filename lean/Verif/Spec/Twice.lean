import Verif.Spec.Bare
/-
Directories that count for nothing, and directories that are there twice.
-/
namespace Tgt.Spec
open Manager

/-- The dictionary `p` was made by the call that led from `m` to `m1`, and what it falls back to, if anything, too. -/
def AllNew (m m1 : Manager) (p : DictId) : Prop :=
  m.heap.get? p = none ∧ ∀ d fb, m1.heap.get? p = some d → d.fallback = some fb → m.heap.get? fb = none

/-- The directory can be listed and has no file for the language. -/
def Unserved (env : Env) (l : Language) (dir : Str) : Prop :=
  ∃ files, env.fs.openDirectory dir = .ok files ∧ ∀ f ∈ files, ∀ L, denoted env.ct f = some L → L.getLanguage ≠ l.getLanguage

/-- Two names of the same directory: the same files, with the same contents. -/
def SameDir (env : Env) (dir dir' : Str) : Prop :=
  env.fs.openDirectory dir = env.fs.openDirectory dir' ∧
  ∀ files f, env.fs.openDirectory dir = .ok files → f ∈ files → env.fs.openFile (dir ++ b!"/" ++ f) = env.fs.openFile (dir' ++ b!"/" ++ f)

end Tgt.Spec
