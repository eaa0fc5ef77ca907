import Verif.Spec.Sessions
/-
When two worlds look the same to a manager, as far as a language is concerned.
-/
namespace Tgt.Spec
open Manager

/-- The same machine: C library, converter, parser settings; only the file systems may differ. -/
def SameMachine (env env' : Env) : Prop :=
  env.ct = env'.ct ∧ env.lib = env'.lib ∧ env.pedantic = env'.pedantic ∧ env.fuel = env'.fuel

/-- For language `l` the directory offers the same in both worlds: it cannot be listed (for the same reason), or no file serves the
language, or the same file serves it best and opens in the same way.  Nothing is said about other files. -/
def SameFor (env env' : Env) (l : Language) (dir : Str) : Prop :=
  match env.fs.openDirectory dir, env'.fs.openDirectory dir with
  | .error w, .error w' => w = w'
  | .ok files, .ok files' =>
    (NoFile env.ct l files ∧ NoFile env.ct l files') ∨
    ∃ f, BestFile env.ct l files f ∧ BestFile env.ct l files' f ∧ env.fs.openFile (dir ++ b!"/" ++ f) = env'.fs.openFile (dir ++ b!"/" ++ f)
  | _, _ => False

/-- The language without country and modifier, to which a dictionary for a country falls back. -/
def bare (l : Language) : Language := Language.fromSpec l.getLanguage [] []

/-- All directories have the same listings, and every file that serves some language best opens in the same way. -/
def Agree (env env' : Env) : Prop :=
  SameMachine env env' ∧ (∀ dir, env.fs.openDirectory dir = env'.fs.openDirectory dir) ∧
  ∀ dir files l f, env.fs.openDirectory dir = .ok files → BestFile env.ct l files f →
    env.fs.openFile (dir ++ b!"/" ++ f) = env'.fs.openFile (dir ++ b!"/" ++ f)

end Tgt.Spec
