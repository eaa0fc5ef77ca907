import Verif.Spec.Loading
/-
Managers that have been used in a world that does not change.
-/
namespace Tgt.Spec
open Manager

/-- In the world `env`, the manager has been left alone with its files: since it was made, or since its configuration was last changed (before that anything may
have happened, in any world), all calls returned normally, and nobody added translations or set plural rules by hand. -/
inductive Settled (env : Env) : Manager → Prop where
  | new (charset : Str) : Settled env (Manager.init charset)
  | changed {charset : Str} {m m' : Manager} {c : Call} {env0 : Env} : Reach charset m → c.Changes m → c.Leads env0 m m' → Settled env m'
  | called {m m' : Manager} {c : Call} {a : Answer} : Settled env m → c.changes? = none → c.run env m = .ok a m' → Settled env m'

end Tgt.Spec
