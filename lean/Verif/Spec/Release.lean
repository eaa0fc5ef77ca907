import Verif.Model.Release
import Verif.Spec.Sessions
/-
Calls and sessions with the library compiled without assertions.
-/
namespace Tgt.Spec
open Manager

/-- Run a call in the build without assertions. -/
def Call.runRelease (env : Env) : Call → M Answer
  | getDictionary => do let p ← Manager.getDictionaryRelease env; Prog.pure (.dict p)
  | getDictionaryFor l => do let p ← Manager.getDictionaryForRelease env env.fuel l; Prog.pure (.dict p)
  | c => c.run env

/-- A call with its outcome and the state after it, if it came back, in the build without assertions. -/
def Call.outcomeRelease (env : Env) (c : Call) (m : Manager) : Option (Outcome × Manager) :=
  match c.runRelease env m with
  | .ok a m' => some (.returned a, m')
  | .exn w m' => some (.threw w, m')
  | .poError m' => some (.threwPo, m')
  | .fault _ => none
  | .diverge => none

/-- Run calls one after the other in the build without assertions. -/
def sessionRelease : Manager → List (Env × Call) → Option (List Outcome × Manager)
  | m, [] => some ([], m)
  | m, (env, c) :: t =>
    match c.outcomeRelease env m with
    | none => none
    | some (o, m') => (sessionRelease m' t).map (fun x => (o :: x.1, x.2))

end Tgt.Spec
