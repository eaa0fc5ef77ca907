import Verif.Spec.Sessions
import Verif.Spec.Loading
/-
Sessions on managers whose dictionaries have other addresses.
-/
namespace Tgt.Spec
open Manager

/-- Dictionaries are numbered in the order in which they were made (`0`: the empty one).  A manager that made `k` dictionaries before: its numbers. -/
def later (k : Nat) (p : DictId) : DictId := if p = 0 then 0 else p + k

/-- The same call, through references to dictionaries of such a manager. -/
def Call.later (k : Nat) : Call → Call
  | add id a => add (Spec.later k id) a
  | setPluralForms id p => setPluralForms (Spec.later k id) p
  | ask id q => ask (Spec.later k id) q
  | c => c

/-- The same answer from such a manager. -/
def Answer.later (k : Nat) : Answer → Answer
  | dict id => dict (Spec.later k id)
  | a => a

/-- The same outcome from such a manager. -/
def Outcome.later (k : Nat) : Outcome → Outcome
  | returned a => returned (Answer.later k a)
  | o => o

/-- All that a program sees of a session: what each call came back with, and what it said; up to the first call that does not come back (`false`
at the end), if there is one. -/
def seen : Manager → List (Env × Call) → List (Outcome × List Diag) × Bool
  | _, [] => ([], true)
  | m, (env, c) :: t =>
    match c.outcome env m with
    | none => ([], false)
    | some (o, m') => ((o, m'.log.drop m.log.length) :: (seen m' t).1, (seen m' t).2)

/-- A new manager with these settings. -/
def renewed (k : Config) (l : Language) : Manager := { newManager k with currentLanguage := l }

/-- The calls that make these settings. -/
def setup (k : Config) (l : Language) : List Call :=
  k.path.map (fun p => .addDirectory p false) ++ [.setUseFuzzy k.useFuzzy, .setLanguage l]

end Tgt.Spec
