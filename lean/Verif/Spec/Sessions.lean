import Verif.Spec.Logging
/-
Specification of sessions of calls, as their caller sees them.
-/
namespace Tgt.Spec
open Manager

/-- Run calls one after the other: what each came back with, and the manager after them; `none` if one did not come back. -/
def session : Manager → List (Env × Call) → Option (List Outcome × Manager)
  | m, [] => some ([], m)
  | m, (env, c) :: t =>
    match c.outcome env m with
    | none => none
    | some (o, m') => (session m' t).map (fun x => (o :: x.1, x.2))

/-- Calls that ask for something: lookups, `get_language`, `get_use_fuzzy`, `get_languages`. -/
def Call.asks : Call → Bool
  | ask .. | getLanguage | getUseFuzzy | getLanguages => true
  | _ => false

/-- What a call comes back with. -/
def answer (m : Manager) (x : Env × Call) : Option Outcome := (x.2.outcome x.1 m).map Prod.fst

/-- The argument of the last `set_language` (the undefined language if there is none). -/
def lastLanguage : List Call → Language
  | [] => none
  | c :: t =>
    if t.any (fun | .setLanguage _ => true | _ => false) then lastLanguage t
    else match c with
      | .setLanguage l => l
      | _ => none

/-- The argument of the last `set_use_fuzzy` (`true` if there is none). -/
def lastUseFuzzy : List Call → Bool
  | [] => true
  | c :: t =>
    if t.any (fun | .setUseFuzzy _ => true | _ => false) then lastUseFuzzy t
    else match c with
      | .setUseFuzzy b => b
      | _ => true

end Tgt.Spec
