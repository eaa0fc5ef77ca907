import Verif.Spec.History
/-
Copies of a dictionary made with `foreach` and `foreach_ctxt`.
-/
namespace Tgt.Spec

/-- What an addition says, if nothing is known of its message: for which message, and which strings. -/
def said : Add → (Option Str × Str) × List Str
  | .singular c i s => ((c, i), [s])
  | .plural c i _ v => ((c, i), v)

/-- The additions among the calls. -/
def Op.add? : Op → Option Add
  | .add a => some a
  | _ => none

/-- What the callbacks of `foreach` and of `foreach_ctxt` are told. -/
def visits (calls : List (Str × List Str)) (callsC : List (Str × Str × List Str)) : List ((Option Str × Str) × List Str) :=
  calls.map (fun x => ((none, x.1), x.2)) ++ callsC.map (fun x => ((some x.1, x.2.1), x.2.2))

/-- The fallback after a history: `none` if there never was a call of `addFallback`. -/
def fallbackRev : List Op → Option (Option DictId)
  | [] => none
  | .addFallback p :: _ => some p
  | _ :: older => fallbackRev older

end Tgt.Spec
