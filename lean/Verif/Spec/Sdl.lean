import Verif.Model.Sdl
import Verif.Spec.Observe
/-
Messages about strings that cannot be converted.
-/
namespace Tgt.Spec

/-- The message that a string is not valid in its charset. -/
def badString : Diag → Bool
  | .iconvInvalid _ => true
  | _ => false

/-- The other messages. -/
def quiet (l : List Diag) : List Diag := l.filter (fun d => !badString d)

end Tgt.Spec
