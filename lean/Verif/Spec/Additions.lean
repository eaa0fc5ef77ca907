import Verif.Spec.Loading
/-
Answers before and after a directory is added.
-/
namespace Tgt.Manager

/-- The lookups that choose a form by a number. -/
def Query.isPlural : Query → Bool
  | .translate _ | .ctxt _ _ => false
  | .plural _ _ _ | .ctxtPlural _ _ _ _ => true

end Tgt.Manager
