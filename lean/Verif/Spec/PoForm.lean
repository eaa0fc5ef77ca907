import Verif.Model.Log
/-
Which messages are about the form of a PO text (and not about what its header says, conversions or duplicate entries).
-/
namespace Tgt.Spec.Po

/-- An error message of the parser. -/
def FormError : Diag → Prop
  | .po .error _ _ _ _ => True
  | _ => False

/-- The warnings about the form of a text (src/po_parser.cpp:141, 158, 178, 210; the latter two in pedantic mode only). -/
def FormWarning (m : Str) : Prop :=
  m = b!"keyword and string must be seperated by a single space" ∨ m = b!"leading whitespace before string" ∨
  m = b!"unexpected garbage after string ignoren" ∨ ∃ e : Byte, m = b!"unhandled escape '\\" ++ [e] ++ b!"'"

/-- A message about the form of a text. -/
def FormMessage : Diag → Prop
  | .po .error _ _ _ _ => True
  | .po .warning _ _ m _ => FormWarning m
  | _ => False

/-- Whether a warning is about form can be decided. -/
instance (m : Str) : Decidable (FormWarning m) :=
  decidable_of_iff (m = b!"keyword and string must be seperated by a single space" ∨ m = b!"leading whitespace before string" ∨
    m = b!"unexpected garbage after string ignoren" ∨
    (∃ e ∈ (m.drop b!"unhandled escape '\\".length).head?, m = b!"unhandled escape '\\" ++ [e] ++ b!"'")) (by
    unfold FormWarning
    refine or_congr Iff.rfl (or_congr Iff.rfl (or_congr Iff.rfl ⟨fun ⟨e, _, h⟩ => ⟨e, h⟩, fun ⟨e, h⟩ => ⟨e, ?_, h⟩⟩))
    subst h
    rfl)

instance : DecidablePred FormMessage := fun x => match x with
  | .po .error _ _ _ _ => isTrue trivial
  | .po .warning _ _ m _ => inferInstanceAs (Decidable (FormWarning m))
  | .po .info _ _ _ _ => isFalse (fun h => h)
  | .collisionPlural .. => isFalse (fun h => h)
  | .collisionSingular .. => isFalse (fun h => h)
  | .iconvInvalid _ => isFalse (fun h => h)
  | .couldntTranslate _ => isFalse (fun h => h)
  | .candidatesHead => isFalse (fun h => h)
  | .candidate _ => isFalse (fun h => h)
  | .pluralMissing _ => isFalse (fun h => h)
  | .pluralMissingForm _ => isFalse (fun h => h)
  | .unknownLanguage _ => isFalse (fun h => h)
  | .openFailure _ => isFalse (fun h => h)
  | .parseFailure _ => isFalse (fun h => h)
  | .parseFailureWhat _ => isFalse (fun h => h)

end Tgt.Spec.Po
