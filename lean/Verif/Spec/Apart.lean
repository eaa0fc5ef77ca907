import Verif.Spec.Twice
/-
Directories that have nothing in common.
-/
namespace Tgt.Spec
open Manager

/-- Read alone, the two directories give no message (of a context, or without) in common for the language, and at most one of them gives a plural rule, or both the same. -/
def ApartFor (env : Env) (l : Language) (cs : Str) (x y : Str) : Prop :=
  ∃ e e', AloneGives env l cs x e ∧ AloneGives env l cs y e' ∧ (∀ ctxt msgid, stored e ctxt msgid = none ∨ stored e' ctxt msgid = none) ∧
    (e.pluralForms.isDefined = false ∨ e'.pluralForms.isDefined = false ∨ e.pluralForms = e'.pluralForms)

/-- So for the language and what it falls back to. -/
def Apart (env : Env) (l : Language) (cs : Str) (x y : Str) : Prop :=
  ApartFor env l cs x y ∧ (l.getCountry ≠ [] → ApartFor env (bare l) cs x y)

/-- Every message the directory gives, read alone, for the language, is given by one of the others, too. -/
def CoveredFor (env : Env) (l : Language) (cs : Str) (others : List Str) (dir : Str) : Prop :=
  ∃ e, AloneGives env l cs dir e ∧ ∀ ctxt msgid, stored e ctxt msgid ≠ none → ∃ y ∈ others, ∃ e', AloneGives env l cs y e' ∧ stored e' ctxt msgid ≠ none

/-- So for the language and what it falls back to. -/
def Covered (env : Env) (l : Language) (cs : Str) (others : List Str) (dir : Str) : Prop :=
  CoveredFor env l cs others dir ∧ (l.getCountry ≠ [] → CoveredFor env (bare l) cs others dir)

end Tgt.Spec
