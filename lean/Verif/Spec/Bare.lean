import Verif.Spec.Worlds
import Verif.Spec.Loading
/-
Languages for whose country or modifier there is nothing.
-/
namespace Tgt.Spec
open Manager

/-- In this directory nothing is made for the country or for the modifier of `l`: there is no file for its language at all; or there is one for the bare
language, and all others are for the bare language too or for other countries and modifiers. -/
def NothingOwn (ct : CType) (l : Language) (files : List Str) : Prop :=
  (∀ f ∈ files, ∀ L, denoted ct f = some L → L.getLanguage ≠ l.getLanguage) ∨
  ((∃ f ∈ files, denoted ct f = some (bare l)) ∧
    ∀ f ∈ files, ∀ L, denoted ct f = some L → L.getLanguage = l.getLanguage →
      (l.getCountry ≠ [] → L.getCountry ≠ l.getCountry) ∧ (l.getModifier ≠ [] → L.getModifier ≠ l.getModifier))

/-- Nowhere in this search path is there anything made for the country or the modifier of `l`. -/
def NothingOwnIn (env : Env) (l : Language) (path : List Str) : Prop :=
  ∀ dir ∈ path, ∀ files, env.fs.openDirectory dir = .ok files → NothingOwn env.ct l files

end Tgt.Spec
