import Verif.Base
/-
Specification: locale strings `ll_CC.codeset@modifier` with optional parts.
-/
namespace Tgt.Spec

/-- An optional part with its separator. -/
def part (sep : Byte) : Option Str → Str
  | none => []
  | some t => sep :: t

/-- `ll[_CC][.codeset][@modifier]`. -/
def localeString (ll : Str) (cc codeset modifier : Option Str) : Str :=
  ll ++ part 95 cc ++ part 46 codeset ++ part 64 modifier

/-- No separator character (`_`, `.`, `@`). -/
def Plain (s : Str) : Prop := 95 ∉ s ∧ 46 ∉ s ∧ 64 ∉ s

/-- The same for an optional part. -/
def PlainOpt : Option Str → Prop
  | none => True
  | some s => Plain s

instance (s : Str) : Decidable (Plain s) := inferInstanceAs (Decidable (_ ∧ _))
instance (s : Option Str) : Decidable (PlainOpt s) := match s with
  | none => inferInstanceAs (Decidable True)
  | some s => inferInstanceAs (Decidable (Plain s))

/-- The text of an optional part, empty if absent. -/
def orEmpty : Option Str → Str
  | none => []
  | some s => s

end Tgt.Spec
