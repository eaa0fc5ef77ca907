import Verif.Base
/-
Specification: how well two language specifications (language code, country, modifier; the empty
string means "not specified") fit together.
-/
namespace Tgt.Spec

/-- A language specification: code, country, modifier. -/
abbrev Triple := Str × Str × Str

/-- How close two optional parts are: 2 equal, 1 one of them unspecified, 0 different. -/
def rank (x y : Str) : Nat :=
  if x = y then 2 else if x = [] ∨ y = [] then 1 else 0

/-- The score: 0 for different languages, else 1–9 by country and modifier. -/
def score (a b : Triple) : Nat :=
  if a.1 ≠ b.1 then 0
  else match rank a.2.1 b.2.1, rank a.2.2 b.2.2 with
    | 2, 2 => 9
    | 2, 1 => 8
    | 1, 2 => 7
    | 1, 1 => 6
    | 2, _ => 5
    | _, 2 => 4
    | 1, _ => 3
    | _, 1 => 2
    | _, _ => 1

end Tgt.Spec
