import Verif.Model.Language
/-
Model of the comparison operators and the hash of include/tinygettext/language.hpp and src/language.cpp, which make a `Language` a
key of `std::set` and `std::unordered_map`.
-/
namespace Tgt

/-- Where the linker put `static const LanguageSpec languages[]` (src/language.cpp:27-290): address of the first row, `sizeof(LanguageSpec)`.
The table is an object, so it does not contain the null address and does not wrap around. -/
structure Placement where
  base : Nat
  size : Nat
  base_pos : 0 < base
  size_pos : 0 < size
  fits : base + 241 * size < 2 ^ 64

namespace Language

/-- The value of the pointer `language_spec` (language.hpp:32): null or the address of a row. -/
def address (p : Placement) : Language → Nat
  | none => 0
  | some i => p.base + i.val * p.size

/-- `Language::operator==` (src/language.cpp:578-582). -/
def equal (p : Placement) (a b : Language) : Bool := address p a == address p b

/-- `Language::operator!=` (src/language.cpp:584-588). -/
def unequal (p : Placement) (a b : Language) : Bool := address p a != address p b

/-- `operator<` (include/tinygettext/language.hpp:90-92). -/
def less (p : Placement) (a b : Language) : Bool := decide (address p a < address p b)

/-- `Language_hash` (include/tinygettext/language.hpp:94-100): the pointer as a `size_t`. -/
def hash (p : Placement) (a : Language) : UInt64 := UInt64.ofNat (address p a)

end Language
end Tgt
