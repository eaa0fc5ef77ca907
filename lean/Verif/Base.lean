/-
Base definitions shared by all model files: bytes, byte strings, C library character
classification, and the few `std::string` operations the code uses.
-/
namespace Tgt

/-- A C++ `char` of a `std::string`, seen as an unsigned byte. -/
abbrev Byte := UInt8

/-- A `std::string`: an arbitrary byte sequence (embedded NULs allowed). -/
abbrev Str := List Byte

/-- `b!"text"` is the UTF-8 byte list of a C++ string literal, expanded at elaboration time. -/
macro:max "b!" s:str : term => do
  let bs := s.getString.toUTF8.toList
  let nil ← `(([] : List UInt8))
  bs.foldrM (fun b t => `(List.cons ($(Lean.Syntax.mkNumLit (toString b.toNat)) : UInt8) $t)) nil

/-- The C library character functions the code calls: `isspace` (src/po_parser.cpp:156, 189, 215,
311, 317; src/plural_forms.cpp:103), `toupper` (src/po_parser.cpp:256, src/iconv.cpp:63, 66,
src/dictionary_manager.cpp:290), `tolower` (src/language.cpp:361), `isalpha`
(src/dictionary_manager.cpp:288).  They are a parameter of the model: on bytes below 0x80 they are
those of the C locale; on bytes from 0x80 (where the code passes a negative `char`) they are
arbitrary, so theorems hold for every locale that agrees with C on ASCII. -/
structure CType where
  isspace : Byte → Bool
  isalpha : Byte → Bool
  toupper : Byte → Byte
  tolower : Byte → Byte
  isspace_ascii : ∀ b : Byte, b < 128 → isspace b = (b == 32 || (9 ≤ b && b ≤ 13))
  isalpha_ascii : ∀ b : Byte, b < 128 → isalpha b = ((65 ≤ b && b ≤ 90) || (97 ≤ b && b ≤ 122))
  toupper_ascii : ∀ b : Byte, b < 128 → toupper b = if 97 ≤ b && b ≤ 122 then b - 32 else b
  tolower_ascii : ∀ b : Byte, b < 128 → tolower b = if 65 ≤ b && b ≤ 90 then b + 32 else b

/-- The "C" locale: bytes from 0x80 are in no class and are left alone. -/
def CType.c : CType where
  isspace b := b == 32 || (9 ≤ b && b ≤ 13)
  isalpha b := (65 ≤ b && b ≤ 90) || (97 ≤ b && b ≤ 122)
  toupper b := if 97 ≤ b && b ≤ 122 then b - 32 else b
  tolower b := if 65 ≤ b && b ≤ 90 then b + 32 else b
  isspace_ascii := fun _ _ => rfl
  isalpha_ascii := fun _ _ => rfl
  toupper_ascii := fun _ _ => rfl
  tolower_ascii := fun _ _ => rfl

/-- `isdigit` (src/po_parser.cpp:394), which is the same in every locale. -/
def isdigit (b : Byte) : Bool := 48 ≤ b && b ≤ 57

/-- `static_cast<unsigned int>(n)` for a `size_t` (32-bit `unsigned int`). -/
def u32 (n : Nat) : Nat := n % 4294967296

/-- `std::string::npos` for a 64-bit `size_t`. -/
def npos : Nat := 18446744073709551615

/-- `a - b` on `size_t`, with wrap-around. -/
def sub64 (a b : Nat) : Nat := (a + 18446744073709551616 - b) % 18446744073709551616

/-- `s.find(ch)`: index of the first occurrence, or `npos`. -/
def find (s : Str) (ch : Byte) : Nat :=
  match s.findIdx? (· == ch) with
  | some i => i
  | none => npos

/-- `s.substr(pos, n)` for `pos ≤ s.size()` (every caller checks or guarantees this; the throwing
case is modelled explicitly where it can occur, `Manager.convertFilename2Language`). -/
def substr (s : Str) (pos n : Nat) : Str := (s.drop pos).take n

/-- The `std::string` made from `s.c_str()`: everything before the first NUL. -/
def cstr (s : Str) : Str := s.takeWhile (· != 0)

/-- Does `p` occur in `s`?  (`s.find(p) != npos`.) -/
def occursIn (p : Str) : Str → Bool
  | [] => p.isEmpty
  | s@(_ :: t) => p.isPrefixOf s || occursIn p t

/-- Length bound of a real `std::string` (`max_size()` of libstdc++ is 2^63-1). -/
def Fits (s : Str) : Prop := s.length < 9223372036854775807

/-- `std::unordered_map`: an association list; `set` keeps keys unique. -/
abbrev AMap (κ ν : Type) := List (κ × ν)

namespace AMap
variable {κ ν : Type} [DecidableEq κ]

/-- `m.find(k)`. -/
def get? (m : AMap κ ν) (k : κ) : Option ν :=
  match m with
  | [] => none
  | (k', v) :: t => if k' = k then some v else get? t k

/-- `m[k] = v`. -/
def set (m : AMap κ ν) (k : κ) (v : ν) : AMap κ ν :=
  match m with
  | [] => [(k, v)]
  | (k', v') :: t => if k' = k then (k, v) :: t else (k', v') :: set t k v

/-- The keys, in iteration order. -/
def keys (m : AMap κ ν) : List κ := m.map Prod.fst

end AMap

end Tgt
