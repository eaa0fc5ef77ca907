import Verif.Base
/-
Model of src/plural_forms.cpp and include/tinygettext/plural_forms.hpp.
A C++ `int` count is an `Int` (all statements are for every `Int`, hence for every `int`; no
function here overflows).  C's `%` truncates towards zero: `Int.tmod`.
-/
namespace Tgt

/-- The plural functions, standing for the function pointers (src/plural_forms.cpp:37-60).
`PluralForms::operator==` compares pointers; distinct functions have distinct addresses. -/
inductive PluralFn where
  | plural1 | plural2_1 | plural2_2 | plural2_mk | plural2_mk_2 | plural3_lv | plural3_ga
  | plural3_lt | plural3_1 | plural3_sk | plural3_pl | plural3_ro | plural3_sl | plural4_be
  | plural4_cs | plural4_cy | plural4_gd | plural4_he | plural4_lt | plural4_pl | plural4_sk
  | plural4_uk | plural5_ga | plural6_ar
  deriving DecidableEq, Repr

namespace PluralFn

local infixl:70 " %c " => Int.tmod

/-- src/plural_forms.cpp:37-60, one function per line. -/
def eval : PluralFn → Int → Nat
  -- :37
  | plural1, _ => 0
  -- :38
  | plural2_1, n => if n ≠ 1 then 1 else 0
  -- :39
  | plural2_2, n => if n > 1 then 1 else 0
  -- :40
  | plural2_mk, n => if n = 1 ∨ n %c 10 = 1 then 0 else 1
  -- :41
  | plural2_mk_2, n => if n %c 10 = 1 ∧ n %c 100 ≠ 11 then 0 else 1
  -- :42
  | plural3_lv, n => if n %c 10 = 1 ∧ n %c 100 ≠ 11 then 0 else if n ≠ 0 then 1 else 2
  -- :43
  | plural3_ga, n => if n = 1 then 0 else if n = 2 then 1 else 2
  -- :44
  | plural3_lt, n =>
    if n %c 10 = 1 ∧ n %c 100 ≠ 11 then 0
    else if n %c 10 ≥ 2 ∧ (n %c 100 < 10 ∨ n %c 100 ≥ 20) then 1 else 2
  -- :45
  | plural3_1, n =>
    if n %c 10 = 1 ∧ n %c 100 ≠ 11 then 0
    else if n %c 10 ≥ 2 ∧ n %c 10 ≤ 4 ∧ (n %c 100 < 10 ∨ n %c 100 ≥ 20) then 1 else 2
  -- :46
  | plural3_sk, n => if n = 1 then 0 else if n ≥ 2 ∧ n ≤ 4 then 1 else 2
  -- :47
  | plural3_pl, n =>
    if n = 1 then 0
    else if n %c 10 ≥ 2 ∧ n %c 10 ≤ 4 ∧ (n %c 100 < 10 ∨ n %c 100 ≥ 20) then 1 else 2
  -- :48
  | plural3_ro, n =>
    if n = 1 then 0 else if n %c 100 > 19 ∨ (n %c 100 = 0 ∧ n ≠ 0) then 2 else 1
  -- :49
  | plural3_sl, n =>
    if n %c 100 = 1 then 0 else if n %c 100 = 2 then 1
    else if n %c 100 = 3 ∨ n %c 100 = 4 then 2 else 3
  -- :50
  | plural4_be, n =>
    if n %c 10 = 1 ∧ n %c 100 ≠ 11 then 0
    else if n %c 10 ≥ 2 ∧ n %c 10 ≤ 4 ∧ (n %c 100 < 12 ∨ n %c 100 > 14) then 1
    else if n %c 10 = 0 ∨ (n %c 10 ≥ 5 ∧ n %c 10 ≤ 9) ∨ (n %c 100 ≥ 11 ∧ n %c 100 ≤ 14) then 2
    else 3
  -- :51
  | plural4_cs, n =>
    if n = 1 ∧ n %c 1 = 0 then 0
    else if n ≥ 2 ∧ n ≤ 4 ∧ n %c 1 = 0 then 1
    else if n %c 1 ≠ 0 then 2 else 3
  -- :52
  | plural4_cy, n => if n = 1 then 0 else if n = 2 then 1 else if n ≠ 8 ∧ n ≠ 11 then 2 else 3
  -- :53
  | plural4_gd, n =>
    if n = 1 ∨ n = 11 then 0 else if n = 2 ∨ n = 12 then 1
    else if n > 2 ∧ n < 20 then 2 else 3
  -- :54
  | plural4_he, n =>
    if n = 1 ∧ n %c 1 = 0 then 0
    else if n = 2 ∧ n %c 1 = 0 then 1
    else if n %c 10 = 0 ∧ n %c 1 = 0 ∧ n > 10 then 2 else 3
  -- :55
  | plural4_lt, n =>
    if n %c 10 = 1 ∧ (n %c 100 > 19 ∨ n %c 100 < 11) then 0
    else if (n %c 10 ≥ 2 ∧ n %c 10 ≤ 9) ∧ (n %c 100 > 19 ∨ n %c 100 < 11) then 1
    else if n %c 1 ≠ 0 then 2 else 3
  -- :56
  | plural4_pl, n =>
    if n = 1 then 0
    else if (n %c 10 ≥ 2 ∧ n %c 10 ≤ 4) ∧ (n %c 100 < 12 ∨ n %c 100 > 14) then 1
    else if (n ≠ 1 ∧ (n %c 10 ≥ 0 ∧ n %c 10 ≤ 1)) ∨ (n %c 10 ≥ 5 ∧ n %c 10 ≤ 9)
        ∨ (n %c 100 ≥ 12 ∧ n %c 100 ≤ 14) then 2
    else 3
  -- :57
  | plural4_sk, n =>
    if n %c 1 = 0 ∧ n = 1 then 0
    else if n %c 1 = 0 ∧ n ≥ 2 ∧ n ≤ 4 then 1
    else if n %c 1 ≠ 0 then 2 else 3
  -- :58
  | plural4_uk, n =>
    if n %c 1 = 0 ∧ n %c 10 = 1 ∧ n %c 100 ≠ 11 then 0
    else if n %c 1 = 0 ∧ n %c 10 ≥ 2 ∧ n %c 10 ≤ 4 ∧ (n %c 100 < 12 ∨ n %c 100 > 14) then 1
    else if n %c 1 = 0 ∧ (n %c 10 = 0 ∨ (n %c 10 ≥ 5 ∧ n %c 10 ≤ 9)
        ∨ (n %c 100 ≥ 11 ∧ n %c 100 ≤ 14)) then 2
    else 3
  -- :59
  | plural5_ga, n =>
    if n = 1 then 0 else if n = 2 then 1 else if n < 7 then 2 else if n < 11 then 3 else 4
  -- :60
  | plural6_ar, n =>
    if n = 0 then 0 else if n = 1 then 1 else if n = 2 then 2
    else if n %c 100 ≥ 3 ∧ n %c 100 ≤ 10 then 3
    else if n %c 100 ≥ 11 then 4 else 5

end PluralFn

/-- `class PluralForms` (include/tinygettext/plural_forms.hpp:29-60); the function pointer `plural`
is `none` when null.  The derived equality is `operator==` (:52). -/
structure PluralForms where
  nplural : Nat
  plural : Option PluralFn
  deriving DecidableEq, Repr

namespace PluralForms

/-- `PluralForms()` (plural_forms.hpp:38-41). -/
def undefined : PluralForms := ⟨0, none⟩

/-- `get_nplural` (plural_forms.hpp:48). -/
def getNplural (p : PluralForms) : Nat := p.nplural

/-- `get_plural` (plural_forms.hpp:49): 0 when there is no function. -/
def getPlural (p : PluralForms) (n : Int) : Nat :=
  match p.plural with
  | some f => f.eval n
  | none => 0

/-- `explicit operator bool` (plural_forms.hpp:54-56). -/
def isDefined (p : PluralForms) : Bool := p.plural.isSome

/-- The static map filled on first use (src/plural_forms.cpp:73-97), in source order.  All keys
are different (proved: `table_keys_nodup`), so the hash map is this list. -/
def table : List (Str × PluralForms) := [
  -- :73
  (b!"Plural-Forms:nplurals=1;plural=0;", ⟨1, some .plural1⟩),
  -- :74
  (b!"Plural-Forms:nplurals=2;plural=(n!=1);", ⟨2, some .plural2_1⟩),
  -- :75
  (b!"Plural-Forms:nplurals=2;plural=n!=1;", ⟨2, some .plural2_1⟩),
  -- :76
  (b!"Plural-Forms:nplurals=2;plural=(n>1);", ⟨2, some .plural2_2⟩),
  -- :77
  (b!"Plural-Forms:nplurals=2;plural=n==1||n%10==1?0:1;", ⟨2, some .plural2_mk⟩),
  -- :78
  (b!"Plural-Forms:nplurals=2;plural=(n%10==1&&n%100!=11)?0:1;", ⟨2, some .plural2_mk_2⟩),
  -- :79
  (b!"Plural-Forms:nplurals=3;plural=n%10==1&&n%100!=11?0:n!=0?1:2);", ⟨2, some .plural3_lv⟩),
  -- :80
  (b!"Plural-Forms:nplurals=3;plural=n==1?0:n==2?1:2;", ⟨3, some .plural3_ga⟩),
  -- :81
  (b!"Plural-Forms:nplurals=3;plural=(n%10==1&&n%100!=11?0:n%10>=2&&(n%100<10||n%100>=20)?1:2);", ⟨3, some .plural3_lt⟩),
  -- :82
  (b!"Plural-Forms:nplurals=3;plural=(n%10==1&&n%100!=11?0:n%10>=2&&n%10<=4&&(n%100<10||n%100>=20)?1:2);", ⟨3, some .plural3_1⟩),
  -- :83
  (b!"Plural-Forms:nplurals=3;plural=(n==1)?0:(n>=2&&n<=4)?1:2;", ⟨3, some .plural3_sk⟩),
  -- :84
  (b!"Plural-Forms:nplurals=3;plural=(n==1?0:n%10>=2&&n%10<=4&&(n%100<10||n%100>=20)?1:2);", ⟨3, some .plural3_pl⟩),
  -- :85
  (b!"Plural-Forms:nplurals=3;plural=(n%100==1?0:n%100==2?1:n%100==3||n%100==4?2:3);", ⟨3, some .plural3_sl⟩),
  -- :86
  (b!"Plural-Forms:nplurals=3;plural=(n==1?0:(((n%100>19)||((n%100==0)&&(n!=0)))?2:1));", ⟨3, some .plural3_ro⟩),
  -- :87
  (b!"Plural-Forms:nplurals=4;plural=(n%1==0&&n==1?0:n%1==0&&n>=2&&n<=4?1:n%1!=0?2:3);", ⟨4, some .plural4_sk⟩),
  -- :88
  (b!"Plural-Forms:nplurals=4;plural=(n==1&&n%1==0)?0:(n>=2&&n<=4&&n%1==0)?1:(n%1!=0)?2:3;", ⟨4, some .plural4_cs⟩),
  -- :89
  (b!"Plural-Forms:nplurals=4;plural=(n%10==1&&n%100!=11?0:n%10>=2&&n%10<=4&&(n%100<12||n%100>14)?1:n%10==0||(n%10>=5&&n%10<=9)||(n%100>=11&&n%100<=14)?2:3);", ⟨4, some .plural4_be⟩),
  -- :90
  (b!"Plural-Forms:nplurals=4;plural=(n==1||n==11)?0:(n==2||n==12)?1:(n>2&&n<20)?2:3;", ⟨4, some .plural4_gd⟩),
  -- :91
  (b!"Plural-Forms:nplurals=4;plural=(n==1)?0:(n==2)?1:(n!=8&&n!=11)?2:3;", ⟨4, some .plural4_cy⟩),
  -- :92
  (b!"Plural-Forms:nplurals=4;plural=(n%10==1&&(n%100>19||n%100<11)?0:(n%10>=2&&n%10<=9)&&(n%100>19||n%100<11)?1:n%1!=0?2:3);", ⟨4, some .plural4_lt⟩),
  -- :93
  (b!"Plural-Forms:nplurals=4;plural=(n%1==0&&n%10==1&&n%100!=11?0:n%1==0&&n%10>=2&&n%10<=4&&(n%100<12||n%100>14)?1:n%1==0&&(n%10==0||(n%10>=5&&n%10<=9)||(n%100>=11&&n%100<=14))?2:3);", ⟨4, some .plural4_uk⟩),
  -- :94
  (b!"Plural-Forms:nplurals=4;plural=(n==1?0:(n%10>=2&&n%10<=4)&&(n%100<12||n%100>14)?1:n!=1&&(n%10>=0&&n%10<=1)||(n%10>=5&&n%10<=9)||(n%100>=12&&n%100<=14)?2:3);", ⟨4, some .plural4_pl⟩),
  -- :95
  (b!"Plural-Forms:nplurals=4;plural=(n==1&&n%1==0)?0:(n==2&&n%1==0)?1:(n%10==0&&n%1==0&&n>10)?2:3;", ⟨4, some .plural4_he⟩),
  -- :96
  (b!"Plural-Forms:nplurals=5;plural=(n==1?0:n==2?1:n<7?2:n<11?3:4)", ⟨5, some .plural5_ga⟩),
  -- :97
  (b!"Plural-Forms:nplurals=6;plural=n==0?0:n==1?1:n==2?2:n%100>=3&&n%100<=10?3:n%100>=11?4:5", ⟨6, some .plural6_ar⟩)
]

/-- The space-removing loop (src/plural_forms.cpp:101-104). -/
def stripSpaces (ct : CType) : Str → Str
  | [] => []
  | c :: t => if !ct.isspace c then c :: stripSpaces ct t else stripSpaces ct t

/-- `PluralForms::from_string` (src/plural_forms.cpp:64-115). -/
def fromString (ct : CType) (str : Str) : PluralForms :=
  match AMap.get? table (stripSpaces ct str) with
  | some p => p
  | none => undefined

end PluralForms
end Tgt
