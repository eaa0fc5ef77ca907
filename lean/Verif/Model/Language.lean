import Verif.Model.LanguageTable
/-
Model of src/language.cpp and include/tinygettext/language.hpp.
-/
namespace Tgt

/-- The table with row numbers: row number `i` stands for the pointer `&languages[i]`.
(`languages` has 241 rows, proved in `languages_length`.) -/
def languageRows : List (Fin 241 × LanguageSpec) := (List.finRange 241).zip languages

/-- `class Language` (include/tinygettext/language.hpp:30-88): a `const LanguageSpec*`, either null
(`none`) or pointing into the static table (every public way to make a `Language` ends in
`from_spec`, which returns table pointers only; the pointer to the local `tmpspec`,
src/language.cpp:393-397, does not escape and is modelled as a spec, see `matchSpec`).
Equality, hash and `operator<` are on the pointer (language.cpp:578-588, language.hpp:82-92). -/
abbrev Language := Option (Fin 241)

/-- Dereferencing the pointer. -/
def derefLang (i : Fin 241) : LanguageSpec :=
  match languages[i.val]? with
  | some s => s
  | none => ⟨[], none, none, [], none⟩  -- unreachable: `languages.length = 241`

namespace LanguageSpec

/-- `Language::get_language` (src/language.cpp:507-514) on a possibly-null spec pointer. -/
def getLanguage : Option LanguageSpec → Str
  | some s => s.language
  | none => []

/-- `Language::get_country` (src/language.cpp:516-523). -/
def getCountry : Option LanguageSpec → Str
  | some ⟨_, some c, _, _, _⟩ => c
  | _ => []

/-- `Language::get_modifier` (src/language.cpp:525-532). -/
def getModifier : Option LanguageSpec → Str
  | some ⟨_, _, some m, _, _⟩ => m
  | _ => []

/-- `match_tbl` (src/language.cpp:480-485): rows country match/wildcard/miss, columns modifier
match/wildcard/miss. -/
def matchTbl (c m : Nat) : Nat :=
  match c, m with
  | 0, 0 => 9 | 0, 1 => 8 | 0, _ => 5
  | 1, 0 => 7 | 1, 1 => 6 | 1, _ => 3
  | _, 0 => 4 | _, 1 => 2 | _, _ => 1

/-- The index computed at src/language.cpp:487-493 (country) and :495-501 (modifier): 0 equal,
1 one side unspecified, 2 different. -/
def closeness (a b : Str) : Nat :=
  if a = b then 0 else if a.isEmpty || b.isEmpty then 1 else 2

/-- `Language::match` (src/language.cpp:471-505), on spec pointers. -/
def matchSpec (lhs rhs : Option LanguageSpec) : Nat :=
  if getLanguage lhs ≠ getLanguage rhs then 0
  else matchTbl (closeness (getCountry lhs) (getCountry rhs))
                (closeness (getModifier lhs) (getModifier rhs))

end LanguageSpec

namespace Language
open LanguageSpec

/-- The spec pointed to. -/
def spec (l : Language) : Option LanguageSpec := l.map derefLang

/-- `explicit operator bool` (language.hpp:62). -/
def isDefined (l : Language) : Bool := l.isSome

/-- `get_language` (src/language.cpp:507-514). -/
def getLanguage (l : Language) : Str := LanguageSpec.getLanguage l.spec
/-- `get_country` (src/language.cpp:516-523). -/
def getCountry (l : Language) : Str := LanguageSpec.getCountry l.spec
/-- `get_modifier` (src/language.cpp:525-532). -/
def getModifier (l : Language) : Str := LanguageSpec.getModifier l.spec

/-- `get_name` (src/language.cpp:534-541). -/
def getName (l : Language) : Str :=
  match l.spec with
  | some s => s.name
  | none => []

/-- `get_localized_name` (src/language.cpp:543-550). -/
def getLocalizedName (l : Language) : Str :=
  match l.spec with
  | some ⟨_, _, _, _, some n⟩ => n
  | _ => getName l

/-- `str` (src/language.cpp:552-576). -/
def str (l : Language) : Str :=
  match l.spec with
  | some s =>
    let var := s.language
    let var := match s.country with
      | some c => var ++ b!"_" ++ c
      | none => var
    match s.modifier with
    | some m => var ++ b!"@" ++ m
    | none => var
  | none => []

/-- `Language::match` (src/language.cpp:471-505). -/
def «match» (a b : Language) : Nat := matchSpec a.spec b.spec

/-- One iteration of the best-match loop (src/language.cpp:401-410): state is
`(best_match, best_match_score)`. -/
def bestStep (tmp : LanguageSpec) (best : Option (Fin 241) × Nat) (row : Fin 241 × LanguageSpec) :
    Option (Fin 241) × Nat :=
  let score := matchSpec (some row.2) (some tmp)
  if score > best.2 then (some row.1, score) else best

/-- `Language::from_spec` (src/language.cpp:376-418) with the `assert(best_match)` of line 411
visible: `none` means the assertion failed.  `language_map` (:379-386) groups the rows by language
code in table order, so `language_map.find(language)` is the filtered table (absent iff empty).
The names of the temporary spec are never read. -/
def fromSpecChecked (language country modifier : Str) : Option Language :=
  let lst := languageRows.filter (fun r => r.2.language = language)
  if lst.isEmpty then some none
  else
    let tmp : LanguageSpec := ⟨cstr language, some (cstr country), some (cstr modifier), [], none⟩
    let best := lst.foldl (bestStep tmp) (none, 0)
    match best.1 with
    | some i => some (some i)
    | none => none

/-- `Language::from_spec` with the assertion discharged (`C07_from_spec_no_assert`). -/
def fromSpec (language country modifier : Str) : Language :=
  match fromSpecChecked language country modifier with
  | some l => l
  | none => none

/-- `Language::from_env` (src/language.cpp:426-459).  The codeset (:448-451) is computed and
dropped in the code; it has no effect and is left out (`substr(dt+1, …)` cannot throw since
`dt+1 < env.size()`). -/
def fromEnv (env : Str) : Language :=
  let ln := find env 95   -- '_'
  let dt := find env 46   -- '.'
  let at' := find env 64  -- '@'
  let language := substr env 0 (min (min ln dt) at')
  let country :=
    if ln ≠ npos ∧ ln + 1 < env.length then
      substr env (ln + 1)
        (if min dt at' = npos then npos else sub64 (min dt at') (ln + 1))
    else []
  let modifier :=
    if at' ≠ npos ∧ at' + 1 < env.length then env.drop (at' + 1) else []
  fromSpec language country modifier

/-- `resolve_language_alias` (src/language.cpp:296-372). -/
def resolveAlias (ct : CType) (name : Str) : Str :=
  match AMap.get? languageAliases (name.map ct.tolower) with
  | some v => v
  | none => name

/-- `Language::from_name` (src/language.cpp:420-424). -/
def fromName (ct : CType) (s : Str) : Language := fromEnv (resolveAlias ct s)

end Language
end Tgt
