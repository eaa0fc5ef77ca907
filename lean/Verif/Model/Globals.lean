import Verif.Model.Language
import Verif.Model.PluralForms
/-
The tables that are shared by all threads: function-local statics that are filled when they are found empty
(src/plural_forms.cpp:68-98, src/language.cpp:300-357, :380-387), as programs that access them step by step.
(`Model/PluralForms.lean` and `Model/Language.lean` take them as filled.)  Every access to a table is one step; iterating over a
vector found in a table (src/language.cpp:401) is part of the step that found it.  The construction of the statics themselves is
guarded by the compiler.  Other statics: `match_tbl` (language.cpp:480) and `languages` (:48) are never written;
`POParser::pedantic` and the callbacks of `Log` are written only by assignments of the user.
-/
namespace Tgt

/-- The contents of the three tables. -/
structure Globals where
  /-- `plural_forms` (src/plural_forms.cpp:68) -/
  plurals : AMap Str PluralForms
  /-- `language_aliases` (src/language.cpp:300) -/
  aliases : AMap Str Str
  /-- `language_map` (src/language.cpp:380) -/
  langs : AMap Str (List (Fin 241))

/-- Which table. -/
inductive Tbl where
  | plurals | aliases | langs
  deriving DecidableEq, Repr

/-- One access to a table: `t.empty()`, `t[k]` (which inserts an empty value if there is none), the assignment to or `push_back` on the
value found by the last, `t.find(k)`. -/
inductive Access where
  | pluralsEmpty | pluralsSlot (k : Str) | pluralsSet (k : Str) (p : PluralForms) | pluralsFind (k : Str)
  | aliasesEmpty | aliasesSlot (k : Str) | aliasesSet (k v : Str) | aliasesFind (k : Str)
  | langsEmpty | langsSlot (k : Str) | langsPush (k : Str) (i : Fin 241) | langsFind (k : Str)

namespace Access

/-- What an access yields. -/
def Resp : Access → Type
  | pluralsEmpty | aliasesEmpty | langsEmpty => Bool
  | pluralsFind _ => Option PluralForms
  | aliasesFind _ => Option Str
  | langsFind _ => Option (List (Fin 241))
  | _ => Unit

/-- The table accessed. -/
def tbl : Access → Tbl
  | pluralsEmpty | pluralsSlot _ | pluralsSet .. | pluralsFind _ => .plurals
  | aliasesEmpty | aliasesSlot _ | aliasesSet .. | aliasesFind _ => .aliases
  | langsEmpty | langsSlot _ | langsPush .. | langsFind _ => .langs

/-- Accesses that (may) write. -/
def writes : Access → Bool
  | pluralsSlot _ | pluralsSet .. | aliasesSlot _ | aliasesSet .. | langsSlot _ | langsPush .. => true
  | _ => false

/-- `t[k]`. -/
def slot {ν : Type} (dflt : ν) (m : AMap Str ν) (k : Str) : AMap Str ν :=
  match m.get? k with
  | some _ => m
  | none => m.set k dflt

/-- The effect of an access. -/
def exec : (a : Access) → Globals → a.Resp × Globals
  | pluralsEmpty, g => (g.plurals.isEmpty, g)
  | pluralsSlot k, g => ((), { g with plurals := slot PluralForms.undefined g.plurals k })
  | pluralsSet k p, g => ((), { g with plurals := g.plurals.set k p })
  | pluralsFind k, g => (g.plurals.get? k, g)
  | aliasesEmpty, g => (g.aliases.isEmpty, g)
  | aliasesSlot k, g => ((), { g with aliases := slot [] g.aliases k })
  | aliasesSet k v, g => ((), { g with aliases := g.aliases.set k v })
  | aliasesFind k, g => (g.aliases.get? k, g)
  | langsEmpty, g => (g.langs.isEmpty, g)
  | langsSlot k, g => ((), { g with langs := slot [] g.langs k })
  | langsPush k i, g => ((), { g with langs := g.langs.set k (((g.langs.get? k).getD []) ++ [i]) })
  | langsFind k, g => (g.langs.get? k, g)

end Access

/-- A thread: finished with a result, or about to make an access. -/
inductive Thread (α : Type) where
  | ret (a : α)
  | step (a : Access) (k : a.Resp → Thread α)

namespace Thread

/-- One thread of control after the other. -/
def bind {α β : Type} : Thread α → (α → Thread β) → Thread β
  | ret a, f => f a
  | step a k, f => step a (fun r => bind (k r) f)

/-- `plural_forms[…] = …;` for each line (src/plural_forms.cpp:73-97). -/
def fillPlurals : List (Str × PluralForms) → Thread Unit
  | [] => ret ()
  | (k, p) :: t => step (.pluralsSlot k) (fun _ => step (.pluralsSet k p) (fun _ => fillPlurals t))

/-- `PluralForms::from_string` (src/plural_forms.cpp:64-115). -/
def fromString (ct : CType) (str : Str) : Thread PluralForms :=
  step .pluralsEmpty fun (empty : Bool) =>
    bind (if empty = true then fillPlurals PluralForms.table else ret ()) fun _ =>
      step (.pluralsFind (PluralForms.stripSpaces ct str)) fun (r : Option PluralForms) =>
        ret (match r with
          | some p => p
          | none => PluralForms.undefined)

/-- `language_aliases[…] = …;` for each line (src/language.cpp:309-355). -/
def fillAliases : List (Str × Str) → Thread Unit
  | [] => ret ()
  | (k, v) :: t => step (.aliasesSlot k) (fun _ => step (.aliasesSet k v) (fun _ => fillAliases t))

/-- `resolve_language_alias` (src/language.cpp:296-372). -/
def resolveAlias (ct : CType) (name : Str) : Thread Str :=
  step .aliasesEmpty fun (empty : Bool) =>
    bind (if empty = true then fillAliases languageAliases else ret ()) fun _ =>
      step (.aliasesFind (name.map ct.tolower)) fun (r : Option Str) =>
        ret (match r with
          | some v => v
          | none => name)

/-- `language_map[languages[i].language].push_back(&languages[i]);` for each row (src/language.cpp:384-385). -/
def fillLangs : List (Fin 241 × LanguageSpec) → Thread Unit
  | [] => ret ()
  | (i, s) :: t => step (.langsSlot s.language) (fun _ => step (.langsPush s.language i) (fun _ => fillLangs t))

/-- `Language::from_spec` (src/language.cpp:376-418); if the assertion fails, the result is the undefined language here. -/
def fromSpec (language country modifier : Str) : Thread Language :=
  step .langsEmpty fun (empty : Bool) =>
    bind (if empty = true then fillLangs languageRows else ret ()) fun _ =>
      step (.langsFind language) fun (r : Option (List (Fin 241))) =>
        ret (match r with
          | some lst =>
            let tmp : LanguageSpec := ⟨cstr language, some (cstr country), some (cstr modifier), [], none⟩
            (lst.foldl (fun best i => Language.bestStep tmp best (i, derefLang i)) (none, 0)).1
          | none => none)

/-- `Language::from_env` (src/language.cpp:426-459). -/
def fromEnv (env : Str) : Thread Language :=
  let ln := find env 95   -- '_'
  let dt := find env 46   -- '.'
  let at' := find env 64  -- '@'
  let language := substr env 0 (min (min ln dt) at')
  let country :=
    if ln ≠ npos ∧ ln + 1 < env.length then
      substr env (ln + 1)
        (if min dt at' = npos then npos else sub64 (min dt at') (ln + 1))
    else []
  let modifier :=
    if at' ≠ npos ∧ at' + 1 < env.length then env.drop (at' + 1) else []
  fromSpec language country modifier

/-- `Language::from_name` (src/language.cpp:420-424). -/
def fromName (ct : CType) (s : Str) : Thread Language := bind (resolveAlias ct s) fromEnv

end Thread
end Tgt
