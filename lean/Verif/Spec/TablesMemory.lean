import Verif.Model.TablesMemory
import Verif.Spec.Threads
/-
Calls of `from_string`, `from_spec`, `from_env`, `from_name` one after the other in a program whose memory runs out now and then.
-/
namespace Tgt.Spec

/-- How a call ends. -/
inductive CallEnd where
  | returned (a : Told)
  | badAlloc
  | aborted
  deriving DecidableEq

/-- What it means that a thread of control came back with this (or did not). -/
def CallEnd.ofLang : Option (Option Language) → CallEnd
  | some (some l) => .returned (.language l)
  | some none => .aborted
  | none => .badAlloc

/-- The same for a plural rule. -/
def CallEnd.ofRule : Option PluralForms → CallEnd
  | some p => .returned (.rule p)
  | none => .badAlloc

/-- A call: how it ends and what it leaves. -/
def Asking.mem (oom : Nat → Bool) (ct : CType) (c : Asking) (g : Globals) (t : Nat) : CallEnd × Globals × Nat :=
  match c with
  | fromString s => let r := (Thread.fromString ct s).mem oom g t; (.ofRule r.1, r.2)
  | fromSpec l c m => let r := (Thread.fromSpecChecked l c m).mem oom g t; (.ofLang r.1, r.2)
  | fromEnv s => let r := (Thread.fromEnvChecked s).mem oom g t; (.ofLang r.1, r.2)
  | fromName s => let r := (Thread.fromNameChecked ct s).mem oom g t; (.ofLang r.1, r.2)

/-- Calls one after the other; how each ends.  (After `aborted` there is nothing more in reality; here the calls go on.) -/
def endings (oom : Nat → Bool) (ct : CType) : List Asking → Globals → Nat → List CallEnd
  | [], _, _ => []
  | c :: rest, g, t => let r := c.mem oom ct g t; r.1 :: endings oom ct rest r.2.1 r.2.2

/-- How far the tables came to be filled: the lines of `from_string`'s table; the lines of the aliases, and whether there is half of one more (its key, with an empty
value); the rows of languages, and whether there is half of one more (its code, without the row). -/
structure Cut where
  plurals : Nat
  aliases : Nat
  halfAlias : Bool
  rows : Nat
  halfRow : Bool

/-- Everything. -/
def Cut.whole : Cut := ⟨PluralForms.table.length, languageAliases.length, false, 241, false⟩

/-- `from_string` with the first lines only. -/
def Cut.rule (k : Cut) (ct : CType) (s : Str) : PluralForms :=
  match AMap.get? (PluralForms.table.take k.plurals) (PluralForms.stripSpaces ct s) with
  | some p => p
  | none => .undefined

/-- Aliases with the first lines only. -/
def Cut.alias (k : Cut) (ct : CType) (name : Str) : Str :=
  match AMap.get? (languageAliases.take k.aliases) (name.map ct.tolower) with
  | some v => v
  | none => if k.halfAlias ∧ (languageAliases[k.aliases]?).map Prod.fst = some (name.map ct.tolower) then [] else name

/-- `from_spec` with the first rows only; `none`: the assertion fails. -/
def Cut.spec (k : Cut) (language country modifier : Str) : Option Language :=
  let lst := (languageRows.take k.rows).filter (fun r => r.2.language = language)
  if lst.isEmpty then
    if k.halfRow ∧ (languageRows[k.rows]?).map (fun r => r.2.language) = some language then none else some none
  else
    match (lst.foldl (Language.bestStep ⟨cstr language, some (cstr country), some (cstr modifier), [], none⟩) (none, 0)).1 with
    | some i => some (some i)
    | none => none

/-- The end of a call for which there is memory, with tables that came to be filled this far. -/
def Asking.cut (k : Cut) (ct : CType) : Asking → CallEnd
  | fromString s => .returned (.rule (k.rule ct s))
  | fromSpec l c m => .ofLang (some (k.spec l c m))
  | fromEnv s => let p := Thread.envParts s; .ofLang (some (k.spec p.1 p.2.1 p.2.2))
  | fromName s => let p := Thread.envParts (k.alias ct s); .ofLang (some (k.spec p.1 p.2.1 p.2.2))

end Tgt.Spec
