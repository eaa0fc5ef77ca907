import Verif.Model.Globals
/-
The functions that use the lazily filled tables (src/plural_forms.cpp:64-115, src/language.cpp:296-372, :376-459) when memory may run out: `oom t` says that
the `t`-th access that allocates throws `std::bad_alloc`.  The programs are those of `Model/Globals.lean` (accesses to the tables, one at a time), here with
the assertion of `from_spec` (src/language.cpp:411) visible.
-/
namespace Tgt
namespace Access

/-- Accesses that allocate: `t[k]` (the key string, the node, the buckets), the assignment of a string, `push_back`; and before a `find`, or before `from_spec` tests its
table, the strings that are made for it.  If one throws, the table is as it was before this access. -/
def allocates : Access → Bool
  | pluralsSlot _ | aliasesSlot _ | aliasesSet .. | langsSlot _ | langsPush .. | pluralsFind _ | aliasesFind _ | langsEmpty => true
  | _ => false

end Access

namespace Thread

/-- Run a thread of control; `none`: `std::bad_alloc` was thrown (nothing in between catches it). -/
def mem {α : Type} (oom : Nat → Bool) : Thread α → Globals → Nat → Option α × Globals × Nat
  | ret a, g, t => (some a, g, t)
  | step a k, g, t =>
    if a.allocates && oom t then (none, g, t + 1)
    else mem oom (k (a.exec g).1) (a.exec g).2 (if a.allocates then t + 1 else t)

/-- `Language::from_spec` (src/language.cpp:376-418); `none`: the assertion of line 411 failed. -/
def fromSpecChecked (language country modifier : Str) : Thread (Option Language) :=
  step .langsEmpty fun (empty : Bool) =>
    bind (if empty = true then fillLangs languageRows else ret ()) fun _ =>
      step (.langsFind language) fun (r : Option (List (Fin 241))) =>
        ret (match r with
          | some lst =>
            let tmp : LanguageSpec := ⟨cstr language, some (cstr country), some (cstr modifier), [], none⟩
            match (lst.foldl (fun best i => Language.bestStep tmp best (i, derefLang i)) (none, 0)).1 with
            | some i => some (some i)
            | none => none
          | none => some none)

/-- The parts of a locale string that `Language::from_env` passes on (src/language.cpp:428-456). -/
def envParts (env : Str) : Str × Str × Str :=
  let ln := find env 95   -- '_'
  let dt := find env 46   -- '.'
  let at' := find env 64  -- '@'
  let language := substr env 0 (min (min ln dt) at')
  let country :=
    if ln ≠ npos ∧ ln + 1 < env.length then
      substr env (ln + 1)
        (if min dt at' = npos then npos else sub64 (min dt at') (ln + 1))
    else []
  let modifier :=
    if at' ≠ npos ∧ at' + 1 < env.length then env.drop (at' + 1) else []
  (language, country, modifier)

/-- `Language::from_env` (src/language.cpp:426-459). -/
def fromEnvChecked (env : Str) : Thread (Option Language) :=
  fromSpecChecked (envParts env).1 (envParts env).2.1 (envParts env).2.2

/-- `Language::from_name` (src/language.cpp:420-424). -/
def fromNameChecked (ct : CType) (s : Str) : Thread (Option Language) := bind (resolveAlias ct s) fromEnvChecked

end Thread
end Tgt
