import Verif.Spec.Texts
import Verif.Spec.History
import Verif.Spec.Lines
import Verif.Spec.Loading
/-
Specification of what log callbacks hear from additions, lookups, parses and loading.
-/
namespace Tgt.Spec

/-- The warning for an addition that replaces the strings `old`.  (Without context, a singular addition names the new string first.) -/
def collisionText : Add → List Str → Str
  | .singular none i s, old => b!"collision in add_translation: '" ++ i ++ b!"' -> '" ++ s ++ b!"' vs '" ++ old.headD [] ++ b!"'\n"
  | .singular (some c) i s, old =>
    b!"collision in add_translation: '" ++ c ++ b!"', '" ++ i ++ b!"' -> '" ++ old.headD [] ++ b!"' vs '" ++ s ++ b!"'\n"
  | .plural none i p v, old =>
    b!"collision in add_translation: '" ++ i ++ b!"', '" ++ p ++ b!"' -> [" ++ quotedList old ++ b!"] vs [" ++ quotedList v ++ b!"]\n"
  | .plural (some c) i p v, old =>
    b!"collision in add_translation: '" ++ c ++ b!"', '" ++ i ++ b!"', '" ++ p ++ b!"' -> [" ++ quotedList old ++ b!"] vs ["
      ++ quotedList v ++ b!"]\n"

/-- The addition replaces the strings `old` by others. -/
def replaces : Add → List Str → Bool
  | .singular _ _ s, old => old.headD s != s
  | .plural _ _ _ v, old => !old.isEmpty && old != v

/-- What can be heard while a PO file named `file` is parsed of which `line n` is line `n`: a complaint about a line, a replaced
translation, or a string that cannot be converted. -/
def SaidOfFile (file : Str) (line : Nat → Str) (lv : Level) (t : Str) : Prop :=
  (∃ n what, 1 ≤ n ∧ Worded lv what ∧ Placed file n lv what (line n) t) ∨
  (lv = .warning ∧ ∃ a old, t = collisionText a old) ∨
  (lv = .error ∧ ∃ s, t = b!"error: tinygettext:iconv: invalid multibyte sequence in:  \"" ++ s ++ b!"\"\n")

/-- What is heard when a message has no translation. -/
def missing (msgid : Str) : List (Level × Str) := [(.info, b!"Couldn't translate: " ++ msgid ++ b!"\n")]

/-- What is heard from looking up a plural message (in context `c`, or without) after the additions `h`: nothing if there is a string
for this count; two errors if the message has too few strings; otherwise the list of all messages there are (of this context). -/
def SaidOfPlural (h : List Op) (c : Option Str) (msgid : Str) (count : Int) (said : List (Level × Str)) : Prop :=
  if Touched h (c, msgid) then
    if (pluralRule h).getPlural count < (strings h (c, msgid)).length then said = []
    else ∃ number, Decimal ((pluralRule h).getPlural count) number ∧
      said = [(.error, b!"Plural translation not available (and not set to empty): '" ++ msgid ++ b!"'\n"),
              (.error, b!"Missing plural form: " ++ number ++ b!"\n")]
  else ∃ candidates : List Str, candidates.Nodup ∧ (∀ j, j ∈ candidates ↔ Touched h (c, j)) ∧
    said = missing msgid ++ [(.info, b!"Candidates: \n")] ++ candidates.map (fun j => (.info, b!"'" ++ j ++ b!"'\n"))

/-- What is heard from a lookup in a dictionary with history `h` and no fallback. -/
def SaidOfLookup (h : List Op) (said : List (Level × Str)) : Manager.Query → Prop
  | .translate i => said = if (latest h (none, i)).isNone then missing i else []
  | .ctxt c i => said = if (latest h (some c, i)).isNone then missing i else []
  | .plural i _ n => SaidOfPlural h none i n said
  | .ctxtPlural c i _ n =>
    ((∃ j, Touched h (some c, j)) → SaidOfPlural h (some c) i n said) ∧ ((¬ ∃ j, Touched h (some c, j)) → said = missing i)

/-- Line `n` (counted from 1) of what a stream delivers. -/
def lineOf (s : Stream) (n : Nat) : Str := if s.good then lineAt (withoutBom s.rest) (n - 1) else []

/-- The file name ends in `.po`, but what is before does not name a language. -/
def unknownName (ct : CType) (f : Str) : Bool := b!".po".isSuffixOf f && (denoted ct f == some none)

/-- What is heard when a file cannot be parsed to the end because of exception `what`. -/
def failure (pofile what : Str) : List (Level × Str) :=
  [(.error, b!"error: failure parsing: " ++ pofile ++ b!"\n"), (.error, what ++ b!"\n")]

/-- What is heard while a directory is searched for language `l` and its best file is loaded: a warning for every file that names no
language; then an error if the best file cannot be opened, or what parsing it gives. -/
inductive SaidOfDir (env : Env) (l : Language) (dir : Str) : List (Level × Str) → Prop where
  | mk {files : List Str} {rest : List (Level × Str)} : env.fs.openDirectory dir = .ok files →
    (NoFile env.ct l files → rest = []) →
    (∀ f, BestFile env.ct l files f →
      (env.fs.openFile (dir ++ b!"/" ++ f) = .null → rest = [(.error, b!"error: failure opening: " ++ dir ++ b!"/" ++ f ++ b!"\n")]) ∧
      (∀ w, env.fs.openFile (dir ++ b!"/" ++ f) = .throws w → rest = failure (dir ++ b!"/" ++ f) w) ∧
      (∀ s, env.fs.openFile (dir ++ b!"/" ++ f) = .stream s →
        ∃ d, (∀ x ∈ heard (parseFile env (dir ++ b!"/" ++ f) s d).log, SaidOfFile (dir ++ b!"/" ++ f) (lineOf s) x.1 x.2) ∧
          rest = heard (parseFile env (dir ++ b!"/" ++ f) s d).log ++
            match parseFile env (dir ++ b!"/" ++ f) s d with
            | .threw w _ _ => failure (dir ++ b!"/" ++ f) w
            | _ => [])) →
    SaidOfDir env l dir ((files.filter (unknownName env.ct)).map
      (fun f => (.warning, f ++ b!": warning: ignoring, unknown language\n")) ++ rest)

/-- What is heard while a search path (highest priority first) is searched: directories are taken from the last to the first. -/
inductive SaidOfPath (env : Env) (l : Language) : List Str → List (Level × Str) → Prop where
  | nil : SaidOfPath env l [] []
  | cons {dir : Str} {rest : List Str} {s1 s2 : List (Level × Str)} : SaidOfPath env l rest s1 → SaidOfDir env l dir s2 →
    SaidOfPath env l (dir :: rest) (s1 ++ s2)

end Tgt.Spec
