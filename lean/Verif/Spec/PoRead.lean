import Verif.Spec.PoItems
import Verif.Model.Log
import Verif.Spec.PoLog
/-
How an arbitrary text is read, line by line: entries, gaps between them, and blocks of lines that are no entry because of a
fault in a certain line.  Which remarks this gives cause to, and about which line.
-/
namespace Tgt.Spec.Po

/-- A remark about line number `line` (counting from 0). -/
structure Note where
  level : Level
  line : Nat
  msg : Str
  /-- only made in pedantic mode -/
  fussy : Bool
  deriving DecidableEq, Repr

/-- The message that a remark is shown as: with the name of the file, the number of the line (from 1) and the line. -/
def Note.message (file : Str) (line : Nat → Str) (x : Note) : Diag := .po x.level file (x.line + 1) x.msg (line x.line)

/-- The line numbers in messages about a text. -/
def messageLines (l : List Diag) : List Nat := l.filterMap (fun x => match x with | .po _ _ n _ _ => some n | _ => none)

/-- The remarks that are made. -/
def made (pedantic : Bool) (ns : List Note) : List Note := ns.filter (fun x => pedantic || !x.fussy)

/-! ### Strings -/

/-- Remarks about unknown escapes. -/
def escapeNotes (n : Nat) (u : List Byte) : List Note :=
  u.map (fun e => ⟨.warning, n, b!"unhandled escape '\\" ++ [e] ++ b!"'", false⟩)

/-- Remark about what follows a string. -/
def trailNotes (ct : CType) (n : Nat) (trail : Str) : List Note :=
  if Blank ct trail then [] else [⟨.warning, n, b!"unexpected garbage after string ignoren", false⟩]

/-- A quoted string on line `n`, with what follows it. -/
inductive RQuoted (ct : CType) (big5 : Bool) (n : Nat) : Str → Str → List Note → Prop where
  | mk {body text u trail} : Lit big5 body text u →
      RQuoted ct big5 n (34 :: body ++ 34 :: trail) text (escapeNotes n u ++ trailNotes ct n trail)

/-- What starts with a quote, but is not a quoted string; what is wrong. -/
inductive BadString (big5 : Bool) (n : Nat) : Str → List Note → Str → Prop where
  | quoteOnly : BadString big5 n [34] [] b!"unexpected end of line"
  | noEnd {body text u} : Lit big5 body text u → body ≠ [] →
      BadString big5 n (34 :: body) (escapeNotes n u) b!"unexpected end of string"
  | backslash {body text u} : Lit big5 body text u →
      BadString big5 n (34 :: body ++ [92]) (escapeNotes n u) b!"unexpected end of string in handling '\\'"
  | halfChar {body text u b} : big5 = true → isLead b → Lit big5 body text u →
      BadString big5 n (34 :: body ++ [b]) (escapeNotes n u) b!"invalid big5 encoding"

/-! ### Lines with strings -/

/-- A line that continues a string: its first non-blank byte is a quote. -/
def Continues (ct : CType) (l : Str) : Prop := ∃ ws t, Blank ct ws ∧ l = ws ++ 34 :: t

/-- Remark about the white space before a continuation. -/
def indentNotes (n : Nat) (ws : Str) : List Note :=
  if ws.length = 1 then [⟨.warning, n, b!"leading whitespace before string", true⟩] else []

/-- Remark about what separates a keyword from its string. -/
def spaceNotes (n : Nat) (sep : Str) : List Note :=
  if sep = [32] then [] else [⟨.warning, n, b!"keyword and string must be seperated by a single space", true⟩]

/-- Continuation lines from line `n` on. -/
inductive RConts (ct : CType) (big5 : Bool) : Nat → List Str → Str → List Note → Prop where
  | nil {n} : RConts ct big5 n [] [] []
  | cons {n ws q text ls rest ns ns'} : Blank ct ws → RQuoted ct big5 n q text ns → RConts ct big5 (n + 1) ls rest ns' →
      RConts ct big5 n ((ws ++ q) :: ls) (text ++ rest) (indentNotes n ws ++ ns ++ ns')

/-- A keyword with its string, from line `n` on. -/
inductive RField (ct : CType) (big5 : Bool) (kw : Str) : Nat → List Str → Str → List Note → Prop where
  | mk {n sep q text ls rest ns ns'} : Blank ct sep → RQuoted ct big5 n q text ns → RConts ct big5 (n + 1) ls rest ns' →
      RField ct big5 kw n ((kw ++ sep ++ q) :: ls) (text ++ rest) (spaceNotes n sep ++ ns ++ ns')

/-- A line with a keyword, but without a proper string. -/
inductive BadKeyword (ct : CType) (big5 : Bool) (kw : Str) (n : Nat) : Str → List Note → Str → Prop where
  | short {r} : r.length ≤ 1 → BadKeyword ct big5 kw n (kw ++ r) [] b!"unexpected end of line"
  | blank {r} : 2 ≤ r.length → Blank ct r → BadKeyword ct big5 kw n (kw ++ r) (spaceNotes n r) b!"unexpected end of line"
  | other {sep c r} : Blank ct sep → 2 ≤ (sep ++ c :: r).length → ct.isspace c = false → c ≠ 34 →
      BadKeyword ct big5 kw n (kw ++ sep ++ c :: r) [⟨.warning, n, b!"keyword and string must be seperated by a single space", true⟩]
        b!"string must start with '\"'"
  | string {sep q ns m} : Blank ct sep → 2 ≤ (sep ++ q).length → BadString big5 n q ns m →
      BadKeyword ct big5 kw n (kw ++ sep ++ q) (spaceNotes n sep ++ ns) m

/-- A keyword with its string, where line `n + ls.length` is wrong. -/
inductive BadField (ct : CType) (big5 : Bool) (kw : Str) (n : Nat) : List Str → Str → List Note → Str → Prop where
  | first {l ns m} : BadKeyword ct big5 kw n l ns m → BadField ct big5 kw n [] l ns m
  | later {ls t ns ws q ns' m} : RField ct big5 kw n ls t ns → Blank ct ws → BadString big5 (n + ls.length) q ns' m →
      BadField ct big5 kw n ls (ws ++ q) (ns ++ indentNotes (n + ls.length) ws ++ ns') m

/-! ### Entries -/

/-- Comments and the optional `msgctxt`. -/
inductive RStart (ct : CType) (big5 : Bool) (n : Nat) : List Str → Bool → Option Str → List Note → Prop where
  | none {cs fz} : (∀ l ∈ cs, Comment l) → (fz = true ↔ ∃ l ∈ cs, FuzzyFlag l) → RStart ct big5 n cs fz none []
  | some {cs fz ls t ns} : (∀ l ∈ cs, Comment l) → (fz = true ↔ ∃ l ∈ cs, FuzzyFlag l) →
      RField ct big5 b!"msgctxt" (n + cs.length) ls t ns → RStart ct big5 n (cs ++ ls) fz (some t) ns

/-- Everything up to the `msgid`. -/
inductive RHead (ct : CType) (big5 : Bool) (n : Nat) : List Str → Bool → Option Str → Str → List Note → Prop where
  | mk {ls fz c ns ls' id ns'} : RStart ct big5 n ls fz c ns → RField ct big5 b!"msgid" (n + ls.length) ls' id ns' →
      RHead ct big5 n (ls ++ ls') fz c id (ns ++ ns')

/-- A string of a plural entry: the remarks on its lines, its number, its text. -/
abbrev NumberedStr := List Note × Nat × Str

/-- Any number of `msgstr[N]`. -/
inductive RStrs (ct : CType) (big5 : Bool) : Nat → List Str → List NumberedStr → Prop where
  | nil {n} : RStrs ct big5 n [] []
  | cons {n k ls t ns ls' r} : k ≤ 9 → RField ct big5 (msgstrN k) n ls t ns → RStrs ct big5 (n + ls.length) ls' r →
      RStrs ct big5 n (ls ++ ls') ((ns, k, t) :: r)

/-- Everything up to the `msgid_plural` and any number of `msgstr[N]`. -/
inductive RPlural (ct : CType) (big5 : Bool) (n : Nat) : List Str → Bool → Option Str → Str → Str → List NumberedStr → List Note → Prop where
  | mk {ls fz c id ns ls' idp ns' ls'' strs} : RHead ct big5 n ls fz c id ns →
      RField ct big5 b!"msgid_plural" (n + ls.length) ls' idp ns' → RStrs ct big5 (n + (ls ++ ls').length) ls'' strs →
      RPlural ct big5 n (ls ++ ls' ++ ls'') fz c id idp strs (ns ++ ns')

/-- What is read from a text, piece by piece. -/
inductive Piece where
  /-- only remarks -/
  | notes (ns : List Note)
  /-- an entry with one string, and the number of the line after it -/
  | single (ns : List Note) (fuzzy : Bool) (ctxt : Option Str) (msgid text : Str) (place : Nat)
  /-- an entry with numbered strings, and the number of the line after it -/
  | plural (ns : List Note) (fuzzy : Bool) (ctxt : Option Str) (msgid msgidPlural : Str) (strs : List NumberedStr) (place : Nat)
  /-- numbered strings of an entry that counts for nothing -/
  | broken (ns : List Note) (strs : List NumberedStr)
  deriving DecidableEq, Repr

/-- An entry. -/
inductive REntry (ct : CType) (big5 : Bool) (n : Nat) : List Str → Piece → Prop where
  | single {ls fz c id ns ls' t ns'} : RHead ct big5 n ls fz c id ns → RField ct big5 b!"msgstr" (n + ls.length) ls' t ns' →
      REntry ct big5 n (ls ++ ls') (.single (ns ++ ns') fz c id t (n + (ls ++ ls').length))
  | plural {ls fz c id idp strs ns} : RPlural ct big5 n ls fz c id idp strs ns → strs ≠ [] →
      REntry ct big5 n ls (.plural ns fz c id idp strs (n + ls.length))

/-- A line that starts with `msgstr[N]`, `N` a digit. -/
def StrLine (l : Str) : Prop := ∃ k, k ≤ 9 ∧ msgstrN k <+: l

/-- Lines `ls` from `n` on are all right, but the line `l` after them is not: what is read before that line; remarks on the
former lines; what is wrong with the latter. -/
inductive BadEntry (ct : CType) (big5 : Bool) (n : Nat) : List Str → Str → List Piece → List Note → Str → Prop where
  | ctxt {cs ls l ns m} : (∀ l ∈ cs, Comment l) → BadField ct big5 b!"msgctxt" (n + cs.length) ls l ns m →
      BadEntry ct big5 n (cs ++ ls) l [] ns m
  | noId {cs l} : (∀ l ∈ cs, Comment l) → ¬ Comment l → ¬ Separator ct l → ¬ b!"msgctxt" <+: l → ¬ b!"msgid" <+: l →
      BadEntry ct big5 n cs l [] [] b!"expected 'msgid'"
  | noIdAfterCtxt {ls fz t ns l} : RStart ct big5 n ls fz (some t) ns → ¬ Continues ct l → ¬ b!"msgid" <+: l →
      BadEntry ct big5 n ls l [] ns b!"expected 'msgid'"
  | id {ls fz c ns ls' l ns' m} : RStart ct big5 n ls fz c ns → BadField ct big5 b!"msgid" (n + ls.length) ls' l ns' m →
      BadEntry ct big5 n (ls ++ ls') l [] (ns ++ ns') m
  | noStr {ls fz c id ns l} : RHead ct big5 n ls fz c id ns → ¬ Continues ct l → ¬ b!"msgid_plural" <+: l → ¬ b!"msgstr" <+: l →
      BadEntry ct big5 n ls l [] ns b!"expected 'msgstr' or 'msgid_plural'"
  | str {ls fz c id ns ls' l ns' m} : RHead ct big5 n ls fz c id ns → BadField ct big5 b!"msgstr" (n + ls.length) ls' l ns' m →
      BadEntry ct big5 n (ls ++ ls') l [] (ns ++ ns') m
  | idPlural {ls fz c id ns ls' l ns' m} : RHead ct big5 n ls fz c id ns →
      BadField ct big5 b!"msgid_plural" (n + ls.length) ls' l ns' m → BadEntry ct big5 n (ls ++ ls') l [] (ns ++ ns') m
  | noStrs {ls fz c id idp ns l} : RPlural ct big5 n ls fz c id idp [] ns → Separator ct l →
      BadEntry ct big5 n ls l [.broken ns []] [] b!"expected 'msgstr[N] (0 <= N <= 9)'"
  | otherStr {ls fz c id idp strs ns l} : RPlural ct big5 n ls fz c id idp strs ns → ¬ Separator ct l → ¬ Continues ct l → ¬ StrLine l →
      BadEntry ct big5 n ls l [.broken ns strs] [] b!"expected 'msgstr[N]'"
  | strN {ls fz c id idp strs ns k ls' l ns' m} : RPlural ct big5 n ls fz c id idp strs ns → k ≤ 9 →
      BadField ct big5 (msgstrN k) (n + ls.length) ls' l ns' m →
      BadEntry ct big5 n (ls ++ ls') l [.broken ns strs] ns' m
  | after {ls ns fz c id t q l} : REntry ct big5 n ls (.single ns fz c id t q) → ¬ Separator ct l → ¬ Continues ct l →
      BadEntry ct big5 n ls l [.single ns fz c id t q] [] b!"expected empty line"

/-! ### Texts -/

/-- Is this a header that says that the text is in Big5? -/
def saysBig5 (ct : CType) : Piece → Bool
  | .single _ _ _ id t _ => id.isEmpty && declaredCharset ct t == b!"BIG5"
  | _ => false

/-- The line `l` is a whole continuation of a string. -/
def WholeCont (ct : CType) (big5 : Bool) (l : Str) : Prop := ∃ n t ns, RConts ct big5 n [l] t ns

/-- A keyword with a string that all further lines continue. -/
def EndlessField (ct : CType) (big5 : Bool) (line : Nat → Str) (kw : Str) (n : Nat) : Prop :=
  (∃ t ns, RField ct big5 kw n [line n] t ns) ∧ ∀ p, n < p → WholeCont ct big5 (line p)

/-- From line `n` on there is an entry that never comes to an end, however many lines are read.  (This happens when the last line
has no newline, because it is then read again and again.) -/
inductive Endless (ct : CType) (big5 : Bool) (line : Nat → Str) (n : Nat) : Prop where
  | comments : (∀ p, n ≤ p → Comment (line p)) → Endless ct big5 line n
  | ctxt {k} : (∀ l ∈ block line n k, Comment l) → EndlessField ct big5 line b!"msgctxt" (n + k) → Endless ct big5 line n
  | id {k fz c ns} : RStart ct big5 n (block line n k) fz c ns → EndlessField ct big5 line b!"msgid" (n + k) → Endless ct big5 line n
  | str {k fz c id ns} : RHead ct big5 n (block line n k) fz c id ns → EndlessField ct big5 line b!"msgstr" (n + k) →
      Endless ct big5 line n
  | idPlural {k fz c id ns} : RHead ct big5 n (block line n k) fz c id ns → EndlessField ct big5 line b!"msgid_plural" (n + k) →
      Endless ct big5 line n
  | strN {k fz c id idp strs ns j} : RPlural ct big5 n (block line n k) fz c id idp strs ns → j ≤ 9 →
      EndlessField ct big5 line (msgstrN j) (n + k) → Endless ct big5 line n
  | strs {k fz c id idp strs ns} : RPlural ct big5 n (block line n k) fz c id idp strs ns →
      (∀ p, n + k ≤ p → ∃ j t ns', j ≤ 9 ∧ RField ct big5 (msgstrN j) p [line p] t ns') → Endless ct big5 line n

/-- How a text with `N` lines is read from line `n` on: gaps, entries followed by a separating line, and faulty blocks, after
which everything up to the next separating line (or the end) is skipped, but not a separating line that is itself the fault.  The
last argument says whether that comes to an end. -/
inductive Reading (ct : CType) (line : Nat → Str) (N : Nat) : (big5 : Bool) → Nat → List Piece → (ends : Bool) → Prop where
  | done {b n} : N ≤ n → Reading ct line N b n [] true
  | endless {b n} : n < N → Endless ct b line n → Reading ct line N b n [] false
  | gap {b n k ps e} : n < N → (∀ l ∈ block line n k, Comment l) → Blank ct (line (n + k)) → Reading ct line N b (n + k + 1) ps e →
      Reading ct line N b n ps e
  | entry {b n k x ps e} : n < N → REntry ct b n (block line n k) x → Separator ct (line (n + k)) →
      Reading ct line N (b || saysBig5 ct x) (n + k + 1) ps e → Reading ct line N b n (x :: ps) e
  | fault {b n k pre ns m q ps e} : n < N → BadEntry ct b n (block line n k) (line (n + k)) pre ns m →
      n + k < q → (∀ j, n + k < j → j < q → j < N ∧ ¬ Separator ct (line j)) → (N ≤ q ∨ Separator ct (line q)) →
      Reading ct line N (b || pre.any (saysBig5 ct)) q ps e →
      Reading ct line N b n (pre ++ .notes (ns ++ [⟨.error, n + k, m, false⟩]) :: ps) e

/-! ### Loading what was read -/

section
variable (ct : CType) (lib : IconvLib) (useFuzzy pedantic : Bool) (file : Str) (line : Nat → Str)

/-- Remarks as messages. -/
def shown (ns : List Note) : List Diag := (made pedantic ns).map (Note.message file line)

/-- A warning about the contents of an entry that ends before line `q`. -/
def warned (q : Nat) (m : Str) : Diag := Note.message file line ⟨.warning, q, m, false⟩

/-- Converting numbered strings, with all messages. -/
def loadStrs : IConv → List NumberedStr → Except Fault (List (Nat × Str) × IConv × List Diag)
  | cv, [] => .ok ([], cv, [])
  | cv, (ns, k, t) :: r =>
    match cv.convert lib t with
    | .fault f => .error f
    | .ok t' cv' l =>
      match loadStrs cv' r with
      | .error f => .error f
      | .ok (r', cv'', l') => .ok ((k, t') :: r', cv'', shown pedantic file line ns ++ l ++ l')

/-- Loading what was read into a dictionary: everything that can be observed. -/
def loadPieces : List Piece → IConv → Dictionary → List Diag → Observed
  | [], _, d, l => .returned d l
  | .notes ns :: ps, cv, d, l => loadPieces ps cv d (l ++ shown pedantic file line ns)
  | .single ns fz c id t q :: ps, cv, d, l =>
    if id = [] then
      match cv.setCharsets ct lib (sourceCharset ct t) d.charset with
      | (cv', none) => loadPieces ps cv' (withHeaderRule ct t d)
          (l ++ shown pedantic file line ns ++ (headerWarnings ct d.pluralForms t).map (warned file line q))
      | (_, some w) => .threw w (withHeaderRule ct t d)
          (l ++ shown pedantic file line ns ++ (headerWarnings ct d.pluralForms t).map (warned file line q))
    else if t ≠ [] ∧ (useFuzzy = true ∨ fz = false) then
      match cv.convert lib t with
      | .fault f => .crashed f
      | .ok t' cv' l' => loadPieces ps cv' ((Add.singular c id t').apply d).1
          (l ++ shown pedantic file line ns ++ l' ++ ((Add.singular c id t').apply d).2)
    else loadPieces ps cv d (l ++ shown pedantic file line ns)
  | .plural ns fz c id idp strs q :: ps, cv, d, l =>
    match loadStrs lib pedantic file line cv strs with
    | .error f => .crashed f
    | .ok (strs', cv', l') =>
      if (∃ x ∈ strs, x.2.2 ≠ []) ∧ (useFuzzy = true ∨ fz = false) then
        loadPieces ps cv' ((Add.plural c id idp (pluralVec strs')).apply d).1
          (l ++ shown pedantic file line ns ++ l' ++ (pluralWarnings d.pluralForms (pluralVec strs').length).map (warned file line q) ++
            ((Add.plural c id idp (pluralVec strs')).apply d).2)
      else loadPieces ps cv' d (l ++ shown pedantic file line ns ++ l')
  | .broken ns strs :: ps, cv, d, l =>
    match loadStrs lib pedantic file line cv strs with
    | .error f => .crashed f
    | .ok (_, cv', l') => loadPieces ps cv' d (l ++ shown pedantic file line ns ++ l')
end

end Tgt.Spec.Po
