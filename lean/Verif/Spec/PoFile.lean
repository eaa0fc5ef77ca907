import Verif.Spec.Effect
import Verif.Spec.Lines
import Verif.Model.IConv
/-
Specification of PO files, independent of the parser: which lines form a well-formed file, and what
it says.  `strict` selects the form that gives no reason for any message; without it, odd spacing,
unknown escapes and text after a string are allowed, too.
-/
namespace Tgt.Spec.Po

/-! ### Strings -/

/-- The escape sequences: letter after the backslash, byte meant. -/
def escapes : List (Byte × Byte) :=
  [(97, 7), (98, 8), (118, 11), (110, 10), (116, 9), (114, 13), (34, 34), (92, 92)]

/-- First byte of a two-byte Big5 character. -/
def isLead (b : Byte) : Prop := 0x81 ≤ b ∧ b ≤ 0xfe

/-- `Lit big5 body text unknown`: the bytes `body` between quotes mean `text`; `unknown` are the
letters of unknown escapes, which stand for themselves with their backslash.  In Big5 mode a lead
byte and whatever follows it stand for themselves. -/
inductive Lit (big5 : Bool) : Str → Str → List Byte → Prop where
  | nil : Lit big5 [] [] []
  | plain {b body text u} : b ≠ 34 → b ≠ 92 → ¬ (big5 = true ∧ isLead b) →
      Lit big5 body text u → Lit big5 (b :: body) (b :: text) u
  | pair {b c body text u} : big5 = true → isLead b →
      Lit big5 body text u → Lit big5 (b :: c :: body) (b :: c :: text) u
  | esc {e r body text u} : (e, r) ∈ escapes →
      Lit big5 body text u → Lit big5 (92 :: e :: body) (r :: text) u
  | unknown {e body text u} : (∀ r, (e, r) ∉ escapes) →
      Lit big5 body text u → Lit big5 (92 :: e :: body) (92 :: e :: text) (e :: u)

/-- Only white space. -/
def Blank (ct : CType) (s : Str) : Prop := ∀ b ∈ s, ct.isspace b = true

instance (ct : CType) (s : Str) : Decidable (Blank ct s) := inferInstanceAs (Decidable (∀ b ∈ s, _))

/-- A quoted string with what follows it on the line. -/
inductive Quoted (ct : CType) (big5 strict : Bool) : Str → Str → Prop where
  | mk {body text u trail} : Lit big5 body text u →
      (strict = true → u = [] ∧ Blank ct trail) →
      Quoted ct big5 strict (34 :: body ++ 34 :: trail) text

/-- Continuation lines: each is a quoted string after white space; the text is the concatenation. -/
inductive Conts (ct : CType) (big5 strict : Bool) : List Str → Str → Prop where
  | nil : Conts ct big5 strict [] []
  | cons {ws q text ls rest} : Blank ct ws → (strict = true → ws.length ≠ 1) →
      Quoted ct big5 strict q text → Conts ct big5 strict ls rest →
      Conts ct big5 strict ((ws ++ q) :: ls) (text ++ rest)

/-- A keyword with its string. -/
inductive Field (ct : CType) (big5 strict : Bool) (kw : Str) : List Str → Str → Prop where
  | mk {sep q text ls rest} : Blank ct sep → (strict = true → sep = [32]) →
      Quoted ct big5 strict q text → Conts ct big5 strict ls rest →
      Field ct big5 strict kw ((kw ++ sep ++ q) :: ls) (text ++ rest)

/-! ### Entries -/

/-- A comment line that marks an entry as fuzzy: `#,` … `fuzzy` …. -/
def FuzzyFlag (l : Str) : Prop := ∃ a b, l = b!"#," ++ a ++ b!"fuzzy" ++ b

/-- Comment lines start with `#`. -/
def Comment (l : Str) : Prop := l.head? = some 35

/-- The translation part of an entry. -/
inductive Body where
  | single (text : Str)
  | plural (msgidPlural : Str) (strs : List (Nat × Str))
  deriving DecidableEq, Repr

/-- An entry of a PO file. -/
structure Entry where
  fuzzy : Bool
  ctxt : Option Str
  msgid : Str
  body : Body
  deriving DecidableEq, Repr

/-- The optional `msgctxt`. -/
inductive CtxtLines (ct : CType) (big5 strict : Bool) : List Str → Option Str → Prop where
  | none : CtxtLines ct big5 strict [] none
  | some {ls t} : Field ct big5 strict b!"msgctxt" ls t → CtxtLines ct big5 strict ls (some t)

/-- The keyword `msgstr[N]`. -/
def msgstrN (n : Nat) : Str := b!"msgstr[" ++ [48 + n.toUInt8] ++ b!"]"

/-- One or more `msgstr[N]` with `N` a digit. -/
inductive PluralLines (ct : CType) (big5 strict : Bool) : List Str → List (Nat × Str) → Prop where
  | one {n ls t} : n ≤ 9 → Field ct big5 strict (msgstrN n) ls t → PluralLines ct big5 strict ls [(n, t)]
  | more {n ls t ls' r} : n ≤ 9 → Field ct big5 strict (msgstrN n) ls t →
      PluralLines ct big5 strict ls' r → PluralLines ct big5 strict (ls ++ ls') ((n, t) :: r)

/-- The lines of an entry. -/
inductive EntryLines (ct : CType) (big5 strict : Bool) : List Str → Entry → Prop where
  | single {cs fz cls c ils id sls t} : (∀ l ∈ cs, Comment l) → (fz = true ↔ ∃ l ∈ cs, FuzzyFlag l) →
      CtxtLines ct big5 strict cls c → Field ct big5 strict b!"msgid" ils id →
      Field ct big5 strict b!"msgstr" sls t →
      EntryLines ct big5 strict (cs ++ cls ++ ils ++ sls) ⟨fz, c, id, .single t⟩
  | plural {cs fz cls c ils id pls idp sls strs} : (∀ l ∈ cs, Comment l) → (fz = true ↔ ∃ l ∈ cs, FuzzyFlag l) →
      CtxtLines ct big5 strict cls c → Field ct big5 strict b!"msgid" ils id →
      Field ct big5 strict b!"msgid_plural" pls idp → PluralLines ct big5 strict sls strs →
      EntryLines ct big5 strict (cs ++ cls ++ ils ++ pls ++ sls) ⟨fz, c, id, .plural idp strs⟩

/-! ### Headers -/

/-- What follows a prefix. -/
def afterPrefix : Str → Str → Option Str
  | [], l => some l
  | _ :: _, [] => none
  | a :: p, b :: l => if a = b then afterPrefix p l else none

/-- The charset named by the last well-formed Content-Type line, upper-cased; empty if there is none. -/
def declaredCharset (ct : CType) (header : Str) : Str :=
  ((((splitLines header).1.filterMap (afterPrefix b!"Content-Type: text/plain; charset=")).getLast?).getD []).map ct.toupper

/-- The charset of the file: UTF-8 if none is declared or the placeholder CHARSET is. -/
def sourceCharset (ct : CType) (header : Str) : Str :=
  if declaredCharset ct header = [] ∨ declaredCharset ct header = b!"CHARSET" then b!"UTF-8"
  else declaredCharset ct header

/-- The plural rule of the first recognised Plural-Forms line. -/
def headerRule (ct : CType) (header : Str) : Option PluralForms :=
  ((splitLines header).1.filterMap (fun l =>
    if b!"Plural-Forms:".isPrefixOf l ∧ (PluralForms.fromString ct l).isDefined
    then some (PluralForms.fromString ct l) else none)).head?

/-- The header text, if the entry is a header: empty msgid and no plural. -/
def Entry.header? (e : Entry) : Option Str :=
  match e.body with
  | .single t => if e.msgid = [] then some t else none
  | .plural _ _ => none

/-! ### Files -/

/-- Lines that separate entries: white space only, or a comment `#` followed by nothing or by white
space. -/
def Separator (ct : CType) (l : Str) : Prop :=
  Blank ct l ∨ l = b!"#" ∨ ∃ b t, l = 35 :: b :: t ∧ ct.isspace b = true

/-- The lines of a file and its entries.  `big5`: the file is in Big5 from here on. -/
inductive File (ct : CType) (strict : Bool) : (big5 : Bool) → List Str → List Entry → Prop where
  | comments {b cs} : (∀ l ∈ cs, Comment l) → File ct strict b cs []
  | blank {b cs bl ls es} : (∀ l ∈ cs, Comment l) → Blank ct bl → File ct strict b ls es →
      File ct strict b (cs ++ bl :: ls) es
  | last {b ls e} : EntryLines ct b strict ls e → File ct strict b ls [e]
  | entry {b ls e sep ls' es} : EntryLines ct b strict ls e → Separator ct sep →
      File ct strict (b || e.header?.any (fun t => declaredCharset ct t == b!"BIG5")) ls' es →
      File ct strict b (ls ++ sep :: ls') (e :: es)

/-- Lines on which a header entry can start: `msgid`, blanks, an empty string. -/
def StartsHeader (ct : CType) (l : Str) : Prop := ∃ ws t, Blank ct ws ∧ l = b!"msgid" ++ ws ++ 34 :: 34 :: t

/-- Lines after which a reader is between entries: none; anything followed by two blank lines; a well-formed file
followed by a blank line. -/
inductive Closed (ct : CType) : List Str → Prop where
  | none : Closed ct []
  | blanks {ls s1 s2} : Blank ct s1 → Blank ct s2 → Closed ct (ls ++ [s1, s2])
  | file {st ls es s} : File ct st false ls es → Blank ct s → Closed ct (ls ++ [s])

/-! ### Gaps between entries -/

/-- A line that says nothing: blank, or a comment that is not a fuzzy flag. -/
def Filler (ct : CType) (l : Str) : Prop := Blank ct l ∨ (Comment l ∧ ¬ FuzzyFlag l)

/-- Entries with their lines, in a file that is in Big5 from the start if `b`. -/
def EntriesOk (ct : CType) (strict : Bool) : Bool → List (List Str × Entry) → Prop
  | _, [] => True
  | b, (ls, e) :: r => EntryLines ct b strict ls e ∧
      EntriesOk ct strict (b || e.header?.any (fun t => declaredCharset ct t == b!"BIG5")) r

/-- The lines of entries, with gap `g i` before entry number `i` and gap `g n` after the last one. -/
def withGaps (g : Nat → List Str) : Nat → List (List Str × Entry) → List Str
  | i, [] => g i
  | i, (ls, _) :: r => g i ++ ls ++ withGaps g (i + 1) r

/-- Gaps consist of fillers, those after an entry start with a separator. -/
def GapsOk (ct : CType) (g : Nat → List Str) : Prop :=
  ∀ i, (∀ l ∈ g i, Filler ct l) ∧ (i ≠ 0 → ∃ s r, g i = s :: r ∧ Separator ct s)

/-! ### Meaning -/

/-- A converter library without shift states: what it makes of a string does not depend on strings converted before. -/
def Memoryless (lib : IconvLib) : Prop := ∀ to fr h h' t cap, lib.conv to fr h t cap = lib.conv to fr h' t cap

/-- What the library says about the conversion between two charsets, as an exception: none, or its message. -/
def unavailable (ct : CType) (lib : IconvLib) (src dst : Str) : Option Str :=
  if dst.map ct.toupper = src.map ct.toupper then none
  else match lib.iconvOpen (cstr (dst.map ct.toupper)) (cstr (src.map ct.toupper)) with
    | .ok => none
    | .einval => some (b!"IConv construction failed: conversion from '" ++ src.map ct.toupper ++ b!"' to '" ++
        dst.map ct.toupper ++ b!"' not available")
    | .other e => some (b!"IConv: construction failed: " ++ e)

/-- An entry without its fuzzy flag. -/
def unflagged (e : Entry) : Entry := { e with fuzzy := false }

/-- The vector of plural strings: for each index up to the largest one, the last string given for it;
empty for indices not given. -/
def pluralVec (strs : List (Nat × Str)) : List Str :=
  (List.range ((strs.map Prod.fst).foldl max 0 + 1)).map
    (fun i => (((strs.filter (fun x => x.1 == i)).getLast?).map Prod.snd).getD [])

/-- Convert strings one after the other. -/
def convertAll (lib : IconvLib) : IConv → List (Nat × Str) → Except Fault (List (Nat × Str) × IConv)
  | cv, [] => .ok ([], cv)
  | cv, (n, t) :: r =>
    match cv.convert lib t with
    | .fault f => .error f
    | .ok t' cv' _ => match convertAll lib cv' r with
      | .error f => .error f
      | .ok (r', cv'') => .ok ((n, t') :: r', cv'')

/-- What loading entries does, with converter `cv` and effect so far `e`; `cs` is the charset of the
dictionary, `useFuzzy` whether fuzzy entries count. -/
def load (ct : CType) (lib : IconvLib) (useFuzzy : Bool) (cs : Str) : List Entry → IConv → Effect → Ending × Effect
  | [], _, e => (.returned, e)
  | en :: rest, cv, e =>
    match en.header?, en.body with
    | some t, _ =>
      match cv.setCharsets ct lib (sourceCharset ct t) cs with
      | (cv', none) => load ct lib useFuzzy cs rest cv' { e with rule := e.rule.or (headerRule ct t) }
      | (_, some w) => (.threw w, { e with rule := e.rule.or (headerRule ct t) })
    | none, .single t =>
      if t ≠ [] ∧ (useFuzzy = true ∨ en.fuzzy = false) then
        match cv.convert lib t with
        | .fault f => (.crashed f, ⟨[], none⟩)
        | .ok t' cv' _ => load ct lib useFuzzy cs rest cv' { e with adds := e.adds ++ [.singular en.ctxt en.msgid t'] }
      else load ct lib useFuzzy cs rest cv e
    | none, .plural idp strs =>
      match convertAll lib cv strs with
      | .error f => (.crashed f, ⟨[], none⟩)
      | .ok (strs', cv') =>
        if (∃ x ∈ strs, x.2 ≠ []) ∧ (useFuzzy = true ∨ en.fuzzy = false) then
          load ct lib useFuzzy cs rest cv' { e with adds := e.adds ++ [.plural en.ctxt en.msgid idp (pluralVec strs')] }
        else load ct lib useFuzzy cs rest cv' e

end Tgt.Spec.Po
