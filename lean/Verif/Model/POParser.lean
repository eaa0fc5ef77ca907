import Verif.Model.Dictionary
import Verif.Model.IConv
import Verif.Model.Stream
/-
Model of src/po_parser.cpp and include/tinygettext/po_parser.hpp: the complete parser.

Every loop takes the fuel `c.fuel`; running out is the outcome `diverge`.
-/
namespace Tgt

/-- Everything a parse depends on besides the input: the C library, the static
`POParser::pedantic` (src/po_parser.cpp:38), the constructor arguments `filename` and `use_fuzzy`
(:49), and the fuel for loops. -/
structure Cfg where
  ct : CType
  lib : IconvLib
  pedantic : Bool
  filename : Str
  useFuzzy : Bool
  fuel : Nat

/-- The mutable members of `class POParser` (po_parser.hpp:33-45), the referenced dictionary and
the messages logged so far (oldest first).  `running` is never used. -/
structure PState where
  input : Stream
  dict : Dictionary
  eof : Bool
  big5 : Bool
  lineNumber : Nat
  currentLine : Str
  conv : IConv
  log : List Diag
  deriving DecidableEq, Repr

/-- Parser code. -/
abbrev P := Prog PState

namespace POParser
open Prog

/-- INT_MAX. -/
def intMax : Nat := 2147483647

/-- The whole `current_line`. -/
def line : P Str := fun s => .ok s.currentLine s

/-- `current_line[i]`: checked read; index `size()` is the terminating NUL. -/
def rd (i : Nat) : P Byte := fun s =>
  match s.currentLine[i]? with
  | some b => .ok b s
  | none => if i = s.currentLine.length then .ok 0 s else .fault .outOfBounds

/-- Log a message. -/
def emit (d : List Diag) : P Unit := fun s => .ok () { s with log := s.log ++ d }

/-- `POParser::warning` (src/po_parser.cpp:67-72). -/
def warning (c : Cfg) (msg : Str) : P Unit := fun s =>
  emit [.po .warning c.filename s.lineNumber msg s.currentLine] s

/-- `POParser::next_line` (src/po_parser.cpp:87-93). -/
def nextLine : P Unit := fun s =>
  if s.lineNumber ≥ intMax then .fault .signedOverflow
  else
    let r := s.input.getline s.currentLine
    .ok () { s with
      lineNumber := s.lineNumber + 1
      currentLine := r.2.1
      input := r.2.2
      eof := if r.1 then s.eof else true }

/-- `POParser::is_empty_line` (src/po_parser.cpp:302-322) as a function of the line. -/
def emptyLine (ct : CType) (l : Str) : Bool :=
  match l with
  | [] => true
  | 35 :: t =>   -- '#': comments count as empty lines
    match t with
    | [] => true
    | b :: _ => ct.isspace b
  | _ => l.all ct.isspace

/-- `POParser::is_empty_line`. -/
def isEmptyLine (c : Cfg) : P Bool := fun s => .ok (emptyLine c.ct s.currentLine) s

/-- The recovery loop of `POParser::error` (src/po_parser.cpp:80-82):
`do next_line(); while(!eof && !is_empty_line());`. -/
def recover (c : Cfg) : Nat → P Unit
  | 0 => diverge
  | f + 1 => do
    nextLine
    let s ← get
    if !s.eof && !emptyLine c.ct s.currentLine then recover c f else Prog.pure ()

/-- The message of `POParser::error` (src/po_parser.cpp:77). -/
def logError (c : Cfg) (msg : Str) : P Unit := fun s =>
  emit [.po .error c.filename s.lineNumber msg s.currentLine] s

/-- `POParser::error` (src/po_parser.cpp:74-85); never returns. -/
def error {α : Type} (c : Cfg) (msg : Str) : P α := do
  logError c msg
  recover c c.fuel
  throwPo

/-- The escape `switch` (src/po_parser.cpp:129-138); `none` is the default branch. -/
def unescape (b : Byte) : Option Byte :=
  match b with
  | 97 => some 7      -- 'a'
  | 98 => some 8      -- 'b'
  | 118 => some 11    -- 'v'
  | 110 => some 10    -- 'n'
  | 116 => some 9     -- 't'
  | 114 => some 13    -- 'r'
  | 34 => some 34     -- '"'
  | 92 => some 92     -- '\\'
  | _ => none

/-- The character loop of `get_string_line` (src/po_parser.cpp:104-152): `out` so far and index `i`;
returns the final `out` and the index of the closing quote. -/
def stringLoop (c : Cfg) : Nat → Str → Nat → P (Str × Nat)
  | 0, _, _ => diverge
  | f + 1, out, i => do
    let ch ← rd i
    if ch = 34 then Prog.pure (out, i)
    else do
      let s ← get
      let size := s.currentLine.length
      if s.big5 && 0x81 ≤ ch && ch ≤ 0xfe then do
        if i + 1 ≥ size then error c b!"invalid big5 encoding"
        else do
          let ch2 ← rd (i + 1)
          stringLoop c f (out ++ [ch, ch2]) (i + 2)
      else if i ≥ size then error c b!"unexpected end of string"
      else if ch = 92 then do
        if i + 1 ≥ size then error c b!"unexpected end of string in handling '\\'"
        else do
          let e ← rd (i + 1)
          match unescape e with
          | some r => stringLoop c f (out ++ [r]) (i + 2)
          | none => do
            warning c (b!"unhandled escape '\\" ++ [e] ++ b!"'")
            let prev ← rd (i + 1 - 1)
            stringLoop c f (out ++ [prev, e]) (i + 2)
      else stringLoop c f (out ++ [ch]) (i + 1)

/-- `POParser::get_string_line` (src/po_parser.cpp:95-161).  `out` is the `ostringstream`; its new
contents are returned. -/
def getStringLine (c : Cfg) (out : Str) (skip : Nat) : P Str := do
  let l ← line
  if skip + 1 ≥ u32 l.length then error c b!"unexpected end of line"
  else do
    let q ← rd skip
    if q ≠ 34 then error c b!"expected start of string '\"'"
    else do
      let r ← stringLoop c c.fuel out (skip + 1)
      -- trailing garbage (:155-160)
      let l ← line
      if (l.drop (r.2 + 1)).any (fun b => !c.ct.isspace b) then do
        warning c b!"unexpected garbage after string ignoren"
        Prog.pure r.1
      else Prog.pure r.1

/-- The space-skipping loop of `get_string` (src/po_parser.cpp:180-199); `skip` is an
`unsigned int`. -/
def skipLoop (c : Cfg) : Nat → Str → Nat → P Str
  | 0, _, _ => diverge
  | f + 1, out, skip => do
    let l ← line
    if skip ≥ u32 l.length then error c b!"unexpected end of line"
    else do
      let ch ← rd skip
      if ch = 34 then getStringLine c out skip
      else if !c.ct.isspace ch then error c b!"string must start with '\"'"
      else skipLoop c f out (u32 (skip + 1))

/-- The scan for a continuation string (src/po_parser.cpp:204-223): index of a quote preceded only
by whitespace. -/
def scanQuote (ct : CType) : Str → Nat → Option Nat
  | [], _ => none
  | b :: t, i => if b = 34 then some i else if ct.isspace b then scanQuote ct t (i + 1) else none

/-- `if (pedantic) warning(msg)`. -/
def pedanticWarning (c : Cfg) (msg : Str) : P Unit :=
  if c.pedantic then warning c msg else Prog.pure ()

/-- The `next:` loop of `get_string` (src/po_parser.cpp:202-225). -/
def contLoop (c : Cfg) : Nat → Str → P Str
  | 0, _ => diverge
  | f + 1, out => do
    nextLine
    let l ← line
    match scanQuote c.ct l 0 with
    | some i => do
      (if i = 1 then pedanticWarning c b!"leading whitespace before string" else Prog.pure ())
      let out ← getStringLine c out i
      contLoop c f out
    | none => Prog.pure out

/-- `POParser::get_string` (src/po_parser.cpp:163-226). -/
def getString (c : Cfg) (skip : Nat) : P Str := do
  let l ← line
  if skip + 1 ≥ u32 l.length then error c b!"unexpected end of line"
  else do
    let a ← rd skip
    let sep ← (if a = 32 then do let b ← rd (skip + 1); Prog.pure (b == 34) else Prog.pure false)
    let out ← (if sep then getStringLine c [] (skip + 1)
      else do
        pedanticWarning c b!"keyword and string must be seperated by a single space"
        skipLoop c c.fuel [] skip)
    contLoop c c.fuel out

/-- `POParser::prefix` (src/po_parser.cpp:324-328) as a function of the line; also `has_prefix`
(:228-234). -/
def hasPrefix (p l : Str) : Bool := p.isPrefixOf l

/-- `POParser::prefix`. -/
def isPrefix (p : Str) : P Bool := fun s => .ok (hasPrefix p s.currentLine) s

/-- One line of the header (src/po_parser.cpp:245-284); `from_charset` in, `from_charset` out. -/
def headerLine (c : Cfg) (l : Str) (fromCharset : Str) : P Str := do
  if hasPrefix b!"Content-Type:" l then
    if hasPrefix b!"Content-Type: text/plain; charset=" l then
      Prog.pure ((l.drop 34).map c.ct.toupper)
    else do
      warning c b!"malformed Content-Type header"
      Prog.pure fromCharset
  else if hasPrefix b!"Plural-Forms:" l then do
    let pf := PluralForms.fromString c.ct l
    if !pf.isDefined then do
      warning c b!"unknown Plural-Forms given"
      Prog.pure fromCharset
    else do
      let s ← get
      if !s.dict.pluralForms.isDefined then do
        modify (fun s => { s with dict := s.dict.setPluralForms pf })
        Prog.pure fromCharset
      else if s.dict.pluralForms ≠ pf then do
        warning c b!"Plural-Forms missmatch between .po file and dictionary"
        Prog.pure fromCharset
      else Prog.pure fromCharset
  else Prog.pure fromCharset

/-- The header loop (src/po_parser.cpp:239-287): `acc` is `header.substr(start, i - start)`, i.e.
the current line so far; text after the last newline is ignored. -/
def headerLoop (c : Cfg) : Str → Str → Str → P Str
  | [], _, fromCharset => Prog.pure fromCharset
  | b :: t, acc, fromCharset =>
    if b = 10 then do
      let fromCharset ← headerLine c acc fromCharset
      headerLoop c t [] fromCharset
    else headerLoop c t (acc ++ [b]) fromCharset

/-- `conv.set_charsets(from, to)` on the parser's converter. -/
def setCharsets (c : Cfg) (fromC toC : Str) : P Unit := fun s =>
  let r := s.conv.setCharsets c.ct c.lib fromC toC
  match r.2 with
  | none => .ok () { s with conv := r.1 }
  | some w => .exn w { s with conv := r.1 }

/-- `POParser::parse_header` (src/po_parser.cpp:236-300). -/
def parseHeader (c : Cfg) (header : Str) : P Unit := do
  let fromCharset ← headerLoop c header [] []
  let fromCharset ←
    (if fromCharset.isEmpty || fromCharset = b!"CHARSET" then do
      warning c b!"charset not specified for .po, fallback to utf-8"
      Prog.pure b!"UTF-8"
    else if fromCharset = b!"BIG5" then do
      modify (fun s => { s with big5 := true })
      Prog.pure fromCharset
    else Prog.pure fromCharset)
  let s ← get
  setCharsets c fromCharset s.dict.charset

/-- `conv.convert(text)` on the parser's converter. -/
def convert (c : Cfg) (text : Str) : P Str := fun s =>
  match s.conv.convert c.lib text with
  | .ok r conv' d => .ok r { s with conv := conv', log := s.log ++ d }
  | .fault e => .fault e

/-- `dict.add_translation(…)`. -/
def addTranslation (a : Add) : P Unit := fun s =>
  let r := a.apply s.dict
  .ok () { s with dict := r.1, log := s.log ++ r.2 }

/-- `while(prefix("#"))` (src/po_parser.cpp:355-365); returns the fuzzy flag. -/
def commentLoop (c : Cfg) : Nat → Bool → P Bool
  | 0, _ => diverge
  | f + 1, fuzzy => do
    let l ← line
    if hasPrefix b!"#" l then do
      let fuzzy := if l.length ≥ 2 && l[1]? == some 44 && occursIn b!"fuzzy" (l.drop 2) then true
                   else fuzzy
      nextLine
      commentLoop c f fuzzy
    else Prog.pure fuzzy

/-- `msgstr_num.resize(number+1)` if needed, then `msgstr_num[number] = s`
(src/po_parser.cpp:402-405). -/
def setAt (v : List Str) (n : Nat) (s : Str) : List Str :=
  if n ≥ v.length then (v ++ List.replicate (n + 1 - v.length) []).set n s else v.set n s

/-- `prefix("msgstr[") && size() > 8 && isdigit(current_line[7]) && current_line[8] == ']'`
(src/po_parser.cpp:392-394): the digit, if all hold. -/
def msgstrIndex (l : Str) : Option Nat :=
  if hasPrefix b!"msgstr[" l && l.length > 8 then
    match l[7]?, l[8]? with
    | some d, some e => if isdigit d && e == 93 then some (d.toNat - 48) else none
    | _, _ => none
  else none

/-- The `next:` loop over `msgstr[N]` (src/po_parser.cpp:386-411): the vector and
`saw_nonempty_msgstr`. -/
def pluralLoop (c : Cfg) : Nat → List Str → Bool → P (List Str × Bool)
  | 0, _, _ => diverge
  | f + 1, v, saw => do
    let e ← isEmptyLine c
    if e then
      if v.isEmpty then error c b!"expected 'msgstr[N] (0 <= N <= 9)'"
      else Prog.pure (v, saw)
    else do
      let l ← line
      match msgstrIndex l with
      | some n => do
        let msgstr ← getString c 9
        let saw := if !msgstr.isEmpty then true else saw
        let conv ← convert c msgstr
        pluralLoop c f (setAt v n conv) saw
      | none => error c b!"expected 'msgstr[N]'"

/-- The entry with `msgid_plural` (src/po_parser.cpp:380-448). -/
def pluralEntry (c : Cfg) (fuzzy : Bool) (ctxt : Option Str) (msgid : Str) : P Unit := do
  let msgidPlural ← getString c 12
  let r ← pluralLoop c c.fuel [] false
  let e ← isEmptyLine c
  if !e then error c b!"expected 'msgstr[N]' or empty line"
  else if r.2 then
    if c.useFuzzy || !fuzzy then do
      let s ← get
      (if !s.dict.pluralForms.isDefined then
        warning c b!"msgstr[N] seen, but no Plural-Forms given"
      else if r.1.length ≠ s.dict.pluralForms.getNplural then
        warning c b!"msgstr[N] count doesn't match Plural-Forms.nplural"
      else Prog.pure ())
      addTranslation (.plural ctxt msgid msgidPlural r.1)
    else Prog.pure ()
  else Prog.pure ()

/-- The entry with a single `msgstr` (src/po_parser.cpp:449-475). -/
def singularEntry (c : Cfg) (fuzzy : Bool) (ctxt : Option Str) (msgid : Str) : P Unit := do
  let msgstr ← getString c 6
  if msgid.isEmpty then parseHeader c msgstr
  else if !msgstr.isEmpty then
    if c.useFuzzy || !fuzzy then do
      let t ← convert c msgstr
      addTranslation (.singular ctxt msgid t)
    else Prog.pure ()
  else Prog.pure ()

/-- The non-empty part of an iteration (src/po_parser.cpp:368-480). -/
def entryBody (c : Cfg) (fuzzy : Bool) : P Unit := do
  let hasCtxt ← isPrefix b!"msgctxt"
  let ctxt ← (if hasCtxt then do let t ← getString c 7; Prog.pure (some t) else Prog.pure none)
  let hasMsgid ← isPrefix b!"msgid"
  let msgid ← (if hasMsgid then getString c 5 else error c b!"expected 'msgid'")
  let hasPlural ← isPrefix b!"msgid_plural"
  if hasPlural then pluralEntry c fuzzy ctxt msgid
  else do
    let hasMsgstr ← isPrefix b!"msgstr"
    if hasMsgstr then singularEntry c fuzzy ctxt msgid
    else error c b!"expected 'msgstr' or 'msgid_plural'"

/-- The body of the `try` block (src/po_parser.cpp:349-486). -/
def entry (c : Cfg) : P Unit := do
  let fuzzy ← commentLoop c c.fuel false
  let e ← isEmptyLine c
  (if !e then entryBody c fuzzy else Prog.pure ())
  let e ← isEmptyLine c
  (if !e then error c b!"expected empty line" else Prog.pure ())
  nextLine

/-- `try { body } catch(POParserError&) {}` (src/po_parser.cpp:348, 487-489). -/
def tryEntry (c : Cfg) : P Unit := fun s =>
  match entry c s with
  | .poError s' => .ok () s'
  | r => r

/-- `while(!eof)` (src/po_parser.cpp:346-490). -/
def mainLoop (c : Cfg) : Nat → P Unit
  | 0 => diverge
  | f + 1 => do
    let s ← get
    if !s.eof then do
      tryEntry c
      mainLoop c f
    else Prog.pure ()

/-- Removal of a byte order mark (src/po_parser.cpp:335-343). -/
def skipBom : P Unit := fun s =>
  match s.currentLine with
  | 0xef :: 0xbb :: 0xbf :: t => .ok () { s with currentLine := t }
  | _ => .ok () s

/-- `POParser::parse()` (src/po_parser.cpp:330-491). -/
def parseBody (c : Cfg) : P Unit := do
  nextLine
  skipBom
  mainLoop c c.fuel

/-- `POParser::POParser` (src/po_parser.cpp:49-61). -/
def initState (input : Stream) (dict : Dictionary) : PState where
  input := input
  dict := dict
  eof := false
  big5 := false
  lineNumber := 0
  currentLine := []
  conv := .init
  log := []

/-- Construction, `parse()`, destruction: what `static POParser::parse(filename, in, dict)`
(src/po_parser.cpp:40-45) does for a given `use_fuzzy`; the destructor (`~IConv`) runs on normal
return and on exceptions. -/
def run (c : Cfg) (input : Stream) (dict : Dictionary) : Res PState Unit :=
  match parseBody c (initState input dict) with
  | .ok _ s => .ok () { s with conv := s.conv.destroy }
  | .poError s => .poError { s with conv := s.conv.destroy }
  | .exn w s => .exn w { s with conv := s.conv.destroy }
  | .fault e => .fault e
  | .diverge => .diverge

/-- `static void POParser::parse(filename, in, dict)` (src/po_parser.cpp:40-45): the constructor's
default argument `use_fuzzy = true` (po_parser.hpp:47) always applies. -/
def parse (c : Cfg) (input : Stream) (dict : Dictionary) : Res PState Unit :=
  run { c with useFuzzy := true } input dict

end POParser
end Tgt
