import Verif.Model.POParser
/-
A second description of the parser, used only in proofs: parser code as a function from a position
on a tape of lines to a list of events and a new position.  `Proofs/Refine.lean` proves that it
computes the same as the model.
-/
namespace Tgt.POParser

/-- The input-related part of a parser state. -/
structure Cell where
  input : Stream
  line : Str
  eof : Bool
  deriving DecidableEq, Repr

/-- Effect of `next_line`. -/
def Cell.next (x : Cell) : Cell :=
  ⟨(x.input.getline x.line).2.2, (x.input.getline x.line).2.1,
   if (x.input.getline x.line).1 then x.eof else true⟩

/-- All positions reached by repeated `next_line`. -/
abbrev Tape := Nat → Cell

/-- The tape starting at a cell. -/
def tape (x : Cell) : Tape
  | 0 => x
  | n + 1 => (tape x n).next

/-- A state moved to position `p` of the tape. -/
def mv (T : Tape) (s : PState) (p : Nat) : PState :=
  { s with input := (T p).input, currentLine := (T p).line, eof := (T p).eof, lineNumber := p + 1 }

/-- What parser code does besides moving on. -/
inductive Ev where
  /-- a warning or error at position `p`; `pedantic`: only in pedantic mode -/
  | diag (level : Level) (p : Nat) (msg : Str) (pedantic : Bool)
  /-- start collecting `msgstr[N]` -/
  | clear
  /-- convert a `msgstr[N]` -/
  | conv (n : Nat) (text : Str)
  /-- add the collected plural translation -/
  | plural (p : Nat) (fuzzy : Bool) (ctxt : Option Str) (msgid msgidPlural : Str)
  /-- convert and add a translation -/
  | singular (fuzzy : Bool) (ctxt : Option Str) (msgid msgstr : Str)
  /-- process the header -/
  | header (p : Nat) (text : Str)
  deriving DecidableEq, Repr

/-- How tape code ends: normally, by POParserError, by line number overflow, out of fuel. -/
inductive TRes (α : Type) where
  | ok (a : α) (p : Nat)
  | err (p : Nat)
  | overflow
  | diverge
  deriving DecidableEq, Repr

/-- Tape code. -/
def E (α : Type) := Nat → List Ev × TRes α

namespace E
variable {α β : Type}

def pure (a : α) : E α := fun p => ([], .ok a p)

def bind (e : E α) (f : α → E β) : E β := fun p =>
  match e p with
  | (w, .ok a p') => (w ++ (f a p').1, (f a p').2)
  | (w, .err p') => (w, .err p')
  | (w, .overflow) => (w, .overflow)
  | (w, .diverge) => (w, .diverge)

instance : Monad E where
  pure := E.pure
  bind := E.bind

def emit (l : List Ev) : E Unit := fun p => (l, .ok () p)
/-- Events that mention the position. -/
def emitAt (f : Nat → List Ev) : E Unit := fun p => (f p, .ok () p)
def diverge : E α := fun _ => ([], .diverge)
def throw : E α := fun p => ([], .err p)
end E

section
variable (ct : CType) (fuel : Nat) (T : Tape) (big5 : Bool)

def lineE : E Str := fun p => ([], .ok (T p).line p)
def eofE : E Bool := fun p => ([], .ok (T p).eof p)
def warnE (msg : Str) (pedantic : Bool := false) : E Unit := fun p =>
  ([.diag .warning p msg pedantic], .ok () p)
def nextE : E Unit := fun p => if p + 1 ≥ intMax then ([], .overflow) else ([], .ok () (p + 1))

def recoverE : Nat → E Unit
  | 0 => E.diverge
  | f + 1 => do
    nextE
    let l ← lineE T
    let e ← eofE T
    if !e && !emptyLine ct l then recoverE f else E.pure ()

def errorE {α : Type} (msg : Str) : E α := do
  E.emitAt (fun p => [.diag .error p msg false])
  recoverE ct T fuel
  E.throw

/-- Result of reading the rest of a string literal: unknown escapes met, and either the text with
what follows the closing quote, or an error message. -/
structure Lex where
  unknown : List Byte
  res : Except Str (Str × Str)
  deriving Repr

def Lex.push (w : Str) (r : Lex) : Lex :=
  ⟨r.unknown, match r.res with | .ok (t, rest) => .ok (w ++ t, rest) | .error m => .error m⟩

/-- Read the rest of a string literal. -/
def lex (big5 : Bool) : Str → Lex
  | [] => ⟨[], .error b!"unexpected end of string"⟩
  | 34 :: t => ⟨[], .ok ([], t)⟩
  | [ch] =>
    if big5 && 0x81 ≤ ch && ch ≤ 0xfe then ⟨[], .error b!"invalid big5 encoding"⟩
    else if ch = 92 then ⟨[], .error b!"unexpected end of string in handling '\\'"⟩
    else ⟨[], .error b!"unexpected end of string"⟩
  | ch :: e :: t =>
    if big5 && 0x81 ≤ ch && ch ≤ 0xfe then (lex big5 t).push [ch, e]
    else if ch = 92 then
      match unescape e with
      | some r => (lex big5 t).push [r]
      | none => ⟨e :: (lex big5 t).unknown, ((lex big5 t).push [92, e]).res⟩
    else (lex big5 (e :: t)).push [ch]

def unknownMsg (e : Byte) : Str := b!"unhandled escape '\\" ++ [e] ++ b!"'"

def getStringLineE (out : Str) (skip : Nat) : E Str := do
  let l ← lineE T
  if skip + 1 ≥ u32 l.length then errorE ct fuel T b!"unexpected end of line"
  else if l[skip]? ≠ some 34 then errorE ct fuel T b!"expected start of string '\"'"
  else
    let r := lex big5 (l.drop (skip + 1))
    do
    E.emitAt (fun p => r.unknown.map (fun e => .diag .warning p (unknownMsg e) false))
    match r.res with
    | .error m => errorE ct fuel T m
    | .ok (t, rest) =>
      if rest.any (fun b => !ct.isspace b) then do
        warnE b!"unexpected garbage after string ignoren"
        E.pure (out ++ t)
      else E.pure (out ++ t)

/-- Position of the first quote at or after `i`, over whitespace only; `none`: end of line,
`some none`: something else first. -/
def skipTo (ct : CType) : Str → Nat → Except Str Nat
  | [], _ => .error b!"unexpected end of line"
  | b :: t, i => if b = 34 then .ok i
    else if !ct.isspace b then .error b!"string must start with '\"'" else skipTo ct t (i + 1)

def contLoopE : Nat → Str → E Str
  | 0, _ => E.diverge
  | f + 1, out => do
    nextE
    let l ← lineE T
    match scanQuote ct l 0 with
    | some i => do
      (if i = 1 then warnE b!"leading whitespace before string" true else E.pure ())
      let out ← getStringLineE ct fuel T big5 out i
      contLoopE f out
    | none => E.pure out

def getStringE (skip : Nat) : E Str := do
  let l ← lineE T
  if skip + 1 ≥ u32 l.length then errorE ct fuel T b!"unexpected end of line"
  else do
    let out ← (if l[skip]? = some 32 ∧ l[skip + 1]? = some 34 then
        getStringLineE ct fuel T big5 [] (skip + 1)
      else do
        warnE b!"keyword and string must be seperated by a single space" true
        match skipTo ct ((l.take (u32 l.length)).drop skip) skip with
        | .error m => errorE ct fuel T m
        | .ok i => getStringLineE ct fuel T big5 [] i)
    contLoopE ct fuel T big5 fuel out

/-- Is this comment line a fuzzy flag? -/
def fuzzyFlag (l : Str) : Bool :=
  l.length ≥ 2 && l[1]? == some 44 && occursIn b!"fuzzy" (l.drop 2)

def commentLoopE : Nat → Bool → E Bool
  | 0, _ => E.diverge
  | f + 1, fuzzy => do
    let l ← lineE T
    if hasPrefix b!"#" l then do
      nextE
      commentLoopE f (if fuzzyFlag l then true else fuzzy)
    else E.pure fuzzy

/-- `first`: no `msgstr[N]` seen yet. -/
def pluralLoopE : Nat → Bool → Bool → E Bool
  | 0, _, _ => E.diverge
  | f + 1, first, saw => do
    let l ← lineE T
    if emptyLine ct l then
      if first then errorE ct fuel T b!"expected 'msgstr[N] (0 <= N <= 9)'"
      else E.pure saw
    else
      match msgstrIndex l with
      | some n => do
        let msgstr ← getStringE ct fuel T big5 9
        E.emit [.conv n msgstr]
        pluralLoopE f false (if !msgstr.isEmpty then true else saw)
      | none => errorE ct fuel T b!"expected 'msgstr[N]'"

def pluralEntryE (fuzzy : Bool) (ctxt : Option Str) (msgid : Str) : E Unit := do
  let msgidPlural ← getStringE ct fuel T big5 12
  E.emit [.clear]
  let saw ← pluralLoopE ct fuel T big5 fuel true false
  let l ← lineE T
  if !emptyLine ct l then errorE ct fuel T b!"expected 'msgstr[N]' or empty line"
  else if saw then E.emitAt (fun p => [.plural p fuzzy ctxt msgid msgidPlural])
  else E.pure ()

def singularEntryE (fuzzy : Bool) (ctxt : Option Str) (msgid : Str) : E Unit := do
  let msgstr ← getStringE ct fuel T big5 6
  if msgid.isEmpty then E.emitAt (fun p => [.header p msgstr])
  else if !msgstr.isEmpty then E.emit [.singular fuzzy ctxt msgid msgstr]
  else E.pure ()

def ctxtE : E (Option Str) := do
  let l ← lineE T
  if hasPrefix b!"msgctxt" l then do
    let t ← getStringE ct fuel T big5 7
    E.pure (some t)
  else E.pure none

def msgidE : E Str := do
  let l ← lineE T
  if hasPrefix b!"msgid" l then getStringE ct fuel T big5 5
  else errorE ct fuel T b!"expected 'msgid'"

def entryBodyE (fuzzy : Bool) : E Unit := do
  let ctxt ← ctxtE ct fuel T big5
  let msgid ← msgidE ct fuel T big5
  let l ← lineE T
  if hasPrefix b!"msgid_plural" l then pluralEntryE ct fuel T big5 fuzzy ctxt msgid
  else do
    let l ← lineE T
    if hasPrefix b!"msgstr" l then singularEntryE ct fuel T big5 fuzzy ctxt msgid
    else errorE ct fuel T b!"expected 'msgstr' or 'msgid_plural'"

/-- The end of an iteration. -/
def finishE : E Unit := do
  let l ← lineE T
  (if !emptyLine ct l then errorE ct fuel T b!"expected empty line" else E.pure ())
  nextE

def entryE : E Unit := do
  let fuzzy ← commentLoopE T fuel false
  let l ← lineE T
  (if !emptyLine ct l then entryBodyE ct fuel T big5 fuzzy else E.pure ())
  finishE ct fuel T

/-- The charset a header announces, upper-cased; empty if none. -/
def headerCharset (ct : CType) (header : Str) : Str := go header [] []
where
  go : Str → Str → Str → Str
    | [], _, from_ => from_
    | b :: t, acc, from_ =>
      if b = 10 then
        go t [] (if hasPrefix b!"Content-Type: text/plain; charset=" acc
          then (acc.drop 34).map ct.toupper else from_)
      else go t (acc ++ [b]) from_

/-- Big5 flag after some events. -/
def big5After (ct : CType) (b : Bool) (w : List Ev) : Bool :=
  b || w.any (fun e => match e with
    | .header _ t => headerCharset ct t == b!"BIG5"
    | _ => false)

/-- `while (!eof) try { … } catch (POParserError&) {}`. -/
def mainLoopE : Nat → Bool → E Unit
  | 0, _ => E.diverge
  | f + 1, b => fun p =>
    if !(T p).eof then
      match entryE ct fuel T b p with
      | (w, .ok _ p') => (w ++ (mainLoopE f (big5After ct b w) p').1, (mainLoopE f (big5After ct b w) p').2)
      | (w, .err p') => (w ++ (mainLoopE f (big5After ct b w) p').1, (mainLoopE f (big5After ct b w) p').2)
      | (w, .overflow) => (w, .overflow)
      | (w, .diverge) => (w, .diverge)
    else ([], .ok () p)
end

/-- Effect of an event; the list is the vector of plural strings being collected. -/
def evStep (c : Cfg) (T : Tape) (e : Ev) : Prog (List Str × PState) Unit := fun x =>
  match e with
  | .diag lv p msg ped =>
    if ped && !c.pedantic then .ok () x
    else .ok () (x.1, { x.2 with log := x.2.log ++ [.po lv c.filename (p + 1) msg (T p).line] })
  | .clear => .ok () ([], x.2)
  | .conv n t =>
    match convert c t x.2 with
    | .ok r s => .ok () (setAt x.1 n r, s)
    | .poError s => .poError (x.1, s)
    | .exn w s => .exn w (x.1, s)
    | .fault f => .fault f
    | .diverge => .diverge
  | .singular fz ctxt id t =>
    if c.useFuzzy || !fz then
      match convert c t x.2 with
      | .ok r s => .ok () (x.1, { s with dict := ((Add.singular ctxt id r).apply s.dict).1,
                                         log := s.log ++ ((Add.singular ctxt id r).apply s.dict).2 })
      | .poError s => .poError (x.1, s)
      | .exn w s => .exn w (x.1, s)
      | .fault f => .fault f
      | .diverge => .diverge
    else .ok () x
  | .plural p fz ctxt id idp =>
    if c.useFuzzy || !fz then
      .ok () (x.1, { x.2 with
        dict := ((Add.plural ctxt id idp x.1).apply x.2.dict).1
        log := x.2.log ++
          (if !x.2.dict.pluralForms.isDefined then
            [.po .warning c.filename (p + 1) b!"msgstr[N] seen, but no Plural-Forms given" (T p).line]
          else if x.1.length ≠ x.2.dict.pluralForms.getNplural then
            [.po .warning c.filename (p + 1) b!"msgstr[N] count doesn't match Plural-Forms.nplural" (T p).line]
          else []) ++ ((Add.plural ctxt id idp x.1).apply x.2.dict).2 })
    else .ok () x
  | .header p t =>
    match parseHeader c t (mv T x.2 p) with
    | .ok _ s => .ok () (x.1, s)
    | .poError s => .poError (x.1, s)
    | .exn w s => .exn w (x.1, s)
    | .fault f => .fault f
    | .diverge => .diverge

/-- Effect of a list of events. -/
def interp (c : Cfg) (T : Tape) : List Ev → Prog (List Str × PState) Unit
  | [] => Prog.pure ()
  | e :: w => Prog.bind (evStep c T e) (fun _ => interp c T w)

/-- What tape code amounts to when run on a state at position `p`. -/
def runE {α : Type} (c : Cfg) (T : Tape) (r : List Ev × TRes α) (v : List Str) (s : PState) :
    Res (List Str × PState) α :=
  match interp c T r.1 (v, s) with
  | .ok _ (v', s') =>
    match r.2 with
    | .ok a p => .ok a (v', mv T s' p)
    | .err p => .poError (v', mv T s' p)
    | .overflow => .fault .signedOverflow
    | .diverge => .diverge
  | .poError x => .poError x
  | .exn w x => .exn w x
  | .fault f => .fault f
  | .diverge => .diverge

end Tgt.POParser
