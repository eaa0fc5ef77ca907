import Verif.Model.Log
import Verif.Model.Outcome
import Verif.Model.PluralForms
/-
Model of src/dictionary.cpp and include/tinygettext/dictionary.hpp.
-/
namespace Tgt

/-- Address of a `Dictionary` object. -/
macro "DictId" : term => `(Nat)

/-- `Dictionary::Entries` (dictionary.hpp:36). -/
abbrev Entries := AMap Str (List Str)

/-- `class Dictionary` (dictionary.hpp:33-51); `fallback = none` is the null pointer. -/
structure Dictionary where
  entries : Entries
  ctxtEntries : AMap Str Entries
  charset : Str
  pluralForms : PluralForms
  hasFallback : Bool
  fallback : Option DictId
  deriving DecidableEq, Repr

namespace Dictionary

/-- `Dictionary::Dictionary(charset)` (src/dictionary.cpp:42-50). -/
def init (charset : Str) : Dictionary := ⟨[], [], charset, .undefined, false, none⟩

/-- `set_plural_forms` (src/dictionary.cpp:62-66). -/
def setPluralForms (d : Dictionary) (p : PluralForms) : Dictionary := { d with pluralForms := p }

/-- `addFallback` (dictionary.hpp:109-113). -/
def addFallback (d : Dictionary) (p : Option DictId) : Dictionary :=
  { d with hasFallback := true, fallback := p }

/-- "default to english rules" (src/dictionary.cpp:98-101, 110-113, 167-170). -/
def english (msgid msgidPlural : Str) (count : Int) : Str :=
  if count = 1 then msgid else msgidPlural

/-- private `translate_plural(dict, …)` (src/dictionary.cpp:80-115).  The "Candidates" lines come in
the iteration order of the hash map (here: list order). -/
def translatePluralIn (d : Dictionary) (e : Entries) (msgid msgidPlural : Str) (count : Int) :
    Str × List Diag :=
  match e.get? msgid with
  | some msgstrs =>
    let n := d.pluralForms.getPlural count
    match msgstrs[n]? with
    | none => (msgid, [.pluralMissing msgid, .pluralMissingForm n])
    | some s => if !s.isEmpty then (s, []) else (english msgid msgidPlural count, [])
  | none =>
    (english msgid msgidPlural count,
     [.couldntTranslate msgid, .candidatesHead] ++ e.keys.map Diag.candidate)

/-- `translate_plural` (src/dictionary.cpp:74-78). -/
def translatePlural (d : Dictionary) (msgid msgidPlural : Str) (num : Int) : Str × List Diag :=
  d.translatePluralIn d.entries msgid msgidPlural num

/-- private `translate(dict, msgid)` (src/dictionary.cpp:123-138).  `heap` resolves the fallback
pointer; fuel bounds the recursion depth (a cyclic fallback chain recurses forever). -/
def translateIn (heap : DictId → Option Dictionary) :
    Nat → Dictionary → Entries → Str → Prog (List Diag) Str
  | 0, _, _, _ => Prog.diverge
  | fuel + 1, d, e, msgid =>
    match e.get? msgid with
    | some (s :: _) => Prog.pure s
    | _ => fun log =>
      let log := log ++ [.couldntTranslate msgid]
      if d.hasFallback then
        match d.fallback with
        | none => .fault .nullDeref
        | some p =>
          match heap p with
          | none => .fault .useAfterFree
          | some d' => translateIn heap fuel d' d'.entries msgid log
      else .ok msgid log

/-- `translate` (src/dictionary.cpp:117-121). -/
def translate (heap : DictId → Option Dictionary) (fuel : Nat) (d : Dictionary) (msgid : Str) :
    Prog (List Diag) Str :=
  translateIn heap fuel d d.entries msgid

/-- `translate_ctxt` (src/dictionary.cpp:140-153). -/
def translateCtxt (heap : DictId → Option Dictionary) (fuel : Nat) (d : Dictionary)
    (msgctxt msgid : Str) : Prog (List Diag) Str :=
  match d.ctxtEntries.get? msgctxt with
  | some e => translateIn heap fuel d e msgid
  | none => fun log => .ok msgid (log ++ [.couldntTranslate msgid])

/-- `translate_ctxt_plural` (src/dictionary.cpp:155-172). -/
def translateCtxtPlural (d : Dictionary) (msgctxt msgid msgidPlural : Str) (num : Int) :
    Str × List Diag :=
  match d.ctxtEntries.get? msgctxt with
  | some e => d.translatePluralIn e msgid msgidPlural num
  | none => (if num ≠ 1 then msgidPlural else msgid, [.couldntTranslate msgid])

/-- The common body of the plural `add_translation` overloads on the vector `m[msgid]`
(src/dictionary.cpp:178-189, 213-224): new vector and diagnostics. -/
def addPluralVec (ctxt : Option Str) (msgid msgidPlural : Str) (vec msgstrs : List Str) :
    List Str × List Diag :=
  if vec.isEmpty then (msgstrs, [])
  else if vec ≠ msgstrs then (msgstrs, [.collisionPlural ctxt msgid msgidPlural vec msgstrs])
  else (vec, [])

/-- The common body of the singular `add_translation` overloads on the vector `m[msgid]`
(src/dictionary.cpp:195-205, 230-241). -/
def addSingularVec (ctxt : Option Str) (msgid : Str) (vec : List Str) (msgstr : Str) :
    List Str × List Diag :=
  match vec with
  | [] => ([msgstr], [])
  | v0 :: rest =>
    if v0 ≠ msgstr then (msgstr :: rest, [.collisionSingular ctxt msgid v0 msgstr])
    else (vec, [])

/-- `std::vector<std::string>& vec = m[key]`: the current vector, created empty if absent. -/
def vecAt (e : Entries) (msgid : Str) : List Str :=
  match e.get? msgid with
  | some v => v
  | none => []

/-- `ctxt_entries[msgctxt]`: the current map, created empty if absent. -/
def ctxtAt (c : AMap Str Entries) (ctxt : Str) : Entries :=
  match c.get? ctxt with
  | some e => e
  | none => []

/-- `add_translation(msgid, msgid_plural, msgstrs)` (src/dictionary.cpp:174-190). -/
def addPlural (d : Dictionary) (msgid msgidPlural : Str) (msgstrs : List Str) :
    Dictionary × List Diag :=
  let r := addPluralVec none msgid msgidPlural (vecAt d.entries msgid) msgstrs
  ({ d with entries := d.entries.set msgid r.1 }, r.2)

/-- `add_translation(msgid, msgstr)` (src/dictionary.cpp:192-206). -/
def addSingular (d : Dictionary) (msgid msgstr : Str) : Dictionary × List Diag :=
  let r := addSingularVec none msgid (vecAt d.entries msgid) msgstr
  ({ d with entries := d.entries.set msgid r.1 }, r.2)

/-- `add_translation(msgctxt, msgid, msgid_plural, msgstrs)` (src/dictionary.cpp:208-225). -/
def addCtxtPlural (d : Dictionary) (ctxt msgid msgidPlural : Str) (msgstrs : List Str) :
    Dictionary × List Diag :=
  let e := ctxtAt d.ctxtEntries ctxt
  let r := addPluralVec (some ctxt) msgid msgidPlural (vecAt e msgid) msgstrs
  ({ d with ctxtEntries := d.ctxtEntries.set ctxt (e.set msgid r.1) }, r.2)

/-- `add_translation(msgctxt, msgid, msgstr)` (src/dictionary.cpp:227-242). -/
def addCtxtSingular (d : Dictionary) (ctxt msgid msgstr : Str) : Dictionary × List Diag :=
  let e := ctxtAt d.ctxtEntries ctxt
  let r := addSingularVec (some ctxt) msgid (vecAt e msgid) msgstr
  ({ d with ctxtEntries := d.ctxtEntries.set ctxt (e.set msgid r.1) }, r.2)

/-- `foreach(func)` (dictionary.hpp:99-107): the sequence of calls `func(msgid, msgstrs)`. -/
def «foreach» (d : Dictionary) : List (Str × List Str) := d.entries

/-- `foreach_ctxt(func)` (dictionary.hpp:117-128): the calls `func(ctxt, msgid, msgstrs)`. -/
def foreachCtxt (d : Dictionary) : List (Str × Str × List Str) :=
  d.ctxtEntries.flatMap (fun ce => ce.2.map (fun e => (ce.1, e.1, e.2)))

end Dictionary

/-- A call of one of the four `add_translation` overloads (dictionary.hpp:83-94). -/
inductive Add where
  | singular (ctxt : Option Str) (msgid msgstr : Str)
  | plural (ctxt : Option Str) (msgid msgidPlural : Str) (msgstrs : List Str)
  deriving DecidableEq, Repr

/-- The call; the parser picks the overload by `has_msgctxt` (src/po_parser.cpp:432-435, 461-464). -/
def Add.apply (d : Dictionary) : Add → Dictionary × List Diag
  | .singular none i s => d.addSingular i s
  | .singular (some c) i s => d.addCtxtSingular c i s
  | .plural none i p v => d.addPlural i p v
  | .plural (some c) i p v => d.addCtxtPlural c i p v

end Tgt
