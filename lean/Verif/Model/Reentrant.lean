import Verif.Model.Manager
/-
Log callbacks that call the library: the lookups of src/dictionary.cpp:74-172 with every logging statement in its place, where the callback is run
(src/log.cpp:53-62, include/tinygettext/log_stream.hpp:27-29) and may itself look messages up and set callbacks.  Lookups change no dictionary, so the
heap is fixed.  Not modelled: callbacks that load, add translations or delete dictionaries.
-/
namespace Tgt
namespace Reentrant

variable {σ κ : Type}

/-- One after the other. -/
def each {α : Type} (f : α → Prog σ Unit) : List α → Prog σ Unit
  | [] => Prog.pure ()
  | a :: l => Prog.bind (f a) (fun _ => each f l)

/-- private `translate(dict, msgid)` (src/dictionary.cpp:123-138); `say` is the logging statement. -/
def translateIn (say : Diag → Prog σ Unit) (heap : DictId → Option Dictionary) : Nat → Dictionary → Entries → Str → Prog σ Str
  | 0, _, _, _ => Prog.diverge
  | fuel + 1, d, e, msgid =>
    match e.get? msgid with
    | some (s :: _) => Prog.pure s
    | _ =>
      Prog.bind (say (.couldntTranslate msgid)) fun _ =>
        if d.hasFallback then
          match d.fallback with
          | none => Prog.fault .nullDeref
          | some p =>
            match heap p with
            | none => Prog.fault .useAfterFree
            | some d' => translateIn say heap fuel d' d'.entries msgid
        else Prog.pure msgid

/-- private `translate_plural(dict, …)` (src/dictionary.cpp:80-115). -/
def translatePluralIn (say : Diag → Prog σ Unit) (d : Dictionary) (e : Entries) (msgid msgidPlural : Str) (count : Int) : Prog σ Str :=
  match e.get? msgid with
  | some msgstrs =>
    let n := d.pluralForms.getPlural count
    match msgstrs[n]? with
    | none =>
      Prog.bind (say (.pluralMissing msgid)) fun _ =>
        Prog.bind (say (.pluralMissingForm n)) fun _ => Prog.pure msgid
    | some s => if !s.isEmpty then Prog.pure s else Prog.pure (Dictionary.english msgid msgidPlural count)
  | none =>
    Prog.bind (say (.couldntTranslate msgid)) fun _ =>
      Prog.bind (say .candidatesHead) fun _ =>
        Prog.bind (each (fun k => say (.candidate k)) e.keys) fun _ => Prog.pure (Dictionary.english msgid msgidPlural count)

/-- `translate`, `translate_plural`, `translate_ctxt`, `translate_ctxt_plural` (src/dictionary.cpp:74-78, 117-121, 140-172). -/
def lookup (say : Diag → Prog σ Unit) (heap : DictId → Option Dictionary) (fuel : Nat) (d : Dictionary) : Manager.Query → Prog σ Str
  | .translate i => translateIn say heap fuel d d.entries i
  | .ctxt c i =>
    match d.ctxtEntries.get? c with
    | some e => translateIn say heap fuel d e i
    | none => Prog.bind (say (.couldntTranslate i)) fun _ => Prog.pure i
  | .plural i p n => translatePluralIn say d d.entries i p n
  | .ctxtPlural c i p n =>
    match d.ctxtEntries.get? c with
    | some e => translatePluralIn say d e i p n
    | none => Prog.bind (say (.couldntTranslate i)) fun _ => Prog.pure (if n ≠ 1 then p else i)

/-- The same through a `Dictionary&`. -/
def askDict (say : Diag → Prog σ Unit) (heap : DictId → Option Dictionary) (fuel : Nat) (id : DictId) (q : Manager.Query) : Prog σ Str :=
  match heap id with
  | none => Prog.fault .useAfterFree
  | some d => lookup say heap fuel d q

/-- What happens to callbacks: `k` is called with a text, and it returns. -/
inductive Event (κ : Type) where
  | enter (k : κ) (text : Str)
  | leave
  deriving DecidableEq, Repr

/-- What the body of a callback does. -/
inductive Act (κ : Type) where
  /-- a lookup -/
  | ask (id : DictId) (q : Manager.Query)
  /-- `Log::set_log_…_callback` (src/log.cpp:35-51) -/
  | set (lv : Level) (k : Option κ)
  deriving DecidableEq, Repr

/-- The callback pointers, and all that happened to callbacks so far. -/
structure State (κ : Type) where
  callbacks : Callbacks κ
  events : List (Event κ)
  deriving DecidableEq, Repr

/-- Something happened. -/
def note (e : Event κ) : Prog (State κ) Unit := Prog.modify (fun s => { s with events := s.events ++ [e] })

/-- A logging statement (log_stream.hpp:27-29; src/log.cpp:53-62): nothing if the callback is null, otherwise the callback is called; what its body does
may depend on all that happened to callbacks before (`body`; the last event is that it was called).  `n` bounds how deep callbacks are nested; `fuel` is for
chains of fallbacks. -/
def say (body : List (Event κ) → List (Act κ)) (heap : DictId → Option Dictionary) (fuel : Nat) : Nat → Diag → Prog (State κ) Unit
  | n, d => Prog.bind Prog.get fun s =>
    match s.callbacks.installed d.level with
    | none => Prog.pure ()
    | some k =>
      match n with
      | 0 => Prog.diverge
      | n + 1 =>
        Prog.bind (note (.enter k d.text)) fun _ =>
        Prog.bind Prog.get fun s' =>
        Prog.bind (each (fun a =>
          match a with
          | .ask id q => Prog.bind (askDict (say body heap fuel n) heap fuel id q) fun _ => Prog.pure ()
          | .set lv k => Prog.modify (fun s => { s with callbacks := s.callbacks.set k lv })) (body s'.events)) fun _ =>
        note .leave

/-- A lookup by the program, with callbacks nested `n` deep at most. -/
def ask (body : List (Event κ) → List (Act κ)) (heap : DictId → Option Dictionary) (fuel n : Nat) (id : DictId) (q : Manager.Query) : Prog (State κ) Str :=
  askDict (say body heap fuel n) heap fuel id q

end Reentrant
end Tgt
