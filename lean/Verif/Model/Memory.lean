import Verif.Model.Dictionary
/-
The four `add_translation` overloads when memory may run out (src/dictionary.cpp:174-242).  (`Model/Dictionary.lean` takes memory as unlimited.)
Which allocations fail is a parameter: `oom t` says that the `t`-th operation that allocates fails.  An operation here is one C++ operation
(`operator[]` of a map, `push_back`, the assignment of one string), whatever number of allocations it makes: all of them leave their object
unchanged when they throw `std::bad_alloc`.  Simplifications: the assignment of a vector goes element by element, as in libstdc++ when the
capacity suffices (if it does not, a new array is made first, and a failure leaves the old one: the same as a failure at the first element);
when memory runs out while the text of a message is put together, the stream swallows the exception and the message is cut short: here it counts
as delivered.
-/
namespace Tgt.Memory

/-- How a call ends: it returns, `std::bad_alloc` is thrown, or the program is terminated (an exception leaves a destructor).  `t`: the number of
the next operation that allocates. -/
inductive MemRes (σ : Type) where
  | done (s : σ) (t : Nat)
  | badAlloc (s : σ) (t : Nat)
  | terminated

/-- A dictionary and the messages delivered so far. -/
abbrev DictLog := Dictionary × List Diag

/-- A piece of code. -/
abbrev Code (σ : Type) := σ → Nat → MemRes σ

/-- `;` -/
def seq {σ : Type} (p q : Code σ) : Code σ := fun s t =>
  match p s t with
  | .done s t => q s t
  | r => r

/-- No code. -/
def skip {σ : Type} : Code σ := fun s t => .done s t

/-- One operation that allocates, and its effect if it does not throw. -/
def op {σ : Type} (oom : Nat → Bool) (f : σ → σ) : Code σ := fun s t =>
  if oom t then .badAlloc s (t + 1) else .done (f s) (t + 1)

/-- The end of a `log_… << …` statement: `Log::~Log` (src/log.cpp:56-59) makes a copy of the text and calls the callback.  The destructor is `noexcept`, so an exception
terminates the program. -/
def say (oom : Nat → Bool) (m : Diag) : Code DictLog := fun s t =>
  if oom t then .terminated else .done (s.1, s.2 ++ [m]) (t + 1)

/-- `entries[msgid]` (src/dictionary.cpp:178, :195). -/
def slot (e : Entries) (msgid : Str) : Entries :=
  match e.get? msgid with
  | some _ => e
  | none => e.set msgid []

/-- `ctxt_entries[msgctxt]` (src/dictionary.cpp:213, :230). -/
def ctxtSlot (d : Dictionary) (ctxt : Str) : Dictionary :=
  match d.ctxtEntries.get? ctxt with
  | some _ => d
  | none => { d with ctxtEntries := d.ctxtEntries.set ctxt [] }

/-- The vector of a message. -/
def vec (d : Dictionary) : Option Str → Str → List Str
  | none, msgid => Dictionary.vecAt d.entries msgid
  | some c, msgid => Dictionary.vecAt (Dictionary.ctxtAt d.ctxtEntries c) msgid

/-- Write to the vector of a message. -/
def setVec (d : Dictionary) (ctxt : Option Str) (msgid : Str) (v : List Str) : Dictionary :=
  match ctxt with
  | none => { d with entries := d.entries.set msgid v }
  | some c => { d with ctxtEntries := d.ctxtEntries.set c ((Dictionary.ctxtAt d.ctxtEntries c).set msgid v) }

/-- `std::vector<std::string>& vec = entries[msgid];` or `ctxt_entries[msgctxt][msgid];` (src/dictionary.cpp:178, :195, :213, :230). -/
def reference (oom : Nat → Bool) (ctxt : Option Str) (msgid : Str) : Code DictLog :=
  match ctxt with
  | none => op oom fun s => ({ s.1 with entries := slot s.1.entries msgid }, s.2)
  | some c => seq (op oom fun s => (ctxtSlot s.1 c, s.2))
      (op oom fun s => ({ s.1 with ctxtEntries := s.1.ctxtEntries.set c (slot (Dictionary.ctxtAt s.1.ctxtEntries c) msgid) }, s.2))

/-- `vec[k] = s` for the strings `ss` and `k` from `from` on, while `vec` has such an element; then the rest is copied behind the last and
becomes part of the vector when all of it is there (`vec = msgstrs`, src/dictionary.cpp:181, :188, :216, :223). -/
def assign (oom : Nat → Bool) (ctxt : Option Str) (msgid : Str) (whole : List Str) : Nat → List Str → Code DictLog
  | _, [] => fun s t => .done (setVec s.1 ctxt msgid whole, s.2) t
  | k, x :: rest => seq (op oom fun s => (if k < (vec s.1 ctxt msgid).length then setVec s.1 ctxt msgid ((vec s.1 ctxt msgid).set k x) else s.1, s.2))
      (assign oom ctxt msgid whole (k + 1) rest)

/-- The four overloads of `add_translation` (src/dictionary.cpp:174-190, :192-206, :208-225, :227-242). -/
def add (oom : Nat → Bool) : Add → Code DictLog
  | .singular ctxt msgid msgstr => seq (reference oom ctxt msgid) fun s t =>
      match vec s.1 ctxt msgid with
      | [] => op oom (fun s => (setVec s.1 ctxt msgid [msgstr], s.2)) s t
      | v0 :: rest =>
        if v0 ≠ msgstr then
          seq (say oom (.collisionSingular ctxt msgid v0 msgstr)) (op oom fun s => (setVec s.1 ctxt msgid (msgstr :: rest), s.2)) s t
        else skip s t
  | .plural ctxt msgid msgidPlural msgstrs => seq (reference oom ctxt msgid) fun s t =>
      let old := vec s.1 ctxt msgid
      if old.isEmpty then assign oom ctxt msgid msgstrs 0 msgstrs s t
      else if old ≠ msgstrs then
        seq (say oom (.collisionPlural ctxt msgid msgidPlural old msgstrs)) (assign oom ctxt msgid msgstrs 0 msgstrs) s t
      else skip s t

end Tgt.Memory
