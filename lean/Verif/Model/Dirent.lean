import Verif.Base
/-
Directory streams for Windows (include/tinygettext/dirent.h).

Simplifications.  Strings are lists of characters without their terminating zero; a wide character is a number.  `d_ino` and `d_reclen` are left out (:466-468, :722-724).
What `readdir` returns a pointer to is returned as a value.  The operating system is a parameter (`Win`) that may answer differently every time it is asked;
every question to it (memory, paths, searches) takes one unit of time.  The C library's conversions are a parameter as well.
-/
namespace Tgt.Dirent

/-- Text in wide characters. -/
abbrev Wide := List Nat

/-- `MAX_PATH`, `PATH_MAX` (include/tinygettext/dirent.h:153-156; windef.h). -/
def PATH_MAX : Nat := 260

/-- `WIN32_FIND_DATAW`: `cFileName`, `cAlternateFileName` (empty if there is none), and two bits of `dwFileAttributes`. -/
structure Entry where
  name : Wide
  short : Wide
  device : Bool
  directory : Bool
  deriving DecidableEq, Repr

/-- `d_type` (include/tinygettext/dirent.h:164-172). -/
inductive DType where
  | unknown | reg | dir | chr
  deriving DecidableEq, Repr

/-- `struct dirent`, `struct _wdirent` (include/tinygettext/dirent.h:218-235, :270-287). -/
structure Ent (α : Type) where
  name : α
  namlen : Nat
  type : DType
  deriving DecidableEq, Repr

/-- The operating system and the C library. -/
structure Win where
  /-- `malloc` fails. -/
  noMemory : Nat → Bool
  /-- What `GetFullPathNameW` finds (it depends on the current directory). -/
  full : Nat → Wide → Option Wide
  /-- What `FindFirstFileW` and `FindNextFileW` find for a pattern (nothing: `FindFirstFileW` fails). -/
  listing : Nat → Wide → List Entry
  /-- `FindNextFileW` fails although there is more. -/
  broken : Nat → Bool
  /-- Microsoft's compiler: `mbstowcs_s` and `wcstombs_s` exist. -/
  msvc : Bool
  /-- Multi-byte to wide characters. -/
  widen : Str → Option Wide
  /-- Wide characters to multi-byte. -/
  narrow : Wide → Option Str

inductive Errno where
  | ENOENT | EBADF | ENOMEM
  deriving DecidableEq, Repr

/-- Pointers to allocated memory (`NULL` is `none`). -/
abbrev Ptr := Nat

/-- `struct _WDIR` (include/tinygettext/dirent.h:237-253).  `data`: nothing before it is first written to. -/
structure WDir where
  data : Option Entry
  cached : Bool
  handle : Option Nat
  patt : Option Ptr
  deriving DecidableEq, Repr

/-- What is allocated: a `_WDIR`, a `DIR` (include/tinygettext/dirent.h:289-293; its `wdirp`), or room for a pattern (its size in wide characters, its text). -/
inductive Block where
  | wdir (d : WDir)
  | dir (wdirp : Option Ptr)
  | patt (size : Nat) (text : Wide)
  deriving DecidableEq, Repr

structure World where
  time : Nat
  /-- Open search handles and what they have still to find. -/
  finds : Nat → Option (List Entry)
  nextFind : Nat
  /-- Allocated memory. -/
  mem : Ptr → Option Block
  nextPtr : Ptr
  errno : Option Errno

/-- Undefined behaviour, and the end of the program by the invalid parameter handler. -/
inductive Bad where
  | outOfBounds | uninitialised | invalidPointer | invalidHandle | nullDeref | invalidParameter
  deriving DecidableEq, Repr

inductive R (α : Type) where
  | ok (a : α) (w : World)
  | bad (b : Bad)

abbrev D (α : Type) := World → R α

variable {α β : Type}

/-- `return` -/
def pure (a : α) : D α := fun w => .ok a w

/-- `;` -/
def bind (p : D α) (f : α → D β) : D β := fun w =>
  match p w with
  | .ok a w => f a w
  | .bad b => .bad b

def fail (b : Bad) : D α := fun _ => .bad b

/-- A map with one value changed. -/
def upd (f : Nat → Option α) (x : Nat) (v : Option α) : Nat → Option α := fun y => if y = x then v else f y

/-! ### The C library and the operating system -/

/-- `dirent_set_errno` (include/tinygettext/dirent.h:894-910). -/
def setErrno (e : Errno) : D Unit := fun w => .ok () { w with errno := some e }

/-- `malloc` -/
def malloc (win : Win) (b : Block) : D (Option Ptr) := fun w =>
  if win.noMemory w.time then .ok none { w with time := w.time + 1, errno := some .ENOMEM }
  else .ok (some w.nextPtr) { w with time := w.time + 1, mem := upd w.mem w.nextPtr (some b), nextPtr := w.nextPtr + 1 }

/-- `free` -/
def free (p : Ptr) : D Unit := fun w =>
  match w.mem p with
  | none => .bad .invalidPointer
  | some _ => .ok () { w with mem := upd w.mem p none }

/-- Reading a `_WDIR`. -/
def wdirAt (p : Ptr) (f : WDir → D α) : D α := fun w =>
  match w.mem p with
  | some (.wdir d) => f d w
  | _ => .bad .invalidPointer

/-- Writing to a block. -/
def write (p : Ptr) (b : Block) : D Unit := fun w =>
  match w.mem p with
  | none => .bad .invalidPointer
  | some _ => .ok () { w with mem := upd w.mem p (some b) }

/-- `GetFullPathNameW(dirname, size, buffer, NULL)`: the length and the text, or the size that would be needed, or 0. -/
def getFullPathName (win : Win) (dirname : Wide) (size : Nat) : D (Nat × Option Wide) := fun w =>
  .ok (match win.full w.time dirname with
    | none => (0, none)
    | some p => if p.length < size then (p.length, some p) else (p.length + 1, none)) { w with time := w.time + 1 }

/-- `FindFirstFileW` -/
def findFirst (win : Win) (pattern : Wide) : D (Option (Nat × Entry)) := fun w =>
  match win.listing w.time pattern with
  | [] => .ok none { w with time := w.time + 1 }
  | e :: r => .ok (some (w.nextFind, e)) { w with time := w.time + 1, finds := upd w.finds w.nextFind (some r), nextFind := w.nextFind + 1 }

/-- `FindNextFileW` -/
def findNext (win : Win) (h : Nat) : D (Option Entry) := fun w =>
  match w.finds h with
  | none => .bad .invalidHandle
  | some [] => .ok none { w with time := w.time + 1 }
  | some (e :: r) =>
    if win.broken w.time then .ok none { w with time := w.time + 1 }
    else .ok (some e) { w with time := w.time + 1, finds := upd w.finds h (some r) }

/-- `FindClose` -/
def findClose (h : Nat) : D Unit := fun w =>
  match w.finds h with
  | none => .bad .invalidHandle
  | some _ => .ok () { w with finds := upd w.finds h none }

/-- `dirent_mbstowcs_s`, `dirent_wcstombs_s` with `count` and size `PATH_MAX` (include/tinygettext/dirent.h:788-839, :841-892): the text if there is no error.  With
Microsoft's functions a text that does not fit is an invalid parameter. -/
def fit (win : Win) {γ : Type} (len : γ → Nat) (converted : Option γ) : D (Option γ) :=
  match converted with
  | none => pure none
  | some s => if len s < PATH_MAX then pure (some s) else if win.msvc then fail .invalidParameter else pure none

/-! ### Wide characters -/

/-- `dirent_first` (include/tinygettext/dirent.h:535-558). -/
def first (win : Win) (p : Ptr) : D Bool :=
  wdirAt p fun d => fun w =>
    match d.patt with
    | none => .bad .nullDeref
    | some pp =>
      match w.mem pp with
      | some (.patt _ text) =>
        bind (findFirst win text) (fun r =>
          match r with
          | some (h, e) => bind (write p (.wdir { d with handle := some h, data := some e, cached := true })) fun _ => pure true
          | none => bind (write p (.wdir { d with handle := none, cached := false })) fun _ => pure false) w
      | _ => .bad .invalidPointer

/-- `dirent_next` (include/tinygettext/dirent.h:560-595). -/
def next (win : Win) (p : Ptr) : D (Option Entry) :=
  wdirAt p fun d =>
    if d.cached then
      match d.data with
      | none => fail .uninitialised
      | some e => bind (write p (.wdir { d with cached := false })) fun _ => pure (some e)
    else
      match d.handle with
      | some h =>
        bind (findNext win h) fun r =>
          match r with
          | some e => bind (write p (.wdir { d with data := some e })) fun _ => pure (some e)
          | none => bind (findClose h) fun _ => bind (write p (.wdir { d with handle := none })) fun _ => pure none
      | none => pure none

/-- `_wclosedir` (include/tinygettext/dirent.h:480-514). -/
def wclosedir : Option Ptr → D Int
  | none => bind (setErrno .EBADF) fun _ => pure (-1)
  | some p =>
    wdirAt p fun d =>
      bind (match d.handle with
        | some h => bind (findClose h) fun _ => write p (.wdir { d with handle := none })
        | none => pure ()) fun _ =>
      bind (match d.patt with
        | some pp => free pp
        | none => pure ()) fun _ =>
      bind (free p) fun _ => pure 0

/-- Where the asterisk goes (include/tinygettext/dirent.h:368-380). -/
def withStar (path : Wide) : Wide :=
  match path.getLast? with
  | some 92 | some 47 | some 58 => path ++ [42]
  | _ => path ++ [92, 42]

/-- The pattern is put together in the buffer (include/tinygettext/dirent.h:365-382): the text after it, if there was room for it and its terminating zero. -/
def addStar (size : Nat) (n : Nat) (path : Option Wide) : D Wide :=
  match path with
  | none => if n - 1 < size then fail .uninitialised else fail .outOfBounds
  | some path =>
    if (withStar path).length < size then pure (withStar path) else fail .outOfBounds

/-- `_wopendir` (include/tinygettext/dirent.h:321-417). -/
def wopendir (win : Win) (dirname : Option Wide) : D (Option Ptr) :=
  match dirname with
  | none | some [] => bind (setErrno .ENOENT) fun _ => pure none
  | some dirname =>
    bind (malloc win (.wdir ⟨none, false, none, none⟩)) fun r =>
    match r with
    | none => pure none
    | some p =>
      bind (getFullPathName win dirname 0) fun n1 =>
      bind (malloc win (.patt (n1.1 + 8) [])) fun r =>
      match r with
      | none => bind (wclosedir (some p)) fun _ => pure none
      | some pp =>
        bind (write p (.wdir ⟨none, false, none, some pp⟩)) fun _ =>
        bind (getFullPathName win dirname n1.1) fun n2 =>
        if n2.1 > 0 then
          bind (addStar (n1.1 + 8) n2.1 n2.2) fun text =>
          bind (write pp (.patt (n1.1 + 8) text)) fun _ =>
          bind (first win p) fun ok =>
          if ok then pure (some p)
          else bind (setErrno .ENOENT) fun _ => bind (wclosedir (some p)) fun _ => pure none
        else bind (setErrno .ENOENT) fun _ => bind (wclosedir (some p)) fun _ => pure none

/-- `d_type` from the attributes (include/tinygettext/dirent.h:456-464, :712-720). -/
def typeOf (e : Entry) : DType := if e.device then .chr else if e.directory then .dir else .reg

/-- The loop that copies the name (include/tinygettext/dirent.h:446-451). -/
def copyName : Wide → Nat → Wide → Wide × Nat
  | [], n, out => (out, n)
  | c :: cs, n, out => if n + 1 < PATH_MAX then copyName cs (n + 1) (out ++ [c]) else (out, n)

/-- `_wreaddir` (include/tinygettext/dirent.h:419-478). -/
def wreaddir (win : Win) (p : Ptr) : D (Option (Ent Wide)) :=
  bind (next win p) fun r =>
    match r with
    | some e =>
      let (name, n) := copyName e.name 0 []
      if n < PATH_MAX then pure (some ⟨name, n, typeOf e⟩) else fail .outOfBounds
    | none => pure none

/-- `_wrewinddir` (include/tinygettext/dirent.h:516-533). -/
def wrewinddir (win : Win) : Option Ptr → D Unit
  | none => pure ()
  | some p =>
    wdirAt p fun d =>
      bind (match d.handle with
        | some h => findClose h
        | none => pure ()) fun _ =>
      bind (first win p) fun _ => pure ()

/-! ### Multi-byte characters -/

/-- `dirp->wdirp`; reading it before it is set is reading uninitialised memory. -/
def dirAt (p : Ptr) (f : Ptr → D α) : D α := fun w =>
  match w.mem p with
  | some (.dir (some q)) => f q w
  | some (.dir none) => .bad .uninitialised
  | _ => .bad .invalidPointer

/-- `opendir` (include/tinygettext/dirent.h:597-655). -/
def opendir (win : Win) (dirname : Option Str) : D (Option Ptr) :=
  match dirname with
  | none | some [] => bind (setErrno .ENOENT) fun _ => pure none
  | some dirname =>
    bind (malloc win (.dir none)) fun r =>
    match r with
    | none => pure none
    | some p =>
      bind (fit win List.length (win.widen dirname)) fun wname =>
      match wname with
      | some wname =>
        bind (wopendir win (some wname)) fun r =>
        match r with
        | some q => bind (write p (.dir (some q))) fun _ => pure (some p)
        | none => bind (free p) fun _ => pure none
      | none => bind (free p) fun _ => pure none

/-- `readdir` (include/tinygettext/dirent.h:657-748). -/
def readdir (win : Win) (p : Ptr) : D (Option (Ent Str)) :=
  dirAt p fun q =>
  bind (next win q) fun r =>
    match r with
    | some e =>
      bind (fit win List.length (win.narrow e.name)) fun s1 =>
      bind (match s1 with
        | some s => pure (some s)
        | none => if e.short ≠ [] then fit win List.length (win.narrow e.short) else pure none) fun s2 =>
      match s2 with
      | some s => pure (some ⟨s, (s.length + 1) - 1, typeOf e⟩)
      | none => pure (some ⟨b!"?", 1, .unknown⟩)
    | none => pure none

/-- `closedir` (include/tinygettext/dirent.h:750-775). -/
def closedir : Option Ptr → D Int
  | none => bind (setErrno .EBADF) fun _ => pure (-1)
  | some p => dirAt p fun q => bind (wclosedir (some q)) fun ok => bind (free p) fun _ => pure ok

/-- `rewinddir` (include/tinygettext/dirent.h:777-786). -/
def rewinddir (win : Win) (p : Ptr) : D Unit := dirAt p fun q => wrewinddir win (some q)

/-! ### Calls -/

inductive Call where
  | wopendir (name : Option Wide)
  | wreaddir (p : Ptr)
  | wrewinddir (p : Option Ptr)
  | wclosedir (p : Option Ptr)
  | opendir (name : Option Str)
  | readdir (p : Ptr)
  | rewinddir (p : Ptr)
  | closedir (p : Option Ptr)
  deriving DecidableEq, Repr

inductive Answer where
  | stream (p : Option Ptr)
  | wentry (e : Option (Ent Wide))
  | entry (e : Option (Ent Str))
  | done
  | status (n : Int)
  deriving DecidableEq, Repr

def Call.run (win : Win) : Call → D Answer
  | wopendir n => bind (Dirent.wopendir win n) fun r => pure (.stream r)
  | wreaddir p => bind (Dirent.wreaddir win p) fun r => pure (.wentry r)
  | wrewinddir p => bind (Dirent.wrewinddir win p) fun _ => pure .done
  | wclosedir p => bind (Dirent.wclosedir p) fun r => pure (.status r)
  | opendir n => bind (Dirent.opendir win n) fun r => pure (.stream r)
  | readdir p => bind (Dirent.readdir win p) fun r => pure (.entry r)
  | rewinddir p => bind (Dirent.rewinddir win p) fun _ => pure .done
  | closedir p => bind (Dirent.closedir p) fun r => pure (.status r)

/-- A program that has not used directory streams yet. -/
def World.init : World := ⟨0, fun _ => none, 0, fun _ => none, 1, none⟩

end Tgt.Dirent
