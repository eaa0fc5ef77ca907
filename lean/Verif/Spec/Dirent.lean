import Verif.Model.Dirent
/-
What directory streams should do.
-/
namespace Tgt.Spec.Dirent
open Tgt.Dirent

/-- An open stream: which interface it belongs to, what it searches for, what it has still to deliver; `ready`: the next entry has been fetched already. -/
structure Stream where
  wide : Bool
  pattern : Wide
  rest : List Entry
  ready : Bool

/-- The open streams. -/
abbrev Streams := Ptr → Option Stream

/-- The pattern for everything in a directory: a separator (if there is none) and an asterisk. -/
def everything (path : Wide) : Wide :=
  if path.getLast? = some 92 ∨ path.getLast? = some 47 ∨ path.getLast? = some 58 then path ++ [42] else path ++ [92, 42]

/-- The kind of file. -/
def kind (e : Entry) : DType := if e.device = true then .chr else if e.directory = true then .dir else .reg

/-- A name that can be had in multi-byte characters, with its terminating zero, in `PATH_MAX` bytes. -/
def Fits (win : Win) (name : Wide) (s : Str) : Prop := win.narrow name = some s ∧ s.length + 1 ≤ PATH_MAX

/-- What `readdir` shows of an entry: its name, else its short name, else a question mark. -/
inductive Shows (win : Win) (e : Entry) : Ent Str → Prop where
  | long {s : Str} : Fits win e.name s → Shows win e ⟨s, s.length, kind e⟩
  | short {s : Str} : (∀ s, ¬ Fits win e.name s) → e.short ≠ [] → Fits win e.short s → Shows win e ⟨s, s.length, kind e⟩
  | neither : (∀ s, ¬ Fits win e.name s) → (e.short = [] ∨ ∀ s, ¬ Fits win e.short s) → Shows win e ⟨b!"?", 1, .unknown⟩

/-- What `_wreaddir` shows: the name, cut if it does not fit. -/
def WShows (e : Entry) (x : Ent Wide) : Prop :=
  x.name = e.name.take (PATH_MAX - 1) ∧ x.namlen = x.name.length ∧ x.namlen + 1 ≤ PATH_MAX ∧ x.type = kind e

/-- Opening a directory by its wide name; what `errno` is set to. -/
inductive Opens (win : Win) (now : Nat → Prop) (wide : Bool) (s : Streams) (name : Option Wide) : Option Ptr → Streams → Option Errno → Prop where
  | unnamed : name = none ∨ name = some [] → Opens win now wide s name none s (some .ENOENT)
  | noMemory {t : Nat} : now t → win.noMemory t = true → Opens win now wide s name none s (some .ENOMEM)
  | noPath {n : Wide} {t : Nat} : name = some n → now t → win.full t n = none ∨ win.full t n = some [] → Opens win now wide s name none s (some .ENOENT)
  | notFound {n path : Wide} {t t' : Nat} : name = some n → now t → now t' → win.full t n = some path → win.listing t' (everything path) = [] →
    Opens win now wide s name none s (some .ENOENT)
  | opened {n path : Wide} {t t' : Nat} {p : Ptr} : name = some n → now t → now t' → win.full t n = some path → win.listing t' (everything path) ≠ [] → s p = none →
    Opens win now wide s name (some p) (upd s p (some ⟨wide, everything path, win.listing t' (everything path), true⟩)) none

/-- Reading from a stream: the next entry; none at the end; none (now and from now on) if the system failed, which does not happen to the first entry. -/
inductive Reads (win : Win) (now : Nat → Prop) (x : Stream) : Option Entry → Stream → Prop where
  | entry {e : Entry} {r : List Entry} : x.rest = e :: r → Reads win now x (some e) { x with rest := r, ready := false }
  | done : x.rest = [] → Reads win now x none x
  | failed {t : Nat} : x.ready = false → now t → win.broken t = true → Reads win now x none { x with rest := [] }

/-- Rewinding: what there is now (nothing if the system failed). -/
inductive Rewinds (win : Win) (now : Nat → Prop) (x : Stream) : Stream → Prop where
  | again {t : Nat} : now t → Rewinds win now x { x with rest := win.listing t x.pattern, ready := !(win.listing t x.pattern).isEmpty }

/-- One call, at times `now`, with its answer, and what `errno` is set to. -/
inductive Step (win : Win) (now : Nat → Prop) (s : Streams) : Call → Answer → Streams → Option Errno → Prop where
  | wopen {n : Option Wide} {r : Option Ptr} {s' : Streams} {err : Option Errno} : Opens win now true s n r s' err →
    Step win now s (.wopendir n) (.stream r) s' err
  | open {n : Str} {wn : Wide} {r : Option Ptr} {s' : Streams} {err : Option Errno} : n ≠ [] → win.widen n = some wn → wn.length + 1 ≤ PATH_MAX → Opens win now false s (some wn) r s' err →
    Step win now s (.opendir (some n)) (.stream r) s' err
  | openUnnamed {n : Option Str} : n = none ∨ n = some [] → Step win now s (.opendir n) (.stream none) s (some .ENOENT)
  | openNoMemory {n : Option Str} {t : Nat} : now t → win.noMemory t = true → Step win now s (.opendir n) (.stream none) s (some .ENOMEM)
  | openBadName {n : Str} : (∀ wn, win.widen n = some wn → PATH_MAX ≤ wn.length) → Step win now s (.opendir (some n)) (.stream none) s none
  | wread {p : Ptr} {x x' : Stream} {e : Entry} {a : Ent Wide} : s p = some x → x.wide = true → Reads win now x (some e) x' → WShows e a →
    Step win now s (.wreaddir p) (.wentry (some a)) (upd s p (some x')) none
  | wend {p : Ptr} {x x' : Stream} : s p = some x → x.wide = true → Reads win now x none x' → Step win now s (.wreaddir p) (.wentry none) (upd s p (some x')) none
  | read {p : Ptr} {x x' : Stream} {e : Entry} {a : Ent Str} : s p = some x → x.wide = false → Reads win now x (some e) x' → Shows win e a →
    Step win now s (.readdir p) (.entry (some a)) (upd s p (some x')) none
  | end {p : Ptr} {x x' : Stream} : s p = some x → x.wide = false → Reads win now x none x' → Step win now s (.readdir p) (.entry none) (upd s p (some x')) none
  | wrewind {p : Ptr} {x x' : Stream} : s p = some x → x.wide = true → Rewinds win now x x' → Step win now s (.wrewinddir (some p)) .done (upd s p (some x')) none
  | wrewindNull : Step win now s (.wrewinddir none) .done s none
  | rewind {p : Ptr} {x x' : Stream} : s p = some x → x.wide = false → Rewinds win now x x' → Step win now s (.rewinddir p) .done (upd s p (some x')) none
  | wclose {p : Ptr} {x : Stream} : s p = some x → x.wide = true → Step win now s (.wclosedir (some p)) (.status 0) (upd s p none) none
  | wcloseNull : Step win now s (.wclosedir none) (.status (-1)) s (some .EBADF)
  | close {p : Ptr} {x : Stream} : s p = some x → x.wide = false → Step win now s (.closedir (some p)) (.status 0) (upd s p none) none
  | closeNull : Step win now s (.closedir none) (.status (-1)) s (some .EBADF)

/-- A run of the calls `h` with these answers, that ends at time `t` with `errno` being `e`. -/
inductive SpecRun (win : Win) : List (Call × Answer) → Nat → Streams → Option Errno → Prop where
  | nil : SpecRun win [] 0 (fun _ => none) none
  | snoc {h : List (Call × Answer)} {t t' : Nat} {s s' : Streams} {c : Call} {a : Answer} {e err : Option Errno} : SpecRun win h t s e → t ≤ t' →
    Step win (fun x => t ≤ x ∧ x < t') s c a s' err → SpecRun win (h ++ [(c, a)]) t' s' (err.or e)

/-- Which streams are open after these calls (`true`: wide), by what was answered. -/
def openAfter : List (Call × Answer) → Ptr → Option Bool :=
  List.foldl (fun o x => match x with
    | (.wopendir _, .stream (some p)) => upd o p (some true)
    | (.opendir _, .stream (some p)) => upd o p (some false)
    | (.wclosedir (some p), _) => upd o p none
    | (.closedir (some p), _) => upd o p none
    | _ => o) (fun _ => none)

/-- The names the streams were opened with. -/
def nameOf : List (Call × Answer) → Ptr → Option Str :=
  List.foldl (fun o x => match x with
    | (.opendir (some n), .stream (some p)) => upd o p (some n)
    | _ => o) (fun _ => none)

/-- What `readdir` has shown of each stream since it was opened or rewound. -/
def shown : List (Call × Answer) → Ptr → List (Ent Str) :=
  List.foldl (fun o x => match x with
    | (.opendir _, .stream (some p)) => fun y => if y = p then [] else o y
    | (.rewinddir p, _) => fun y => if y = p then [] else o y
    | (.readdir p, .entry (some e)) => fun y => if y = p then o p ++ [e] else o y
    | _ => o) (fun _ => [])

/-- These are shown for these entries, one for each and in the same order. -/
inductive Matches (win : Win) : List Entry → List (Ent Str) → Prop where
  | nil : Matches win [] []
  | snoc {es : List Entry} {as : List (Ent Str)} {e : Entry} {a : Ent Str} : Matches win es as → Shows win e a → Matches win (es ++ [e]) (as ++ [a])

/-- Callers use streams that are open, and each with its own interface. -/
def Legal (o : Ptr → Option Bool) : Call → Prop
  | .wreaddir p => o p = some true
  | .wrewinddir p | .wclosedir p => ∀ q, p = some q → o q = some true
  | .readdir p | .rewinddir p => o p = some false
  | .closedir p => ∀ q, p = some q → o q = some false
  | _ => True

/-- The program has made these calls and got these answers. -/
inductive Hist (win : Win) : List (Call × Answer) → World → Prop where
  | nil : Hist win [] World.init
  | snoc {h : List (Call × Answer)} {w w' : World} {c : Call} {a : Answer} : Hist win h w → Legal (openAfter h) c → c.run win w = .ok a w' → Hist win (h ++ [(c, a)]) w'

/-- The path of this directory changes while it is being opened at time `t₀` (its name is relative, and something else sets the current directory). -/
def Moves (win : Win) (t₀ : Nat) (name : Wide) : Prop := ∃ t t', t₀ ≤ t ∧ t < t' ∧ t' ≤ t₀ + 4 ∧ win.full t name ≠ win.full t' name

/-- Calls that do not return, at time `t₀`: a directory whose path changes while it is opened; with Microsoft's compiler a name that does not fit into `PATH_MAX` characters. -/
inductive Dies (win : Win) (t₀ : Nat) (s : Streams) : Call → Bad → Prop where
  | wopen {n : Wide} {b : Bad} : Moves win t₀ n → b = .outOfBounds ∨ b = .uninitialised → Dies win t₀ s (.wopendir (some n)) b
  | open {n : Str} {wn : Wide} {b : Bad} : win.widen n = some wn → Moves win t₀ wn → b = .outOfBounds ∨ b = .uninitialised → Dies win t₀ s (.opendir (some n)) b
  | openLong {n : Str} {wn : Wide} : win.msvc = true → win.widen n = some wn → PATH_MAX < wn.length + 1 → Dies win t₀ s (.opendir (some n)) .invalidParameter
  | readLong {p : Ptr} {x : Stream} {e : Entry} {r : List Entry} {a : Str} : win.msvc = true → s p = some x → x.rest = e :: r →
    win.narrow e.name = some a ∨ win.narrow e.short = some a → PATH_MAX < a.length + 1 → Dies win t₀ s (.readdir p) .invalidParameter

end Tgt.Spec.Dirent
