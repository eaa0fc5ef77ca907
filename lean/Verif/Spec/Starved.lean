import Verif.Model.Starved
import Verif.Proofs.Core
import Verif.Spec.Memory
import Verif.Spec.Loading
/-
Calls on a manager when memory may run out.
-/
namespace Tgt.Spec
open Manager Starved POParser

/-- Memory runs out at some time. -/
def Shortage.Fails (sh : Shortage) : Prop := ∃ t, sh.fails t = true

/-- There is always enough memory. -/
def Shortage.Enough (sh : Shortage) : Prop := (∀ t, sh.fails t = false) ∧ ∀ t, sh.cut t = none

/-- A call when memory may run out.  (The calls that neither allocate nor load are those of unlimited memory.) -/
def Call.starved (sh : Shortage) (env : Env) : Call → Sh Store Answer
  | .getDictionary => Starved.bind (Starved.getDictionary sh env) fun p => Starved.pure (.dict p)
  | .getDictionaryFor l => Starved.bind (Starved.getDictionaryFor sh env env.fuel l) fun p => Starved.pure (.dict p)
  | .getLanguages => Starved.bind (Starved.getLanguages sh env) fun l => Starved.pure (.languages l)
  | .setCharset cs => Starved.bind (Starved.setCharset sh cs) fun _ => Starved.pure .done
  | .addDirectory p b => Starved.bind (Starved.addDirectory sh p b) fun _ => Starved.pure .done
  | .add id a => Starved.bind (Starved.add sh id a) fun _ => Starved.pure .done
  | .ask id q => Starved.bind (Starved.ask sh env.fuel id q) fun s => Starved.pure (.text s)
  | c => Starved.lift (c.run env)

/-- A call came back: it returned or threw. -/
def CameBack {σ α : Type} (r : Out σ α) (s : σ) : Prop := (∃ a t, r = .ok a s t) ∨ ∃ w t, r = .thrown w s t

/-- The states of managers after some history of calls that came back, each in its own world and with memory running out as it may. -/
inductive ReachStarved (charset : Str) : Store → Prop where
  | new : ReachStarved charset ⟨.init charset, 0⟩
  | call {s s' : Store} {sh : Shortage} {env : Env} {c : Call} {t : Nat} :
    ReachStarved charset s → CameBack (c.starved sh env s t) s' → ReachStarved charset s'

/-! ### What may have been loaded -/

/-- The file as it is read: all of it, or the bytes before the one at which memory ran out. -/
def ReadAs (s s' : Stream) : Prop := s' = s ∨ ∃ n, s' = { s with rest := s.rest.take n, broken := true }

/-- The additions made and the plural rule found by these events of a parse (`Proofs/Core.lean`), up to the point at which the parse throws or crashes. -/
def gathered (c : Cfg) (cs : Str) : List Ev → Core → Effect
  | [], k => k.eff
  | e :: w, k =>
    match coreStep c.ct c.lib c.useFuzzy cs e k with
    | .ok _ k => gathered c cs w k
    | .exn _ k => k.eff
    | _ => k.eff

/-- The additions made, in order, and the plural rule found when a file is parsed into a dictionary with charset `cs` (`C91_additions`: that is what a parse does). -/
def additions (env : Env) (pofile : Str) (s : Stream) (cs : Str) : Effect :=
  gathered ⟨env.ct, env.lib, env.pedantic, pofile, true, env.fuel⟩ cs (events env.ct (env.fuel + s.rest.length + 1) s).1 core0

/-- `d'` is `d` after the first few of some additions (with or without the plural rule), and perhaps with traces of the next one, which failed. -/
inductive Partly (e : Effect) (d : Dictionary) : Dictionary → Prop where
  | some {n : Nat} {r : Option PluralForms} : (r = none ∨ r = e.rule) → Partly e d ((⟨e.adds.take n, r⟩ : Effect).applyTo d)
  | failed {n : Nat} {r : Option PluralForms} {a : Add} {d' : Dictionary} : (r = none ∨ r = e.rule) → e.adds[n]? = .some a →
    SameBut (target a).1 (target a).2 ((⟨e.adds.take n, r⟩ : Effect).applyTo d) d' →
    Left a (stored ((⟨e.adds.take n, r⟩ : Effect).applyTo d) (target a).1 (target a).2) (stored d' (target a).1 (target a).2) → Partly e d d'

/-- What loading language `l` from directory `dir` may make of dictionary `d` when memory may run out: nothing, or a part of what the best file holds. -/
inductive DirPart (env : Env) (l : Language) (dir : Str) (d : Dictionary) : Dictionary → Prop where
  | nothing : DirPart env l dir d d
  | parsed {files : List Str} {f : Str} {s s' : Stream} {d' : Dictionary} : env.fs.openDirectory dir = .ok files →
    BestFile env.ct l files f → env.fs.openFile (dir ++ b!"/" ++ f) = .stream s → ReadAs s s' →
    Partly (additions env (dir ++ b!"/" ++ f) s' d.charset) d d' → DirPart env l dir d d'

/-- Loading from a search path. -/
inductive PathPart (env : Env) (l : Language) : List Str → Dictionary → Dictionary → Prop where
  | nil {d : Dictionary} : PathPart env l [] d d
  | cons {dir : Str} {rest : List Str} {d d1 d2 : Dictionary} : PathPart env l rest d d1 → DirPart env l dir d1 d2 →
    PathPart env l (dir :: rest) d d2

/-- The texts of an addition. -/
def Add.texts : Add → List Str
  | .singular _ _ s => [s]
  | .plural _ _ _ v => v

/-- `x` is a text that one of the files for language `l` adds to message `i` (in context `c`). -/
def FileText (env : Env) (l : Language) (path : List Str) (cs : Str) (c : Option Str) (i x : Str) : Prop :=
  ∃ dir ∈ path, ∃ files f s s', env.fs.openDirectory dir = .ok files ∧ BestFile env.ct l files f ∧ env.fs.openFile (dir ++ b!"/" ++ f) = .stream s ∧
    ReadAs s s' ∧ ∃ a ∈ (additions env (dir ++ b!"/" ++ f) s' cs).adds, target a = (c, i) ∧ x ∈ Add.texts a

/-- The results of a call with and without limits on the memory are the same. -/
def SameResult (r : Out Store Answer) (leaked : Nat) (r0 : Res Manager Answer) : Prop :=
  match r, r0 with
  | .ok a s _, .ok a0 m0 => a = a0 ∧ s = ⟨m0, leaked⟩
  | .thrown w s _, .exn w0 m0 => w = w0 ∧ s = ⟨m0, leaked⟩
  | .crashed f, .fault f0 => f = f0
  | .unfinished, .diverge => True
  | _, _ => False

end Tgt.Spec
