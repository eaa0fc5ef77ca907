import Verif.Spec.Manager
/-
What loading a language from a search path should do.
-/
namespace Tgt.Spec
open Manager

/-- A dictionary without its link to a fallback. -/
def unlinked (d : Dictionary) : Dictionary := { d with hasFallback := false, fallback := none }

/-- Loading language `l` from directory `dir` turns dictionary `d` into `d'`: exactly one file is parsed into it, the
best one (if it can be opened), or none. -/
inductive DirLoads (env : Env) (l : Language) (dir : Str) (d : Dictionary) : Dictionary → Prop where
  | nothing {files : List Str} : env.fs.openDirectory dir = .ok files → NoFile env.ct l files → DirLoads env l dir d d
  | unopened {files : List Str} {f : Str} : env.fs.openDirectory dir = .ok files → BestFile env.ct l files f →
    (∀ s, env.fs.openFile (dir ++ b!"/" ++ f) ≠ .stream s) → DirLoads env l dir d d
  | parsed {files : List Str} {f : Str} {s : Stream} {d' : Dictionary} : env.fs.openDirectory dir = .ok files →
    BestFile env.ct l files f → env.fs.openFile (dir ++ b!"/" ++ f) = .stream s →
    (parseFile env (dir ++ b!"/" ++ f) s d).dict? = some d' → DirLoads env l dir d d'

/-- Loading from a search path (highest priority first): the directories are loaded from the last to the first. -/
inductive PathLoads (env : Env) (l : Language) : List Str → Dictionary → Dictionary → Prop where
  | nil {d : Dictionary} : PathLoads env l [] d d
  | cons {dir : Str} {rest : List Str} {d d1 d2 : Dictionary} : PathLoads env l rest d d1 → DirLoads env l dir d1 d2 →
    PathLoads env l (dir :: rest) d d2

/-- The contents of a dictionary and of its fallback (if it has one). -/
def contents (m : Manager) (p : DictId) : Option (Dictionary × Option Dictionary) :=
  (m.heap.get? p).map (fun d => (unlinked d, (d.fallback.bind m.heap.get?).map unlinked))

/-- `get_dictionary(l)` on manager `m1` and on manager `m2` went alike: both returned dictionaries with the same
contents and fallback contents, or both threw the same and keep dictionaries with the same contents; and they logged
the same messages. -/
def Alike (l : Language) (m1 : Manager) (r1 : Res Manager DictId) (m2 : Manager) (r2 : Res Manager DictId) : Prop :=
  match r1, r2 with
  | .ok p m1', .ok q m2' => (∃ v, contents m1' p = some v ∧ contents m2' q = some v) ∧
      ∃ lg, m1'.log = m1.log ++ lg ∧ m2'.log = m2.log ++ lg
  | .exn w m1', .exn w' m2' => w = w' ∧ (∃ p q v, m1'.dictionaries.get? l = some p ∧ m2'.dictionaries.get? l = some q ∧
      contents m1' p = some v ∧ contents m2' q = some v) ∧ ∃ lg, m1'.log = m1.log ++ lg ∧ m2'.log = m2.log ++ lg
  | .fault f, .fault f' => f = f'
  | .diverge, .diverge => True
  | _, _ => False

/-- Calls that change the configuration of a manager (setters count as changes even if they set the same value). -/
def Call.Changes (m : Manager) : Call → Prop
  | setCharset _ | setUseFuzzy _ => True
  | addDirectory p _ => p ∉ m.searchPath
  | removeDirectory p => p ∈ m.searchPath
  | _ => False

/-- The strings stored for a message without context, or in a context. -/
def stored (d : Dictionary) : Option Str → Str → Option (List Str)
  | none, i => d.entries.get? i
  | some c, i => (d.ctxtEntries.get? c).bind (fun e => e.get? i)

/-- The lookup of a message without context, or in a context. -/
def lookupOf : Option Str → Str → Query
  | none, i => .translate i
  | some c, i => .ctxt c i

/-- The dictionary of language `l` in a manager that has nothing but directory `dir`. -/
def AloneGives (env : Env) (l : Language) (cs : Str) (dir : Str) (d : Dictionary) : Prop :=
  ∃ p m', getDictionaryFor env env.fuel l (newManager ⟨[dir], cs, true⟩) = .ok p m' ∧ m'.heap.get? p = some d

/-- A history in which every call returned normally. -/
inductive Smooth (m : Manager) : List Call → Manager → Prop where
  | nil : Smooth m [] m
  | snoc {calls : List Call} {m1 m2 : Manager} {c : Call} {env : Env} {a : Answer} :
    Smooth m calls m1 → c.run env m1 = .ok a m2 → Smooth m (calls ++ [c]) m2

/-- The language a file name denotes for `get_dictionary` (file names that do not end in `.po` denote none). -/
def denoted (ct : CType) (f : Str) : Option Language :=
  if b!".po" <:+ f then (convertFilename2Language ct f).map Language.fromEnv else none

end Tgt.Spec
