import Verif.Model.Globals
/-
Several threads, each making calls, in any interleaving.
-/
namespace Tgt.Spec

/-- Calls that use the tables. -/
inductive Asking where
  | fromString (s : Str)
  | fromSpec (language country modifier : Str)
  | fromEnv (s : Str)
  | fromName (s : Str)
  deriving DecidableEq, Repr

/-- What they return. -/
inductive Told where
  | rule (p : PluralForms)
  | language (l : Language)
  deriving DecidableEq

/-- What a call should return. -/
def Asking.right (ct : CType) : Asking → Told
  | fromString s => .rule (PluralForms.fromString ct s)
  | fromSpec l c m => .language (Language.fromSpec l c m)
  | fromEnv s => .language (Language.fromEnv s)
  | fromName s => .language (Language.fromName ct s)

/-- The tables that a call uses. -/
def Asking.uses : Asking → List Tbl
  | fromString _ => [.plurals]
  | fromSpec .. | fromEnv _ => [.langs]
  | fromName _ => [.aliases, .langs]

/-- The call, step by step. -/
def Asking.run (ct : CType) : Asking → Thread Told
  | fromString s => (Thread.fromString ct s).bind fun p => .ret (.rule p)
  | fromSpec l c m => (Thread.fromSpec l c m).bind fun l => .ret (.language l)
  | fromEnv s => (Thread.fromEnv s).bind fun l => .ret (.language l)
  | fromName s => (Thread.fromName ct s).bind fun l => .ret (.language l)

/-- A thread that makes these calls and keeps what they return. -/
def making (ct : CType) : List Asking → Thread (List Told)
  | [] => .ret []
  | c :: t => (c.run ct).bind fun r => (making ct t).bind fun rs => .ret (r :: rs)

/-- The tables and what every thread still has to do. -/
structure Running where
  tables : Globals
  threads : List (Thread (List Told))

/-- Thread number `i` makes its next access (if there is such a thread and it has not finished). -/
def Running.step (w : Running) (i : Nat) : Running :=
  match w.threads[i]? with
  | some (.step a k) => ⟨(a.exec w.tables).2, w.threads.set i (k (a.exec w.tables).1)⟩
  | _ => w

/-- An interleaving: the numbers of the threads that make the next accesses. -/
def Running.run (w : Running) (schedule : List Nat) : Running := schedule.foldl Running.step w

/-- At the start of the program all tables are empty. -/
def noTables : Globals := ⟨[], [], []⟩

/-- Threads that start with these tables and make these calls. -/
def start (ct : CType) (g : Globals) (calls : List (List Asking)) : Running := ⟨g, calls.map (making ct)⟩

/-- Thread `i` has finished and its calls returned this. -/
def Running.finished (w : Running) (i : Nat) (rs : List Told) : Prop := w.threads[i]? = some (.ret rs)

/-- A data race: two threads are about to access the same table, and at least one of them to write. -/
def Running.Races (w : Running) : Prop :=
  ∃ (i j : Nat) (a b : Access) (k : a.Resp → Thread (List Told)) (l : b.Resp → Thread (List Told)), i ≠ j ∧
    w.threads[i]? = some (.step a k) ∧ w.threads[j]? = some (.step b l) ∧ a.tbl = b.tbl ∧ (a.writes || b.writes) = true

end Tgt.Spec
