import Verif.Spec.Manager
/-
Sessions: calls on a manager while log callbacks are installed, changed and removed.
-/
namespace Tgt.Spec
open Manager

/-- One step of a program using the library: a call, or setting a log callback. -/
inductive Step (κ : Type) where
  | call (env : Env) (c : Call)
  | setCallback (lv : Level) (k : Option κ)

/-- The library as the program sees it: the manager, and the log callbacks.  The `log` of the manager holds only
the messages that some callback was called with. -/
structure World (κ : Type) where
  manager : Manager
  logger : Logger κ

/-- What a call came back with. -/
inductive Outcome where
  | returned (a : Answer)
  | threw (what : Str)
  | threwPo
  deriving DecidableEq, Repr

/-- A call with its outcome and the state after it, if it came back. -/
def Call.outcome (env : Env) (c : Call) (m : Manager) : Option (Outcome × Manager) :=
  match c.run env m with
  | .ok a m' => some (.returned a, m')
  | .exn w m' => some (.threw w, m')
  | .poError m' => some (.threwPo, m')
  | .fault _ => none
  | .diverge => none

variable {κ : Type}

/-- The callback that is to hear the messages of a level. -/
def listener (c : Callbacks κ) (lv : Level) : Option κ :=
  if lv = .info then c.info else if lv = .warning then c.warning else c.error

/-- Logging statements, one after the other.  Also: the messages that were heard. -/
def sayAll (react : κ → Str → Callbacks κ → Callbacks κ) : Logger κ → List Diag → Logger κ × List Diag
  | l, [] => (l, [])
  | l, d :: ds =>
    ((sayAll react (l.say react d) ds).1,
     (if (l.callbacks.installed d.level).isSome then [d] else []) ++ (sayAll react (l.say react d) ds).2)

/-- A step: what it came back with (for calls) and the new world; `none` if it did not come back. -/
def World.step (react : κ → Str → Callbacks κ → Callbacks κ) (w : World κ) : Step κ → Option (List Outcome × World κ)
  | .setCallback lv k => some ([], ⟨w.manager, ⟨w.logger.callbacks.set k lv, w.logger.calls⟩⟩)
  | .call env c =>
    match c.outcome env w.manager with
    | none => none
    | some (o, m') =>
      let said := sayAll react w.logger (m'.log.drop w.manager.log.length)
      some ([o], ⟨{ m' with log := w.manager.log ++ said.2 }, said.1⟩)

/-- A session: all outcomes in order, and the final world. -/
def World.run (react : κ → Str → Callbacks κ → Callbacks κ) : World κ → List (Step κ) → Option (List Outcome × World κ)
  | w, [] => some ([], w)
  | w, s :: ss =>
    match w.step react s with
    | none => none
    | some (os, w') =>
      match World.run react w' ss with
      | none => none
      | some (os', w'') => some (os ++ os', w'')

/-- Logging statements, one after the other, with callbacks that may throw: the process may end. -/
def deliverAll (react : κ → Str → Callbacks κ → Callbacks κ) (throws : κ → Str → Bool) :
    Logger κ → List Diag → Except (List (κ × Str)) (Logger κ)
  | l, [] => .ok l
  | l, d :: ds =>
    match l.deliver react throws d with
    | .error calls => .error calls
    | .ok l' => deliverAll react throws l' ds

/-- How a session with callbacks that may throw ends. -/
inductive SessionEnd (κ : Type) where
  /-- all steps were made -/
  | finished (outcomes : List Outcome) (w : World κ)
  /-- `std::terminate`: the outcomes of the calls that came back, and the callback calls that were made -/
  | terminated (outcomes : List Outcome) (calls : List (κ × Str))
  /-- a call did not come back -/
  | stuck

/-- A session with callbacks that may throw. -/
def World.runT (react : κ → Str → Callbacks κ → Callbacks κ) (throws : κ → Str → Bool) : World κ → List (Step κ) → SessionEnd κ
  | w, [] => .finished [] w
  | w, .setCallback lv k :: ss => World.runT react throws ⟨w.manager, ⟨w.logger.callbacks.set k lv, w.logger.calls⟩⟩ ss
  | w, .call env c :: ss =>
    match c.outcome env w.manager with
    | none => .stuck
    | some (o, m') =>
      match deliverAll react throws w.logger (m'.log.drop w.manager.log.length) with
      | .error calls => .terminated [] calls
      | .ok l =>
        match World.runT react throws ⟨{ m' with log := w.manager.log ++ (sayAll react w.logger (m'.log.drop w.manager.log.length)).2 }, l⟩ ss with
        | .finished os w'' => .finished (o :: os) w''
        | .terminated os calls => .terminated (o :: os) calls
        | .stuck => .stuck

/-- The calls of a session. -/
def callsOf (ss : List (Step κ)) : List (Env × Call) :=
  ss.filterMap (fun | .call env c => some (env, c) | .setCallback .. => none)

/-- A manager without its log. -/
def unlogged (m : Manager) : Manager := { m with log := [] }

/-- What the caller of a session sees besides the messages. -/
def visible (r : Option (List Outcome × World κ)) : Option (List Outcome × Manager) :=
  r.map (fun x => (x.1, unlogged x.2.manager))

/-- The messages of a call. -/
def Call.messages (env : Env) (c : Call) (m : Manager) : List Diag :=
  match c.outcome env (unlogged m) with
  | none => []
  | some (_, m') => m'.log

end Tgt.Spec
