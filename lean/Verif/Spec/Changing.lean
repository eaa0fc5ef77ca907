import Verif.Model.Changing
import Verif.Spec.Loading
/-
Calls while the file system changes.
-/
namespace Tgt.Spec
open Manager

/-- A file system all of whose answers were given by the changing one between moments `t` and `t'`. -/
def MadeOf (fs : Nat → FileSys) (t t' : Nat) (g : FileSys) : Prop :=
  (∀ dir, ∃ s, t ≤ s ∧ s ≤ t' ∧ g.openDirectory dir = (fs s).openDirectory dir) ∧
  (∀ path, ∃ s, t ≤ s ∧ s ≤ t' ∧ g.openFile path = (fs s).openFile path)

/-- Directories list names without slashes. -/
def PlainNames (fs : Nat → FileSys) : Prop :=
  ∀ t dir files, (fs t).openDirectory dir = .ok files → ∀ f ∈ files, (47 : Byte) ∉ f

/-- The world in which the file system is this one and does not change. -/
def Env.still (env : Env) (g : FileSys) : Env := { env with fs := g }

/-- A call while the file system changes. -/
def Call.runIn (env : Env) (fs : Nat → FileSys) : Call → Changing.W Answer
  | .getDictionary => Prog.bind (Changing.getDictionary env fs) fun p => Prog.pure (.dict p)
  | .getDictionaryFor l => Prog.bind (Changing.getDictionaryFor env fs env.fuel l) fun p => Prog.pure (.dict p)
  | .getLanguages => Prog.bind (Changing.getLanguages fs) fun l => Prog.pure (.languages l)
  | c => Changing.lift (c.run env)

/-- The language whose dictionary a call asks for. -/
def Call.wants (m : Manager) : Call → Language
  | .getDictionary => m.currentLanguage
  | .getDictionaryFor l => l
  | _ => none

/-- The call does not load two dictionaries, that of a country and that of the bare language. -/
def Call.LoadsOne (m : Manager) (c : Call) : Prop :=
  (c.wants m).getCountry = [] ∨ m.dictionaries.get? (c.wants m) ≠ none ∨
    m.dictionaries.get? (Language.fromSpec (c.wants m).getLanguage [] []) ≠ none

/-- The result of a call in a still world, at this moment. -/
def atMoment {α : Type} (t : Nat) (r : Res Manager α) : Res (Manager × Nat) α :=
  match r with
  | .ok a m => .ok a (m, t)
  | .poError m => .poError (m, t)
  | .exn w m => .exn w (m, t)
  | .fault f => .fault f
  | .diverge => .diverge

/-- The states of managers after some history of calls that came back, normally or by an exception, while the file system changed. -/
inductive ReachIn (charset : Str) : Manager → Prop where
  | new : ReachIn charset (.init charset)
  | ok {m m' : Manager} {env : Env} {fs : Nat → FileSys} {c : Call} {t t' : Nat} {a : Answer} :
    ReachIn charset m → c.runIn env fs (m, t) = .ok a (m', t') → ReachIn charset m'
  | exn {m m' : Manager} {env : Env} {fs : Nat → FileSys} {c : Call} {t t' : Nat} {w : Str} :
    ReachIn charset m → c.runIn env fs (m, t) = .exn w (m', t') → ReachIn charset m'
  | poError {m m' : Manager} {env : Env} {fs : Nat → FileSys} {c : Call} {t t' : Nat} :
    ReachIn charset m → c.runIn env fs (m, t) = .poError (m', t') → ReachIn charset m'

end Tgt.Spec
