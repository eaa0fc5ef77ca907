import Verif.Model.Manager
import Verif.Spec.Observe
/-
Histories of calls on a `DictionaryManager`, and which file of a directory serves a language.
-/
namespace Tgt.Spec
open Manager

/-- A call on a manager, or through a `Dictionary&` obtained from it. -/
inductive Call where
  | getDictionary
  | getDictionaryFor (l : Language)
  | getLanguages
  | setLanguage (l : Language)
  | getLanguage
  | setCharset (s : Str)
  | setUseFuzzy (b : Bool)
  | getUseFuzzy
  | addDirectory (p : Str) (precedence : Bool)
  | removeDirectory (p : Str)
  | add (id : DictId) (a : Add)
  | setPluralForms (id : DictId) (p : PluralForms)
  | ask (id : DictId) (q : Query)
  deriving DecidableEq, Repr

/-- What a call returns. -/
inductive Answer where
  | dict (id : DictId)
  | languages (l : List Language)
  | language (l : Language)
  | flag (b : Bool)
  | text (s : Str)
  | done
  deriving DecidableEq, Repr

/-- Run a call. -/
def Call.run (env : Env) : Call → M Answer
  | getDictionary => do let p ← Manager.getDictionary env; Prog.pure (.dict p)
  | getDictionaryFor l => do let p ← Manager.getDictionaryFor env env.fuel l; Prog.pure (.dict p)
  | getLanguages => do let l ← Manager.getLanguages env; Prog.pure (.languages l)
  | setLanguage l => do Manager.setLanguage l; Prog.pure .done
  | getLanguage => do let l ← Manager.getLanguage; Prog.pure (.language l)
  | setCharset s => do Manager.setCharset s; Prog.pure .done
  | setUseFuzzy b => do Manager.setUseFuzzy b; Prog.pure .done
  | getUseFuzzy => do let b ← Manager.getUseFuzzy; Prog.pure (.flag b)
  | addDirectory p b => do Manager.addDirectory p b; Prog.pure .done
  | removeDirectory p => do Manager.removeDirectory p; Prog.pure .done
  | add id a => do Manager.onDict id (fun d => a.apply d); Prog.pure .done
  | setPluralForms id p => do Manager.onDict id (fun d => (d.setPluralForms p, [])); Prog.pure .done
  | ask id q => do let s ← Manager.ask env.fuel id q; Prog.pure (.text s)

/-- The dictionary a call works on, for calls through a `Dictionary&`. -/
def Call.target? : Call → Option DictId
  | add id _ | setPluralForms id _ | ask id _ => some id
  | _ => none

/-- The dictionary whose contents a call changes directly. -/
def Call.changes? : Call → Option DictId
  | add id _ | setPluralForms id _ => some id
  | _ => none

/-- Calls that may change the configuration. -/
def Call.configures : Call → Bool
  | setCharset _ | setUseFuzzy _ | addDirectory _ _ | removeDirectory _ => true
  | _ => false

/-- The call comes back, normally or by an exception, and leaves the manager in state `m'`. -/
def Call.Leads (env : Env) (c : Call) (m m' : Manager) : Prop :=
  (∃ a, c.run env m = .ok a m') ∨ (∃ w, c.run env m = .exn w m') ∨ c.run env m = .poError m'

/-- `m'` is the state after these calls (oldest first), each in a world of its own. -/
inductive History (m : Manager) : List Call → Manager → Prop where
  | nil : History m [] m
  | snoc {calls : List Call} {m1 m2 : Manager} {c : Call} {env : Env} :
    History m calls m1 → c.Leads env m1 m2 → History m (calls ++ [c]) m2

/-- `m` is the state after some history of calls on a new manager with this charset. -/
def Reach (charset : Str) (m : Manager) : Prop := ∃ calls, History (Manager.init charset) calls m

/-- The configuration of a manager. -/
structure Config where
  path : List Str
  charset : Str
  useFuzzy : Bool
  deriving DecidableEq, Repr

/-- What a call does to the configuration. -/
def Call.configure (k : Config) : Call → Config
  | setCharset s => { k with charset := s }
  | setUseFuzzy b => { k with useFuzzy := b }
  | addDirectory p true => if p ∈ k.path then k else { k with path := p :: k.path }
  | addDirectory p false => if p ∈ k.path then k else { k with path := k.path ++ [p] }
  | removeDirectory p => { k with path := k.path.filter (· ≠ p) }
  | _ => k

/-- The configuration after some calls. -/
def configured (k : Config) (calls : List Call) : Config := calls.foldl Call.configure k

/-- The configuration of a manager state. -/
def config (m : Manager) : Config := ⟨m.searchPath, m.charset, m.useFuzzy⟩

/-- A new manager that has only been configured. -/
def newManager (k : Config) : Manager :=
  { Manager.init k.charset with searchPath := k.path, useFuzzy := k.useFuzzy }

/-- How well a file name serves a language: 0 for files that are not `.po` files, otherwise the match score of
the language that the name denotes. -/
def fileScore (ct : CType) (l : Language) (f : Str) : Nat :=
  if b!".po" <:+ f then
    match convertFilename2Language ct f with
    | some name => Language.match l (Language.fromEnv name)
    | none => 0
  else 0

/-- `f` is the first file with the highest positive score. -/
def BestFile (ct : CType) (l : Language) (files : List Str) (f : Str) : Prop :=
  ∃ before after, files = before ++ f :: after ∧ 0 < fileScore ct l f ∧
    (∀ x ∈ before, fileScore ct l x < fileScore ct l f) ∧ ∀ x ∈ after, fileScore ct l x ≤ fileScore ct l f

/-- No file serves the language. -/
def NoFile (ct : CType) (l : Language) (files : List Str) : Prop := ∀ f ∈ files, fileScore ct l f = 0

/-- `POParser::parse` of a file, as seen by its caller (the manager uses the default `use_fuzzy`). -/
def parseFile (env : Env) (pofile : Str) (s : Stream) (d : Dictionary) : Observed :=
  observe (POParser.run ⟨env.ct, env.lib, env.pedantic, pofile, true, env.fuel⟩ s d)

end Tgt.Spec
