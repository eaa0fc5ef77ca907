import Verif.Spec.Loading
import Verif.Model.Nested
/-
Callbacks that only ask, and complete dictionaries.
-/
namespace Tgt.Spec
open Manager

/-- Calls that only ask: for a dictionary (of a language that is defined), for the languages, for the settings, for a translation (from a dictionary that still exists). -/
def Call.Asks (m : Manager) : Call → Prop
  | getDictionary | getLanguages | getLanguage | getUseFuzzy => True
  | getDictionaryFor l => l.isDefined = true
  | ask id _ => m.heap.get? id ≠ none
  | _ => False

/-- The callback only asks. -/
def OnlyAsks (body : Nested.Body) : Prop := ∀ m answers c, body m answers = some c → c.Asks m

/-- A callback that calls nothing. -/
def listens : Nested.Body := fun _ _ => none

/-- All files are shorter than the bound on loops. -/
def ShortFiles (env : Env) : Prop := ∀ path s, env.fs.openFile path = .stream s → s.rest.length < env.fuel

/-- Some directory of the path cannot be listed. -/
def Unlistable (env : Env) (path : List Str) : Prop := ∃ dir ∈ path, ∃ w, env.fs.openDirectory dir = .error w

/-- The dictionary `p` of language `l` has everything that the search path offers for `l`, and the dictionary of the bare language as its fallback if `l` has a country. -/
def Complete (env : Env) (m : Manager) (l : Language) (p : DictId) : Prop :=
  ∃ d, m.heap.get? p = some d ∧ PathLoads env l m.searchPath (Dictionary.init m.charset) (unlinked d) ∧
    (l.getCountry ≠ [] → d.hasFallback = true ∧ ∃ q, d.fallback = some q ∧ m.dictionaries.get? (Language.fromSpec l.getLanguage [] []) = some q)

/-- Nothing that was there has changed: the settings, the language, the dictionaries and which of them serves which language; none was deleted. -/
structure Undisturbed (m m' : Manager) : Prop where
  config : config m' = config m
  language : m'.currentLanguage = m.currentLanguage
  freed : m'.freed = m.freed
  dictionaries : ∀ p d, m.heap.get? p = some d → m'.heap.get? p = some d
  cached : ∀ l p, m.dictionaries.get? l = some p → m'.dictionaries.get? l = some p

/-- What a call that asks returns, if it began in state `m` and left `m'`: the dictionary of the current language (the empty one if there is none), the dictionary of the
language asked for, and else what the call returns if no callback is installed. -/
def Answers (env : Env) (m m' : Manager) : Call → Answer → Prop
  | .getDictionary, a => ∃ p, a = .dict p ∧ (m.currentLanguage.isDefined = true → m'.dictionaries.get? m.currentLanguage = some p) ∧
      (m.currentLanguage.isDefined = false → p = emptyDict)
  | .getDictionaryFor l, a => ∃ p, a = .dict p ∧ m'.dictionaries.get? l = some p
  | c, a => ∃ lg, c.run env m = .ok a { m with log := lg }

end Tgt.Spec
