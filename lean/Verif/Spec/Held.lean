import Verif.Spec.Manager
import Verif.Spec.Size
import Verif.Spec.Lines
/-
What a manager may hold.
-/
namespace Tgt.Spec

/-- The configuration, the current language and the languages asked for since the configuration last changed. -/
structure Wish where
  config : Config
  current : Language
  asked : List Language
  deriving DecidableEq, Repr

/-- What a call does to them: `get_dictionary` asks for a language, changes of the configuration forget what was asked for. -/
def Call.wish (w : Wish) (c : Call) : Wish :=
  match c with
  | getDictionary => if w.current.isDefined then { w with asked := w.current :: w.asked } else w
  | getDictionaryFor l => { w with asked := l :: w.asked }
  | setLanguage l => { w with current := l }
  | setCharset _ | setUseFuzzy _ => { w with config := c.configure w.config, asked := [] }
  | addDirectory p _ => if p ∈ w.config.path then w else { w with config := c.configure w.config, asked := [] }
  | removeDirectory p => if p ∈ w.config.path then { w with config := c.configure w.config, asked := [] } else w
  | _ => w

/-- After some calls on a new manager. -/
def wishes (charset : Str) (calls : List Call) : Wish := calls.foldl Call.wish ⟨⟨[], charset, true⟩, none, []⟩

/-- The language without country, which `get_dictionary` asks for as the fallback. -/
def bareLang (l : Language) : Language := Language.fromSpec l.getLanguage [] []

/-- A history in which every call was made in a world with property `P`. -/
inductive HistoryIn (P : Env → Prop) (m : Manager) : List Call → Manager → Prop where
  | nil : HistoryIn P m [] m
  | snoc {calls : List Call} {m1 m2 : Manager} {c : Call} {env : Env} :
    HistoryIn P m calls m1 → P env → c.Leads env m1 m2 → HistoryIn P m (calls ++ [c]) m2

/-- All files in `dir` are newline-terminated texts of at most `size dir` bytes, or cannot be read. -/
def SmallFiles (size : Str → Nat) (env : Env) : Prop :=
  ∀ dir f st, env.fs.openFile (dir ++ b!"/" ++ f) = .stream st → st = .failed ∨ ∃ t, st = .ofBytes t ∧ Terminated t ∧ t.length ≤ size dir

/-- All that the dictionaries of a manager hold. -/
def heldSize (m : Manager) : Nat := (m.heap.map (fun x => dictSize x.2)).sum

end Tgt.Spec
