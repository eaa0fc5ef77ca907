import Verif.Model.Reentrant
import Verif.Spec.Logging
/-
Log callbacks that call the library: how deep callbacks are nested, what callbacks ask, and what a lookup says.
-/
namespace Tgt.Spec
open Manager Reentrant

variable {κ : Type}

/-- How many callbacks are running after these events: those that were called less those that returned. -/
def running : List (Event κ) → Int
  | [] => 0
  | .enter _ _ :: es => running es + 1
  | .leave :: es => running es - 1

/-- All lookups that callbacks make go to dictionaries that are alive. -/
def AsksLive (body : List (Event κ) → List (Act κ)) (m : Manager) : Prop :=
  ∀ h id q, .ask id q ∈ body h → m.heap.get? id ≠ none

/-- Callbacks do not set callbacks. -/
def SetsNothing (body : List (Event κ) → List (Act κ)) : Prop := ∀ h lv k, .set lv k ∉ body h

/-- The messages of a lookup when callbacks only listen. -/
def says (fuel : Nat) (m : Manager) (id : DictId) (q : Query) : List Diag :=
  match Manager.ask fuel id q (unlogged m) with
  | .ok _ m' => m'.log
  | _ => []

/-- What happens to callbacks that only listen, when this is said. -/
def hears (c : Callbacks κ) (d : Diag) : List (Event κ) :=
  match listener c d.level with
  | none => []
  | some k => [.enter k d.text, .leave]

end Tgt.Spec
