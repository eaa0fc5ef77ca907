import Verif.Spec.Loading
import Verif.Spec.History
/-
What an addition to a dictionary of a manager is about.
-/
namespace Tgt.Spec
open Manager

/-- The answer of a lookup on dictionary `p`, with the messages that come with it. -/
def reply (f : Nat) (m : Manager) (p : DictId) (q : Query) : Option (Str × List Diag) :=
  match Manager.ask f p q { m with log := [] } with
  | .ok s m' => some (s, m'.log)
  | _ => none

/-- The message a lookup is for: its context, if any, and its text. -/
def Query.key : Query → Option Str × Str
  | .translate i | .plural i _ _ => (none, i)
  | .ctxt c i | .ctxtPlural c i _ _ => (some c, i)

/-- Lookups with a number. -/
def Query.counts : Query → Bool
  | .translate _ | .ctxt _ _ => false
  | .plural _ _ _ | .ctxtPlural _ _ _ _ => true

/-- A dictionary has messages in this context. -/
def Dictionary.knows (d : Dictionary) (c : Str) : Prop := d.ctxtEntries.get? c ≠ none

/-- A lookup that a dictionary passes on to its fallback: without a number, for a message without translation, in no context or in one in
which there are messages. -/
def PassedOn (d : Dictionary) (q : Query) : Prop :=
  Query.counts q = false ∧ (stored d (Query.key q).1 (Query.key q).2).bind List.head? = none ∧ ∀ c, (Query.key q).1 = some c → Dictionary.knows d c

/-- The addition `a` to dictionary `id` is for the message that the lookup `q` on `p` (with the contents `d`) is for: in `p` itself, or,
without context, in the fallback if the lookup is passed on to it. -/
def Concerned (d : Dictionary) (p id : DictId) (a : Add) (q : Query) : Prop :=
  (p = id ∧ target a = Query.key q) ∨ (p ≠ id ∧ d.fallback = some id ∧ PassedOn d q ∧ target a = (none, (Query.key q).2))

/-- The addition is the first one in the context of the lookup, in a dictionary with a fallback. -/
def OpensContext (d : Dictionary) (p id : DictId) (a : Add) (q : Query) : Prop :=
  p = id ∧ d.hasFallback = true ∧ ∃ c, (target a).1 = some c ∧ (∃ i, q = .ctxt c i) ∧ ¬ Dictionary.knows d c

/-- The string an addition gives to lookups without a number, if it gives one. -/
def Add.first : Add → Option Str
  | .singular _ _ s => some s
  | .plural _ _ _ v => v.head?

end Tgt.Spec
