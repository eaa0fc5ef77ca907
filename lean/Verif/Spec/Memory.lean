import Verif.Model.Memory
import Verif.Spec.Loading
import Verif.Spec.History
/-
What may be left behind by an addition for which there was not enough memory.
-/
namespace Tgt.Spec
open Memory

/-- `d'` is `d`, except perhaps for what it holds for this one message. -/
structure SameBut (c : Option Str) (i : Str) (d d' : Dictionary) : Prop where
  others : ∀ c' i', (c', i') ≠ (c, i) → stored d' c' i' = stored d c' i'
  contexts : ∀ c', some c' ≠ c → (d'.ctxtEntries.get? c').isSome = (d.ctxtEntries.get? c').isSome
  charset : d'.charset = d.charset
  pluralForms : d'.pluralForms = d.pluralForms
  hasFallback : d'.hasFallback = d.hasFallback
  fallback : d'.fallback = d.fallback

/-- What a failed addition may make of the strings of its message: nothing; an entry without strings; or, if it was to replace several strings,
a mixture: the first few are the new ones, the others the old ones. -/
inductive Left : Add → Option (List Str) → Option (List Str) → Prop where
  | same {a : Add} {old : Option (List Str)} : Left a old old
  | empty {a : Add} : Left a none (some [])
  | mixed {c : Option Str} {i p : Str} {new old : List Str} {k : Nat} : k < new.length → k ≤ old.length →
    Left (.plural c i p new) (some old) (some (new.take k ++ old.drop k))

/-- Calls one after the other; an addition that throws `std::bad_alloc` is made again, until it succeeds.  From a dictionary (and the messages so far) to another. -/
inductive Persistent (oom : Nat → Bool) : List Op → DictLog → Nat → DictLog → Prop where
  | nil {s : DictLog} {t : Nat} : Persistent oom [] s t s
  | added {a : Add} {h : List Op} {s s1 s' : DictLog} {t t1 : Nat} :
    Memory.add oom a s t = .done s1 t1 → Persistent oom h s1 t1 s' → Persistent oom (.add a :: h) s t s'
  | again {a : Add} {h : List Op} {s s1 s' : DictLog} {t t1 : Nat} :
    Memory.add oom a s t = .badAlloc s1 t1 → Persistent oom (.add a :: h) s1 t1 s' → Persistent oom (.add a :: h) s t s'
  | other {o : Op} {h : List Op} {s s' : DictLog} {t : Nat} :
    (∀ a, o ≠ .add a) → Persistent oom h (o.run s.1, s.2) t s' → Persistent oom (o :: h) s t s'

/-- Calls one after the other; an addition that throws `std::bad_alloc` is given up.  `lost`: the messages of the additions that failed. -/
inductive Careless (oom : Nat → Bool) : List Op → DictLog → Nat → DictLog → List (Option Str × Str) → Prop where
  | nil {s : DictLog} {t : Nat} : Careless oom [] s t s []
  | added {a : Add} {h : List Op} {s s1 s' : DictLog} {t t1 : Nat} {lost : List (Option Str × Str)} :
    Memory.add oom a s t = .done s1 t1 → Careless oom h s1 t1 s' lost → Careless oom (.add a :: h) s t s' lost
  | lost {a : Add} {h : List Op} {s s1 s' : DictLog} {t t1 : Nat} {lost : List (Option Str × Str)} :
    Memory.add oom a s t = .badAlloc s1 t1 → Careless oom h s1 t1 s' lost → Careless oom (.add a :: h) s t s' (target a :: lost)
  | other {o : Op} {h : List Op} {s s' : DictLog} {t : Nat} {lost : List (Option Str × Str)} :
    (∀ a, o ≠ .add a) → Careless oom h (o.run s.1, s.2) t s' lost → Careless oom (o :: h) s t s' lost

end Tgt.Spec
