import Verif.Model.Dictionary
/-
Specification of a dictionary by its history: a list of calls, oldest first.  What a dictionary
answers is defined here by looking at the history alone.
-/
namespace Tgt.Spec

/-- A mutating call on a dictionary. -/
inductive Op where
  | add (a : Add)
  | setPluralForms (p : PluralForms)
  | addFallback (p : Option DictId)
  deriving DecidableEq, Repr

/-- Run one call. -/
def Op.run (d : Dictionary) : Op → Dictionary
  | .add a => (a.apply d).1
  | .setPluralForms p => d.setPluralForms p
  | .addFallback p => d.addFallback p

/-- The dictionary after a history, starting from a fresh one. -/
def after (charset : Str) (h : List Op) : Dictionary := h.foldl Op.run (Dictionary.init charset)

/-- What an addition is for: context (or none) and message. -/
def target : Add → Option Str × Str
  | .singular c i _ => (c, i)
  | .plural c i _ _ => (c, i)

/-- The strings of a message, from the history *newest first*: those of the latest plural addition,
with the first one replaced by the latest singular addition if that is newer. -/
def stringsRev (key : Option Str × Str) : List Op → List Str
  | [] => []
  | .add (.singular c i s) :: older =>
    if (c, i) = key then s :: (stringsRev key older).tail else stringsRev key older
  | .add (.plural c i _ v) :: older =>
    if (c, i) = key then v else stringsRev key older
  | _ :: older => stringsRev key older

/-- The strings of a message after a history (oldest first). -/
def strings (h : List Op) (key : Option Str × Str) : List Str := stringsRev key h.reverse

/-- Was there ever an addition for this message? -/
def Touched (h : List Op) (key : Option Str × Str) : Prop := ∃ o ∈ h, ∃ a, o = .add a ∧ target a = key

instance (o : Op) (key : Option Str × Str) : Decidable (∃ a, o = .add a ∧ target a = key) :=
  match o with
  | .add a => if h : target a = key then .isTrue ⟨a, rfl, h⟩
      else .isFalse (by rintro ⟨_, e, h'⟩; cases e; exact h h')
  | .setPluralForms _ => .isFalse (by rintro ⟨_, e, _⟩; cases e)
  | .addFallback _ => .isFalse (by rintro ⟨_, e, _⟩; cases e)

instance (h : List Op) (key : Option Str × Str) : Decidable (Touched h key) :=
  inferInstanceAs (Decidable (∃ o ∈ h, _))

/-- The first string of the latest addition for a message, if there is one. -/
def latestRev (key : Option Str × Str) : List Op → Option Str
  | [] => none
  | .add (.singular c i s) :: older => if (c, i) = key then some s else latestRev key older
  | .add (.plural c i _ v) :: older => if (c, i) = key then v.head? else latestRev key older
  | _ :: older => latestRev key older

/-- The first string of the latest addition for a message after a history (oldest first). -/
def latest (h : List Op) (key : Option Str × Str) : Option Str := latestRev key h.reverse

/-- The plural rule after a history (newest first). -/
def pluralRuleRev : List Op → PluralForms
  | [] => .undefined
  | .setPluralForms p :: _ => p
  | _ :: older => pluralRuleRev older

/-- The plural rule after a history. -/
def pluralRule (h : List Op) : PluralForms := pluralRuleRev h.reverse

/-- The English answer: the message itself for one item, the plural message otherwise. -/
def englishAnswer (msgid msgidPlural : Str) (n : Int) : Str :=
  if n = 1 then msgid else msgidPlural

/-- What `translate_plural`/`translate_ctxt_plural` should answer. -/
def pluralAnswer (h : List Op) (key : Option Str × Str) (msgidPlural : Str) (n : Int) : Str :=
  if ¬ Touched h key then englishAnswer key.2 msgidPlural n
  else match (strings h key)[(pluralRule h).getPlural n]? with
    | none => key.2
    | some [] => englishAnswer key.2 msgidPlural n
    | some s => s

end Tgt.Spec
