import Verif.Model.Dictionary
/-
Specification of what a parse does to a dictionary: a list of additions, and a plural rule that takes
effect if the dictionary has none.
-/
namespace Tgt.Spec

/-- Effect of a parse on a dictionary. -/
structure Effect where
  adds : List Add
  rule : Option PluralForms
  deriving DecidableEq, Repr

/-- A dictionary after the additions, in order. -/
def addAll (d : Dictionary) (adds : List Add) : Dictionary := adds.foldl (fun d a => (a.apply d).1) d

/-- The dictionary after an effect. -/
def Effect.applyTo (e : Effect) (d : Dictionary) : Dictionary :=
  { addAll d e.adds with
    pluralForms := if d.pluralForms.isDefined then d.pluralForms else e.rule.getD d.pluralForms }

/-- One effect, then another. -/
def Effect.plus (e e' : Effect) : Effect := ⟨e.adds ++ e'.adds, e.rule.or e'.rule⟩

/-- How a parse ended. -/
inductive Ending where
  | returned
  | threw (what : Str)
  | crashed (f : Fault)
  | unfinished
  deriving DecidableEq, Repr

end Tgt.Spec
