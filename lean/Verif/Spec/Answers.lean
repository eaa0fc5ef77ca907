import Verif.Spec.History
/-
When two dictionaries cannot be told apart by questions, and which calls of a history concern which message.
-/
namespace Tgt.Spec

/-- Every question has the same answer in both dictionaries, and the same messages come with it; lists of messages (`foreach`,
`foreach_ctxt`, the candidates after a failed plural lookup) may come in another order. -/
structure SameAnswers (d d' : Dictionary) : Prop where
  translate : ∀ heap fuel msgid log, d.translate heap fuel msgid log = d'.translate heap fuel msgid log
  translateCtxt : ∀ heap fuel ctxt msgid log, d.translateCtxt heap fuel ctxt msgid log = d'.translateCtxt heap fuel ctxt msgid log
  translatePlural : ∀ msgid plural n, (d.translatePlural msgid plural n).1 = (d'.translatePlural msgid plural n).1 ∧
    (d.translatePlural msgid plural n).2.Perm (d'.translatePlural msgid plural n).2
  translateCtxtPlural : ∀ ctxt msgid plural n, (d.translateCtxtPlural ctxt msgid plural n).1 = (d'.translateCtxtPlural ctxt msgid plural n).1 ∧
    (d.translateCtxtPlural ctxt msgid plural n).2.Perm (d'.translateCtxtPlural ctxt msgid plural n).2
  «foreach» : d.foreach.Perm d'.foreach
  foreachCtxt : d.foreachCtxt.Perm d'.foreachCtxt
  charset : d.charset = d'.charset
  pluralForms : d.pluralForms = d'.pluralForms

/-- The call is an addition for this message. -/
def Op.isFor (key : Option Str × Str) : Op → Bool
  | .add a => target a == key
  | _ => false

/-- The call is `set_plural_forms`. -/
def Op.isRule : Op → Bool
  | .setPluralForms _ => true
  | _ => false

/-- The call is `addFallback`. -/
def Op.isFallback : Op → Bool
  | .addFallback _ => true
  | _ => false

/-- The histories have, for every message, the same additions in the same order, and the same calls of `set_plural_forms` and of
`addFallback` in the same order; apart from that the calls may be mixed in any way. -/
structure Shuffled (h h' : List Op) : Prop where
  adds : ∀ key, h.filter (Op.isFor key) = h'.filter (Op.isFor key)
  rules : h.filter Op.isRule = h'.filter Op.isRule
  fallbacks : h.filter Op.isFallback = h'.filter Op.isFallback

/-- What the calls of a history log, one after the other, when they are made on a dictionary. -/
def opLog : Dictionary → List Op → List Diag
  | _, [] => []
  | d, .add a :: r => (a.apply d).2 ++ opLog (a.apply d).1 r
  | d, o :: r => opLog (o.run d) r

end Tgt.Spec
