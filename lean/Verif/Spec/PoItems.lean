import Verif.Spec.PoFile
/-
Specification of what is found in an arbitrary text: a list of entries, each a block of lines of the text.
-/
namespace Tgt.Spec.Po

/-- An entry found in a text.  A `broken` one is a plural entry that is not followed by a line separating
entries: its strings have been read (and converted), but nothing comes of it. -/
inductive Item where
  | whole (e : Entry)
  | broken (e : Entry)
  deriving DecidableEq, Repr

/-- The entry found. -/
def Item.entry : Item → Entry
  | whole e | broken e => e

/-- Does the entry have a `msgid_plural`? -/
def Entry.isPlural (e : Entry) : Prop := ∃ idp strs, e.body = .plural idp strs

/-- The entry an item counts as when flagged entries are left out: flagged if it is not to be used. -/
def Item.counted (useFuzzy : Bool) : Item → Entry
  | whole e => { e with fuzzy := e.fuzzy && !useFuzzy }
  | broken e => { e with fuzzy := true }

/-- `k` lines from number `p` on. -/
def block (line : Nat → Str) (p k : Nat) : List Str := (List.range k).map (fun i => line (p + i))

/-- Items found, in this order and without overlap, from line `n` on and before line `m`; `big5`: the text is in
Big5 from here on. -/
inductive Found (ct : CType) (line : Nat → Str) : (big5 : Bool) → Nat → List Item → Nat → Prop where
  | nil {b n m} : n ≤ m → Found ct line b n [] m
  | whole {b n p k e is m} : n ≤ p → EntryLines ct b false (block line p k) e →
      (e.isPlural → Separator ct (line (p + k))) →
      Found ct line (b || e.header?.any (fun t => declaredCharset ct t == b!"BIG5")) (p + k) is m →
      Found ct line b n (.whole e :: is) m
  | broken {b n p k e is m} : n ≤ p → EntryLines ct b false (block line p k) e → e.isPlural →
      ¬ Separator ct (line (p + k)) → Found ct line b (p + k) is m → Found ct line b n (.broken e :: is) m

/-- What loading items does. -/
def loadItems (ct : CType) (lib : IconvLib) (useFuzzy : Bool) (cs : Str) (is : List Item) (cv : IConv) (e : Effect) :
    Ending × Effect :=
  load ct lib false cs (is.map (Item.counted useFuzzy)) cv e

/-- One ending, then another. -/
def _root_.Tgt.Spec.Ending.andThen : Ending → Ending → Ending
  | .returned, e => e
  | e, _ => e

end Tgt.Spec.Po

namespace Tgt.Spec.Po

/-- An addition to a dictionary says what an entry of a file says: its string or strings, converted. -/
inductive Came (lib : IconvLib) : Entry → Add → Prop where
  | singular {fz ctxt id t t' cv cv' l} : id ≠ [] → t ≠ [] → IConv.convert lib cv t = .ok t' cv' l →
      Came lib ⟨fz, ctxt, id, .single t⟩ (.singular ctxt id t')
  | plural {fz ctxt id idp strs strs' cv cv'} : (∃ x ∈ strs, x.2 ≠ []) → (∀ x ∈ strs, x.1 ≤ 9) →
      convertAll lib cv strs = .ok (strs', cv') →
      Came lib ⟨fz, ctxt, id, .plural idp strs⟩ (.plural ctxt id idp (pluralVec strs'))

end Tgt.Spec.Po
