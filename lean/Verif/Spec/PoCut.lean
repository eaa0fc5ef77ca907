import Verif.Spec.PoRead
/-
Texts that begin alike: blocks of lines, and how far two texts are read in the same way.
-/
namespace Tgt.Spec.Po

/-- What reading at line `n` takes up next: a gap, an entry with the separating line after it, or a faulty block; the pieces it
gives, the last line it depends on, and the line where reading goes on. -/
inductive Block (ct : CType) (line : Nat → Str) (N : Nat) (b : Bool) (n : Nat) : List Piece → (last next : Nat) → Prop where
  | gap {k} : n < N → (∀ l ∈ block line n k, Comment l) → Blank ct (line (n + k)) → Block ct line N b n [] (n + k) (n + k + 1)
  | entry {k x} : n < N → REntry ct b n (block line n k) x → Separator ct (line (n + k)) → Block ct line N b n [x] (n + k) (n + k + 1)
  | fault {k pre ns m q} : n < N → BadEntry ct b n (block line n k) (line (n + k)) pre ns m →
      n + k < q → (∀ j, n + k < j → j < q → j < N ∧ ¬ Separator ct (line j)) → (N ≤ q ∨ Separator ct (line q)) →
      Block ct line N b n (pre ++ [.notes (ns ++ [⟨.error, n + k, m, false⟩])]) q q

/-- Blocks from line `n` up to line `m`, and the pieces they give. -/
inductive Blocks (ct : CType) (line : Nat → Str) (N : Nat) : (big5 : Bool) → Nat → List Piece → (m : Nat) → Prop where
  | nil {b n} : Blocks ct line N b n [] n
  | cons {b n ps last next qs m} : Block ct line N b n ps last next → Blocks ct line N (b || ps.any (saysBig5 ct)) next qs m →
      Blocks ct line N b n (ps ++ qs) m

/-- The text `s` is read as `pre` up to line `n`; what stands at line `n` is a block that depends on line `m` or a later one (or
there is nothing more). -/
structure ReadUpTo (ct : CType) (s : Str) (pre : List Piece) (n m : Nat) : Prop where
  blocks : Blocks ct (lineAt (withoutBom s)) (lineCount s) false 0 pre n
  stops : ∀ ps last next, Block ct (lineAt (withoutBom s)) (lineCount s) (pre.any (saysBig5 ct)) n ps last next → m ≤ last

/-- One dictionary is made from another by adding messages and taking over rules from headers. -/
inductive Loaded (ct : CType) : Dictionary → Dictionary → Prop where
  | none {d} : Loaded ct d d
  | add {d d'} (m : Add) : Loaded ct (m.apply d).1 d' → Loaded ct d d'
  | rule {d d'} (header : Str) : Loaded ct (withHeaderRule ct header d) d' → Loaded ct d d'

/-- Number of lines that are complete, i.e. end with a newline. -/
def completeLines (s : Str) : Nat := (splitLines s).1.length

end Tgt.Spec.Po
