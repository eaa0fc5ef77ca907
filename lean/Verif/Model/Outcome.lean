import Verif.Base
/-
Outcomes of C++ code with mutable state `σ`: normal return, the two kinds of exception the code
throws, undefined behaviour / failed assertion, and non-termination.
-/
namespace Tgt

/-- Ways to leave defined behaviour. -/
inductive Fault where
  /-- read past the terminating NUL of a string -/
  | outOfBounds
  /-- `int` overflow of a line counter -/
  | signedOverflow
  /-- an `assert` failed -/
  | assertFailed
  /-- a null pointer was dereferenced -/
  | nullDeref
  /-- a deleted object was accessed -/
  | useAfterFree
  deriving DecidableEq, Repr

/-- Result of running code on a state. -/
inductive Res (σ α : Type) where
  /-- normal completion -/
  | ok (a : α) (s : σ)
  /-- `throw POParserError()` (src/po_parser.cpp:84); the state survives -/
  | poError (s : σ)
  /-- a `std::exception` with its `what()`; the state survives -/
  | exn (what : Str) (s : σ)
  /-- undefined behaviour or abort -/
  | fault (f : Fault)
  /-- did not finish within the given fuel -/
  | diverge
  deriving Repr, DecidableEq

/-- Code over state `σ` returning `α`. -/
def Prog (σ α : Type) := σ → Res σ α

namespace Prog
variable {σ α β : Type}

/-- Return a value. -/
def pure (a : α) : Prog σ α := fun s => .ok a s

/-- Sequencing: exceptions, faults and divergence end the whole computation. -/
def bind (m : Prog σ α) (f : α → Prog σ β) : Prog σ β := fun s =>
  match m s with
  | .ok a s' => f a s'
  | .poError s' => .poError s'
  | .exn w s' => .exn w s'
  | .fault e => .fault e
  | .diverge => .diverge

instance : Monad (Prog σ) where
  pure := Prog.pure
  bind := Prog.bind

/-- Read the state. -/
def get : Prog σ σ := fun s => .ok s s
/-- Change the state. -/
def modify (f : σ → σ) : Prog σ Unit := fun s => .ok () (f s)
/-- Undefined behaviour. -/
def fault (e : Fault) : Prog σ α := fun _ => .fault e
/-- Out of fuel. -/
def diverge : Prog σ α := fun _ => .diverge
/-- `throw POParserError()`. -/
def throwPo : Prog σ α := fun s => .poError s
/-- `throw std::runtime_error(what)`. -/
def throwExn (w : Str) : Prog σ α := fun s => .exn w s

end Prog
end Tgt
