import Verif.Model.IConv
/-
Specification of converter handles: a sequence of library calls (oldest first) is clean if handles
are opened one at a time, used and closed only while open, and none is left open.
-/
namespace Tgt.Spec

/-- A call on an `IConv` object. -/
inductive IOp where
  | setCharsets (fromC toC : Str)
  | convert (text : Str)
  deriving DecidableEq, Repr

/-- Run calls on an `IConv`, the caller catching exceptions; `none` if the process aborted (failed
assertion). -/
def runIOps (ct : CType) (lib : IconvLib) : IConv → List IOp → Option IConv
  | c, [] => some c
  | c, .setCharsets f t :: ops => runIOps ct lib (c.setCharsets ct lib f t).1 ops
  | c, .convert x :: ops => match c.convert lib x with
    | .ok _ c' _ => runIOps ct lib c' ops
    | .fault _ => none

/-- `Clean cur seen trace`: with handle `cur` open and the handles `seen` opened before, the calls in
`trace` (oldest first) are legal and end with nothing open.  Closing `(iconv_t)-1` is not legal. -/
inductive Clean : Option Nat → List Nat → List IconvEvent → Prop where
  | done {seen} : Clean none seen []
  | openH {id seen t} : id ∉ seen → Clean (some id) (id :: seen) t → Clean none seen (.opened id :: t)
  | openFailed {seen t} : Clean none seen t → Clean none seen (.openFailed :: t)
  | useH {id seen t} : Clean (some id) seen t → Clean (some id) seen (.used id :: t)
  | closeH {id seen t} : Clean none seen t → Clean (some id) seen (.closed id :: t)

/-- Drop the calls `iconv_close((iconv_t)-1)`. -/
def dropInvalid (t : List IconvEvent) : List IconvEvent := t.filter (· ≠ .closedInvalid)

end Tgt.Spec
