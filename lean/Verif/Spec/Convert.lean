import Verif.Model.IConv
/-
Specification of a sequence of conversions: what the caller sees, in terms of the C library alone.
-/
namespace Tgt.Spec

/-- What a caller sees of one call `convert(text)`: the text returned and whether an error was
logged, or an abort. -/
inductive Seen where
  | text (s : Str) (logged : Bool)
  | aborted
  deriving DecidableEq, Repr

/-- The calls `convert(t)` for each `t` of `texts`, up to the first abort. -/
def convertEach (lib : IconvLib) : IConv → List Str → List Seen
  | _, [] => []
  | c, t :: ts => match c.convert lib t with
    | .ok r c' log => .text r (log.contains (.iconvInvalid t)) :: convertEach lib c' ts
    | .fault _ => [.aborted]

/-- What should be seen if the library converts `src` to `dst` and has been fed `fed` since it was
opened or last reset: each text is handed to the library with room for four bytes per input byte;
what the library wrote is returned; an invalid or incomplete sequence is logged and resets the
converter; any other failure aborts. -/
def expectEach (lib : IconvLib) (dst src : Str) : (fed : List Str) → List Str → List Seen
  | _, [] => []
  | fed, t :: ts =>
    let r := lib.conv dst src fed t (4 * t.length)
    if r.status = .ok then .text r.out false :: expectEach lib dst src (fed ++ [t]) ts
    else if r.status = .eilseq ∨ r.status = .einval then
      .text r.out true :: expectEach lib dst src [] ts
    else [.aborted]

/-- The charset name handed to the library for the name `n`: upper case, up to the first NUL. -/
def libName (ct : CType) (n : Str) : Str := (n.map ct.toupper).takeWhile (· ≠ 0)

/-! ### Room for the output -/

/-- What a conversion makes of a text: the output, up to the first invalid or incomplete sequence if there is one. -/
structure Made where
  out : Str
  /-- there is an invalid sequence -/
  invalid : Bool
  /-- the text ends within a sequence -/
  incomplete : Bool
  deriving DecidableEq, Repr

/-- `lib` is an `iconv` as POSIX wants it, for conversions that make `f dst src fed text` of a text: if there is room for the
output, then that is written, and the result tells whether the text was good; if there is not, then a part of it is written and the
result is `E2BIG`. -/
def Posix (lib : IconvLib) (f : (dst src : Str) → (fed : List Str) → Str → Made) : Prop :=
  ∀ dst src fed text room,
    if (f dst src fed text).out.length ≤ room then
      (lib.conv dst src fed text room).out = (f dst src fed text).out ∧
      (lib.conv dst src fed text room).status
        = if (f dst src fed text).invalid then .eilseq else if (f dst src fed text).incomplete then .einval else .ok
    else (lib.conv dst src fed text room).status = .e2big ∧ (lib.conv dst src fed text room).out <+: (f dst src fed text).out

end Tgt.Spec
