import Verif.Base
/-
Specification of text lines: a text is a list of newline-terminated lines and an unterminated rest.
-/
namespace Tgt.Spec

/-- The newline-terminated lines of a text (without their newlines), and what follows the last
newline. -/
def splitLines : Str → List Str × Str
  | [] => ([], [])
  | b :: t =>
    if b = 10 then ([] :: (splitLines t).1, (splitLines t).2)
    else match (splitLines t).1 with
      | [] => ([], b :: (splitLines t).2)
      | l :: ls => ((b :: l) :: ls, (splitLines t).2)

/-- The text made of some newline-terminated lines. -/
def unlines : List Str → Str
  | [] => []
  | l :: ls => l ++ 10 :: unlines ls

/-- Number of lines, counting an unterminated non-empty last line. -/
def lineCount (s : Str) : Nat :=
  (splitLines s).1.length + (if (splitLines s).2 = [] then 0 else 1)

/-- Line number `p`, counting from 0; the rest after the last newline for later numbers. -/
def lineAt (s : Str) (p : Nat) : Str := (splitLines s).1.getD p (splitLines s).2

/-- Every line ends with a newline. -/
def Terminated (s : Str) : Prop := (splitLines s).2 = []

instance (s : Str) : Decidable (Terminated s) := inferInstanceAs (Decidable (_ = _))

/-- Lines that make up a text as intended: none contains a newline, each is shorter than 4 GiB, there are
fewer than 2^31 - 9 of them, and the first does not start with a byte order mark. -/
structure TextOk (ls : List Str) : Prop where
  noNl : ∀ l ∈ ls, (10 : Byte) ∉ l
  short : ∀ l ∈ ls, l.length < 4294967296
  few : ls.length + 8 < 2147483647
  noBom : ¬ [0xef, 0xbb, 0xbf] <+: ls.headD []

/-- A text without its UTF-8 byte order mark. -/
def withoutBom : Str → Str
  | 0xef :: 0xbb :: 0xbf :: t => t
  | s => s

/-- A text with every LF turned into CR LF. -/
def toCrlf (s : Str) : Str := s.flatMap (fun b => if b = 10 then [13, 10] else [b])

/-- A last line without newline that is harmless: it is not a comment, its first non-blank byte is
not a quote, and it does not start with `msgstr[`. -/
def HarmlessEnd (ct : CType) (r : Str) : Prop :=
  r.head? ≠ some 35 ∧ (r.dropWhile ct.isspace).head? ≠ some 34 ∧ ¬ b!"msgstr[" <+: r

end Tgt.Spec
