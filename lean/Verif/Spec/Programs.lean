import Verif.Model.Programs
import Verif.Spec.Observe
import Verif.Spec.PoWriter
/-
What is seen of a run of one of the command line programs.
-/
namespace Tgt.Spec
open Program

/-- The program comes to its end with this exit status, having written this. -/
def Exits (r : Res Proc Nat) (status : Nat) (os : List Out) : Prop := ∃ p, r = .ok status p ∧ p.output = os

/-- What arrives at the standard output. -/
def stdout (os : List Out) : Str := os.flatMap (fun | .out t => t | .err _ => [])

/-- What arrives at the standard error output. -/
def stderr (os : List Out) : Str := os.flatMap (fun | .out _ => [] | .err t => t)

/-- The program comes to its end with this exit status, this text on the standard output and this text on the standard
error output. -/
def Shows (r : Res Proc Nat) (status : Nat) (out err : Str) : Prop := ∃ os, Exits r status os ∧ stdout os = out ∧ stderr os = err

/-- How a program parses a file: pedantic mode, with fuzzy entries. -/
def progCfg (y : Sys) (file : Str) : Cfg := ⟨y.ct, y.lib, true, file, true, y.fuel⟩

/-- What parsing a file that holds this text into a new UTF-8 dictionary does; reading it may fail after the text. -/
def parsed (y : Sys) (file text : Str) : Observed :=
  observe (POParser.run (progCfg y file) ⟨text, true, y.os.readFails file⟩ (.init b!"UTF-8"))

/-- What po_parser_test, called as `name`, has to say about one file. -/
def report (y : Sys) (name file : Str) : List Out :=
  match y.os.content file with
  | none => [.err (name ++ b!": cannot access " ++ file ++ b!": " ++ y.why file ++ [10])]
  | some text =>
    (parsed y file text).log.map (fun d => .err d.text) ++
    (match parsed y file text with
    | .threw what _ _ => [.out (file ++ b!": exception: " ++ what ++ [10])]
    | _ => [])

/-- The lines that describe a language. -/
def description (l : Language) : Str :=
  b!"Env:       " ++ l.str ++ [10] ++ b!"Name:      " ++ l.getName ++ [10] ++ b!"Language:  " ++ l.getLanguage ++ [10] ++
  b!"Country:   " ++ l.getCountry ++ [10] ++ b!"Modifier:  " ++ l.getModifier ++ [10]

/-- Messages as the default callback shows them. -/
def defaultLog (ds : List Diag) : Str := ds.flatMap (fun d => b!"tinygettext: " ++ d.text)

/-- Digits that make up this number. -/
def DigitString (n : Nat) (ds : Str) : Prop := ds ≠ [] ∧ (∀ b ∈ ds, 48 ≤ b ∧ b ≤ 57) ∧ n = ds.foldl (fun acc b => acc * 10 + (b.toNat - 48)) 0

/-- A number as it may be written on a command line: white space, a sign, digits, and then anything that is not a digit. -/
def Numeral (ct : CType) (n : Int) (s : Str) : Prop :=
  ∃ ws sign ds rest k, s = ws ++ (sign ++ (ds ++ rest)) ∧ (∀ b ∈ ws, ct.isspace b) ∧ DigitString k ds ∧
    (∀ b t, rest = b :: t → ¬ (48 ≤ b ∧ b ≤ 57)) ∧
    ((sign = [] ∨ sign = b!"+") ∧ n = k ∨ sign = b!"-" ∧ n = -(k : Int))

/-- The values of `int`. -/
def IntRange (n : Int) : Prop := -2147483648 ≤ n ∧ n ≤ 2147483647

/-- The lines that `directory` prints before the translation. -/
def directoryHead (dir msg : Str) (l : Language) : Str :=
  (b!"Directory:   '" ++ dir ++ b!"'" ++ [10]) ++
  (b!"Message:     '" ++ msg ++ b!"'" ++ [10]) ++
  (b!"Language:    '" ++ l.str ++ b!"' (name: '" ++ l.getName ++ b!"', language: '" ++ l.getLanguage ++ b!"', country: '" ++ l.getCountry ++
    b!"', modifier: '" ++ l.getModifier ++ b!"')" ++ [10]) ++
  b!"Translation: '"

/-- What `list-msgstrs` prints for a message. -/
def listed (m : Po.Message) : Str :=
  (match m.ctxt with
    | none => []
    | some x => b!"Msgctxt: " ++ x ++ [10]) ++
  (b!"Msgid: " ++ m.msgid ++ [10]) ++ m.strs.flatMap (fun s => s ++ [10])

end Tgt.Spec
