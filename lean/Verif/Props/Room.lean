import Verif.Props.Termination
import Verif.Spec.Convert
/-
Is there always enough room for the result of a conversion? (C81)
-/
namespace Tgt
open Spec POParser

/-- C81 in full: with any `iconv` that keeps to POSIX, no text makes a parse fail an assertion. -/
def C81_Statement : Prop :=
  ∀ (c : Cfg) (f : (dst src : Str) → (fed : List Str) → Str → Made), Posix c.lib f →
    ∀ (s : Stream) (d : Dictionary), observe (run c s d) ≠ .crashed .assertFailed

/-- C81.  Exactly which texts make `convert` fail its assertion, with any `iconv` that keeps to POSIX: those for which the result
needs more than four bytes for each byte of the text.  For all others the result is what the conversion makes of the text, and an
error is logged exactly if the text is not good. -/
theorem C81_exact (lib : IconvLib) (f : (dst src : Str) → (fed : List Str) → Str → Made) (hf : Posix lib f)
    (cv : IConv) (id : Nat) (dst src : Str) (fed : List Str) (hc : cv.cd = .opened id dst src fed) (text : Str) :
    if 4 * text.length < (f dst src fed text).out.length then cv.convert lib text = .fault .assertFailed
    else ∃ cv', cv.convert lib text = .ok (f dst src fed text).out cv'
      (if (f dst src fed text).invalid || (f dst src fed text).incomplete then [.iconvInvalid text] else []) := by
  have h := hf dst src fed text (4 * text.length)
  unfold IConv.convert
  rw [hc]
  dsimp only
  split
  · rw [if_neg (by omega)] at h
    rw [h.1]
  · rw [if_pos (by omega)] at h
    rw [h.2, resizeResult_eq _ _ (lib.conv_cap _ _ _ _ _), h.1]
    cases (f dst src fed text).invalid <;> cases (f dst src fed text).incomplete <;> exact ⟨_, rfl⟩

/-- C81, as far as it holds: if no conversion makes more than four bytes of a byte, no parse fails an assertion. -/
theorem C81_no_abort_partial (c : Cfg) (f : (dst src : Str) → (fed : List Str) → Str → Made) (hf : Posix c.lib f)
    (h4 : ∀ dst src, c.lib.iconvOpen dst src = .ok → ∀ fed text, (f dst src fed text).out.length ≤ 4 * text.length)
    (s : Stream) (d : Dictionary) : observe (run c s d) ≠ .crashed .assertFailed := by
  intro h
  have tame : TameLib c.lib := by
    intro dst src ho fed text
    have h := hf dst src fed text (4 * text.length)
    rw [if_pos (h4 dst src ho fed text)] at h
    rw [h.2]
    cases (f dst src fed text).invalid <;> cases (f dst src fed text).incomplete <;> simp
  cases C24_no_abort c tame s d _ h

/-- C81.  What happens instead of a failed assertion if the library was compiled without assertions: as much of the result as there
was room for is returned, and nothing is logged.  Otherwise both ways of compiling give the same. -/
theorem C81_release (lib : IconvLib) (f : (dst src : Str) → (fed : List Str) → Str → Made) (hf : Posix lib f)
    (cv : IConv) (text : Str) :
    match (generalizing := false) cv.convert lib text with
    | .ok r _ l => cv.convertRelease lib text = (r, l)
    | .fault _ => (cv.convertRelease lib text).2 = [] ∧ (cv.convertRelease lib text).1.length ≤ 4 * text.length ∧
        (cv.cd = .invalid ∧ (cv.convertRelease lib text).1 = [] ∨
        ∃ id dst src fed, cv.cd = .opened id dst src fed ∧ 4 * text.length < (f dst src fed text).out.length ∧
          (cv.convertRelease lib text).1 <+: (f dst src fed text).out) := by
  unfold IConv.convert IConv.convertRelease
  cases hc : cv.cd with
  | null => rfl
  | invalid =>
    dsimp only
    rw [resizeResult_eq _ _ (by simp)]
    exact ⟨rfl, by simp, .inl ⟨rfl, rfl⟩⟩
  | opened id dst src fed =>
    have h := hf dst src fed text (4 * text.length)
    have hcap := lib.conv_cap dst src fed text (4 * text.length)
    dsimp only
    rw [resizeResult_eq _ _ hcap]
    by_cases hr : (f dst src fed text).out.length ≤ 4 * text.length
    · rw [if_pos hr] at h
      rw [h.2]
      cases (f dst src fed text).invalid <;> cases (f dst src fed text).incomplete <;> rfl
    · rw [if_neg hr] at h
      rw [h.1]
      exact ⟨rfl, hcap, .inr ⟨id, dst, src, fed, rfl, by omega, h.2⟩⟩

/-! ### A charset in which one byte stands for four characters -/

/-- Like TSCII, an encoding of Tamil that the GNU C library knows, of which only one letter is shown: the byte 0x82 is a ligature
that stands for four characters, of three bytes each in UTF-8. -/
def tamil (text : Str) : Str :=
  text.flatMap (fun b => if b = 0x82 then [0xe0, 0xae, 0xb8, 0xe0, 0xaf, 0x8d, 0xe0, 0xae, 0xb0, 0xe0, 0xaf, 0x80] else [b])

/-- An `iconv` for that charset. -/
def tamilLib : IconvLib where
  iconvOpen _ fr := if fr = b!"TSCII" then .ok else .einval
  conv _ _ _ text cap := ⟨(tamil text).take cap, if cap < (tamil text).length then .e2big else .ok⟩
  conv_cap := by
    intro to fr hist text cap
    simp only [List.length_take]; exact Nat.min_le_left _ _

theorem tamilLib_posix : Posix tamilLib (fun _ _ _ text => ⟨tamil text, false, false⟩) := by
  intro dst src fed text room
  dsimp only
  split
  · rename_i h
    refine ⟨List.take_of_length_le h, ?_⟩
    show (if room < (tamil text).length then _ else _) = _
    rw [if_neg (by omega)]; rfl
  · rename_i h
    refine ⟨?_, List.take_prefix _ _⟩
    show (if room < (tamil text).length then _ else _) = _
    rw [if_pos (by omega)]

/-- A catalogue with one message, whose translation is the ligature. -/
def tamilFile : Str := unlines [b!"msgid \"\"", b!"msgstr \"Content-Type: text/plain; charset=TSCII\\n\"", [],
  b!"msgid \"sri\"", b!"msgstr \"" ++ [0x82, 34]]

/-- C81 is false: loading that catalogue into a dictionary in UTF-8 fails the assertion "This should never be reached". -/
theorem C81_false : ¬ C81_Statement := by
  intro h
  refine h ⟨.c, tamilLib, false, b!"ta.po", false, 200⟩ _ tamilLib_posix (.ofBytes tamilFile) (.init b!"UTF-8") ?_
  decide +kernel

-- the hypotheses of `C81_no_abort_partial`, met by the small converter of the examples
example (ct : CType) (s : Stream) (d : Dictionary) : observe (run ⟨ct, demoLib, false, b!"f", false, 200⟩ s d) ≠ .crashed .assertFailed := by
  refine C81_no_abort_partial _ (fun _ src _ text => if src = b!"ISO-8859-1" then ⟨latin1 text, false, false⟩ else
      ⟨text.takeWhile (· < 128), !text.all (· < 128), false⟩) ?_ ?_ s d
  · intro dst src fed text room
    dsimp only [demoLib]
    split
    · split
      · rename_i h; dsimp only at h
        exact ⟨List.take_of_length_le h, by rw [if_neg (by omega)]; rfl⟩
      · rename_i h; dsimp only at h
        exact ⟨by rw [if_pos (by omega)], List.take_prefix _ _⟩
    · split
      · rename_i h; dsimp only at h
        exact ⟨List.take_of_length_le h, by rw [if_neg (by omega)]; cases text.all (· < 128) <;> rfl⟩
      · rename_i h; dsimp only at h
        exact ⟨by rw [if_pos (by omega)], List.take_prefix _ _⟩
  · intro dst src _ fed text
    split
    · exact latin1_length text
    · have := (List.takeWhile_sublist (fun b : Byte => decide (b < 128)) (l := text)).length_le
      dsimp only; omega

end Tgt
