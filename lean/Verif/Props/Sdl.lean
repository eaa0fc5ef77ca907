import Verif.Proofs.Sdl
import Verif.Props.Termination
import Verif.Props.Room
/-
Builds with SDL (C86).
-/
namespace Tgt
open Spec Po POParser

/-- C86, in full: a parse in a build with SDL ends in the same way as one with the system's `iconv`, with the same dictionary and the same messages. -/
def C86_Statement : Prop :=
  ∀ (c : Cfg) (input : Stream) (d : Dictionary), input.rest.length < c.fuel → (observe (run c input d)).Ended →
    observe (runSdl c input d) = observe (run c input d)

/-- C86.  In a build with SDL no parse, of whatever stream, ever says that a string is not valid in its charset. -/
theorem C86_silent (c : Cfg) (input : Stream) (d : Dictionary) : ∀ m ∈ (observe (runSdl c input d)).log, badString m = false := by
  intro m hm
  unfold runSdl at hm
  rcases run_obs_mono (Sdl.sdl c) input d (c.fuel + input.rest.length + 1) (by show c.fuel ≤ _; omega) (by omega) with h | h
  · have : observe (run { c with lib := c.lib.sdl } input d) = .unfinished := h
    rw [this] at hm; cases hm
  · have h' : observe (run { c with lib := c.lib.sdl } input d) = _ := h
    rw [h'] at hm
    have hc := Sdl.interp_clean c (startTape input) (events c.ct (c.fuel + input.rest.length + 1) input).1 ([], initState input d)
      (fun x hx => by cases hx)
    unfold obsE at hm
    revert hm hc
    dsimp only
    cases interp (Sdl.sdl c) (startTape input) (events c.ct (c.fuel + input.rest.length + 1) input).1 ([], initState input d) with
    | ok a x =>
      intro hm hc
      dsimp only at hm
      cases hr : (events c.ct (c.fuel + input.rest.length + 1) input).2 <;> rw [hr] at hm <;> first | exact hc m hm | cases hm
    | exn w x => intro hm hc; exact hc m hm
    | poError x => intro hm hc; exact hc m hm
    | fault => intro hm; cases hm
    | diverge => intro hm; cases hm

theorem sdl_sim (c : Cfg) (input : Stream) (d : Dictionary) (hF : input.rest.length < c.fuel)
    (hn : observe (run c input d) ≠ .crashed .assertFailed)
    (hg : Memoryless c.lib ∨ ((observe (run c input d)).Ended ∧ ∀ m ∈ (observe (run c input d)).log, badString m = false)) :
    observe (runSdl c input d) = (observe (run c input d)).mapLog quiet := by
  have e2 := run_obs (Sdl.sdl c) input d hF
  have e2' : observe (runSdl c input d) = obsE (Sdl.sdl c) (startTape input) (events c.ct c.fuel input) (initState input d) := e2
  rw [run_obs c input d hF] at hn hg ⊢
  rw [e2']
  have hs := Sdl.interp_sim c (startTape input) (events c.ct c.fuel input).1 ([], initState input d) ([], initState input d)
    ⟨_, by unfold Sdl.Same; exact trivial, rfl⟩
  unfold obsE at hn hg ⊢
  cases hi : interp c (startTape input) (events c.ct c.fuel input).1 ([], initState input d) with
  | ok a x =>
    rw [hi] at hs hn hg
    dsimp only at hn hg
    have good : Sdl.Good c.lib x.2.log := by
      rcases hg with hg | ⟨he, hg⟩
      · exact .inl hg
      · refine .inr ?_
        cases hr : (events c.ct c.fuel input).2 <;> rw [hr] at hg he
        · exact hg
        · exact hg
        · cases he
        · cases he
    obtain ⟨y, e1, cv, -, rfl⟩ := hs good
    rw [e1]
    dsimp only
    cases (events c.ct c.fuel input).2 <;> rfl
  | exn w x =>
    rw [hi] at hs hg
    obtain ⟨y, e1, cv, -, rfl⟩ := hs (hg.imp (fun h => h) (fun h => h.2))
    rw [e1]
    rfl
  | poError x =>
    rw [hi] at hs hg
    obtain ⟨y, e1, cv, -, rfl⟩ := hs (hg.imp (fun h => h) (fun h => h.2))
    rw [e1]
    rfl
  | fault f =>
    rw [hi] at hn
    exact absurd (by rw [interp_fault c _ _ _ f hi]) hn
  | diverge => exact absurd hi (interp_no_poError c _ _ _ ([], initState input d)).2

/-- C86, proved part.  With a converter without memory (all charsets but a few, like ISO-2022-JP), the build with SDL does exactly the same but
that the messages about bad strings are missing.  Missing: these messages; converters with memory (see the next and `C86_false_memory`). -/
theorem C86_memoryless_partial (c : Cfg) (input : Stream) (d : Dictionary) (hF : input.rest.length < c.fuel) (hl : Memoryless c.lib)
    (hn : observe (run c input d) ≠ .crashed .assertFailed) :
    observe (runSdl c input d) = (observe (run c input d)).mapLog quiet :=
  sdl_sim c input d hF hn (.inl hl)

/-- C86, proved part.  With any converter, a catalogue all of whose strings are valid (none is reported) is loaded in the same way, messages included.
Missing: catalogues with bad strings. -/
theorem C86_valid_partial (c : Cfg) (input : Stream) (d : Dictionary) (hF : input.rest.length < c.fuel)
    (he : (observe (run c input d)).Ended) (hv : ∀ m ∈ (observe (run c input d)).log, badString m = false) :
    observe (runSdl c input d) = observe (run c input d) := by
  rw [sdl_sim c input d hF (fun h => by rw [h] at he; exact he) (.inr ⟨he, hv⟩)]
  revert hv
  cases observe (run c input d) with
  | returned d l => intro hv; exact congrArg (Observed.returned d) (Sdl.quiet_of hv)
  | threw w d l => intro hv; exact congrArg (Observed.threw w d) (Sdl.quiet_of hv)
  | threwPo d l => intro hv; exact congrArg (Observed.threwPo d) (Sdl.quiet_of hv)
  | crashed f => intro _; rfl
  | unfinished => intro _; rfl

/-- C86.  With any converter that keeps to POSIX, no stream makes a parse abort in a build with SDL (but for the overflow of the line counter); without SDL
the assertion that there is room may fail (C81). -/
theorem C86_no_abort (c : Cfg) (f : (dst src : Str) → (fed : List Str) → Str → Made) (hp : Posix c.lib f) (input : Stream) (d : Dictionary) (ft : Fault)
    (h : observe (runSdl c input d) = .crashed ft) : ft = .signedOverflow := by
  refine C24_no_abort { c with lib := c.lib.sdl } ?_ input d ft h
  intro to fr _ hist text
  left
  have := hp to fr hist text (4 * text.length)
  show (SdlReturn.of (c.lib.conv to fr hist text (4 * text.length)).status).taken (c.lib.conv to fr hist text (4 * text.length)).status = .ok
  split at this
  · rw [this.2]
    split
    · rfl
    · split <;> rfl
  · rw [this.1]; rfl

/-- A catalogue in ASCII with a byte that is not ASCII. -/
def badAscii : Str :=
  b!"msgid \"\"\nmsgstr \"Content-Type: text/plain; charset=ASCII\\n\"\n\nmsgid \"a\"\nmsgstr \"b" ++ [255] ++ b!"c\"\n\nmsgid \"d\"\nmsgstr \"e\"\n"

/-- What the two builds make of it: the string is cut in both, but only one of them says so. -/
theorem C86_bad_string :
    (observe (run ⟨.c, demoLib, true, b!"f", true, 200⟩ (.ofBytes badAscii) (.init b!"UTF-8"))).log = [.iconvInvalid (b!"b" ++ [255] ++ b!"c")] ∧
    (observe (runSdl ⟨.c, demoLib, true, b!"f", true, 200⟩ (.ofBytes badAscii) (.init b!"UTF-8"))).log = [] ∧
    ((observe (runSdl ⟨.c, demoLib, true, b!"f", true, 200⟩ (.ofBytes badAscii) (.init b!"UTF-8"))).dict?.bind (·.entries.get? b!"a")) = some [b!"b"] := by
  decide +kernel

/-- C86 in full is false. -/
theorem C86_false : ¬ C86_Statement := by
  intro h
  have hd : (observe (run ⟨.c, demoLib, true, b!"f", true, 200⟩ (.ofBytes badAscii) (.init b!"UTF-8"))).dict?.isSome = true := by decide +kernel
  have e := h ⟨.c, demoLib, true, b!"f", true, 200⟩ (.ofBytes badAscii) (.init b!"UTF-8") (by decide +kernel) (by
    revert hd
    generalize observe (run ⟨.c, demoLib, true, b!"f", true, 200⟩ (.ofBytes badAscii) (.init b!"UTF-8")) = o
    cases o <;> intro h <;> first | trivial | cases h)
  have h1 := C86_bad_string.1
  rw [← e, C86_bad_string.2.1] at h1
  cases h1

/-- A converter with memory: bytes after a "shift out" (14) are raised by 128, also in the next strings, up to a "shift in" (15); 255 is invalid. -/
def shiftLib : IconvLib where
  iconvOpen _ _ := .ok
  conv _ _ hist text cap :=
    let go := fun (x : Bool × Str) (b : UInt8) => if b = 14 then (true, x.2) else if b = 15 then (false, x.2) else (x.1, x.2 ++ [if x.1 then b + 128 else b])
    let start := (hist.flatten.foldl go (false, [])).1
    ⟨((text.takeWhile (· ≠ 255)).foldl go (start, [])).2.take cap, if text.contains 255 then .eilseq else .ok⟩
  conv_cap := by intro to fr hist text cap; simp; omega

/-- A bad string that ends shifted, and a good one after it. -/
def badShift : Str :=
  b!"msgid \"\"\nmsgstr \"Content-Type: text/plain; charset=X\\n\"\n\nmsgid \"a\"\nmsgstr \"" ++ [14, 98, 255] ++ b!"c\"\n\nmsgid \"d\"\nmsgstr \"e\"\n"

/-- With a converter with memory even the valid strings after a bad one are converted wrongly: the converter is not reset. -/
theorem C86_false_memory :
    ((observe (run ⟨.c, shiftLib, true, b!"f", true, 200⟩ (.ofBytes badShift) (.init b!"UTF-8"))).dict?.bind (·.entries.get? b!"d")) = some [b!"e"] ∧
    ((observe (runSdl ⟨.c, shiftLib, true, b!"f", true, 200⟩ (.ofBytes badShift) (.init b!"UTF-8"))).dict?.bind (·.entries.get? b!"d")) = some [[229]] := by
  decide +kernel

/-! Concrete cases -/

-- the hypotheses of `C86_memoryless_partial` are met by the catalogue with a bad string
example : Memoryless demoLib ∧ (Stream.ofBytes badAscii).rest.length < 200 ∧
    observe (run ⟨.c, demoLib, true, b!"f", true, 200⟩ (.ofBytes badAscii) (.init b!"UTF-8")) ≠ .crashed .assertFailed := by
  refine ⟨fun _ _ _ _ _ _ => rfl, by decide +kernel, by decide +kernel⟩

/-- A valid catalogue for the converter with memory. -/
def goodShift : Str :=
  b!"msgid \"\"\nmsgstr \"Content-Type: text/plain; charset=X\\n\"\n\nmsgid \"a\"\nmsgstr \"" ++ [14, 98] ++ b!"c\"\n\nmsgid \"d\"\nmsgstr \"" ++ [15] ++ b!"e\"\n"

-- those of `C86_valid_partial` by this one, although the converter has a memory
example : (Stream.ofBytes goodShift).rest.length < 200 ∧
    (observe (run ⟨.c, shiftLib, true, b!"f", true, 200⟩ (.ofBytes goodShift) (.init b!"UTF-8"))).log = [] ∧
    ((observe (run ⟨.c, shiftLib, true, b!"f", true, 200⟩ (.ofBytes goodShift) (.init b!"UTF-8"))).dict?.bind (·.entries.get? b!"a")) = some [[226, 227]] := by
  decide +kernel

-- those of `C86_no_abort` by the converter of C81, with which the other build aborts; the string is cut where there is no more room
example : Posix tamilLib (fun _ _ _ text => ⟨tamil text, false, false⟩) ∧
    observe (run ⟨.c, tamilLib, false, b!"ta.po", false, 200⟩ (.ofBytes tamilFile) (.init b!"UTF-8")) = .crashed .assertFailed ∧
    ((observe (runSdl ⟨.c, tamilLib, false, b!"ta.po", false, 200⟩ (.ofBytes tamilFile) (.init b!"UTF-8"))).dict?.bind (·.entries.get? b!"sri"))
      = some [[0xe0, 0xae, 0xb8, 0xe0]] :=
  ⟨tamilLib_posix, by decide +kernel, by decide +kernel⟩

end Tgt
