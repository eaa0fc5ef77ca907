import Verif.Proofs.Parse
import Verif.Props.IConv
/-
Memory safety and termination of `POParser::parse`: C24, C25, C26.
-/
namespace Tgt
open Spec POParser

/-! ### C24: no access outside a line -/

/-- C24.  Whatever the input stream, dictionary, locale, converter, mode and fuel: the only ways in which
a parse can leave defined behaviour are `int` overflow of the line counter and the assertion on
`iconv` failures; in particular no line is ever read out of bounds. -/
theorem C24_memory_safe (c : Cfg) (input : Stream) (dict : Dictionary) (f : Fault)
    (h : observe (run c input dict) = .crashed f) : f = .signedOverflow ∨ f = .assertFailed := by
  rcases run_obs_mono c input dict (c.fuel + input.rest.length + 1) (by omega) (by omega) with h' | h'
  · rw [h'] at h; cases h
  · rw [h'] at h
    rcases obsE_cases c (startTape input) (events c.ct (c.fuel + input.rest.length + 1) input)
      (initState input dict) with hx | ⟨_, _, _, hx⟩ | ⟨x, hx⟩
    · rw [hx] at h; cases h; exact .inr rfl
    · rw [hx] at h; cases h
    · unfold obsE at h
      rw [hx] at h
      dsimp only at h
      split at h <;> cases h
      exact .inl rfl

/-- C24.  A parse never reads a line out of bounds, never uses a null or dangling pointer. -/
theorem C24_no_out_of_bounds (c : Cfg) (input : Stream) (dict : Dictionary) :
    run c input dict ≠ .fault .outOfBounds ∧ run c input dict ≠ .fault .nullDeref ∧
    run c input dict ≠ .fault .useAfterFree := by
  refine ⟨?_, ?_, ?_⟩ <;> intro h <;>
    rcases C24_memory_safe c input dict _ (by rw [h]; rfl) with h' | h' <;> cases h'

-- the line `\"` ends in the middle of everything: an index one too far would fault here
example : observe (run ⟨.c, demoLib, true, b!"f", true, 20⟩ (.ofBytes b!"msgid \"\\") (.init b!"UTF-8"))
    = .returned (.init b!"UTF-8") [.po .error b!"f" 1 b!"unexpected end of string in handling '\\'" b!"msgid \"\\"] := by
  decide

/-- The state's converter is none, or an open one. -/
def ConvOk (lib : IconvLib) (s : PState) : Prop :=
  s.conv.cd ≠ .invalid ∧ ∀ id to fr h, s.conv.cd = .opened id to fr h → lib.iconvOpen to fr = .ok

/-- The conversions that the library offers need at most four bytes for each byte converted, and can fail only because of bad
input.  (For conversions that need more room see C81.) -/
def TameLib (lib : IconvLib) : Prop :=
  ∀ to fr, lib.iconvOpen to fr = .ok → ∀ hist text, (lib.conv to fr hist text (4 * text.length)).status = .ok ∨
    (lib.conv to fr hist text (4 * text.length)).status = .eilseq ∨ (lib.conv to fr hist text (4 * text.length)).status = .einval

theorem convert_tame (c : Cfg) (hl : TameLib c.lib) (t : Str) (s : PState) (hs : ConvOk c.lib s) :
    ∃ r s', convert c t s = .ok r s' ∧ ConvOk c.lib s' := by
  unfold convert IConv.convert
  cases hc : s.conv.cd with
  | null => exact ⟨_, _, rfl, by simp [ConvOk, hc]⟩
  | invalid => exact absurd hc hs.1
  | opened id to fr hist =>
    dsimp only
    have ho := hs.2 _ _ _ _ hc
    rcases hl to fr ho hist t with h | h | h <;> rw [h] <;>
      exact ⟨_, _, rfl, by simp, fun _ _ _ _ he => by cases he; exact ho⟩

theorem evStep_tame (c : Cfg) (hl : TameLib c.lib) (T : Tape) (e : Ev) (x : List Str × PState) (hs : ConvOk c.lib x.2) :
    (∃ y, evStep c T e x = .ok () y ∧ ConvOk c.lib y.2) ∨ ∃ w y, evStep c T e x = .exn w y := by
  cases e with
  | diag lv p m ped =>
    simp only [evStep]
    split
    · exact .inl ⟨_, rfl, hs⟩
    · exact .inl ⟨_, rfl, hs⟩
  | clear => exact .inl ⟨_, rfl, hs⟩
  | conv n t =>
    obtain ⟨r, s', h1, h2⟩ := convert_tame c hl t x.2 hs
    simp only [evStep, h1]
    exact .inl ⟨_, rfl, h2⟩
  | singular fz ctxt id t =>
    simp only [evStep]
    split
    · obtain ⟨r, s', h1, h2⟩ := convert_tame c hl t x.2 hs
      simp only [h1]
      exact .inl ⟨_, rfl, h2⟩
    · exact .inl ⟨_, rfl, hs⟩
  | plural p fz ctxt id idp =>
    simp only [evStep]
    split
    · exact .inl ⟨_, rfl, hs⟩
    · exact .inl ⟨_, rfl, hs⟩
  | header p t =>
    simp only [evStep]
    rcases parseHeader_kind c t (mv T x.2 p) with ⟨s', h⟩ | ⟨w, s', h⟩
    · rw [h]
      refine .inl ⟨_, rfl, ?_⟩
      rw [parseHeader_eq] at h
      unfold setCharsets IConv.setCharsets at h
      dsimp only at h
      split at h <;> cases h
      rename_i h1
      unfold ConvOk
      dsimp only
      split at h1
      · rw [if_pos (by assumption)]; simp
      · rename_i hn
        split at h1
        · rename_i ho
          rw [if_neg hn]
          exact ⟨by simp, fun _ _ _ _ he => by cases he; exact ho⟩
        · cases h1
        · cases h1
    · rw [h]; exact .inr ⟨_, _, rfl⟩

theorem interp_tame (c : Cfg) (hl : TameLib c.lib) (T : Tape) (w : List Ev) (x : List Str × PState) (hs : ConvOk c.lib x.2) :
    (∃ y, interp c T w x = .ok () y) ∨ ∃ m y, interp c T w x = .exn m y := by
  induction w generalizing x with
  | nil => exact .inl ⟨x, rfl⟩
  | cons e w ih =>
    simp only [interp, bind_apply]
    rcases evStep_tame c hl T e x hs with ⟨y, h1, h2⟩ | ⟨m, y, h1⟩
    · rw [h1]; exact ih y h2
    · rw [h1]; exact .inr ⟨_, _, rfl⟩

/-- C24.  With a converter that only reports success or invalid input, the assertion never fails
either: the only possible crash is the line counter overflow. -/
theorem C24_no_abort (c : Cfg) (hl : TameLib c.lib) (input : Stream) (dict : Dictionary) (f : Fault)
    (h : observe (run c input dict) = .crashed f) : f = .signedOverflow := by
  rcases run_obs_mono c input dict (c.fuel + input.rest.length + 1) (by omega) (by omega) with h' | h'
  · rw [h'] at h; cases h
  · rw [h'] at h
    unfold obsE at h
    rcases interp_tame c hl (startTape input) (events c.ct (c.fuel + input.rest.length + 1) input).1
      ([], initState input dict) (by simp [ConvOk, initState, IConv.init]) with ⟨y, hy⟩ | ⟨m, y, hy⟩
    · rw [hy] at h
      dsimp only at h
      split at h <;> cases h
      rfl
    · rw [hy] at h; cases h

theorem latin1_length (text : Str) : (latin1 text).length ≤ 4 * text.length := by
  unfold latin1
  induction text with
  | nil => simp
  | cons b t ih =>
    rw [List.flatMap_cons, List.length_append, List.length_cons]
    split <;> simp only [List.length_cons, List.length_nil] <;> omega

theorem demoLib_tame : TameLib demoLib := by
  intro to fr _ hist text
  have h1 := latin1_length text
  have h2 : (text.takeWhile (· < 128)).length ≤ 4 * text.length := by
    have := (List.takeWhile_sublist (fun b : Byte => decide (b < 128)) (l := text)).length_le
    omega
  unfold demoLib
  dsimp only
  split
  · rw [if_neg (by omega)]; exact .inl rfl
  · rw [if_neg (by omega)]
    split
    · exact .inl rfl
    · exact .inr (.inl rfl)

/-! ### C25: termination on newline-terminated input -/

theorem lineCount_le (s : Str) : lineCount s ≤ s.length := by
  have h : ∀ ls : List Str, ls.length ≤ (unlines ls).length := by
    intro ls
    induction ls with
    | nil => simp [unlines]
    | cons l ls ih => simp [unlines]; omega
  have h2 := congrArg List.length (splitLines_join s)
  have h3 := h (splitLines s).1
  simp only [List.length_append] at h2
  unfold lineCount
  split
  · omega
  · rename_i hne
    have : 0 < (splitLines s).2.length := List.length_pos_iff.2 hne
    omega

theorem splitLines_bom (t : Str) :
    (splitLines (0xef :: 0xbb :: 0xbf :: t)).1.length = (splitLines t).1.length ∧
    ((splitLines (0xef :: 0xbb :: 0xbf :: t)).2 = [] ↔ (splitLines t).1 ≠ [] ∧ (splitLines t).2 = []) := by
  cases h : (splitLines t).1 with
  | nil => simp [splitLines, h]
  | cons l ls => simp [splitLines, h]

/-- No loop of the parser turns on this line. -/
def Unlooped (ct : CType) (r : Str) : Prop :=
  hasPrefix b!"#" r = false ∧ scanQuote ct r 0 = none ∧ msgstrIndex r = none

theorem unlooped_of_harmless (ct : CType) (r : Str) (h : HarmlessEnd ct r) : Unlooped ct r := by
  obtain ⟨h1, h2, h3⟩ := h
  refine ⟨?_, ?_, ?_⟩
  · cases r with
    | nil => rfl
    | cons b t =>
      have : b ≠ 35 := by simpa using h1
      simp [hasPrefix, List.isPrefixOf, Ne.symm this]
  · have hq : ct.isspace 34 = false := by rw [ct.isspace_ascii 34 (by decide)]; decide
    have : ∀ (r : Str) (i : Nat), (r.dropWhile ct.isspace).head? ≠ some 34 → scanQuote ct r i = none := by
      intro r
      induction r with
      | nil => intro i _; rfl
      | cons b t ih =>
        intro i h
        unfold scanQuote
        by_cases hb : b = 34
        · subst hb; simp [hq] at h
        · rw [if_neg hb]
          by_cases hs : ct.isspace b = true
          · rw [if_pos hs]
            exact ih _ (by simpa [hs] using h)
          · rw [if_neg hs]
    exact this r 0 h2
  · unfold msgstrIndex
    rw [if_neg]
    intro hc
    simp only [Bool.and_eq_true] at hc
    exact h3 (List.isPrefixOf_iff_prefix.1 hc.1)

theorem ends_of (ct : CType) (s : Str) (hN : lineCount s + 8 < 2147483647)
    (hr : Unlooped ct (splitLines (withoutBom s)).2) :
    Ends ct (startTape (.ofBytes s)) (splitLines (withoutBom s)).1.length (lineCount s) (splitLines (withoutBom s)).2 := by
  have hl := fun p => startTape_lines s p
  have key : (splitLines (withoutBom s)).1.length ≤ lineCount s ∧
      lineCount s ≤ (splitLines (withoutBom s)).1.length + 1 ∧
      ((splitLines (withoutBom s)).2 ≠ [] → lineCount s ≠ (splitLines (withoutBom s)).1.length) := by
    unfold withoutBom
    split
    · rename_i t
      obtain ⟨h1, h2⟩ := splitLines_bom t
      unfold lineCount
      rw [h1]
      refine ⟨by omega, by split <;> omega, fun hne => ?_⟩
      rw [if_neg (fun h => hne (h2.1 h).2)]
      omega
    · unfold lineCount
      refine ⟨by omega, by split <;> omega, fun hne => ?_⟩
      rw [if_neg hne]
      omega
  exact {
    le := key.1
    le' := key.2.1
    tight := key.2.2
    line := fun p hp => by
      rw [(hl p).1]
      unfold lineAt
      rw [List.getD_eq_getElem?_getD, List.getElem?_eq_none hp]
      rfl
    eof := fun p => (hl p).2
    hash := hr.1
    quote := hr.2.1
    index := hr.2.2
    small := hN }

theorem run_ends (c : Cfg) (s : Str) (hN : lineCount s + 8 < 2147483647)
    (hr : Unlooped c.ct (splitLines (withoutBom s)).2) (hF : s.length + 1 < c.fuel) :
    ∃ w q, events c.ct c.fuel (.ofBytes s) = (w, .ok () q) ∧ lineCount s ≤ q ∧
      Lim (splitLines (withoutBom s)).1.length (lineCount s) 5 q := by
  have he := ends_of c.ct s hN hr
  have hlc := lineCount_le s
  have := wp_mainLoop he (fuel := c.fuel) (by omega) c.fuel false 0 (.inl (by omega)) (by omega)
  unfold wp at this
  unfold events
  rcases hx : mainLoopE c.ct c.fuel (startTape (.ofBytes s)) c.fuel false 0 with ⟨w, res⟩
  rw [hx] at this
  cases res with
  | ok a q => exact ⟨w, q, rfl, this.1, this.2⟩
  | err q => exact this.elim
  | overflow => exact this.elim
  | diverge => exact this.elim

/-- `run` ended: it returned or threw, or ran into the assertion on a converter failure. -/
theorem obs_of_ends (c : Cfg) (T : Tape) (r : List Ev × TRes Unit) (w : List Ev) (q : Nat) (hr : r = (w, .ok () q))
    (s : PState) : (obsE c T r s).Ended ∨ obsE c T r s = .crashed .assertFailed := by
  rcases obsE_cases c T r s with h | ⟨_, _, _, h⟩ | ⟨x, h⟩
  · exact .inr h
  · rw [h]; exact .inl trivial
  · left
    unfold obsE
    rw [h, hr]
    exact trivial

theorem unlooped_nil (ct : CType) : Unlooped ct [] := ⟨rfl, rfl, rfl⟩

theorem terminated_rest (s : Str) (h : Terminated s) : (splitLines (withoutBom s)).2 = [] := by
  unfold withoutBom
  split
  · rename_i t; exact ((splitLines_bom t).2.1 h).2
  · exact h

/-- C25.  On every text whose last line ends with a newline (and with fewer lines than an `int` counts),
the parse comes back: it returns or throws (or an assertion on a converter failure fails).  Fuel
linear in the size of the text suffices. -/
theorem C25_terminates (c : Cfg) (s : Str) (dict : Dictionary) (ht : Terminated s)
    (hN : lineCount s + 8 < 2147483647) (hF : s.length + 1 < c.fuel) :
    (observe (run c (.ofBytes s) dict)).Ended ∨ observe (run c (.ofBytes s) dict) = .crashed .assertFailed := by
  obtain ⟨w, q, h, _⟩ := run_ends c s hN (by rw [terminated_rest s ht]; exact unlooped_nil _) hF
  rw [run_obs c _ dict (by show s.length < _; omega)]
  exact obs_of_ends c _ _ w q h _

/-- C25.  The parse of a newline-terminated text calls `getline` at most twice beyond the end. -/
theorem C25_lines_read (c : Cfg) (s : Str) (dict : Dictionary) (ht : Terminated s)
    (hN : lineCount s + 8 < 2147483647) (st : PState) (hF : s.length + 1 < c.fuel)
    (h : run c (.ofBytes s) dict = .ok () st) :
    lineCount s < st.lineNumber ∧ st.lineNumber ≤ lineCount s + 2 := by
  obtain ⟨w, q, h1, h2, h3⟩ := run_ends c s hN (by rw [terminated_rest s ht]; exact unlooped_nil _) hF
  have hM : lineCount s = (splitLines (withoutBom s)).1.length := by
    have h0 : (splitLines s).2 = [] := ht
    unfold lineCount
    rw [if_pos h0]
    unfold withoutBom
    split
    · rename_i t; exact (splitLines_bom t).1
    · rfl
  rw [run_eq' c _ dict (by show s.length < _; omega), h1] at h
  unfold runE at h
  dsimp only at h
  cases hi : interp c (startTape (.ofBytes s)) w ([], initState (.ofBytes s) dict) with
  | ok a x =>
    rw [hi] at h
    cases h
    show lineCount s < q + 1 ∧ q + 1 ≤ lineCount s + 2
    unfold Lim at h3
    omega
  | _ => rw [hi] at h; cases h

/-- A demo file. -/
def demoFile : Str := unlines [b!"msgid \"\"", b!"msgstr \"\"",
  b!"\"Content-Type: text/plain; charset=UTF-8\\n\"", [],
  b!"# greeting", b!"msgid \"hello\"", b!"msgstr \"hallo\"", [],
  b!"msgid broken", b!"msgid \"x\"", [], [],
  b!"msgctxt \"menu\"", b!"msgid \"exit\"", b!"msgstr \"Beenden\""]

example : Terminated demoFile ∧ lineCount demoFile + 8 < 2147483647 := by decide

/-! ### C26: termination on every input -/

/-- C26 in full: every finite text is parsed in finite time. -/
def C26_Statement : Prop :=
  ∀ (c : Cfg) (s : Str) (dict : Dictionary), TameLib c.lib →
    ∃ F, (observe (run { c with fuel := F } (.ofBytes s) dict)).Ended

/-- C26, the part that holds: if the unterminated last line (if any) is not a comment, not a string
continuation and does not start with `msgstr[`, the parse comes back.  Missing: texts whose
unterminated last line is one of these, for which it may not (`C26_unterminated_comment_hangs`). -/
theorem C26_terminates_partial (c : Cfg) (s : Str) (dict : Dictionary) (hN : lineCount s + 8 < 2147483647)
    (hr : HarmlessEnd c.ct (splitLines (withoutBom s)).2) (hF : s.length + 1 < c.fuel) :
    (observe (run c (.ofBytes s) dict)).Ended ∨ observe (run c (.ofBytes s) dict) = .crashed .assertFailed := by
  obtain ⟨w, q, h, _⟩ := run_ends c s hN (unlooped_of_harmless _ _ hr) hF
  rw [run_obs c _ dict (by show s.length < _; omega)]
  exact obs_of_ends c _ _ w q h _

example : HarmlessEnd .c (splitLines (withoutBom b!"msgid \"a\"\nmsgstr \"b\"")).2 := by
  unfold HarmlessEnd
  decide

theorem commentLoopE_hangs (T : Tape) (l : Str) (h : hasPrefix b!"#" l = true) (hT : ∀ p, (T p).line = l) :
    ∀ (f : Nat) (fz : Bool) (p : Nat), (commentLoopE T f fz p).2 = .diverge ∨ (commentLoopE T f fz p).2 = .overflow := by
  intro f
  induction f with
  | zero => intro fz p; exact .inl rfl
  | succ f ih =>
    intro fz p
    unfold commentLoopE
    simp only [e_bind, E.bind, lineE, hT, h, if_true]
    unfold nextE
    by_cases hp : p + 1 ≥ intMax
    · rw [if_pos hp]; exact .inr rfl
    · rw [if_neg hp]
      exact ih _ (p + 1)

/-- C26.  Any file consisting of a single comment line without a newline at the end is never parsed to
the end: whatever the fuel, the parse is unfinished, or its line counter has overflowed. -/
theorem C26_unterminated_comment_hangs (c : Cfg) (t : Str) (ht : (10 : Byte) ∉ t) (dict : Dictionary) :
    observe (run c (.ofBytes (35 :: t)) dict) = .unfinished ∨
    observe (run c (.ofBytes (35 :: t)) dict) = .crashed .signedOverflow := by
  have hn : (10 : Byte) ∉ (35 :: t : Str) := by simpa using ht
  have hw : withoutBom (35 :: t) = 35 :: t := rfl
  have hline : ∀ p, (startTape (.ofBytes (35 :: t)) p).line = 35 :: t := by
    intro p
    rw [(startTape_lines _ p).1, hw]
    unfold lineAt
    rw [splitLines_single _ hn]
    simp
  have heof : (startTape (.ofBytes (35 :: t)) 0).eof = false := by
    rw [(startTape_lines _ 0).2]
    unfold lineCount
    rw [splitLines_single _ hn]
    simp
  rcases run_obs_mono c (.ofBytes (35 :: t)) dict (c.fuel + (35 :: t).length + 1) (by omega)
    (by show (35 :: t).length < _; omega) with h | h
  · exact .inl h
  · rw [h]
    unfold events
    generalize c.fuel + (35 :: t).length + 1 = F
    have hmain : (mainLoopE c.ct F (startTape (.ofBytes (35 :: t))) F false 0).1 = [] ∧
        ((mainLoopE c.ct F (startTape (.ofBytes (35 :: t))) F false 0).2 = .diverge ∨
         (mainLoopE c.ct F (startTape (.ofBytes (35 :: t))) F false 0).2 = .overflow) := by
      cases F with
      | zero => exact ⟨rfl, .inl rfl⟩
      | succ f =>
        unfold mainLoopE
        rw [heof]
        simp only [Bool.not_false, if_true]
        have hc := commentLoopE_hangs (startTape (.ofBytes (35 :: t))) (35 :: t) rfl hline (f + 1) false 0
        have hc1 : (commentLoopE (startTape (.ofBytes (35 :: t))) (f + 1) false 0).1 = [] := by
          have := nh_commentLoop (Q := fun _ => false) (startTape (.ofBytes (35 :: t))) (f + 1) false 0
          cases hl : (commentLoopE (startTape (.ofBytes (35 :: t))) (f + 1) false 0).1 with
          | nil => rfl
          | cons x w => exact absurd (this x (by rw [hl]; simp)) (by simp)
        unfold entryE
        rw [e_bind]
        unfold E.bind
        rcases hx : commentLoopE (startTape (.ofBytes (35 :: t))) (f + 1) false 0 with ⟨w, r⟩
        rw [hx] at hc hc1
        dsimp only at hc hc1
        subst hc1
        rcases hc with rfl | rfl
        · exact ⟨rfl, .inl rfl⟩
        · exact ⟨rfl, .inr rfl⟩
    unfold obsE
    rw [hmain.1]
    simp only [interp, Prog.pure]
    rcases hmain.2 with h2 | h2 <;> rw [h2]
    · exact .inl rfl
    · exact .inr rfl

/-- C26 is false of this code. -/
theorem C26_false : ¬ C26_Statement := by
  intro h
  obtain ⟨F, hF⟩ := h ⟨.c, demoLib, false, b!"f", true, 0⟩ b!"# end" (.init b!"UTF-8") demoLib_tame
  rcases C26_unterminated_comment_hangs ⟨.c, demoLib, false, b!"f", true, F⟩ b!" end" (by decide) (.init b!"UTF-8") with h' | h' <;>
    (rw [show (35 :: b!" end" : Str) = b!"# end" from rfl] at h'; rw [h'] at hF; exact hF)

end Tgt
