import Verif.Proofs.Read4
import Verif.Proofs.Read5
import Verif.Proofs.ReadHang
import Verif.Props.Termination
import Verif.Props.PoItems
/-
Everything that parsing an arbitrary text does (C63), and when it does not come to an end (C26).
-/
namespace Tgt
open Spec Spec.Po POParser

theorem lineCount_bom (s : Str) : (splitLines (withoutBom s)).1.length ≤ lineCount s := by
  unfold lineCount withoutBom
  split
  · rename_i t; rw [(splitLines_bom t).1]; omega
  · omega

/-- After the last line there is only the rest. -/
theorem lineAt_ends (s : Str) (p : Nat) (hp : lineCount s ≤ p) : lineAt (withoutBom s) p = (splitLines (withoutBom s)).2 := by
  have := lineCount_bom s
  unfold lineAt
  simp [List.getD, List.getElem?_eq_none (show (splitLines (withoutBom s)).1.length ≤ p by omega)]

theorem calm_of (ct : CType) (fuel : Nat) (s : Str) (hs : ∀ p, (lineAt (withoutBom s) p).length < 4294967296) (hN : lineCount s + 8 < 2147483647)
    (hF : s.length + 8 < fuel) : Calm ct fuel (startTape (.ofBytes s)) (lineAt (withoutBom s)) (lineCount s) := {
  line := fun p => (startTape_lines s p).1
  short := hs
  ends := fun p hp => by rw [lineAt_ends s p hp, lineAt_ends s _ (Nat.le_refl _)]
  eof := fun p => by rw [(startTape_lines s p).2]; simp
  fuel := by have := lineCount_le s; omega
  few := by show lineCount s + 7 < 2147483647; omega }

theorem rentry_strs {ct : CType} {b : Bool} {n : Nat} {ls : List Str} {x : Piece} (h : REntry ct b n ls x) :
    ∀ ns fz c id idp q, x ≠ .plural ns fz c id idp [] q := by
  intro ns fz c id idp q hx
  cases h with
  | single => cases hx
  | plural _ hne => cases hx; exact hne rfl

theorem badEntry_strs {ct : CType} {b : Bool} {n : Nat} {ls : List Str} {l m : Str} {pre : List Piece} {ns : List Note}
    (h : BadEntry ct b n ls l pre ns m) : ∀ x ∈ pre, ∀ ns fz c id idp q, x ≠ .plural ns fz c id idp [] q := by
  intro x hx ns fz c id idp q he
  subst he
  cases h <;> simp at hx

theorem pieces_strs {ct : CType} {L : Nat → Str} {N : Nat} {b : Bool} {n : Nat} {ps : List Piece} {e : Bool} (h : Reading ct L N b n ps e) :
    ∀ x ∈ ps, ∀ ns fz c id idp q, x ≠ .plural ns fz c id idp [] q := by
  induction h with
  | done => intro x hx; cases hx
  | endless => intro x hx; cases hx
  | gap _ _ _ _ ih => exact ih
  | entry _ he _ _ ih =>
    intro x hx
    rcases List.mem_cons.1 hx with rfl | hx
    · exact rentry_strs he
    · exact ih x hx
  | fault _ hb _ _ _ _ ih =>
    intro x hx
    rcases List.mem_append.1 hx with hx | hx
    · exact badEntry_strs hb x hx
    · rcases List.mem_cons.1 hx with rfl | hx
      · intro ns fz c id idp q h; cases h
      · exact ih x hx

/-- C63.  Every text has a reading. -/
theorem C63_total (ct : CType) (s : Str) : ∃ ps e, Reading ct (lineAt (withoutBom s)) (lineCount s) false 0 ps e :=
  reading_total (N := lineCount s) (fun p hp => by rw [lineAt_ends s p hp, lineAt_ends s _ (Nat.le_refl _)]) (lineCount s) 0 false (by omega)

/-- C63.  A reading of a text that comes to an end says everything that is observed when the text is parsed: the dictionary, the
exception, and all messages in order, each with its line number and line. -/
theorem C63_reading (c : Cfg) (s : Str) (d : Dictionary)
    (hs : ∀ p, (lineAt (withoutBom s) p).length < 4294967296) (hN : lineCount s + 8 < 2147483647) (hF : s.length + 8 < c.fuel)
    (ps : List Piece) (h : Reading c.ct (lineAt (withoutBom s)) (lineCount s) false 0 ps true) :
    observe (run c (.ofBytes s) d)
      = loadPieces c.ct c.lib c.useFuzzy c.pedantic c.filename (lineAt (withoutBom s)) ps .init d [] := by
  have hlc := lineCount_le s
  obtain ⟨q, hq⟩ := a_main (calm_of c.ct c.fuel s hs hN hF) h c.fuel (by omega) (by omega)
  rw [run_obs c _ d (by show s.length < _; omega)]
  have hev : events c.ct c.fuel (.ofBytes s) = (ps.flatMap pieceEvs, .ok () q) := hq
  rw [hev]
  have e1 := eInterp_eq c (fun p => (startTape_lines s p).1) (ps.flatMap pieceEvs) ([], initState (.ofBytes s) d)
  have e2 := loadPieces_eq c (lineAt (withoutBom s)) ps (pieces_strs h) (eOf ([], initState (.ofBytes s) d))
  rw [← e1] at e2
  have e3 : loadPieces c.ct c.lib c.useFuzzy c.pedantic c.filename (lineAt (withoutBom s)) ps (eOf ([], initState (.ofBytes s) d)).conv
      (eOf ([], initState (.ofBytes s) d)).dict (eOf ([], initState (.ofBytes s) d)).log
    = loadPieces c.ct c.lib c.useFuzzy c.pedantic c.filename (lineAt (withoutBom s)) ps .init d [] := rfl
  rw [← e3, ← e2]
  unfold obsE
  dsimp only
  cases interp c (startTape (.ofBytes s)) (ps.flatMap pieceEvs) ([], initState (.ofBytes s) d) <;> rfl

theorem interp_mild (c : Cfg) (T : Tape) (w : List Ev) : ∀ (x : List Str × PState), (∀ e ∈ w, mild e = true) →
    (∃ y, interp c T w x = .ok () y) ∨ ∃ f, interp c T w x = .fault f := by
  induction w with
  | nil => intro x _; exact .inl ⟨x, rfl⟩
  | cons e w ih =>
    intro x hw
    have ih := fun y => ih y (fun e he => hw e (by simp [he]))
    have he := hw e (by simp)
    simp only [interp, bind_apply]
    cases e with
    | diag lv p m ped =>
      simp only [evStep]
      split
      · rename_i h; split at h <;> cases h <;> exact ih _
      · rename_i h; split at h <;> cases h
      · rename_i h; split at h <;> cases h
      · rename_i h; split at h <;> cases h
      · rename_i h; split at h <;> cases h
    | clear => exact ih _
    | conv n t =>
      simp only [evStep, convert]
      cases hc : x.2.conv.convert c.lib t with
      | ok r cv l => exact ih _
      | fault f => exact .inr ⟨f, rfl⟩
    | _ => cases he

theorem mild_of {w : List Ev} (h : ∀ x ∈ essence w, x.soft = true) : ∀ x ∈ w, mild x = true := by
  intro x hx
  unfold mild
  cases hd : x.isDiag with
  | true => rfl
  | false =>
    have := h x.norm (List.mem_map.2 ⟨x, List.mem_filter.2 ⟨hx, by rw [hd]; rfl⟩, rfl⟩)
    cases x <;> simp_all [Ev.norm, Ev.soft]

/-- C63.  If the reading of a text does not come to an end, then neither does the parse, however much time it is given (unless it
crashes; with a well-behaved iconv library this can only be because the line counter overflows), except when an exception is
thrown before. -/
theorem C63_endless (c : Cfg) (s : Str) (d : Dictionary)
    (hs : ∀ p, (lineAt (withoutBom s) p).length < 4294967296) (hN : lineCount s + 8 < 2147483647) (hF : s.length + 8 < c.fuel)
    (ps : List Piece) (h : Reading c.ct (lineAt (withoutBom s)) (lineCount s) false 0 ps false) :
    match (generalizing := false) loadPieces c.ct c.lib c.useFuzzy c.pedantic c.filename (lineAt (withoutBom s)) ps .init d [] with
    | .returned _ _ => observe (run c (.ofBytes s) d) = .unfinished ∨
        ∃ f, observe (run c (.ofBytes s) d) = .crashed f ∧ (TameLib c.lib → f = .signedOverflow)
    | o => observe (run c (.ofBytes s) d) = o := by
  have hlc := lineCount_le s
  obtain ⟨w, r, hq, hr, hw⟩ := a_endless (calm_of c.ct c.fuel s hs hN hF) h c.fuel (by omega) (by omega)
  rw [run_obs c _ d (by show s.length < _; omega)]
  have hev : events c.ct c.fuel (.ofBytes s) = (ps.flatMap pieceEvs ++ w, r) := hq
  rw [hev]
  have e1 := eInterp_eq c (fun p => (startTape_lines s p).1) (ps.flatMap pieceEvs) ([], initState (.ofBytes s) d)
  have e2 := loadPieces_eq c (lineAt (withoutBom s)) ps (pieces_strs h) (eOf ([], initState (.ofBytes s) d))
  rw [← e1] at e2
  have e3 : loadPieces c.ct c.lib c.useFuzzy c.pedantic c.filename (lineAt (withoutBom s)) ps (eOf ([], initState (.ofBytes s) d)).conv
      (eOf ([], initState (.ofBytes s) d)).dict (eOf ([], initState (.ofBytes s) d)).log
    = loadPieces c.ct c.lib c.useFuzzy c.pedantic c.filename (lineAt (withoutBom s)) ps .init d [] := rfl
  rw [← e3, ← e2]
  have htame : TameLib c.lib → ∀ f, interp c (startTape (.ofBytes s)) (ps.flatMap pieceEvs ++ w) ([], initState (.ofBytes s) d) ≠ .fault f := by
    intro hlib f hf
    rcases interp_tame c hlib (startTape (.ofBytes s)) (ps.flatMap pieceEvs ++ w) ([], initState (.ofBytes s) d)
      (by simp [ConvOk, initState, IConv.init]) with ⟨y, hy⟩ | ⟨m, y, hy⟩ <;> (rw [hy] at hf; cases hf)
  unfold obsE
  dsimp only
  cases hi : interp c (startTape (.ofBytes s)) (ps.flatMap pieceEvs) ([], initState (.ofBytes s) d) with
  | ok a x =>
    show _ ∨ _
    have hi2 : interp c (startTape (.ofBytes s)) (ps.flatMap pieceEvs ++ w) ([], initState (.ofBytes s) d) = interp c (startTape (.ofBytes s)) w x := by
      rw [interp_append, bind_apply, hi]
    rw [hi2] at htame ⊢
    rcases interp_mild c (startTape (.ofBytes s)) w x (mild_of hw) with ⟨y, hy⟩ | ⟨f, hf⟩
    · rw [hy]
      rcases hr with rfl | rfl
      · exact .inl rfl
      · exact .inr ⟨_, rfl, fun _ => rfl⟩
    · rw [hf]
      exact .inr ⟨f, rfl, fun ht => absurd hf (htame ht f)⟩
  | _ => rw [interp_append, bind_apply, hi]; rfl

theorem not_continues {ct : CType} {x : Byte} {t : Str} (h1 : ct.isspace x = false) (h2 : x ≠ 34) : ¬ Continues ct (x :: t) := by
  rintro ⟨ws, r, hw, hl⟩
  cases ws with
  | nil => cases hl; exact h2 rfl
  | cons y ws =>
    cases hl
    have := hw x List.mem_cons_self
    rw [h1] at this; cases this

/-! ### An example -/

/-- An entry with an unknown escape and trailing text, and a line that does not belong there. -/
def readDemo : Str := unlines [b!"msgid \"a\"", b!"msgstr \"b\\q\" x", b!"foo", []]

/-- What is read from it. -/
def readDemoPieces : List Piece :=
  [.single [⟨.warning, 1, b!"unhandled escape '\\q'", false⟩, ⟨.warning, 1, b!"unexpected garbage after string ignoren", false⟩]
    false none b!"a" b!"b\\q" 2,
   .notes [⟨.error, 2, b!"expected empty line", false⟩]]

theorem readDemo_reading : Reading .c (lineAt (withoutBom readDemo)) (lineCount readDemo) false 0 readDemoPieces true := by
  have hid : RField .c false b!"msgid" 0 [b!"msgid \"a\""] b!"a" [] :=
    .mk (sep := [32]) (q := b!"\"a\"") (text := b!"a") (ls := []) (rest := []) (ns := []) (ns' := []) (by decide)
      (.mk (body := b!"a") (trail := []) (u := []) (.plain (by decide) (by decide) (by simp) .nil)) .nil
  have hstr : RField .c false b!"msgstr" 1 [b!"msgstr \"b\\q\" x"] b!"b\\q"
      [⟨.warning, 1, b!"unhandled escape '\\q'", false⟩, ⟨.warning, 1, b!"unexpected garbage after string ignoren", false⟩] :=
    .mk (sep := [32]) (q := b!"\"b\\q\" x") (text := b!"b\\q") (ls := []) (rest := [])
      (ns := [⟨.warning, 1, b!"unhandled escape '\\q'", false⟩, ⟨.warning, 1, b!"unexpected garbage after string ignoren", false⟩]) (ns' := []) (by decide)
      (.mk (body := b!"b\\q") (trail := b!" x") (u := b!"q") (.plain (by decide) (by decide) (by simp) (.unknown (by simp [escapes]) .nil))) .nil
  have he : REntry .c false 0 [b!"msgid \"a\"", b!"msgstr \"b\\q\" x"] _ :=
    REntry.single (RHead.mk (RStart.none (ct := .c) (big5 := false) (n := 0) (cs := []) (fz := false) (by simp) (by simp)) hid) hstr
  refine Reading.fault (k := 2) (q := 3) (pre := [_]) (ns := []) (m := b!"expected empty line") (by decide) (.after he ?_ ?_) (by decide) ?_ ?_ ?_
  · rw [separator_iff]; decide +kernel
  · exact not_continues (x := 102) (t := b!"oo") (by decide) (by decide)
  · intro j h1 h2; omega
  · rw [separator_iff]; decide +kernel
  · exact Reading.gap (k := 0) (by decide +kernel) (by simp [block]) (by decide +kernel) (.done (by decide +kernel))

example : (observe (run ⟨.c, demoLib, true, b!"f", true, 100⟩ (.ofBytes readDemo) (.init b!"UTF-8"))).log
    = [.po .warning b!"f" 2 b!"unhandled escape '\\q'" b!"msgstr \"b\\q\" x",
        .po .warning b!"f" 2 b!"unexpected garbage after string ignoren" b!"msgstr \"b\\q\" x",
        .po .error b!"f" 3 b!"expected empty line" b!"foo"] := by
  rw [C63_reading _ readDemo _ ?_ (by decide +kernel) (by decide +kernel) _ readDemo_reading]
  · decide +kernel
  · intro p
    match p with
    | 0 | 1 | 2 | 3 => decide +kernel
    | p + 4 => rw [lineAt_ends readDemo (p + 4) (by show 4 ≤ p + 4; omega)]; decide

/-- A text whose last line has no newline: the entry is read, and then its last line once more. -/
def readOpen : Str := b!"msgid \"a\"\nmsgstr \"b\""

theorem readOpen_reading : Reading .c (lineAt (withoutBom readOpen)) (lineCount readOpen) false 0
    [.single [] false none b!"a" b!"b" 2, .notes [⟨.error, 2, b!"expected empty line", false⟩]] true := by
  have hid : RField .c false b!"msgid" 0 [b!"msgid \"a\""] b!"a" [] :=
    .mk (sep := [32]) (q := b!"\"a\"") (text := b!"a") (ls := []) (rest := []) (ns := []) (ns' := []) (by decide)
      (.mk (body := b!"a") (trail := []) (u := []) (.plain (by decide) (by decide) (by simp) .nil)) .nil
  have hstr : RField .c false b!"msgstr" 1 [b!"msgstr \"b\""] b!"b" [] :=
    .mk (sep := [32]) (q := b!"\"b\"") (text := b!"b") (ls := []) (rest := []) (ns := []) (ns' := []) (by decide)
      (.mk (body := b!"b") (trail := []) (u := []) (.plain (by decide) (by decide) (by simp) .nil)) .nil
  have he : REntry .c false 0 [b!"msgid \"a\"", b!"msgstr \"b\""] _ :=
    REntry.single (RHead.mk (RStart.none (ct := .c) (big5 := false) (n := 0) (cs := []) (fz := false) (by simp) (by simp)) hid) hstr
  refine Reading.fault (k := 2) (q := 3) (pre := [_]) (ns := []) (m := b!"expected empty line") (by decide +kernel) (.after he ?_ ?_) (by decide) ?_ ?_ ?_
  · rw [separator_iff]; decide +kernel
  · exact not_continues (x := 109) (t := b!"sgstr \"b\"") (by decide) (by decide)
  · intro j h1 h2; omega
  · exact .inl (by decide +kernel)
  · exact .done (by decide +kernel)

example : (observe (run ⟨.c, demoLib, true, b!"f", true, 100⟩ (.ofBytes readOpen) (.init b!"UTF-8"))).log
    = [.po .error b!"f" 3 b!"expected empty line" b!"msgstr \"b\""] := by
  rw [C63_reading _ readOpen _ ?_ (by decide +kernel) (by decide +kernel) _ readOpen_reading]
  · decide +kernel
  · intro p
    match p with
    | 0 | 1 => decide +kernel
    | p + 2 => rw [lineAt_ends readOpen (p + 2) (by show 2 ≤ p + 2; omega)]; decide

/-- A text that ends with a comment without newline. -/
def readLoop : Str := b!"\n# end"

theorem readLoop_reading : Reading .c (lineAt (withoutBom readLoop)) (lineCount readLoop) false 0 [] false := by
  refine Reading.gap (k := 0) (by decide +kernel) (by simp [block]) (by decide +kernel) (.endless (by decide +kernel) (.comments (fun p hp => ?_)))
  match p, hp with
  | 1, _ => rfl
  | p + 2, _ => rw [lineAt_ends readLoop (p + 2) (by show 2 ≤ p + 2; omega)]; rfl

/-! ### When a parse comes back -/

theorem loadPieces_kind (ct : CType) (lib : IconvLib) (uf ped : Bool) (file : Str) (line : Nat → Str) (ps : List Piece) :
    ∀ (cv : IConv) (d : Dictionary) (l : List Diag) (o : Observed), loadPieces ct lib uf ped file line ps cv d l = o →
      match (generalizing := false) o with
      | .threwPo _ _ | .unfinished => False
      | _ => True := by
  induction ps with
  | nil => intro cv d l o h; subst h; trivial
  | cons x ps ih =>
    intro cv d l o h
    cases x with
    | notes ns => exact ih _ _ _ _ h
    | single ns fz c id t q =>
      simp only [loadPieces] at h
      split at h
      · split at h
        · exact ih _ _ _ _ h
        · subst h; trivial
      · split at h
        · split at h
          · subst h; trivial
          · exact ih _ _ _ _ h
        · exact ih _ _ _ _ h
    | plural ns fz c id idp strs q =>
      simp only [loadPieces] at h
      split at h
      · subst h; trivial
      · split at h
        · exact ih _ _ _ _ h
        · exact ih _ _ _ _ h
    | broken ns strs =>
      simp only [loadPieces] at h
      split at h
      · subst h; trivial
      · exact ih _ _ _ _ h

/-- C26, exactly, for all texts: the parse comes back (with enough time) if and only if the reading of the text comes to an end, or
an exception is thrown before. -/
theorem C26_exact (c : Cfg) (hlib : TameLib c.lib) (s : Str) (d : Dictionary)
    (hs : ∀ p, (lineAt (withoutBom s) p).length < 4294967296) (hN : lineCount s + 8 < 2147483647) :
    (∃ F, (observe (run { c with fuel := F } (.ofBytes s) d)).Ended) ↔
    ∃ ps e, Reading c.ct (lineAt (withoutBom s)) (lineCount s) false 0 ps e ∧
      (e = true ∨ ∃ w d' l, loadPieces c.ct c.lib c.useFuzzy c.pedantic c.filename (lineAt (withoutBom s)) ps .init d [] = .threw w d' l) := by
  constructor
  · rintro ⟨F, hF⟩
    obtain ⟨ps, e, hr⟩ := C63_total c.ct s
    refine ⟨ps, e, hr, ?_⟩
    cases e with
    | true => exact .inl rfl
    | false =>
      right
      have hF' : (observe (run { c with fuel := F + s.length + 9 } (.ofBytes s) d)).Ended := by
        rcases run_obs_mono { c with fuel := F } (.ofBytes s) d (F + s.length + 9) (by show F ≤ _; omega) (by show s.length < _; omega) with hx | hx
        · rw [hx] at hF; cases hF
        · rw [run_obs { c with fuel := F + s.length + 9 } (.ofBytes s) d (by show s.length < F + s.length + 9; omega)]
          rw [hx] at hF
          rw [← obsE_fuel _ (F + s.length + 9)] at hF
          exact hF
      have key := C63_endless { c with fuel := F + s.length + 9 } s d hs hN (by show s.length + 8 < F + s.length + 9; omega) ps hr
      dsimp only at key
      cases hl : loadPieces c.ct c.lib c.useFuzzy c.pedantic c.filename (lineAt (withoutBom s)) ps .init d [] with
      | returned d' l =>
        rw [hl] at key
        rcases key with hx | ⟨f, hx, _⟩ <;> (rw [hx] at hF'; cases hF')
      | threw w d' l => exact ⟨_, _, _, rfl⟩
      | threwPo d' l => exact (loadPieces_kind _ _ _ _ _ _ ps _ _ _ _ hl).elim
      | crashed f => rw [hl] at key; rw [key] at hF'; cases hF'
      | unfinished => rw [hl] at key; rw [key] at hF'; cases hF'
  · rintro ⟨ps, e, hr, he⟩
    refine ⟨s.length + 9, ?_⟩
    cases e with
    | true =>
      have hlc := lineCount_le s
      obtain ⟨q, hq⟩ := a_main (calm_of c.ct (s.length + 9) s hs hN (by omega)) hr (s.length + 9) (by omega) (by omega)
      rw [run_obs { c with fuel := s.length + 9 } _ d (by show s.length < s.length + 9; omega)]
      have hev : events c.ct (s.length + 9) (.ofBytes s) = (ps.flatMap pieceEvs, .ok () q) := hq
      dsimp only
      rw [hev]
      unfold obsE
      rcases interp_tame { c with fuel := s.length + 9 } hlib (startTape (.ofBytes s)) (ps.flatMap pieceEvs) ([], initState (.ofBytes s) d)
        (by simp [ConvOk, initState, IConv.init]) with ⟨y, hy⟩ | ⟨m, y, hy⟩ <;> (rw [hy]; trivial)
    | false =>
      rcases he with he | ⟨w, d', l, he⟩
      · cases he
      · have key := C63_endless { c with fuel := s.length + 9 } s d hs hN (by show s.length + 8 < s.length + 9; omega) ps hr
        dsimp only at key
        rw [he] at key
        rw [key]
        trivial

theorem readLoop_short : ∀ p, (lineAt (withoutBom readLoop) p).length < 4294967296 := by
  intro p
  match p with
  | 0 | 1 => decide +kernel
  | p + 2 => rw [lineAt_ends readLoop (p + 2) (by show 2 ≤ p + 2; omega)]; decide

example (F : Nat) (hF : readLoop.length + 8 < F) (d : Dictionary) :
    observe (run ⟨.c, demoLib, true, b!"f", true, F⟩ (.ofBytes readLoop) d) = .unfinished ∨
      ∃ f, observe (run ⟨.c, demoLib, true, b!"f", true, F⟩ (.ofBytes readLoop) d) = .crashed f ∧ (TameLib demoLib → f = .signedOverflow) :=
  C63_endless ⟨.c, demoLib, true, b!"f", true, F⟩ readLoop d readLoop_short (by decide +kernel) hF [] readLoop_reading

example (d : Dictionary) : ∃ F, (observe (run ⟨.c, demoLib, true, b!"f", true, F⟩ (.ofBytes readOpen) d)).Ended := by
  refine (C26_exact ⟨.c, demoLib, true, b!"f", true, 0⟩ demoLib_tame readOpen d ?_ (by decide +kernel)).2 ⟨_, true, readOpen_reading, .inl rfl⟩
  intro p
  match p with
  | 0 | 1 => decide +kernel
  | p + 2 => rw [lineAt_ends readOpen (p + 2) (by show 2 ≤ p + 2; omega)]; decide

end Tgt
