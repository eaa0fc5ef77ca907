import Verif.Proofs.Refine2
/-
The parser computes what its tape description says: the main loop and the whole parse.
-/
namespace Tgt.POParser
variable {α β : Type} {c : Cfg} {T : Tape} {b : Bool}

theorem tape_step (x : Cell) (p : Nat) : tape x (p + 1) = (tape x p).next := rfl

theorem big5After_cons (ct : CType) (b : Bool) (e : Ev) (w : List Ev) :
    big5After ct b (e :: w) = big5After ct (big5After ct b [e]) w := by
  simp [big5After, Bool.or_assoc]

theorem evStep_big5After (c : Cfg) (T : Tape) (e : Ev) (x y : List Str × PState)
    (h : evStep c T e x = .ok () y) : y.2.big5 = big5After c.ct x.2.big5 [e] := by
  by_cases he : e.noHdr = true
  · rw [evStep_big5 c T e he x y h]
    cases e <;> simp [big5After, Ev.noHdr, Ev.isHeader] at *
  · cases e with
    | header p t =>
      simp only [evStep] at h
      rcases parseHeader_kind c t (mv T x.2 p) with ⟨s', hs⟩ | ⟨w, s', hs⟩
      · rw [hs] at h
        cases h
        simpa [big5After] using (parseHeader_mv c T t x.2 s' p hs).2
      · rw [hs] at h; cases h
    | _ => simp [Ev.noHdr, Ev.isHeader] at he

theorem interp_big5After (c : Cfg) (T : Tape) (w : List Ev) (x y : List Str × PState)
    (h : interp c T w x = .ok () y) : y.2.big5 = big5After c.ct x.2.big5 w := by
  induction w generalizing x with
  | nil => cases h; simp [big5After]
  | cons e w ih =>
    simp only [interp, bind_apply] at h
    split at h <;> try cases h
    rename_i a x' he
    rw [ih x' h, evStep_big5After c T e x x' he, ← big5After_cons]

theorem evStep_no_poError (c : Cfg) (T : Tape) (e : Ev) (x y : List Str × PState) :
    evStep c T e x ≠ .poError y ∧ evStep c T e x ≠ .diverge := by
  cases e with
  | diag lv p m ped => simp only [evStep]; split <;> simp
  | clear => simp [evStep]
  | conv n t =>
    simp only [evStep]
    unfold convert
    split <;> rename_i h <;> split at h <;> cases h <;> simp
  | singular fz ctxt id t =>
    simp only [evStep]
    split
    · unfold convert
      split <;> rename_i h <;> split at h <;> cases h <;> simp
    · simp
  | plural p fz ctxt id idp => simp only [evStep]; split <;> simp
  | header p t =>
    simp only [evStep]
    rcases parseHeader_kind c t (mv T x.2 p) with ⟨s', hs⟩ | ⟨w, s', hs⟩ <;> rw [hs] <;> simp

theorem interp_no_poError (c : Cfg) (T : Tape) (w : List Ev) (x y : List Str × PState) :
    interp c T w x ≠ .poError y ∧ interp c T w x ≠ .diverge := by
  induction w generalizing x with
  | nil => simp [interp, Prog.pure]
  | cons e w ih =>
    simp only [interp, bind_apply]
    cases h : evStep c T e x with
    | ok a s => exact ih s
    | poError s => exact absurd h (evStep_no_poError c T e x s).1
    | exn w s => simp
    | fault f => simp
    | diverge => exact absurd h (evStep_no_poError c T e x y).2

theorem mainLoop_ref (hT : ∀ p, T (p + 1) = (T p).next) (hF : ∀ p, (T p).line.length < c.fuel) (f : Nat) :
    ∀ b, Ref c T b (mainLoop c f) (mainLoopE c.ct c.fuel T f b) := by
  induction f with
  | zero => intro b; exact Ref.diverge
  | succ f ih =>
    intro b s p v hb
    unfold mainLoop mainLoopE
    rw [prog_bind, bind_apply]
    simp only [Prog.get]
    have he : (mv T s p).eof = (T p).eof := rfl
    rw [he]
    by_cases h : (T p).eof = true
    · simp [h, Prog.pure, runE, interp, forget]
    · simp only [h, Bool.not_false, if_true]
      rw [prog_bind, bind_apply]
      simp only [tryEntry]
      rw [entry_ref hT hF s p v hb]
      rcases hen : entryE c.ct c.fuel T b p with ⟨w, r⟩
      unfold runE
      simp only
      cases hi : interp c T w (v, s) with
      | ok u x =>
        obtain ⟨v', s'⟩ := x
        have hb' : s'.big5 = big5After c.ct b w := by
          have := interp_big5After c T w _ _ hi
          simpa [hb] using this
        cases r with
        | ok a q =>
          simp only [forget]
          rw [interp_append, bind_apply, hi]
          exact ih _ s' q v' hb'
        | err q =>
          simp only [forget]
          rw [interp_append, bind_apply, hi]
          exact ih _ s' q v' hb'
        | overflow => simp only [hi, forget]
        | diverge => simp only [hi, forget]
      | poError x =>
        exact absurd hi (interp_no_poError c T w _ x).1
      | exn w' x => cases r <;> simp only [interp_append, bind_apply, hi, forget]
      | fault f => cases r <;> simp only [interp_append, bind_apply, hi, forget]
      | diverge => cases r <;> simp only [interp_append, bind_apply, hi, forget]

/-- A byte order mark removed. -/
def stripBom : Str → Str
  | 0xef :: 0xbb :: 0xbf :: t => t
  | l => l

/-- The tape of an input: the lines `next_line` yields, the first one without byte order mark. -/
def startTape (input : Stream) : Tape :=
  let x := (Cell.mk input [] false).next
  tape { x with line := stripBom x.line }

/-- All events of a parse, and how it ends. -/
def events (ct : CType) (fuel : Nat) (input : Stream) : List Ev × TRes Unit :=
  mainLoopE ct fuel (startTape input) fuel false 0

/-- Run the destructor. -/
def finish : Res PState Unit → Res PState Unit
  | .ok _ s => .ok () { s with conv := s.conv.destroy }
  | .poError s => .poError { s with conv := s.conv.destroy }
  | .exn w s => .exn w { s with conv := s.conv.destroy }
  | .fault e => .fault e
  | .diverge => .diverge

/-- A parse is the interpretation of its events. -/
theorem run_eq (c : Cfg) (input : Stream) (dict : Dictionary)
    (hF : ∀ p, (startTape input p).line.length < c.fuel) :
    run c input dict
      = finish (forget (runE c (startTape input) (events c.ct c.fuel input) [] (initState input dict))) := by
  have hm := mainLoop_ref (c := c) (T := startTape input) (fun p => tape_step _ p) hF c.fuel false
    (initState input dict) 0 [] rfl
  have hp : parseBody c (initState input dict) = mainLoop c c.fuel (mv (startTape input) (initState input dict) 0) := by
    unfold parseBody
    rw [prog_bind, bind_apply]
    have hn : nextLine (initState input dict) = .ok () { initState input dict with
        lineNumber := 1
        currentLine := (Cell.mk input [] false).next.line
        input := (Cell.mk input [] false).next.input
        eof := (Cell.mk input [] false).next.eof } := by
      unfold nextLine
      rw [if_neg (by show ¬ (0 ≥ intMax); decide)]
      rfl
    rw [hn]
    simp only
    rw [prog_bind, bind_apply]
    have hs : ∀ s : PState, skipBom s = .ok () { s with currentLine := stripBom s.currentLine } := by
      intro s
      unfold skipBom
      split
      · rename_i h
        simp [stripBom, h]
      · rename_i h
        have : stripBom s.currentLine = s.currentLine := by
          unfold stripBom
          split
          · rename_i t h'; exact absurd h' (h t)
          · rfl
        rw [this]
    rw [hs]
    rfl
  unfold run
  rw [hp, hm]
  rfl

end Tgt.POParser
