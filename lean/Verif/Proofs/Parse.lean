import Verif.Proofs.Wp
/-
What can be observed of a parse, in terms of its events.
-/
namespace Tgt.POParser
open Spec

/-- What can be observed of events and how they end. -/
def obsE (c : Cfg) (T : Tape) (r : List Ev × TRes Unit) (s : PState) : Observed :=
  match interp c T r.1 ([], s) with
  | .ok _ x =>
    match r.2 with
    | .ok _ _ => .returned x.2.dict x.2.log
    | .err _ => .threwPo x.2.dict x.2.log
    | .overflow => .crashed .signedOverflow
    | .diverge => .unfinished
  | .poError x => .threwPo x.2.dict x.2.log
  | .exn w x => .threw w x.2.dict x.2.log
  | .fault f => .crashed f
  | .diverge => .unfinished

theorem obs_runE (c : Cfg) (T : Tape) (r : List Ev × TRes Unit) (s : PState) :
    observe (finish (forget (runE c T r [] s))) = obsE c T r s := by
  unfold runE obsE
  cases h : interp c T r.1 ([], s) with
  | ok a x => cases r.2 <;> rfl
  | _ => rfl

theorem parseHeader_fuel (c : Cfg) (F : Nat) (t : Str) (s : PState) :
    parseHeader (Cfg.fuelled c F) t s = parseHeader c t s := by
  rw [parseHeader_eq, parseHeader_eq]; rfl

theorem evStep_fuel (c : Cfg) (F : Nat) (T : Tape) (e : Ev) : evStep (Cfg.fuelled c F) T e = evStep c T e := by
  cases e with
  | header p t => funext x; simp only [evStep, parseHeader_fuel]
  | _ => rfl

theorem interp_fuel (c : Cfg) (F : Nat) (T : Tape) (w : List Ev) : interp (Cfg.fuelled c F) T w = interp c T w := by
  induction w with
  | nil => rfl
  | cons e w ih => rw [interp, interp, ih, evStep_fuel]

theorem obsE_fuel (c : Cfg) (F : Nat) (T : Tape) (r : List Ev × TRes Unit) (s : PState) :
    obsE (Cfg.fuelled c F) T r s = obsE c T r s := by
  unfold obsE; rw [interp_fuel]

/-- With enough fuel to read a line, a parse is what its events say. -/
theorem run_obs (c : Cfg) (input : Stream) (dict : Dictionary) (hF : input.rest.length < c.fuel) :
    observe (run c input dict)
      = obsE c (startTape input) (events c.ct c.fuel input) (initState input dict) := by
  rw [run_eq' c input dict hF, obs_runE]

theorem observe_unfinished (r : Res PState Unit) : observe r = .unfinished ↔ r = .diverge := by
  cases r <;> simp [observe]

/-- A parse that ended is what its events with any larger fuel say. -/
theorem run_obs_mono (c : Cfg) (input : Stream) (dict : Dictionary) (F : Nat) (hF : c.fuel ≤ F)
    (hL : input.rest.length < F) :
    observe (run c input dict) = .unfinished ∨
    observe (run c input dict)
      = obsE c (startTape input) (events c.ct F input) (initState input dict) := by
  rcases run_mono c F hF input dict with h | h
  · rw [h]; exact .inl rfl
  · rw [h, run_obs (Cfg.fuelled c F) input dict hL, obsE_fuel]
    exact .inr rfl

theorem evStep_fault (c : Cfg) (T : Tape) (e : Ev) (x : List Str × PState) (f : Fault)
    (h : evStep c T e x = .fault f) : f = .assertFailed := by
  have hc : ∀ (t : Str) (s : PState) (f : Fault), convert c t s = .fault f → f = .assertFailed := by
    intro t s f h
    unfold convert at h
    split at h
    · cases h
    · rename_i e he
      cases h
      unfold IConv.convert at he
      split at he
      · cases he
      · cases he; rfl
      · dsimp only at he
        split at he <;> cases he <;> rfl
  cases e with
  | diag lv p m ped => simp only [evStep] at h; split at h <;> cases h
  | clear => simp [evStep] at h
  | conv n t =>
    simp only [evStep] at h
    split at h <;> cases h
    rename_i h'
    exact hc _ _ _ h'
  | singular fz ctxt id t =>
    simp only [evStep] at h
    split at h
    · split at h <;> cases h
      rename_i h'
      exact hc _ _ _ h'
    · cases h
  | plural p fz ctxt id idp => simp only [evStep] at h; split at h <;> cases h
  | header p t =>
    simp only [evStep] at h
    rcases parseHeader_kind c t (mv T x.2 p) with ⟨s', hs⟩ | ⟨w, s', hs⟩ <;> rw [hs] at h <;> cases h

theorem interp_fault (c : Cfg) (T : Tape) (w : List Ev) (x : List Str × PState) (f : Fault)
    (h : interp c T w x = .fault f) : f = .assertFailed := by
  induction w generalizing x with
  | nil => cases h
  | cons e w ih =>
    simp only [interp, bind_apply] at h
    cases he : evStep c T e x with
    | ok a s => rw [he] at h; exact ih s h
    | poError s => rw [he] at h; cases h
    | exn w s => rw [he] at h; cases h
    | fault f' => rw [he] at h; cases h; exact evStep_fault c T e x _ he
    | diverge => rw [he] at h; cases h

theorem obsE_cases (c : Cfg) (T : Tape) (r : List Ev × TRes Unit) (s : PState) :
    obsE c T r s = .crashed .assertFailed ∨ (∃ w d l, obsE c T r s = .threw w d l) ∨
    ∃ x, interp c T r.1 ([], s) = .ok () x := by
  unfold obsE
  cases h : interp c T r.1 ([], s) with
  | ok a x => exact .inr (.inr ⟨x, rfl⟩)
  | poError x => exact absurd h (interp_no_poError c T r.1 _ x).1
  | exn w x => exact .inr (.inl ⟨_, _, _, rfl⟩)
  | fault f => left; rw [interp_fault c T r.1 _ f h]
  | diverge => exact absurd h (interp_no_poError c T r.1 _ ([], s)).2

end Tgt.POParser
