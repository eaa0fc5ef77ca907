import Verif.Model.Release
import Verif.Proofs.Fuel
/-
A parse without assertions does what the one with assertions does, unless that one aborts.
-/
namespace Tgt.POParser
namespace Rel

/-- `m2` does what `m1` does, unless `m1` fails an assertion. -/
def Un {σ α : Type} (m1 m2 : Prog σ α) : Prop := ∀ s, m1 s = .fault .assertFailed ∨ m1 s = m2 s

section
variable {σ α β : Type}

theorem Un.refl (m : Prog σ α) : Un m m := fun _ => .inr rfl

theorem Un.bind {m1 m2 : Prog σ α} {f1 f2 : α → Prog σ β} (h : Un m1 m2) (hf : ∀ a, Un (f1 a) (f2 a)) :
    Un (m1 >>= f1) (m2 >>= f2) := by
  intro s
  rw [prog_bind, prog_bind, bind_apply, bind_apply]
  rcases h s with h | h
  · rw [h]; exact .inl rfl
  · rw [← h]
    cases m1 s with
    | ok a s' => exact hf a s'
    | _ => exact .inr rfl

theorem Un.ite {m1 m2 n1 n2 : Prog σ α} (q : Prop) [Decidable q] (h1 : Un m1 m2) (h2 : Un n1 n2) :
    Un (if q then m1 else n1) (if q then m2 else n2) := by
  split <;> assumption
end

variable {α β : Type} {c : Cfg}

/-- The same configuration without assertions. -/
abbrev Cfg.relaxed (c : Cfg) : Cfg := { c with lib := c.lib.unasserted }

theorem convert_le (t : Str) : Un (convert c t) (convert (Cfg.relaxed c) t) := by
  intro s
  unfold convert IConv.convert
  cases s.conv.cd with
  | null => exact .inr rfl
  | invalid => exact .inl rfl
  | opened id to fr hist =>
    dsimp only [Cfg.relaxed, IconvLib.unasserted]
    cases (c.lib.conv to fr hist t (4 * t.length)).status with
    | ok => exact .inr rfl
    | eilseq => exact .inr rfl
    | einval => exact .inr rfl
    | _ => exact .inl rfl

theorem recover_le : ∀ f, Un (recover c f) (recover (Cfg.relaxed c) f) := by
  intro f
  induction f with
  | zero => exact Un.refl _
  | succ f ih =>
    exact Un.bind (Un.refl _) (fun _ => Un.bind (Un.refl _) (fun s => Un.ite _ (ih) (Un.refl _)))

theorem error_le (m : Str) : Un (error (α := α) c m) (error (Cfg.relaxed c) m) :=
  Un.bind (Un.refl _) (fun _ => Un.bind (recover_le _ ) (fun _ => Un.refl _))

theorem stringLoop_le : ∀ f out i,
    Un (stringLoop c f out i) (stringLoop (Cfg.relaxed c) f out i) := by
  intro f
  induction f with
  | zero => intro out i; exact Un.refl _
  | succ f ih =>
    intro out i
    unfold stringLoop
    refine Un.bind (Un.refl _) (fun ch => Un.ite _ (Un.refl _) (Un.bind (Un.refl _) (fun s => ?_)))
    refine Un.ite _ (Un.ite _ (error_le  _) (Un.bind (Un.refl _) (fun _ => ih _ _))) ?_
    refine Un.ite _ (error_le  _) (Un.ite _ (Un.ite _ (error_le  _) ?_) (ih _ _))
    refine Un.bind (Un.refl _) (fun e => ?_)
    split
    · exact ih _ _
    · exact Un.bind (Un.refl _) (fun _ => Un.bind (Un.refl _) (fun _ => ih _ _))

theorem getStringLine_le (out : Str) (skip : Nat) :
    Un (getStringLine c out skip) (getStringLine (Cfg.relaxed c) out skip) := by
  unfold getStringLine
  refine Un.bind (Un.refl _) (fun l => Un.ite _ (error_le  _) (Un.bind (Un.refl _) (fun q =>
    Un.ite _ (error_le  _) (Un.bind (stringLoop_le _ _ _ ) (fun r => Un.refl _)))))

theorem skipLoop_le : ∀ f out i,
    Un (skipLoop c f out i) (skipLoop (Cfg.relaxed c) f out i) := by
  intro f
  induction f with
  | zero => intro out i; exact Un.refl _
  | succ f ih =>
    intro out i
    exact Un.bind (Un.refl _) (fun l => Un.ite _ (error_le  _) (Un.bind (Un.refl _) (fun ch =>
      Un.ite _ (getStringLine_le  _ _) (Un.ite _ (error_le  _) (ih _ _)))))

theorem contLoop_le : ∀ f out,
    Un (contLoop c f out) (contLoop (Cfg.relaxed c) f out) := by
  intro f
  induction f with
  | zero => intro out; exact Un.refl _
  | succ f ih =>
    intro out
    unfold contLoop
    refine Un.bind (Un.refl _) (fun _ => Un.bind (Un.refl _) (fun l => ?_))
    have : (Cfg.relaxed c).ct = c.ct := rfl
    rw [this]
    split
    · exact Un.bind (Un.refl _) (fun _ => Un.bind (getStringLine_le  _ _) (fun _ => ih _))
    · exact Un.refl _

theorem getString_le (skip : Nat) :
    Un (getString c skip) (getString (Cfg.relaxed c) skip) := by
  unfold getString
  refine Un.bind (Un.refl _) (fun l => Un.ite _ (error_le  _) (Un.bind (Un.refl _) (fun a =>
    Un.bind (Un.refl _) (fun sep => Un.bind (Un.ite _ (getStringLine_le  _ _)
      (Un.bind (Un.refl _) (fun _ => skipLoop_le _ _ _ ))) (fun out => contLoop_le _ _ )))))

theorem commentLoop_le : ∀ f fz,
    Un (commentLoop c f fz) (commentLoop (Cfg.relaxed c) f fz) := by
  intro f
  induction f with
  | zero => intro out; exact Un.refl _
  | succ f ih =>
    intro out
    exact Un.bind (Un.refl _) (fun l => Un.ite _ (Un.bind (Un.refl _) (fun _ => ih _)) (Un.refl _))

theorem pluralLoop_le : ∀ f v saw,
    Un (pluralLoop c f v saw) (pluralLoop (Cfg.relaxed c) f v saw) := by
  intro f
  induction f with
  | zero => intro v saw; exact Un.refl _
  | succ f ih =>
    intro v saw
    unfold pluralLoop
    refine Un.bind (Un.refl _) (fun e => Un.ite _ (Un.ite _ (error_le  _) (Un.refl _))
      (Un.bind (Un.refl _) (fun l => ?_)))
    split
    · exact Un.bind (getString_le  _) (fun _ => Un.bind (convert_le _) (fun _ => ih _ _))
    · exact error_le  _

theorem pluralEntry_le (fz : Bool) (ctxt : Option Str) (id : Str) :
    Un (pluralEntry c fz ctxt id) (pluralEntry (Cfg.relaxed c) fz ctxt id) := by
  unfold pluralEntry
  exact Un.bind (getString_le  _) (fun _ => Un.bind (pluralLoop_le _ _ _ ) (fun r =>
    Un.bind (Un.refl _) (fun e => Un.ite _ (error_le  _) (Un.refl _))))

theorem singularEntry_le (fz : Bool) (ctxt : Option Str) (id : Str) :
    Un (singularEntry c fz ctxt id) (singularEntry (Cfg.relaxed c) fz ctxt id) := by
  unfold singularEntry
  refine Un.bind (getString_le  _) (fun t => Un.ite _ ?_ (Un.ite _ (Un.ite _ (Un.bind (convert_le _) (fun _ => Un.refl _)) (Un.refl _)) (Un.refl _)))
  intro s
  exact .inr (by rw [parseHeader_eq, parseHeader_eq]; rfl)

theorem entryBody_le (fz : Bool) :
    Un (entryBody c fz) (entryBody (Cfg.relaxed c) fz) := by
  unfold entryBody
  exact Un.bind (Un.refl _) (fun _ => Un.bind (Un.ite _ (Un.bind (getString_le  _) (fun _ => Un.refl _)) (Un.refl _))
    (fun ctxt => Un.bind (Un.refl _) (fun _ => Un.bind (Un.ite _ (getString_le  _) (error_le  _))
    (fun id => Un.bind (Un.refl _) (fun _ => Un.ite _ (pluralEntry_le  _ _ _)
    (Un.bind (Un.refl _) (fun _ => Un.ite _ (singularEntry_le  _ _ _) (error_le  _))))))))

theorem entry_le : Un (entry c) (entry (Cfg.relaxed c)) := by
  unfold entry
  exact Un.bind (commentLoop_le _ _ ) (fun _ => Un.bind (Un.refl _) (fun _ =>
    Un.bind (Un.ite _ (entryBody_le  _) (Un.refl _)) (fun _ => Un.bind (Un.refl _) (fun _ =>
    Un.bind (Un.ite _ (error_le  _) (Un.refl _)) (fun _ => Un.refl _)))))

theorem tryEntry_le : Un (tryEntry c) (tryEntry (Cfg.relaxed c)) := by
  intro s
  unfold tryEntry
  rcases entry_le  s with h | h
  · rw [h]; exact .inl rfl
  · rw [← h]; exact .inr rfl

theorem mainLoop_le : ∀ f,
    Un (mainLoop c f) (mainLoop (Cfg.relaxed c) f) := by
  intro f
  induction f with
  | zero => exact Un.refl _
  | succ f ih =>
    exact Un.bind (Un.refl _) (fun s => Un.ite _ (Un.bind (tryEntry_le ) (fun _ => ih)) (Un.refl _))

/-- Without assertions a parse does the same, unless an assertion fails. -/
theorem run_le (c : Cfg) (input : Stream) (dict : Dictionary) :
    run c input dict = .fault .assertFailed ∨ run c input dict = runRelease c input dict := by
  have h : Un (parseBody c) (parseBody (Cfg.relaxed c)) :=
    Un.bind (Un.refl _) (fun _ => Un.bind (Un.refl _) (fun _ => mainLoop_le _))
  unfold runRelease run
  rcases h (initState input dict) with h | h
  · rw [h]; exact .inl rfl
  · rw [← h]; exact .inr rfl

end Rel
end Tgt.POParser
