import Verif.Proofs.Refine3
/-
More fuel never changes a result other than `diverge`.
-/
namespace Tgt.POParser

/-- `m2` does what `m1` does, unless `m1` ran out of fuel. -/
def Le {σ α : Type} (m1 m2 : Prog σ α) : Prop := ∀ s, m1 s = .diverge ∨ m1 s = m2 s

section
variable {σ α β : Type}

theorem Le.refl (m : Prog σ α) : Le m m := fun _ => .inr rfl

theorem Le.div (m : Prog σ α) : Le Prog.diverge m := fun _ => .inl rfl

theorem Le.bind {m1 m2 : Prog σ α} {f1 f2 : α → Prog σ β} (h : Le m1 m2) (hf : ∀ a, Le (f1 a) (f2 a)) :
    Le (m1 >>= f1) (m2 >>= f2) := by
  intro s
  rw [prog_bind, prog_bind, bind_apply, bind_apply]
  rcases h s with h | h
  · rw [h]; exact .inl rfl
  · rw [← h]
    cases m1 s with
    | ok a s' => exact hf a s'
    | _ => exact .inr rfl

theorem Le.ite {m1 m2 n1 n2 : Prog σ α} (q : Prop) [Decidable q] (h1 : Le m1 m2) (h2 : Le n1 n2) :
    Le (if q then m1 else n1) (if q then m2 else n2) := by
  split <;> assumption
end

variable {α β : Type} {c : Cfg} {F : Nat}

/-- The same configuration with other fuel. -/
abbrev Cfg.fuelled (c : Cfg) (F : Nat) : Cfg := { c with fuel := F }

theorem recover_le (hF : c.fuel ≤ F) : ∀ f f', f ≤ f' → Le (recover c f) (recover (Cfg.fuelled c F) f') := by
  intro f
  induction f with
  | zero => intro f' _; exact Le.div _
  | succ f ih =>
    intro f' h
    obtain ⟨g, rfl⟩ : ∃ g, f' = g + 1 := ⟨f' - 1, by omega⟩
    exact Le.bind (Le.refl _) (fun _ => Le.bind (Le.refl _) (fun s => Le.ite _ (ih g (by omega)) (Le.refl _)))

theorem error_le (hF : c.fuel ≤ F) (m : Str) : Le (error (α := α) c m) (error (Cfg.fuelled c F) m) :=
  Le.bind (Le.refl _) (fun _ => Le.bind (recover_le hF _ _ hF) (fun _ => Le.refl _))

theorem stringLoop_le (hF : c.fuel ≤ F) : ∀ f f' out i, f ≤ f' →
    Le (stringLoop c f out i) (stringLoop (Cfg.fuelled c F) f' out i) := by
  intro f
  induction f with
  | zero => intro f' out i _; exact Le.div _
  | succ f ih =>
    intro f' out i h
    obtain ⟨g, rfl⟩ : ∃ g, f' = g + 1 := ⟨f' - 1, by omega⟩
    unfold stringLoop
    refine Le.bind (Le.refl _) (fun ch => Le.ite _ (Le.refl _) (Le.bind (Le.refl _) (fun s => ?_)))
    refine Le.ite _ (Le.ite _ (error_le hF _) (Le.bind (Le.refl _) (fun _ => ih _ _ _ (by omega)))) ?_
    refine Le.ite _ (error_le hF _) (Le.ite _ (Le.ite _ (error_le hF _) ?_) (ih _ _ _ (by omega)))
    refine Le.bind (Le.refl _) (fun e => ?_)
    split
    · exact ih _ _ _ (by omega)
    · exact Le.bind (Le.refl _) (fun _ => Le.bind (Le.refl _) (fun _ => ih _ _ _ (by omega)))

theorem getStringLine_le (hF : c.fuel ≤ F) (out : Str) (skip : Nat) :
    Le (getStringLine c out skip) (getStringLine (Cfg.fuelled c F) out skip) := by
  unfold getStringLine
  refine Le.bind (Le.refl _) (fun l => Le.ite _ (error_le hF _) (Le.bind (Le.refl _) (fun q =>
    Le.ite _ (error_le hF _) (Le.bind (stringLoop_le hF _ _ _ _ hF) (fun r => Le.refl _)))))

theorem skipLoop_le (hF : c.fuel ≤ F) : ∀ f f' out i, f ≤ f' →
    Le (skipLoop c f out i) (skipLoop (Cfg.fuelled c F) f' out i) := by
  intro f
  induction f with
  | zero => intro f' out i _; exact Le.div _
  | succ f ih =>
    intro f' out i h
    obtain ⟨g, rfl⟩ : ∃ g, f' = g + 1 := ⟨f' - 1, by omega⟩
    exact Le.bind (Le.refl _) (fun l => Le.ite _ (error_le hF _) (Le.bind (Le.refl _) (fun ch =>
      Le.ite _ (getStringLine_le hF _ _) (Le.ite _ (error_le hF _) (ih _ _ _ (by omega))))))

theorem contLoop_le (hF : c.fuel ≤ F) : ∀ f f' out, f ≤ f' →
    Le (contLoop c f out) (contLoop (Cfg.fuelled c F) f' out) := by
  intro f
  induction f with
  | zero => intro f' out _; exact Le.div _
  | succ f ih =>
    intro f' out h
    obtain ⟨g, rfl⟩ : ∃ g, f' = g + 1 := ⟨f' - 1, by omega⟩
    unfold contLoop
    refine Le.bind (Le.refl _) (fun _ => Le.bind (Le.refl _) (fun l => ?_))
    have : (Cfg.fuelled c F).ct = c.ct := rfl
    rw [this]
    split
    · exact Le.bind (Le.refl _) (fun _ => Le.bind (getStringLine_le hF _ _) (fun _ => ih _ _ (by omega)))
    · exact Le.refl _

theorem getString_le (hF : c.fuel ≤ F) (skip : Nat) :
    Le (getString c skip) (getString (Cfg.fuelled c F) skip) := by
  unfold getString
  refine Le.bind (Le.refl _) (fun l => Le.ite _ (error_le hF _) (Le.bind (Le.refl _) (fun a =>
    Le.bind (Le.refl _) (fun sep => Le.bind (Le.ite _ (getStringLine_le hF _ _)
      (Le.bind (Le.refl _) (fun _ => skipLoop_le hF _ _ _ _ hF))) (fun out => contLoop_le hF _ _ _ hF)))))

theorem commentLoop_le (hF : c.fuel ≤ F) : ∀ f f' fz, f ≤ f' →
    Le (commentLoop c f fz) (commentLoop (Cfg.fuelled c F) f' fz) := by
  intro f
  induction f with
  | zero => intro f' out _; exact Le.div _
  | succ f ih =>
    intro f' out h
    obtain ⟨g, rfl⟩ : ∃ g, f' = g + 1 := ⟨f' - 1, by omega⟩
    exact Le.bind (Le.refl _) (fun l => Le.ite _ (Le.bind (Le.refl _) (fun _ => ih _ _ (by omega))) (Le.refl _))

theorem pluralLoop_le (hF : c.fuel ≤ F) : ∀ f f' v saw, f ≤ f' →
    Le (pluralLoop c f v saw) (pluralLoop (Cfg.fuelled c F) f' v saw) := by
  intro f
  induction f with
  | zero => intro f' v saw _; exact Le.div _
  | succ f ih =>
    intro f' v saw h
    obtain ⟨g, rfl⟩ : ∃ g, f' = g + 1 := ⟨f' - 1, by omega⟩
    unfold pluralLoop
    refine Le.bind (Le.refl _) (fun e => Le.ite _ (Le.ite _ (error_le hF _) (Le.refl _))
      (Le.bind (Le.refl _) (fun l => ?_)))
    split
    · exact Le.bind (getString_le hF _) (fun _ => Le.bind (Le.refl _) (fun _ => ih _ _ _ (by omega)))
    · exact error_le hF _

theorem pluralEntry_le (hF : c.fuel ≤ F) (fz : Bool) (ctxt : Option Str) (id : Str) :
    Le (pluralEntry c fz ctxt id) (pluralEntry (Cfg.fuelled c F) fz ctxt id) := by
  unfold pluralEntry
  exact Le.bind (getString_le hF _) (fun _ => Le.bind (pluralLoop_le hF _ _ _ _ hF) (fun r =>
    Le.bind (Le.refl _) (fun e => Le.ite _ (error_le hF _) (Le.refl _))))

theorem singularEntry_le (hF : c.fuel ≤ F) (fz : Bool) (ctxt : Option Str) (id : Str) :
    Le (singularEntry c fz ctxt id) (singularEntry (Cfg.fuelled c F) fz ctxt id) := by
  unfold singularEntry
  refine Le.bind (getString_le hF _) (fun t => Le.ite _ ?_ (Le.refl _))
  intro s
  exact .inr (by rw [parseHeader_eq, parseHeader_eq]; rfl)

theorem entryBody_le (hF : c.fuel ≤ F) (fz : Bool) :
    Le (entryBody c fz) (entryBody (Cfg.fuelled c F) fz) := by
  unfold entryBody
  exact Le.bind (Le.refl _) (fun _ => Le.bind (Le.ite _ (Le.bind (getString_le hF _) (fun _ => Le.refl _)) (Le.refl _))
    (fun ctxt => Le.bind (Le.refl _) (fun _ => Le.bind (Le.ite _ (getString_le hF _) (error_le hF _))
    (fun id => Le.bind (Le.refl _) (fun _ => Le.ite _ (pluralEntry_le hF _ _ _)
    (Le.bind (Le.refl _) (fun _ => Le.ite _ (singularEntry_le hF _ _ _) (error_le hF _))))))))

theorem entry_le (hF : c.fuel ≤ F) : Le (entry c) (entry (Cfg.fuelled c F)) := by
  unfold entry
  exact Le.bind (commentLoop_le hF _ _ _ hF) (fun _ => Le.bind (Le.refl _) (fun _ =>
    Le.bind (Le.ite _ (entryBody_le hF _) (Le.refl _)) (fun _ => Le.bind (Le.refl _) (fun _ =>
    Le.bind (Le.ite _ (error_le hF _) (Le.refl _)) (fun _ => Le.refl _)))))

theorem tryEntry_le (hF : c.fuel ≤ F) : Le (tryEntry c) (tryEntry (Cfg.fuelled c F)) := by
  intro s
  unfold tryEntry
  rcases entry_le hF s with h | h
  · rw [h]; exact .inl rfl
  · rw [← h]; exact .inr rfl

theorem mainLoop_le (hF : c.fuel ≤ F) : ∀ f f', f ≤ f' →
    Le (mainLoop c f) (mainLoop (Cfg.fuelled c F) f') := by
  intro f
  induction f with
  | zero => intro f' _; exact Le.div _
  | succ f ih =>
    intro f' h
    obtain ⟨g, rfl⟩ : ∃ g, f' = g + 1 := ⟨f' - 1, by omega⟩
    exact Le.bind (Le.refl _) (fun s => Le.ite _ (Le.bind (tryEntry_le hF) (fun _ => ih _ (by omega))) (Le.refl _))

/-- More fuel never changes the result of a parse that finished. -/
theorem run_mono (c : Cfg) (F : Nat) (hF : c.fuel ≤ F) (input : Stream) (dict : Dictionary) :
    run c input dict = .diverge ∨ run c input dict = run (Cfg.fuelled c F) input dict := by
  have h : Le (parseBody c) (parseBody (Cfg.fuelled c F)) :=
    Le.bind (Le.refl _) (fun _ => Le.bind (Le.refl _) (fun _ => mainLoop_le hF _ _ hF))
  unfold run
  rcases h (initState input dict) with h | h
  · rw [h]; exact .inl rfl
  · rw [← h]; exact .inr rfl

/-- Lines are no longer than the input. -/
theorem splitLine_length (s l r : Str) (h : splitLine s = some (l, r)) :
    l.length + r.length + 1 = s.length := by
  induction s generalizing l r with
  | nil => cases h
  | cons a t ih =>
    unfold splitLine at h
    split at h
    · cases h; simp
    · split at h
      · rename_i l' r' h'
        cases h
        have := ih l' r h'
        simp; omega
      · cases h

theorem next_bound (x : Cell) (N : Nat) (h1 : x.line.length ≤ N) (h2 : x.input.rest.length ≤ N) :
    x.next.line.length ≤ N ∧ x.next.input.rest.length ≤ N := by
  unfold Cell.next Stream.getline
  dsimp only
  split
  · exact ⟨h1, h2⟩
  · split
    · rename_i l r hs
      have := splitLine_length _ _ _ hs
      exact ⟨by dsimp only; omega, by dsimp only; omega⟩
    · split
      · exact ⟨h2, by simp⟩
      · split
        · exact ⟨by simp, by simp⟩
        · exact ⟨h2, by simp⟩

theorem tape_bound (x : Cell) (N : Nat) (h1 : x.line.length ≤ N) (h2 : x.input.rest.length ≤ N) (p : Nat) :
    (tape x p).line.length ≤ N ∧ (tape x p).input.rest.length ≤ N := by
  induction p with
  | zero => exact ⟨h1, h2⟩
  | succ p ih => exact next_bound _ N ih.1 ih.2

theorem stripBom_length (l : Str) : (stripBom l).length ≤ l.length := by
  unfold stripBom
  split <;> simp
  omega

theorem startTape_bound (input : Stream) (p : Nat) : (startTape input p).line.length ≤ input.rest.length := by
  have h := next_bound ⟨input, [], false⟩ input.rest.length (by simp) (Nat.le_refl _)
  have h3 : (stripBom (Cell.mk input [] false).next.line).length ≤ input.rest.length :=
    Nat.le_trans (stripBom_length _) h.1
  exact (tape_bound { (Cell.mk input [] false).next with line := stripBom (Cell.mk input [] false).next.line }
    input.rest.length h3 h.2 p).1

/-- Fuel for which `run_eq` holds. -/
theorem run_eq' (c : Cfg) (input : Stream) (dict : Dictionary) (hF : input.rest.length < c.fuel) :
    run c input dict
      = finish (forget (runE c (startTape input) (events c.ct c.fuel input) [] (initState input dict))) :=
  run_eq c input dict (fun p => Nat.lt_of_le_of_lt (startTape_bound input p) hF)

end Tgt.POParser
