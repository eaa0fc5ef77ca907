import Verif.Proofs.Vis
/-
Which events a parse can have.
-/
namespace Tgt.POParser
open Spec

/-- Closed under everything the parser emits. -/
structure QOk (Q : Ev → Bool) : Prop where
  err : ∀ p m, m ∈ parserErrors → Q (.diag .error p m false) = true
  unk : ∀ p e, Q (.diag .warning p (unknownMsg e) false) = true
  garbage : ∀ p, Q (.diag .warning p b!"unexpected garbage after string ignoren" false) = true
  space : ∀ p, Q (.diag .warning p b!"keyword and string must be seperated by a single space" true) = true
  lead : ∀ p, Q (.diag .warning p b!"leading whitespace before string" true) = true
  clear : Q .clear = true
  conv : ∀ n t, n ≤ 9 → Q (.conv n t) = true
  plural : ∀ p fz c i ip, Q (.plural p fz c i ip) = true
  singular : ∀ fz c i t, i ≠ [] → t ≠ [] → Q (.singular fz c i t) = true
  header : ∀ p t, Q (.header p t) = true

variable {Q : Ev → Bool} {α : Type}

theorem ev_warn (m : Str) (q : Bool) (h : ∀ p, Q (.diag .warning p m q) = true) : Evs Q (warnE m q) := by
  intro p x hx
  simp [warnE] at hx; subst hx; exact h p

theorem ev_error (hq : QOk Q) (ct : CType) (fuel : Nat) (T : Tape) (m : Str) (hm : m ∈ parserErrors) :
    Evs Q (errorE (α := α) ct fuel T m) := by
  refine nh_bind ?_ (fun _ => nh_bind (nh_recover ct T fuel) (fun _ => nh_throw))
  intro p x hx; simp [E.emitAt] at hx; subst hx; exact hq.err _ _ hm

theorem lex_error (b : Bool) (t m : Str) (h : (lex b t).res = .error m) : m ∈ parserErrors := by
  have hpush : ∀ (r : Lex) (w : Str), (r.push w).res = .error m → r.res = .error m := by
    intro r w h
    unfold Lex.push at h
    dsimp only at h
    split at h
    · cases h
    · rename_i e; cases h; exact e
  fun_induction lex b t with
  | case1 => cases h; simp [parserErrors]
  | case2 => cases h
  | case3 => cases h; simp [parserErrors]
  | case4 => cases h; simp [parserErrors]
  | case5 => cases h; simp [parserErrors]
  | case6 _ _ _ _ _ ih => exact ih (hpush _ _ h)
  | case7 _ _ _ _ _ _ ih => exact ih (hpush _ _ h)
  | case8 _ _ _ _ _ ih => exact ih (hpush _ _ h)
  | case9 _ _ _ _ _ _ ih => exact ih (hpush _ _ h)

theorem skipTo_error (ct : CType) (t m : Str) (i : Nat) (h : skipTo ct t i = .error m) : m ∈ parserErrors := by
  induction t generalizing i with
  | nil => cases h; simp [parserErrors]
  | cons b t ih =>
    unfold skipTo at h
    split at h
    · cases h
    · split at h
      · cases h; simp [parserErrors]
      · exact ih _ h

variable (hq : QOk Q) (ct : CType) (fuel : Nat) (T : Tape) (b : Bool)
include hq

theorem ev_getStringLine (out : Str) (skip : Nat) : Evs Q (getStringLineE ct fuel T b out skip) := by
  unfold getStringLineE
  refine nh_bind nh_line (fun l => nh_ite _ (ev_error hq _ _ _ _ (by simp [parserErrors])) (nh_ite _ (ev_error hq _ _ _ _ (by simp [parserErrors])) ?_))
  refine nh_bind (nh_emitAt _ ?_) (fun _ => ?_)
  · intro p x hx
    obtain ⟨e, _, rfl⟩ := List.mem_map.1 hx
    exact hq.unk ..
  · split
    · rename_i h; exact ev_error hq _ _ _ _ (lex_error _ _ _ h)
    · exact nh_ite _ (nh_bind (ev_warn _ _ hq.garbage) (fun _ => nh_pure _)) (nh_pure _)

theorem ev_contLoop (f : Nat) (out : Str) : Evs Q (contLoopE ct fuel T b f out) := by
  induction f generalizing out with
  | zero => exact nh_diverge
  | succ f ih =>
    refine nh_bind nh_next (fun _ => nh_bind nh_line (fun l => ?_))
    split
    · refine nh_bind ?_ (fun _ => nh_bind (ev_getStringLine hq _ _ _ _ _ _) (fun _ => ih _))
      exact nh_ite _ (ev_warn _ _ hq.lead) (nh_pure _)
    · exact nh_pure _

theorem ev_getString (skip : Nat) : Evs Q (getStringE ct fuel T b skip) := by
  unfold getStringE
  refine nh_bind nh_line (fun l => nh_ite _ (ev_error hq _ _ _ _ (by simp [parserErrors])) (nh_bind (nh_ite _
    (ev_getStringLine hq _ _ _ _ _ _) (nh_bind (ev_warn _ _ hq.space) (fun _ => ?_))) (fun _ => ev_contLoop hq _ _ _ _ _ _)))
  split
  · rename_i h; exact ev_error hq _ _ _ _ (skipTo_error _ _ _ _ h)
  · exact ev_getStringLine hq _ _ _ _ _ _

omit hq in
theorem msgstrIndex_le (l : Str) (n : Nat) (h : msgstrIndex l = some n) : n ≤ 9 := by
  unfold msgstrIndex at h
  split at h
  · split at h
    · split at h
      · rename_i d e _ _ hc
        cases h
        simp only [Bool.and_eq_true, isdigit, decide_eq_true_eq] at hc
        have : d.toNat ≤ 57 := hc.1.2
        omega
      · cases h
    · cases h
  · cases h

theorem ev_pluralLoop (f : Nat) (first saw : Bool) : Evs Q (pluralLoopE ct fuel T b f first saw) := by
  induction f generalizing first saw with
  | zero => exact nh_diverge
  | succ f ih =>
    refine nh_bind nh_line (fun l => nh_ite _ (nh_ite _ (ev_error hq _ _ _ _ (by simp [parserErrors])) (nh_pure _)) ?_)
    cases h : msgstrIndex l with
    | none => exact ev_error hq _ _ _ _ (by simp [parserErrors])
    | some n =>
      refine nh_bind (ev_getString hq _ _ _ _ _) (fun t => nh_bind (nh_emit _ ?_) (fun _ => ih _ _))
      intro x hx
      simp at hx; subst hx
      exact hq.conv _ _ (msgstrIndex_le l n h)

theorem ev_pluralEntry (fz : Bool) (ctxt : Option Str) (id : Str) : Evs Q (pluralEntryE ct fuel T b fz ctxt id) := by
  refine nh_bind (ev_getString hq _ _ _ _ _) (fun idp => nh_bind (nh_emit _ ?_) (fun _ =>
    nh_bind (ev_pluralLoop hq _ _ _ _ _ _ _) (fun saw => nh_bind nh_line (fun l =>
    nh_ite _ (ev_error hq _ _ _ _ (by simp [parserErrors])) (nh_ite _ (nh_emitAt _ ?_) (nh_pure _))))))
  · intro x hx; simp at hx; subst hx; exact hq.clear
  · intro p x hx; simp at hx; subst hx; exact hq.plural ..

theorem ev_singularEntry (fz : Bool) (ctxt : Option Str) (id : Str) : Evs Q (singularEntryE ct fuel T b fz ctxt id) := by
  refine nh_bind (ev_getString hq _ _ _ _ _) (fun t => ?_)
  split
  · refine nh_emitAt _ ?_
    intro p x hx; simp at hx; subst hx; exact hq.header ..
  · rename_i h1
    split
    · rename_i h2
      refine nh_emit _ ?_
      intro x hx; simp at hx; subst hx
      exact hq.singular _ _ _ _ (by simpa using h1) (by simpa using h2)
    · exact nh_pure _

theorem ev_ctxt : Evs Q (ctxtE ct fuel T b) :=
  nh_bind nh_line (fun _ => nh_ite _ (nh_bind (ev_getString hq _ _ _ _ _) (fun _ => nh_pure _)) (nh_pure _))

theorem ev_msgid : Evs Q (msgidE ct fuel T b) :=
  nh_bind nh_line (fun _ => nh_ite _ (ev_getString hq _ _ _ _ _) (ev_error hq _ _ _ _ (by simp [parserErrors])))

theorem ev_entry : Evs Q (entryE ct fuel T b) := by
  refine nh_bind (nh_commentLoop _ _ _) (fun fz => nh_bind nh_line (fun l => nh_bind (nh_ite _ ?_ (nh_pure _)) (fun _ => ?_)))
  · exact nh_bind (ev_ctxt hq _ _ _ _) (fun ctxt => nh_bind (ev_msgid hq _ _ _ _) (fun id => nh_bind nh_line (fun l =>
      nh_ite _ (ev_pluralEntry hq _ _ _ _ _ _ _) (nh_bind nh_line (fun l => nh_ite _ (ev_singularEntry hq _ _ _ _ _ _ _)
        (ev_error hq _ _ _ _ (by simp [parserErrors])))))))
  · exact nh_bind nh_line (fun l => nh_bind (nh_ite _ (ev_error hq _ _ _ _ (by simp [parserErrors])) (nh_pure _)) (fun _ => nh_next))

theorem ev_mainLoop (f : Nat) : ∀ b, Evs Q (mainLoopE ct fuel T f b) := by
  induction f with
  | zero => intro b; exact nh_diverge
  | succ f ih =>
    intro b p x hx
    unfold mainLoopE at hx
    split at hx
    · rcases he : entryE ct fuel T b p with ⟨w, r⟩
      have hev : ∀ x ∈ w, Q x = true := by
        have := ev_entry hq ct fuel T b p
        rwa [he] at this
      rw [he] at hx
      cases r with
      | ok a q =>
        rcases List.mem_append.1 hx with h | h
        · exact hev x h
        · exact ih _ _ x h
      | err q =>
        rcases List.mem_append.1 hx with h | h
        · exact hev x h
        · exact ih _ _ x h
      | overflow => exact hev x hx
      | diverge => exact hev x hx
    · cases hx

omit hq in
theorem pedOk_QOk : QOk Ev.pedOk where
  err := fun _ _ _ => rfl
  unk := fun _ _ => rfl
  garbage := fun _ => rfl
  space := fun _ => rfl
  lead := fun _ => rfl
  clear := rfl
  conv := fun _ _ _ => rfl
  plural := fun _ _ _ _ _ => rfl
  singular := fun _ _ _ _ _ _ => rfl
  header := fun _ _ => rfl

omit hq in
theorem events_pedOk (ct : CType) (fuel : Nat) (input : Stream) : ∀ e ∈ (events ct fuel input).1, e.pedOk = true :=
  ev_mainLoop pedOk_QOk ct fuel (startTape input) fuel false 0

/-- Events have known wordings. -/
def Ev.says : Ev → Bool
  | .diag .error _ m _ => decide (m ∈ parserErrors)
  | .diag .warning _ m _ => decide (m ∈ parserWarnings) || (m == unknownMsg (m.getD 19 0))
  | .diag .info _ _ _ => false
  | _ => true

omit hq in
theorem Ev.says_iff (e : Ev) (h : e.says = true) : e.Says := by
  unfold Ev.says at h
  split at h
  · exact .inl ⟨rfl, of_decide_eq_true h⟩
  · rename_i m _
    rcases (Bool.or_eq_true _ _).mp h with h | h
    · exact .inr ⟨rfl, .inl (of_decide_eq_true h)⟩
    · exact .inr ⟨rfl, .inr ⟨m.getD 19 0, eq_of_beq h⟩⟩
  · cases h
  · unfold Ev.Says
    split
    · rename_i lv p m q _ _ _
      cases lv <;> simp_all
    · trivial

omit hq in
theorem says_QOk : QOk Ev.says where
  err := fun _ _ h => decide_eq_true h
  unk := fun _ e => by simp [Ev.says, unknownMsg]
  garbage := fun _ => by simp [Ev.says, parserWarnings]
  space := fun _ => by simp [Ev.says, parserWarnings]
  lead := fun _ => by simp [Ev.says, parserWarnings]
  clear := rfl
  conv := fun _ _ _ => rfl
  plural := fun _ _ _ _ _ => rfl
  singular := fun _ _ _ _ _ _ => rfl
  header := fun _ _ => rfl

omit hq in
theorem events_say (ct : CType) (fuel : Nat) (input : Stream) : ∀ e ∈ (events ct fuel input).1, e.Says := fun e he =>
  e.says_iff (ev_mainLoop says_QOk ct fuel (startTape input) fuel false 0 e he)

end Tgt.POParser
