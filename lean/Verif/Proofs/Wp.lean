import Verif.Proofs.Lines
import Verif.Spec.Observe
/-
Total correctness of tape code: where it ends up.
-/
namespace Tgt.POParser
open Spec

/-- From position `p`, the code ends normally with `Q` or by POParserError with `R`. -/
def wp {α : Type} (e : E α) (Q : α → Nat → Prop) (R : Nat → Prop) (p : Nat) : Prop :=
  match (e p).2 with
  | .ok a q => Q a q
  | .err q => R q
  | .overflow => False
  | .diverge => False

section
variable {α β : Type} {Q : α → Nat → Prop} {Q' : β → Nat → Prop} {R : Nat → Prop} {p : Nat}

theorem wp_pure {a : α} (h : Q a p) : wp (E.pure a) Q R p := h

theorem wp_bind {e : E α} {f : α → E β} (h : wp e (fun a q => wp (f a) Q' R q) R p) :
    wp (e >>= f) Q' R p := by
  unfold wp at *
  rw [e_bind]
  unfold E.bind
  rcases hx : e p with ⟨w, r⟩
  rw [hx] at h
  cases r with
  | ok a q => exact h
  | err q => exact h
  | overflow => exact h
  | diverge => exact h

theorem wp_mono {e : E α} {Q1 : α → Nat → Prop} {R1 : Nat → Prop} (h : wp e Q1 R1 p)
    (hQ : ∀ a q, Q1 a q → Q a q) (hR : ∀ q, R1 q → R q) : wp e Q R p := by
  unfold wp at *
  split at h
  · exact hQ _ _ h
  · exact hR _ h
  · exact h
  · exact h

theorem wp_ite {e1 e2 : E α} (q : Prop) [Decidable q] (h1 : q → wp e1 Q R p) (h2 : ¬ q → wp e2 Q R p) :
    wp (if q then e1 else e2) Q R p := by
  split
  · exact h1 (by assumption)
  · exact h2 (by assumption)

theorem wp_line {T : Tape} {f : Str → E α} (h : wp (f (T p).line) Q R p) : wp (lineE T >>= f) Q R p :=
  wp_bind h
theorem wp_eof {T : Tape} {f : Bool → E α} (h : wp (f (T p).eof) Q R p) : wp (eofE T >>= f) Q R p :=
  wp_bind h
theorem wp_warn {m : Str} {b : Bool} {Q : Unit → Nat → Prop} (h : Q () p) : wp (warnE m b) Q R p := h
theorem wp_emit {l : List Ev} {Q : Unit → Nat → Prop} (h : Q () p) : wp (E.emit l) Q R p := h
theorem wp_emitAt {l : Nat → List Ev} {Q : Unit → Nat → Prop} (h : Q () p) : wp (E.emitAt l) Q R p := h
theorem wp_throw (h : R p) : wp (E.throw : E α) Q R p := h
theorem wp_next {Q : Unit → Nat → Prop} (h : p + 1 < intMax) (hq : Q () (p + 1)) : wp nextE Q R p := by
  unfold wp nextE
  rw [if_neg (by omega)]
  exact hq
end

/-- A tape with `M` lines ended by a newline and `N` lines in all, then `r` for ever, `r` being a
line on which no loop of the parser turns. -/
structure Ends (ct : CType) (T : Tape) (M N : Nat) (r : Str) : Prop where
  le : M ≤ N
  le' : N ≤ M + 1
  tight : r ≠ [] → N ≠ M
  line : ∀ p, M ≤ p → (T p).line = r
  eof : ∀ p, (T p).eof = decide (N ≤ p)
  hash : hasPrefix b!"#" r = false
  quote : scanQuote ct r 0 = none
  index : msgstrIndex r = none
  small : N + 8 < intMax

section
variable {α β : Type} {ct : CType} {fuel : Nat} {T : Tape} {M N : Nat} {r : Str} {b : Bool}

theorem wp_recover (h : Ends ct T M N r) : ∀ (f p : Nat), p ≤ M + 5 → N + 1 - p < f → ∀ {Q : Unit → Nat → Prop} {R : Nat → Prop},
    (∀ q, p < q → (q ≤ N ∨ q = p + 1) → Q () q) → wp (recoverE ct T f) Q R p := by
  intro f
  induction f with
  | zero => intro p _ hf; omega
  | succ f ih =>
    intro p hp hf Q R hQ
    unfold recoverE
    have := h.small; have := h.le; have := h.le'
    refine wp_bind (wp_next (by omega) (wp_line (wp_eof (wp_ite _ (fun hc => ?_) (fun _ => wp_pure (hQ _ (by omega) (.inr rfl)))))))
    have he : (T (p + 1)).eof = false := by
      cases hx : (T (p + 1)).eof with
      | false => rfl
      | true => simp [hx] at hc
    rw [h.eof] at he
    have he' : ¬ N ≤ p + 1 := of_decide_eq_false he
    exact ih (p + 1) (by omega) (by omega) (fun q h1 h2 => hQ q (by omega) (by omega))

theorem wp_error (h : Ends ct T M N r) (m : Str) (p : Nat) (hp : p ≤ M + 5) (hf : N + 1 < fuel)
    {Q : α → Nat → Prop} {R : Nat → Prop} (hR : ∀ q, p < q → (q ≤ N ∨ q = p + 1) → R q) :
    wp (errorE (α := α) ct fuel T m) Q R p := by
  unfold errorE
  exact wp_bind (wp_emitAt (wp_bind (wp_recover h fuel p hp (by omega) (fun q h1 h2 => wp_throw (hR q h1 h2)))))

theorem wp_getStringLine (h : Ends ct T M N r) (out : Str) (skip p : Nat) (hp : p ≤ M + 5) (hf : N + 1 < fuel)
    {Q : Str → Nat → Prop} {R : Nat → Prop} (hQ : ∀ s, (T p).line ≠ [] → Q s p)
    (hR : ∀ q, p < q → (q ≤ N ∨ q = p + 1) → R q) :
    wp (getStringLineE ct fuel T b out skip) Q R p := by
  unfold getStringLineE
  refine wp_line (wp_ite _ (fun _ => wp_error h _ p hp hf hR) (fun hl => wp_ite _ (fun _ => wp_error h _ p hp hf hR) (fun _ => ?_)))
  have hne : (T p).line ≠ [] := by
    intro e
    rw [e] at hl
    simp [u32] at hl
  dsimp only
  refine wp_bind (wp_emitAt ?_)
  split
  · exact wp_error h _ p hp hf hR
  · exact wp_ite _ (fun _ => wp_bind (wp_warn (wp_pure (hQ _ hne)))) (fun _ => wp_pure (hQ _ hne))

theorem Ends.lt_of_ne (h : Ends ct T M N r) {p : Nat} (hp : (T p).line ≠ r) : p < M := by
  rcases Nat.lt_or_ge p M with h1 | h1
  · exact h1
  · exact absurd (h.line p h1) hp

theorem wp_contLoop (h : Ends ct T M N r) (hf : N + 1 < fuel) : ∀ (f : Nat) (out : Str) (p : Nat), p ≤ M + 4 →
    M - p < f → ∀ {Q : Str → Nat → Prop} {R : Nat → Prop},
    (∀ s q, p < q → (q ≤ M ∨ q = p + 1) → Q s q) → (∀ q, p < q → (q ≤ N + 1 ∨ q = p + 2) → R q) →
    wp (contLoopE ct fuel T b f out) Q R p := by
  intro f
  induction f with
  | zero => intro out p _ hf; omega
  | succ f ih =>
    intro out p hp hfm Q R hQ hR
    unfold contLoopE
    have hs := h.small; have hle := h.le; have hle' := h.le'
    refine wp_bind (wp_next (by omega) (wp_line ?_))
    cases hq : scanQuote ct (T (p + 1)).line 0 with
    | none => exact wp_pure (hQ _ _ (by omega) (.inr rfl))
    | some i =>
      have hlt : p + 1 < M := h.lt_of_ne (by intro e; rw [e, h.quote] at hq; cases hq)
      dsimp only
      refine wp_bind (wp_mono (Q1 := fun _ q => q = p + 1) (R1 := fun _ => False) ?_ ?_ (fun _ => False.elim))
      · exact wp_ite _ (fun _ => wp_warn rfl) (fun _ => wp_pure rfl)
      · rintro _ _ rfl
        refine wp_bind (wp_getStringLine h out i (p + 1) (by omega) hf (fun s _ => ?_)
          (fun q h1 h2 => hR q (by omega) (by omega)))
        exact ih s (p + 1) (by omega) (by omega) (fun s q h1 h2 => hQ s q (by omega) (by omega))
          (fun q h1 h2 => hR q (by omega) (by omega))

theorem wp_getString (h : Ends ct T M N r) (hf : N + 1 < fuel) (skip p : Nat) (hp : p ≤ M + 4)
    {Q : Str → Nat → Prop} {R : Nat → Prop}
    (hQ : ∀ s q, p < q → (T p).line ≠ [] → (q ≤ M ∨ q = p + 1) → Q s q)
    (hR : ∀ q, p < q → (q ≤ N + 1 ∨ q = p + 1 ∨ (q = p + 2 ∧ (T p).line ≠ [])) → R q) :
    wp (getStringE ct fuel T b skip) Q R p := by
  unfold getStringE
  have hle := h.le; have hle' := h.le'
  have hE : ∀ q, p < q → (q ≤ N ∨ q = p + 1) → R q := fun q h1 h2 => hR q h1 (by omega)
  refine wp_line (wp_ite _ (fun _ => wp_error h _ p (by omega) hf hE) (fun hl => ?_))
  have hne : (T p).line ≠ [] := by
    intro e
    rw [e] at hl
    simp [u32] at hl
  have hrest : ∀ s, wp (contLoopE ct fuel T b fuel s) Q R p := by
    intro s
    refine wp_contLoop h hf fuel s p hp (by omega) (fun s q h1 h2 => hQ s q h1 hne h2)
      (fun q h1 h2 => hR q h1 ?_)
    rcases h2 with h2 | h2
    · exact .inl h2
    · exact .inr (.inr ⟨h2, hne⟩)
  refine wp_bind (wp_ite _ (fun _ => wp_getStringLine h _ _ p (by omega) hf (fun s _ => hrest s) hE)
    (fun _ => wp_bind (wp_warn ?_)))
  split
  · exact wp_error h _ p (by omega) hf hE
  · exact wp_getStringLine h _ _ p (by omega) hf (fun s _ => hrest s) hE

theorem wp_commentLoop (h : Ends ct T M N r) : ∀ (f : Nat) (fz : Bool) (p : Nat), p ≤ M →
    M - p < f → ∀ {Q : Bool → Nat → Prop} {R : Nat → Prop},
    (∀ s q, p ≤ q → q ≤ M → Q s q) → wp (commentLoopE T f fz) Q R p := by
  intro f
  induction f with
  | zero => intro fz p _ hf; omega
  | succ f ih =>
    intro fz p hp hf Q R hQ
    unfold commentLoopE
    have hs := h.small; have hle := h.le
    refine wp_line (wp_ite _ (fun hh => ?_) (fun _ => wp_pure (hQ _ _ (Nat.le_refl _) hp)))
    have hlt : p < M := h.lt_of_ne (by intro e; rw [e, h.hash] at hh; cases hh)
    exact wp_bind (wp_next (by omega) (ih _ (p + 1) (by omega) (by omega) (fun s q h1 h2 => hQ s q (by omega) h2)))

theorem wp_pluralLoop (h : Ends ct T M N r) (hf : N + 1 < fuel) : ∀ (f : Nat) (first saw : Bool) (p : Nat), p ≤ M + 3 →
    M - p < f → ∀ {Q : Bool → Nat → Prop} {R : Nat → Prop},
    (∀ s q, p ≤ q → (q ≤ M ∨ q = p) → Q s q) → (∀ q, p < q → (q ≤ N + 1 ∨ q = p + 1) → R q) →
    wp (pluralLoopE ct fuel T b f first saw) Q R p := by
  intro f
  induction f with
  | zero => intro first saw p _ hf; omega
  | succ f ih =>
    intro first saw p hp hfm Q R hQ hR
    unfold pluralLoopE
    have hle := h.le; have hle' := h.le'
    have hE : ∀ q, p < q → (q ≤ N ∨ q = p + 1) → R q := fun q h1 h2 => hR q h1 (by omega)
    refine wp_line (wp_ite _ (fun _ => wp_ite _ (fun _ => wp_error h _ p (by omega) hf hE)
      (fun _ => wp_pure (hQ _ _ (Nat.le_refl _) (.inr rfl)))) (fun _ => ?_))
    cases hi : msgstrIndex (T p).line with
    | none => exact wp_error h _ p (by omega) hf hE
    | some n =>
      have hlt : p < M := h.lt_of_ne (by intro e; rw [e, h.index] at hi; cases hi)
      dsimp only
      refine wp_bind (wp_getString h hf 9 p (by omega) (fun s q h1 _ h2 => ?_) (fun q h1 h2 => hR q h1 (by omega)))
      exact wp_bind (wp_emit (ih _ _ q (by omega) (by omega) (fun s q' h3 h4 => hQ s q' (by omega) (by omega))
        (fun q' h3 h4 => hR q' (by omega) (by omega))))

/-- Bound on where things end. -/
abbrev Lim (M N : Nat) (k q : Nat) : Prop := q ≤ M + 1 ∨ (N ≠ M ∧ q ≤ M + k)

theorem wp_entry (h : Ends ct T M N r) (hf : N + 1 < fuel) (p : Nat) (hp : p < N) :
    wp (entryE ct fuel T b) (fun _ q => p < q ∧ Lim M N 5 q) (fun q => p < q ∧ Lim M N 5 q) p := by
  have hle := h.le; have hle' := h.le'; have hs := h.small
  have hpM : p ≤ M := by omega
  -- what a non-empty line means
  have hne : ∀ q, M ≤ q → (T q).line ≠ [] → N ≠ M := by
    intro q hq hx; rw [h.line q hq] at hx; exact h.tight hx
  have hne' : ∀ q, (T q).line ≠ [] → q < M ∨ N ≠ M := by
    intro q hx
    rcases Nat.lt_or_ge q M with h1 | h1
    · exact .inl h1
    · exact .inr (hne q h1 hx)
  unfold entryE
  refine wp_bind (wp_commentLoop h fuel false p hpM (by omega) (fun fz q0 hq0 hq0M => wp_line ?_))
  have hfin : ∀ q, p ≤ q → (q ≤ M ∨ (N ≠ M ∧ q ≤ M + 4)) →
      wp (finishE ct fuel T) (fun _ q => p < q ∧ Lim M N 5 q) (fun q => p < q ∧ Lim M N 5 q) q := by
    intro q h1 h2
    unfold finishE
    refine wp_line (wp_bind (wp_ite _ (fun _ => wp_error h _ q (by omega) hf (fun q' h3 h4 => ⟨by omega, ?_⟩))
      (fun _ => wp_pure (wp_next (by omega) ⟨by omega, ?_⟩))))
    · by_cases hr : N = M
      · left; omega
      · right; exact ⟨hr, by omega⟩
    · by_cases hr : N = M
      · left; omega
      · right; exact ⟨hr, by omega⟩
  refine wp_bind (wp_ite _ (fun _ => ?_) (fun _ => wp_pure (hfin q0 hq0 (.inl hq0M))))
  -- bounds inside the body: position `q` reached after `k` strings
  have lim : ∀ q k, (q ≤ M + 1 ∨ (N ≠ M ∧ q ≤ M + k)) → k ≤ 5 → Lim M N 5 q := by
    intro q k h1 h2
    rcases h1 with h1 | ⟨h1, h3⟩
    · exact .inl h1
    · exact .inr ⟨h1, by omega⟩
  have errLim : ∀ (q k : Nat), (q ≤ M ∨ (N ≠ M ∧ q ≤ M + k)) → k ≤ 4 → ∀ q', q < q' →
      (q' ≤ N ∨ q' = q + 1) → Lim M N 5 q' := by
    intro q k h1 h2 q' h3 h4
    rcases h1 with h1 | ⟨h1, h5⟩
    · by_cases hr : N = M
      · left; omega
      · right; exact ⟨hr, by omega⟩
    · right; exact ⟨h1, by omega⟩
  -- one string
  have str : ∀ (skip q k : Nat) (Q : Str → Nat → Prop), p ≤ q → (q ≤ M ∨ (N ≠ M ∧ q ≤ M + k)) → k ≤ 3 →
      (∀ s q', q < q' → (q' ≤ M ∨ (N ≠ M ∧ q' ≤ M + (k + 1))) → Q s q') →
      wp (getStringE ct fuel T b skip) Q (fun q => p < q ∧ Lim M N 5 q) q := by
    intro skip q k Q hpq h1 hk hQ
    refine wp_getString h hf skip q (by omega) (fun s q' h2 h3 h4 => hQ s q' h2 ?_) (fun q' h2 h3 => ⟨by omega, ?_⟩)
    · rcases h4 with h4 | h4
      · exact .inl h4
      · rcases hne' q h3 with h5 | h5
        · exact .inl (by omega)
        · exact .inr ⟨h5, by omega⟩
    · by_cases hr : N = M
      · left
        have h1' : q ≤ M := by
          rcases h1 with h1 | ⟨h1, _⟩
          · exact h1
          · exact absurd hr h1
        rcases h3 with h3 | h3 | ⟨h3, h4⟩
        · omega
        · omega
        · rcases hne' q h4 with h5 | h5
          · omega
          · exact absurd hr h5
      · right; exact ⟨hr, by omega⟩
  have err : ∀ {α : Type} (m : Str) (q k : Nat) (Q : α → Nat → Prop), p ≤ q → (q ≤ M ∨ (N ≠ M ∧ q ≤ M + k)) → k ≤ 4 →
      wp (errorE (α := α) ct fuel T m) Q (fun q => p < q ∧ Lim M N 5 q) q := by
    intro α m q k Q h0 h1 hk
    exact wp_error h m q (by omega) hf (fun q' h2 h3 => ⟨by omega, errLim q k h1 hk q' h2 h3⟩)
  unfold entryBodyE
  have hctxt : wp (ctxtE ct fuel T b) (fun _ q => q0 ≤ q ∧ (q ≤ M ∨ (N ≠ M ∧ q ≤ M + 1)))
      (fun q => p < q ∧ Lim M N 5 q) q0 := by
    unfold ctxtE
    refine wp_line (wp_ite _ (fun _ => wp_bind (str 7 q0 0 _ hq0 (.inl hq0M) (by omega) (fun s q h1 h2 => wp_pure ?_)))
      (fun _ => wp_pure ⟨Nat.le_refl _, .inl hq0M⟩))
    exact ⟨by omega, h2⟩
  refine wp_bind (wp_mono hctxt (fun ctxt q1 hq1 => ?_) (fun _ h => h))
  have hid : wp (msgidE ct fuel T b) (fun _ q => q1 < q ∧ (q ≤ M ∨ (N ≠ M ∧ q ≤ M + 2)))
      (fun q => p < q ∧ Lim M N 5 q) q1 := by
    unfold msgidE
    exact wp_line (wp_ite _ (fun _ => str 5 q1 1 _ (by omega) hq1.2 (by omega) (fun s q h1 h2 => ⟨h1, h2⟩))
      (fun _ => err _ q1 1 _ (by omega) hq1.2 (by omega)))
  refine wp_bind (wp_mono hid (fun id q2 hq2 => ?_) (fun _ h => h))
  refine wp_line (wp_ite _ (fun _ => ?_) (fun _ => wp_line (wp_ite _ (fun _ => ?_) (fun _ => ?_))))
  · unfold pluralEntryE
    refine wp_bind (str 12 q2 2 _ (by omega) hq2.2 (by omega) (fun s q3 h1 h2 => wp_bind (wp_emit (wp_bind ?_))))
    refine wp_pluralLoop h hf fuel true false q3 (by omega) (by omega) (fun saw q4 h3 h4 => wp_line ?_) ?_
    · have hq4 : q4 ≤ M ∨ (N ≠ M ∧ q4 ≤ M + 3) := by
        rcases h4 with h4 | rfl
        · exact .inl h4
        · exact h2
      have hq4' : q4 ≤ M ∨ (N ≠ M ∧ q4 ≤ M + 4) := by
        rcases hq4 with h5 | ⟨h5, h6⟩
        · exact .inl h5
        · exact .inr ⟨h5, by omega⟩
      exact wp_ite _ (fun _ => err _ q4 3 _ (by omega) hq4 (by omega))
        (fun _ => wp_ite _ (fun _ => wp_emitAt (hfin q4 (by omega) hq4')) (fun _ => wp_pure (hfin q4 (by omega) hq4')))
    · intro q h3 h4
      refine ⟨by omega, ?_⟩
      by_cases hr : N = M
      · left
        have h2' : q3 ≤ M := by
          rcases h2 with h2 | ⟨h2, _⟩
          · exact h2
          · exact absurd hr h2
        omega
      · right; exact ⟨hr, by omega⟩
  · unfold singularEntryE
    refine wp_bind (str 6 q2 2 _ (by omega) hq2.2 (by omega) (fun s q3 h1 h2 => ?_))
    have h2' : q3 ≤ M ∨ (N ≠ M ∧ q3 ≤ M + 4) := by
      rcases h2 with h5 | ⟨h5, h6⟩
      · exact .inl h5
      · exact .inr ⟨h5, by omega⟩
    exact wp_ite _ (fun _ => wp_emitAt (hfin q3 (by omega) h2'))
      (fun _ => wp_ite _ (fun _ => wp_emit (hfin q3 (by omega) h2')) (fun _ => wp_pure (hfin q3 (by omega) h2')))
  · exact err _ q2 2 _ (by omega) hq2.2 (by omega)

theorem wp_mainLoop (h : Ends ct T M N r) (hf : N + 1 < fuel) : ∀ (f : Nat) (b : Bool) (p : Nat),
    Lim M N 5 p → N + 1 - p < f → wp (mainLoopE ct fuel T f b) (fun _ q => N ≤ q ∧ Lim M N 5 q) (fun _ => False) p := by
  intro f
  induction f with
  | zero => intro b p _ hf; omega
  | succ f ih =>
    intro b p hp hfm
    unfold wp mainLoopE
    by_cases he : (T p).eof = true
    · rw [he]
      simp only [Bool.not_true, Bool.false_eq_true, if_false]
      have := h.eof p
      rw [he] at this
      exact ⟨of_decide_eq_true this.symm, hp⟩
    · have he' : (T p).eof = false := by simpa using he
      rw [he']
      have hlt : p < N := by
        have := h.eof p
        rw [he'] at this
        have := of_decide_eq_false this.symm
        omega
      simp only [Bool.not_false, if_true]
      have hen := wp_entry (b := b) h hf p hlt
      unfold wp at hen
      rcases hx : entryE ct fuel T b p with ⟨w, res⟩
      rw [hx] at hen
      cases res with
      | ok a q =>
        have := ih (big5After ct b w) q hen.2 (by have := hen.1; omega)
        unfold wp at this
        exact this
      | err q =>
        have := ih (big5After ct b w) q hen.2 (by have := hen.1; omega)
        unfold wp at this
        exact this
      | overflow => exact hen
      | diverge => exact hen
end
end Tgt.POParser
