import Verif.Base
/-
The "first maximum" lemma: what a loop `if (score > best) { best = score; value = x; }` computes.
-/
namespace Tgt

theorem foldl_firstMax {α β : Type} (score : α → Nat) (val : α → β)
    (step : β × Nat → α → β × Nat)
    (hstep : ∀ b x, step b x = if score x > b.2 then (val x, score x) else b)
    (l : List α) (b0 : β × Nat) :
    (l.foldl step b0 = b0 ∧ ∀ x ∈ l, score x ≤ b0.2) ∨
    (∃ l1 x l2, l = l1 ++ x :: l2 ∧ l.foldl step b0 = (val x, score x) ∧ b0.2 < score x ∧
      (∀ y ∈ l1, score y < score x) ∧ (∀ y ∈ l2, score y ≤ score x)) := by
  induction l generalizing b0 with
  | nil => left; simp
  | cons a t ih =>
    rw [List.foldl_cons, hstep]
    by_cases h : score a > b0.2
    · rw [if_pos h]
      rcases ih (val a, score a) with ⟨h1, h2⟩ | ⟨l1, x, l2, h1, h2, h3, h4, h5⟩
      · right
        refine ⟨[], a, t, rfl, h1, h, by simp, h2⟩
      · right
        simp only at h3
        refine ⟨a :: l1, x, l2, by simp [h1], h2, by omega, ?_, h5⟩
        intro y hy
        rcases List.mem_cons.1 hy with hy | hy
        · subst hy; exact h3
        · exact h4 y hy
    · rw [if_neg h]
      rcases ih b0 with ⟨h1, h2⟩ | ⟨l1, x, l2, h1, h2, h3, h4, h5⟩
      · left
        refine ⟨h1, ?_⟩
        intro y hy
        rcases List.mem_cons.1 hy with hy | hy
        · subst hy; omega
        · exact h2 y hy
      · right
        refine ⟨a :: l1, x, l2, by simp [h1], h2, h3, ?_, h5⟩
        intro y hy
        rcases List.mem_cons.1 hy with hy | hy
        · subst hy; omega
        · exact h4 y hy

end Tgt
