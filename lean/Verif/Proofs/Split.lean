import Verif.Proofs.Wall
import Verif.Proofs.Sim
import Verif.Props.Termination
/-
A text that is cut by two blank lines is parsed piece by piece.
-/
namespace Tgt.POParser
open Spec Spec.Po

/-- Events of a text, starting in Big5 mode if `b`. -/
def evb (ct : CType) (fuel : Nat) (b : Bool) (ls : List Str) : List Ev × TRes Unit :=
  mainLoopE ct fuel (startTape (.ofBytes (unlines ls))) fuel b 0

theorem unlines_append (a b : List Str) : unlines (a ++ b) = unlines a ++ unlines b := by
  induction a with
  | nil => rfl
  | cons l a ih => simp [unlines, ih]

theorem ends_text (ct : CType) {ls : List Str} (h : TextOk ls) :
    Ends ct (startTape (.ofBytes (unlines ls))) ls.length ls.length [] := by
  have hw := withoutBom_unlines ls h.noBom
  have hsp := splitLines_unlines ls [] h.noNl (by simp)
  rw [List.append_nil] at hsp
  have hl : lineCount (unlines ls) = ls.length := by unfold lineCount; rw [hsp]; simp
  have := ends_of ct (unlines ls) (by rw [hl]; exact h.few) (by rw [hw, hsp]; exact unlooped_nil ct)
  rw [hw, hsp, hl] at this
  exact this

theorem evb_ends (ct : CType) {fuel : Nat} {ls : List Str} (h : TextOk ls) (hf : ls.length + 2 ≤ fuel) (b : Bool) :
    ∃ v q, evb ct fuel b ls = (v, .ok () q) := by
  have := wp_mainLoop (ends_text ct h) (fuel := fuel) (by omega) fuel b 0 (.inl (by omega)) (by omega)
  unfold wp at this
  unfold evb
  rcases hx : mainLoopE ct fuel (startTape (.ofBytes (unlines ls))) fuel b 0 with ⟨v, r⟩
  rw [hx] at this
  cases r with
  | ok a q => exact ⟨v, q, rfl⟩
  | err q => exact this.elim
  | overflow => exact this.elim
  | diverge => exact this.elim

theorem LineSim.rfl {ct : CType} {l : Str} : LineSim ct ct l l :=
  ⟨Eq.refl _, Eq.refl _, Eq.refl _, Eq.refl _, Eq.refl _, Eq.refl _, Eq.refl _, Eq.refl _, fun _ _ => Eq.refl _, fun _ => Eq.refl _⟩

theorem text_line {ls : List Str} (h : TextOk ls) (q : Nat) : (startTape (.ofBytes (unlines ls)) q).line = ls.getD q [] := by
  have hw := withoutBom_unlines ls h.noBom
  have hsp := splitLines_unlines ls [] h.noNl (by simp)
  rw [List.append_nil] at hsp
  rw [(startTape_lines _ q).1, hw]
  unfold lineAt
  rw [hsp]

theorem text_shift (ct : CType) {A X : List Str} (h : TextOk (A ++ X)) (hX : TextOk X) :
    TapeSim ct ct A.length (startTape (.ofBytes (unlines X))) (startTape (.ofBytes (unlines (A ++ X)))) := by
  have h2 := (text_tape (A ++ X) h).2.1
  have h1 := (text_tape X hX).2.1
  refine ⟨fun p => ?_, fun p => ?_⟩
  · rw [text_line h, text_line hX]
    have : (A ++ X).getD (p + A.length) [] = X.getD p [] := by
      rw [List.getD_eq_getElem?_getD, List.getD_eq_getElem?_getD, List.getElem?_append_right (by omega)]
      congr 2
      omega
    rw [this]
    exact LineSim.rfl
  · rw [h1, h2]
    simp only [List.length_append]
    exact decide_eq_decide.2 (by omega)

theorem text_wall (ct : CType) {A X : List Str} {s1 s2 : Str} (h : TextOk (A ++ s1 :: s2 :: X)) (h0 : TextOk (A ++ [s1, s2]))
    (hs1 : Blank ct s1) (hs2 : Blank ct s2) :
    Wall ct (startTape (.ofBytes (unlines (A ++ [s1, s2])))) (startTape (.ofBytes (unlines (A ++ s1 :: s2 :: X)))) A.length := by
  have h1 := (text_tape _ h0).2.1
  have h2 := (text_tape _ h).2.1
  have hget : ∀ (Y : List Str) p, p ≤ A.length + 1 → (A ++ s1 :: s2 :: Y).getD p [] = (A ++ [s1, s2]).getD p [] := by
    intro Y p hp
    have e : A ++ s1 :: s2 :: Y = (A ++ [s1, s2]) ++ Y := by simp
    rw [e, List.getD_eq_getElem?_getD, List.getD_eq_getElem?_getD, List.getElem?_append_left (by simp; omega)]
  refine ⟨fun p hp => ?_, fun p hp => ?_, fun p hp => ?_, ?_, ?_⟩
  · rw [text_line h, text_line h0, hget X _ hp]
  · rw [h1]; exact decide_eq_false (by simp; omega)
  · rw [h2]; exact decide_eq_false (by simp; omega)
  · rw [text_line h0]; simpa using hs1
  · rw [text_line h0]; simpa [List.getD_eq_getElem?_getD] using hs2

/-- A text that is cut by two blank lines is parsed piece by piece. -/
theorem evb_split (ct : CType) {fuel : Nat} (b : Bool) {A X : List Str} {s1 s2 : Str} (hs1 : Blank ct s1) (hs2 : Blank ct s2)
    (h : TextOk (A ++ s1 :: s2 :: X)) (hX : TextOk X) (hf : (A ++ s1 :: s2 :: X).length + 4 ≤ fuel) :
    essence (evb ct fuel b (A ++ s1 :: s2 :: X)).1
      = essence (evb ct fuel b (A ++ [s1, s2])).1
        ++ essence (evb ct fuel (big5After ct b (evb ct fuel b (A ++ [s1, s2])).1) X).1 := by
  have hlen : (A ++ s1 :: s2 :: X).length = A.length + X.length + 2 := by simp; omega
  have h0 : TextOk (A ++ [s1, s2]) := by
    refine ⟨fun l hl => h.noNl l ?_, fun l hl => h.short l ?_, ?_, ?_⟩
    · simp at hl ⊢; grind
    · simp at hl ⊢; grind
    · have := h.few; simp at this ⊢; omega
    · have := h.noBom; cases A <;> simpa using this
  have hnil : TextOk ([] : List Str) := ⟨fun l hl => (by cases hl), fun l hl => (by cases hl), by decide, by decide⟩
  have hfew : A.length + X.length + 2 + 8 < intMax := by have := h.few; rw [hlen] at this; exact this
  have hend := ends_text ct h0
  have hl0 : (A ++ [s1, s2]).length = A.length + 2 := by simp
  rw [hl0] at hend
  have hstep : ∀ b p, p ≤ A.length →
      (∃ v q, entryE ct fuel (startTape (.ofBytes (unlines (A ++ [s1, s2])))) b p = (v, .ok () q) ∧ p < q) ∨
      (∃ v q, entryE ct fuel (startTape (.ofBytes (unlines (A ++ [s1, s2])))) b p = (v, .err q) ∧ p < q) := by
    intro b p hp
    have := wp_entry (b := b) (fuel := fuel) hend (by omega) p (by omega)
    unfold wp at this
    rcases hx : entryE ct fuel (startTape (.ofBytes (unlines (A ++ [s1, s2])))) b p with ⟨v, r⟩
    rw [hx] at this
    cases r with
    | ok a q => exact .inl ⟨v, q, rfl, this.1⟩
    | err q => exact .inr ⟨v, q, rfl, this.1⟩
    | overflow => exact this.elim
    | diverge => exact this.elim
  obtain ⟨v, k, hk, hmain⟩ := main_wall (fuel := fuel) (by omega) (by omega) (text_wall ct (X := []) h0 h0 hs1 hs2) hstep
    (A.length + 2) fuel b 0 (by omega) (by omega) (by omega)
  -- both texts, up to the wall
  have cut : ∀ Y, TextOk (A ++ s1 :: s2 :: Y) → TextOk Y → (A ++ s1 :: s2 :: Y).length + 4 ≤ fuel →
      essence (evb ct fuel b (A ++ s1 :: s2 :: Y)).1 = essence v ++ essence (evb ct fuel (big5After ct b v) Y).1 := by
    intro Y hA hY hfY
    have hlenY : (A ++ s1 :: s2 :: Y).length = A.length + Y.length + 2 := by simp; omega
    have e1 := hmain _ (text_wall ct hA h0 hs1 hs2)
    have hsh := text_shift ct (A := A ++ [s1, s2]) (X := Y) (by simpa using hA) hY
    rw [hl0] at hsh
    have e2 : (A ++ [s1, s2]) ++ Y = A ++ s1 :: s2 :: Y := by simp
    rw [e2] at hsh
    have hs := sim_mainLoop (fuel := fuel) (fuel' := fuel) hsh (fun _ _ => rfl) fuel (fuel - k) (big5After ct b v) 0
    obtain ⟨u, q, hu⟩ := evb_ends ct (fuel := fuel) hY (by omega) (big5After ct b v)
    obtain ⟨u', q', hu'⟩ := evb_ends ct (fuel := fuel) hA (by omega) b
    have e3 : evb ct fuel b (A ++ s1 :: s2 :: Y) = mainLoopE ct fuel (startTape (.ofBytes (unlines (A ++ s1 :: s2 :: Y)))) fuel b 0 := rfl
    rw [e3, e1]
    dsimp only
    rw [essence_append]
    rw [e3, e1] at hu'
    have hg := congrArg Prod.snd hu'
    dsimp only at hg
    have hu2 : mainLoopE ct fuel (startTape (.ofBytes (unlines Y))) fuel (big5After ct b v) 0 = (u, .ok () q) := hu
    rw [hu2] at hs
    rw [Nat.zero_add] at hs
    rcases hs with hs | hs | ⟨hs, _⟩
    · exact hs.elim
    · rw [hg] at hs; exact hs.elim
    · rw [← hs, hu]
  have hv := cut [] h0 hnil (by rw [hl0]; omega)
  have hn : (evb ct fuel (big5After ct b v) []).1 = [] := by
    have : (startTape (.ofBytes (unlines [])) 0).eof = true := by rfl
    unfold evb
    obtain ⟨g, hg⟩ : ∃ g, fuel = g + 1 := ⟨fuel - 1, by omega⟩
    subst hg
    unfold mainLoopE
    rw [this]
    rfl
  rw [hn] at hv
  have hv' : essence (evb ct fuel b (A ++ [s1, s2])).1 = essence v := by rw [hv]; simp [essence]
  rw [cut X h hX hf, hv', big5After_essence (ct := ct) b (evb ct fuel b (A ++ [s1, s2])).1, hv', ← big5After_essence]

end Tgt.POParser
