import Verif.Spec.Lines
import Verif.Proofs.Fuel
/-
The tape of an input holds the lines of the text.
-/
namespace Tgt.Spec

theorem splitLines_join (s : Str) : unlines (splitLines s).1 ++ (splitLines s).2 = s := by
  induction s with
  | nil => rfl
  | cons b t ih =>
    unfold splitLines
    split
    · rename_i h; subst h; simpa [unlines] using ih
    · split
      · rename_i h; rw [h] at ih; simpa [unlines] using ih
      · rename_i l ls h; rw [h] at ih; simpa [unlines] using ih

theorem splitLines_no_nl (s : Str) : (∀ l ∈ (splitLines s).1, (10 : Byte) ∉ l) ∧ (10 : Byte) ∉ (splitLines s).2 := by
  induction s with
  | nil => exact ⟨by simp [splitLines], by simp [splitLines]⟩
  | cons b t ih =>
    unfold splitLines
    split
    · simpa using ih
    · rename_i hb
      split
      · exact ⟨by simp, by simpa [Ne.symm hb] using ih.2⟩
      · rename_i l ls h
        rw [h] at ih
        refine ⟨?_, ih.2⟩
        intro x hx
        rcases List.mem_cons.1 hx with rfl | hx
        · have := ih.1 l List.mem_cons_self
          simpa [Ne.symm hb] using this
        · exact ih.1 x (List.mem_cons_of_mem _ hx)

theorem splitLines_append (l r : Str) (h : (10 : Byte) ∉ l) :
    splitLines (l ++ 10 :: r) = (l :: (splitLines r).1, (splitLines r).2) := by
  induction l with
  | nil => simp [splitLines]
  | cons b t ih =>
    have hb : b ≠ 10 := fun e => h (by simp [e])
    rw [List.cons_append, splitLines, ih (fun hm => h (List.mem_cons_of_mem _ hm))]
    simp [hb]

theorem splitLines_single (r : Str) (h : (10 : Byte) ∉ r) : splitLines r = ([], r) := by
  induction r with
  | nil => rfl
  | cons b t ih =>
    have hb : b ≠ 10 := fun e => h (by simp [e])
    rw [splitLines, ih (fun hm => h (List.mem_cons_of_mem _ hm))]
    simp [hb]

theorem splitLines_unlines (ls : List Str) (r : Str) (h : ∀ l ∈ ls, (10 : Byte) ∉ l) (hr : (10 : Byte) ∉ r) :
    splitLines (unlines ls ++ r) = (ls, r) := by
  induction ls with
  | nil => simpa [unlines] using splitLines_single r hr
  | cons l ls ih =>
    rw [unlines, List.append_assoc, List.cons_append, splitLines_append _ _ (h l List.mem_cons_self),
      ih (fun x hx => h x (List.mem_cons_of_mem _ hx))]

end Tgt.Spec

namespace Tgt.POParser
open Spec

theorem splitLine_some (s l r : Str) (h : splitLine s = some (l, r)) : s = l ++ 10 :: r ∧ (10 : Byte) ∉ l := by
  induction s generalizing l r with
  | nil => cases h
  | cons b t ih =>
    unfold splitLine at h
    split at h
    · rename_i hb; cases h; subst hb; simp
    · rename_i hb
      split at h
      · rename_i l' r' h'
        cases h
        obtain ⟨h1, h2⟩ := ih l' r h'
        exact ⟨by rw [h1]; rfl, by simpa [Ne.symm hb] using h2⟩
      · cases h

theorem splitLine_none (s : Str) (h : splitLine s = none) : (10 : Byte) ∉ s := by
  induction s with
  | nil => simp
  | cons b t ih =>
    unfold splitLine at h
    split at h
    · cases h
    · rename_i hb
      split at h
      · cases h
      · rename_i h'
        simpa [Ne.symm hb] using ih h'

theorem tape_succ (x : Cell) (p : Nat) : tape x (p + 1) = tape x.next p := by
  induction p with
  | zero => rfl
  | succ p ih => rw [tape_step, ih]; rfl

theorem tape_stuck (x : Cell) (h : x.input.good = false) (p : Nat) :
    (tape x (p + 1)).line = x.line ∧ (tape x (p + 1)).eof = true ∧ (tape x (p + 1)).input = x.input := by
  induction p with
  | zero => simp [tape, Cell.next, Stream.getline, h]
  | succ p ih =>
    obtain ⟨h1, h2, h3⟩ := ih
    rw [tape_step]
    simp [Cell.next, Stream.getline, h3, h, h1]

theorem tape_lines (n : Nat) : ∀ (r l0 : Str) (p : Nat), r.length ≤ n →
    (tape ⟨⟨r, true, false⟩, l0, false⟩ (p + 1)).line = lineAt r p ∧
    (tape ⟨⟨r, true, false⟩, l0, false⟩ (p + 1)).eof = decide (lineCount r ≤ p) := by
  induction n with
  | zero =>
    intro r l0 p hr
    have : r = [] := List.length_eq_zero_iff.1 (by omega)
    subst this
    rw [tape_succ]
    have hx : (Cell.mk ⟨[], true, false⟩ l0 false).next = ⟨⟨[], false, false⟩, [], true⟩ := rfl
    rw [hx]
    cases p with
    | zero => simp [tape, lineAt, lineCount, splitLines]
    | succ p =>
      obtain ⟨h1, h2, _⟩ := tape_stuck ⟨⟨[], false, false⟩, [], true⟩ rfl p
      rw [h1, h2]
      simp [lineAt, lineCount, splitLines]
  | succ n ih =>
    intro r l0 p hr
    rw [tape_succ]
    cases hs : splitLine r with
    | some x =>
      obtain ⟨l, r'⟩ := x
      obtain ⟨h1, h2⟩ := splitLine_some r l r' hs
      have hx : (Cell.mk ⟨r, true, false⟩ l0 false).next = ⟨⟨r', true, false⟩, l, false⟩ := by
        simp [Cell.next, Stream.getline, hs]
      rw [hx]
      have hl : splitLines r = (l :: (splitLines r').1, (splitLines r').2) := by
        rw [h1]; exact splitLines_append l r' h2
      cases p with
      | zero =>
        simp only [tape, lineAt, lineCount, hl, List.length_cons]
        exact ⟨rfl, by simp⟩
      | succ p =>
        obtain ⟨i1, i2⟩ := ih r' l p (by have := splitLine_length _ _ _ hs; omega)
        rw [i1, i2]
        refine ⟨?_, ?_⟩
        · simp [lineAt, hl]
        · simp only [lineCount, hl, List.length_cons]
          apply decide_eq_decide.2
          by_cases he : (splitLines r').2 = []
          · rw [if_pos he]; omega
          · rw [if_neg he]; omega
    | none =>
      have hn := splitLine_none r hs
      have hl := splitLines_single r hn
      cases r with
      | nil =>
        have hx : (Cell.mk ⟨[], true, false⟩ l0 false).next = ⟨⟨[], false, false⟩, [], true⟩ := rfl
        rw [hx]
        cases p with
        | zero => simp [tape, lineAt, lineCount, splitLines]
        | succ p =>
          obtain ⟨h1, h2, _⟩ := tape_stuck ⟨⟨[], false, false⟩, [], true⟩ rfl p
          rw [h1, h2]
          simp [lineAt, lineCount, splitLines]
      | cons b t =>
        have hx : (Cell.mk ⟨b :: t, true, false⟩ l0 false).next = ⟨⟨[], false, false⟩, b :: t, false⟩ := by
          simp [Cell.next, Stream.getline, hs]
        rw [hx]
        cases p with
        | zero => simp [tape, lineAt, lineCount, hl]
        | succ p =>
          obtain ⟨h1, h2, _⟩ := tape_stuck ⟨⟨[], false, false⟩, b :: t, false⟩ rfl p
          rw [h1, h2]
          simp [lineAt, lineCount, hl]

theorem stripBom_eq (s : Str) : stripBom s = withoutBom s := rfl

/-- The lines on the tape of a text are those of the text without byte order mark. -/
theorem startTape_lines (s : Str) (p : Nat) :
    (startTape (Stream.ofBytes s) p).line = lineAt (withoutBom s) p ∧
    (startTape (Stream.ofBytes s) p).eof = decide (lineCount s ≤ p) := by
  have key := tape_lines s.length s [] p (Nat.le_refl _)
  rw [tape_succ] at key
  unfold startTape Stream.ofBytes
  by_cases hb : ∃ t, s = 0xef :: 0xbb :: 0xbf :: t
  · obtain ⟨t, rfl⟩ := hb
    have hw : withoutBom (0xef :: 0xbb :: 0xbf :: t) = t := rfl
    rw [hw]
    cases hs : splitLine t with
    | some x =>
      obtain ⟨l, r⟩ := x
      have hs' : splitLine (0xef :: 0xbb :: 0xbf :: t) = some (0xef :: 0xbb :: 0xbf :: l, r) := by
        simp [splitLine, hs]
      have hx : (Cell.mk ⟨0xef :: 0xbb :: 0xbf :: t, true, false⟩ [] false).next
          = ⟨⟨r, true, false⟩, 0xef :: 0xbb :: 0xbf :: l, false⟩ := by
        simp [Cell.next, Stream.getline, hs']
      rw [hx] at key ⊢
      show (tape ⟨⟨r, true, false⟩, l, false⟩ p).line = _ ∧ (tape ⟨⟨r, true, false⟩, l, false⟩ p).eof = _
      have hx2 : (Cell.mk ⟨t, true, false⟩ [] false).next = ⟨⟨r, true, false⟩, l, false⟩ := by
        simp [Cell.next, Stream.getline, hs]
      have key2 := tape_lines t.length t [] p (Nat.le_refl _)
      rw [tape_succ, hx2] at key2
      refine ⟨key2.1, ?_⟩
      rw [key2.2]
      obtain ⟨h1, h2⟩ := splitLine_some _ _ _ hs
      have e1 := splitLines_append l r h2
      have e2 := splitLines_append (0xef :: 0xbb :: 0xbf :: l) r (by simpa using h2)
      rw [h1]
      have e3 : (0xef :: 0xbb :: 0xbf :: (l ++ 10 :: r) : Str) = (0xef :: 0xbb :: 0xbf :: l) ++ 10 :: r := rfl
      rw [e3]
      simp only [lineCount, e1, e2, List.length_cons]
    | none =>
      have hn := splitLine_none t hs
      have hs' : splitLine (0xef :: 0xbb :: 0xbf :: t) = none := by
        simp [splitLine, hs]
      have hx : (Cell.mk ⟨0xef :: 0xbb :: 0xbf :: t, true, false⟩ [] false).next
          = ⟨⟨[], false, false⟩, 0xef :: 0xbb :: 0xbf :: t, false⟩ := by
        simp [Cell.next, Stream.getline, hs']
      rw [hx]
      show (tape ⟨⟨[], false, false⟩, t, false⟩ p).line = _ ∧ (tape ⟨⟨[], false, false⟩, t, false⟩ p).eof = _
      have e1 := splitLines_single t hn
      have e2 := splitLines_single (0xef :: 0xbb :: 0xbf :: t) (by simpa using hn)
      cases p with
      | zero => simp [tape, lineAt, lineCount, e1, e2]
      | succ p =>
        obtain ⟨h1, h2, _⟩ := tape_stuck ⟨⟨[], false, false⟩, t, false⟩ rfl p
        rw [h1, h2]
        simp [lineAt, lineCount, e1, e2]
  · have hw : withoutBom s = s := by
      unfold withoutBom
      split
      · rename_i t; exact absurd ⟨t, rfl⟩ hb
      · rfl
    rw [hw]
    have hst : stripBom (Cell.mk ⟨s, true, false⟩ [] false).next.line = (Cell.mk ⟨s, true, false⟩ [] false).next.line := by
      cases hs : splitLine s with
      | some x =>
        obtain ⟨l, r⟩ := x
        have hx : (Cell.mk ⟨s, true, false⟩ [] false).next = ⟨⟨r, true, false⟩, l, false⟩ := by
          simp [Cell.next, Stream.getline, hs]
        rw [hx]
        dsimp only
        unfold stripBom
        split
        · rename_i t
          obtain ⟨h1, _⟩ := splitLine_some _ _ _ hs
          exact absurd ⟨_, by rw [h1]; rfl⟩ hb
        · rfl
      | none =>
        cases s with
        | nil => rfl
        | cons b t =>
          have hx : (Cell.mk ⟨b :: t, true, false⟩ [] false).next = ⟨⟨[], false, false⟩, b :: t, false⟩ := by
            simp [Cell.next, Stream.getline, hs]
          rw [hx]
          dsimp only
          unfold stripBom
          split
          · rename_i t' h; exact absurd ⟨t', h⟩ hb
          · rfl
    rw [hst]
    exact key

end Tgt.POParser
