import Verif.Proofs.Parse
import Verif.Proofs.Lines
import Verif.Props.IConv
/-
C78: what a parse leaves in its input stream.
-/
namespace Tgt
open Spec POParser

/-- The stream after a parse that came back. -/
def Spec.streamAfter : Res PState Unit → Option Stream
  | .ok _ s | .exn _ s | .poError s => some s.input
  | _ => none

namespace POParser

/-- A stream from which some lines (all complete but possibly the last one of the stream) of `text` have been read. -/
structure ReadFrom (text : Str) (x : Cell) : Prop where
  part : ∃ read, text = read ++ x.input.rest ∧ (x.input.rest = [] ∨ read = [] ∨ ∃ t, read = t ++ [10])
  done : x.input.good = false → x.input.rest = []
  eof : x.eof = true → x.input.good = false

theorem readFrom_next {text : Str} {x : Cell} (h : ReadFrom text x) : ReadFrom text x.next := by
  obtain ⟨⟨read, h1, h2⟩, h3, h4⟩ := h
  unfold Cell.next Stream.getline
  cases hg : x.input.good with
  | false =>
    simp only [Bool.not_false, if_true]
    exact ⟨⟨read, h1, h2⟩, h3, fun _ => hg⟩
  | true =>
    simp only [Bool.not_true, Bool.false_eq_true, if_false]
    cases hs : splitLine x.input.rest with
    | some lr =>
      obtain ⟨l, r⟩ := lr
      have e := (splitLine_some _ _ _ hs).1
      dsimp only
      refine ⟨⟨read ++ (l ++ [10]), by rw [h1, e]; simp, .inr (.inr ⟨read ++ l, by simp⟩)⟩, (fun h => by cases h), ?_⟩
      intro he
      rw [if_pos rfl] at he
      rw [h4 he] at hg; cases hg
    | none =>
      dsimp only
      cases hb : x.input.broken with
      | true => exact ⟨⟨text, by simp, .inl rfl⟩, fun _ => rfl, fun _ => rfl⟩
      | false =>
        cases x.input.rest.isEmpty with
        | true => exact ⟨⟨text, by simp, .inl rfl⟩, fun _ => rfl, fun _ => rfl⟩
        | false => exact ⟨⟨text, by simp, .inl rfl⟩, fun _ => rfl, fun _ => rfl⟩

theorem readFrom_tape {input : Stream} (hg : input.good = true) (p : Nat) : ReadFrom input.rest (startTape input p) := by
  have h0 : ReadFrom input.rest ⟨input, [], false⟩ :=
    ⟨⟨[], rfl, .inr (.inl rfl)⟩, (fun h => by rw [hg] at h; cases h), fun h => by cases h⟩
  have h1 := readFrom_next h0
  unfold startTape
  induction p with
  | zero => exact ⟨h1.part, h1.done, h1.eof⟩
  | succ p ih => exact readFrom_next ih

theorem mainLoopE_eof (ct : CType) (fuel : Nat) (T : Tape) (f : Nat) : ∀ (b : Bool) (p q : Nat) (u : Unit),
    (mainLoopE ct fuel T f b p).2 = .ok u q → (T q).eof = true := by
  induction f with
  | zero => intro b p q u h; cases h
  | succ f ih =>
    intro b p q u h
    unfold mainLoopE at h
    by_cases he : (T p).eof = true
    · simp [he] at h
      rw [← h]; exact he
    · simp only [he, Bool.not_false, if_true] at h
      split at h
      · exact ih _ _ _ _ h
      · exact ih _ _ _ _ h
      · cases h
      · cases h

theorem mainLoopE_no_err (ct : CType) (fuel : Nat) (T : Tape) (f : Nat) : ∀ (b : Bool) (p q : Nat),
    (mainLoopE ct fuel T f b p).2 ≠ .err q := by
  induction f with
  | zero => intro b p q h; cases h
  | succ f ih =>
    intro b p q h
    unfold mainLoopE at h
    by_cases he : (T p).eof = true
    · simp [he] at h
    · simp only [he, Bool.not_false, if_true] at h
      split at h
      · exact ih _ _ _ h
      · exact ih _ _ _ h
      · cases h
      · cases h

theorem evStep_exn {c : Cfg} {T : Tape} {e : Ev} {x y : List Str × PState} {w : Str} (h : evStep c T e x = .exn w y) :
    ∃ p, y.2.input = (T p).input := by
  have hconv : ∀ t s w y, convert c t s ≠ .exn w y := by
    intro t s w y h
    unfold convert at h
    split at h <;> cases h
  cases e with
  | diag lv p m pd => unfold evStep at h; dsimp only at h; split at h <;> cases h
  | clear => cases h
  | conv n t =>
    unfold evStep at h
    dsimp only at h
    split at h <;> try cases h
    rename_i h'; exact absurd h' (hconv _ _ _ _)
  | plural p fz ct i ip => unfold evStep at h; dsimp only at h; split at h <;> cases h
  | singular fz ct i t =>
    unfold evStep at h
    dsimp only at h
    split at h
    · split at h <;> try cases h
      rename_i h'; exact absurd h' (hconv _ _ _ _)
    · cases h
  | header p t =>
    unfold evStep at h
    dsimp only at h
    rw [parseHeader_eq] at h
    unfold setCharsets at h
    dsimp only at h
    split at h
    · rename_i h'; split at h' <;> cases h'; cases h
    · rename_i h'; split at h' <;> cases h'
    · rename_i h'
      cases h
      split at h' <;> cases h'
      exact ⟨p, rfl⟩
    · rename_i h'; split at h' <;> cases h'
    · rename_i h'; split at h' <;> cases h'

theorem interp_exn {c : Cfg} {T : Tape} (w : List Ev) : ∀ {x y : List Str × PState} {m : Str}, interp c T w x = .exn m y →
    ∃ p, y.2.input = (T p).input := by
  induction w with
  | nil => intro x y m h; cases h
  | cons e w ih =>
    intro x y m h
    unfold interp at h
    rw [bind_apply] at h
    cases he : evStep c T e x with
    | ok u x' => rw [he] at h; exact ih h
    | poError s => rw [he] at h; cases h
    | exn w' s => rw [he] at h; cases h; exact evStep_exn he
    | fault f => rw [he] at h; cases h
    | diverge => rw [he] at h; cases h

end POParser

/-- C78.  A parse that returns has read its stream to the end: nothing is left in it (and `good()` is false). -/
theorem C78_consumed (c : Cfg) (input : Stream) (d : Dictionary) (hg : input.good = true) (hF : input.rest.length < c.fuel)
    (d' : Dictionary) (log : List Diag) (h : observe (run c input d) = .returned d' log) :
    ∃ s, streamAfter (run c input d) = some s ∧ s.rest = [] ∧ s.good = false := by
  rw [run_eq' c input d hF] at h ⊢
  unfold runE at h ⊢
  cases hi : interp c (startTape input) (events c.ct c.fuel input).1 ([], initState input d) with
  | ok u x =>
    rw [hi] at h
    dsimp only at h ⊢
    cases hr : (events c.ct c.fuel input).2 with
    | ok a p =>
      have he := mainLoopE_eof _ _ _ _ _ _ _ _ hr
      have hp := readFrom_tape hg p
      exact ⟨_, rfl, hp.done (hp.eof he), hp.eof he⟩
    | err p => exact absurd hr (mainLoopE_no_err _ _ _ _ _ _ _)
    | overflow => rw [hr] at h; cases h
    | diverge => rw [hr] at h; cases h
  | poError x => exact absurd hi (interp_no_poError _ _ _ _ _).1
  | exn w x => rw [hi] at h; cases h
  | fault f => rw [hi] at h; cases h
  | diverge => rw [hi] at h; cases h

/-- C78.  A parse that ends by an exception has read a part of its stream that ends with a line; everything after it is still there. -/
theorem C78_unread (c : Cfg) (input : Stream) (d : Dictionary) (hg : input.good = true) (hF : input.rest.length < c.fuel)
    (w : Str) (d' : Dictionary) (log : List Diag) (h : observe (run c input d) = .threw w d' log) :
    ∃ s read, streamAfter (run c input d) = some s ∧ input.rest = read ++ s.rest ∧ (s.rest = [] ∨ ∃ t, read = t ++ [10]) := by
  have hne : ∀ p, ∃ read, input.rest = read ++ (startTape input p).input.rest ∧
      ((startTape input p).input.rest = [] ∨ ∃ t, read = t ++ [10]) := by
    intro p
    obtain ⟨read, h1, h2⟩ := (readFrom_tape hg p).part
    refine ⟨read, h1, ?_⟩
    rcases h2 with h2 | h2 | h2
    · exact .inl h2
    · -- something has been read
      subst h2
      refine .inl ?_
      have hlen : ∀ p, (startTape input p).input.rest.length < input.rest.length ∨ (startTape input p).input.rest = [] := by
        have hstep : ∀ x : Cell, x.next.input.rest = [] ∨ x.next.input.rest.length < x.input.rest.length ∨ x.next.input = x.input := by
          intro x
          unfold Cell.next Stream.getline
          dsimp only
          split
          · exact .inr (.inr rfl)
          · cases hs : splitLine x.input.rest with
            | some lr =>
              have := congrArg List.length (splitLine_some _ _ _ hs).1
              simp at this
              refine .inr (.inl ?_)
              show lr.2.length < _
              omega
            | none =>
              dsimp only
              split
              · exact .inl rfl
              · split <;> exact .inl rfl
        intro p
        induction p with
        | zero =>
          have : (startTape input 0).input = (Cell.mk input [] false).next.input := rfl
          rw [this]
          rcases hstep ⟨input, [], false⟩ with h | h | h
          · exact .inr h
          · exact .inl h
          · exfalso
            unfold Cell.next Stream.getline at h
            dsimp only at h
            rw [hg] at h
            simp only [Bool.not_true, Bool.false_eq_true, if_false] at h
            cases hs : splitLine input.rest with
            | some lr =>
              rw [hs] at h
              have e := congrArg List.length (splitLine_some _ _ _ hs).1
              have := congrArg (fun s => s.rest.length) h
              simp at this e
              omega
            | none =>
              rw [hs] at h
              dsimp only at h
              have : input.good = false := by
                rw [← h]
                split
                · rfl
                · split <;> rfl
              rw [hg] at this; cases this
        | succ p ih =>
          have e : startTape input (p + 1) = (startTape input p).next := rfl
          rw [e]
          rcases hstep (startTape input p) with h | h | h
          · exact .inr h
          · rcases ih with i | i
            · exact .inl (by omega)
            · rw [i] at h; simp at h
          · rw [h]; exact ih
      rcases hlen p with h | h
      · have := congrArg List.length h1
        simp at this
        omega
      · exact h
    · exact .inr h2
  rw [run_eq' c input d hF] at h ⊢
  unfold runE at h ⊢
  cases hi : interp c (startTape input) (events c.ct c.fuel input).1 ([], initState input d) with
  | ok u x =>
    rw [hi] at h
    dsimp only at h
    cases hr : (events c.ct c.fuel input).2 <;> (rw [hr] at h; cases h)
  | poError x => exact absurd hi (interp_no_poError _ _ _ _ _).1
  | exn w x =>
    obtain ⟨p, hp⟩ := interp_exn _ hi
    obtain ⟨read, h1, h2⟩ := hne p
    refine ⟨x.2.input, read, rfl, ?_, ?_⟩
    · rw [hp]; exact h1
    · rw [hp]; exact h2
  | fault f => rw [hi] at h; cases h
  | diverge => rw [hi] at h; cases h

-- a text that is read to its end, and one whose second entry is still unread after the exception
example : streamAfter (run ⟨.c, demoLib, true, b!"f", true, 100⟩ (.ofBytes b!"msgid \"a\"\nmsgstr \"b\"\n") (.init b!"UTF-8")) =
      some ⟨[], false, false⟩ ∧
    streamAfter (run ⟨.c, demoLib, true, b!"f", true, 100⟩
      (.ofBytes b!"msgid \"\"\nmsgstr \"Content-Type: text/plain; charset=klingon\\n\"\n\nmsgid \"a\"\nmsgstr \"b\"\n") (.init b!"UTF-8")) =
      some ⟨b!"msgid \"a\"\nmsgstr \"b\"\n", true, false⟩ := by decide +kernel

end Tgt
