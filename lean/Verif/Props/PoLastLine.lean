import Verif.Proofs.LastLine
import Verif.Props.PoCrlf
/-
A missing newline after the last line: C60.
-/
namespace Tgt
open Spec Spec.Po POParser

namespace POParser

theorem split_snoc (s : Str) : splitLines (s ++ [10]) = ((splitLines s).1 ++ [(splitLines s).2], []) := by
  have h1 := splitLines_join s
  have h2 := splitLines_no_nl s
  have h3 := splitLines_unlines ((splitLines s).1 ++ [(splitLines s).2]) [] (by
    intro l hl
    rcases List.mem_append.1 hl with h | h
    · exact h2.1 l h
    · rw [List.mem_singleton.1 h]; exact h2.2) (by simp)
  have h4 : ∀ (ls : List Str) (r : Str), unlines (ls ++ [r]) = unlines ls ++ r ++ [10] := by
    intro ls r
    induction ls with
    | nil => simp [unlines]
    | cons l ls ih => simp [unlines, ih]
  rw [h4, h1, List.append_nil] at h3
  exact h3

theorem bom_snoc (s : Str) : withoutBom (s ++ [10]) = withoutBom s ++ [10] := by
  match s with
  | [] => rfl
  | [x] => simp [withoutBom]
  | [x, y] =>
    show withoutBom [x, y, 10] = withoutBom [x, y] ++ [10]
    unfold withoutBom
    split
    · rename_i h; simp at h
    · split
      · rename_i h; simp at h
      · rfl
  | x :: y :: z :: t =>
    by_cases h : x = 0xef ∧ y = 0xbb ∧ z = 0xbf
    · obtain ⟨rfl, rfl, rfl⟩ := h; rfl
    · have e : ∀ u, withoutBom (x :: y :: z :: u) = x :: y :: z :: u := by
        intro u
        unfold withoutBom
        split
        · rename_i h'; simp only [List.cons.injEq] at h'; exact absurd ⟨h'.1, h'.2.1, h'.2.2.1⟩ h
        · rfl
      rw [List.cons_append, List.cons_append, List.cons_append, e, e]; rfl

theorem last_tape (ct : CType) (s : Str) (hr : HarmlessEnd ct (splitLines (withoutBom s)).2) (hne : (splitLines (withoutBom s)).2 ≠ []) :
    Last ct (startTape (.ofBytes s)) (startTape (.ofBytes (s ++ [10]))) (splitLines (withoutBom s)).1.length := by
  have hu := unlooped_of_harmless ct _ hr
  obtain ⟨u1, u2, u3⟩ := hu
  have hc : lineCount s = (splitLines (withoutBom s)).1.length + 1 ∧ lineCount (s ++ [10]) = (splitLines (withoutBom s)).1.length + 1 := by
    have hl : (splitLines s).1.length = (splitLines (withoutBom s)).1.length ∧ (splitLines s).2 ≠ [] := by
      revert hne
      unfold withoutBom
      split
      · rename_i t
        intro hne
        exact ⟨(splitLines_bom t).1, fun h => hne ((splitLines_bom t).2.1 h).2⟩
      · exact fun hne => ⟨rfl, hne⟩
    unfold lineCount
    rw [split_snoc, if_neg hl.2, if_pos rfl, ← hl.1]
    simp
  have a1 : ∀ p, (startTape (Stream.ofBytes s) p).line = lineAt (withoutBom s) p := fun p => (startTape_lines s p).1
  have a2 : ∀ p, (startTape (Stream.ofBytes s) p).eof = decide (lineCount s ≤ p) := fun p => (startTape_lines s p).2
  have b1 : ∀ p, (startTape (Stream.ofBytes (s ++ [10])) p).line = ((splitLines (withoutBom s)).1 ++ [(splitLines (withoutBom s)).2]).getD p [] := by
    intro p; rw [(startTape_lines _ p).1, bom_snoc]; unfold lineAt; rw [split_snoc]
  have b2 : ∀ p, (startTape (Stream.ofBytes (s ++ [10])) p).eof = decide (lineCount (s ++ [10]) ≤ p) := fun p => (startTape_lines _ p).2
  have an : (startTape (Stream.ofBytes s) (splitLines (withoutBom s)).1.length).line = (splitLines (withoutBom s)).2 := by
    rw [a1]; unfold lineAt; simp [List.getD]
  refine ⟨fun p hp => ?_, fun p => ?_, fun p hp => ?_, fun p hp => ?_, fun p hp => ?_, ?_, ?_, ?_⟩
  · rw [a1, b1]; unfold lineAt
    rcases Nat.lt_or_ge p (splitLines (withoutBom s)).1.length with h | h
    · simp [List.getD, h, List.getElem?_append_left h]
    · have : p = (splitLines (withoutBom s)).1.length := by omega
      subst this; simp [List.getD]
  · rw [a2, b2, hc.1, hc.2]
  · rw [a2, hc.1]; exact decide_eq_true hp
  · rw [an, a1]; unfold lineAt
    simp [List.getD, Nat.le_of_lt hp]
  · rw [b1]
    have : ((splitLines (withoutBom s)).1 ++ [(splitLines (withoutBom s)).2])[p]? = none := List.getElem?_eq_none (by simp; omega)
    simp only [List.getD, this, Option.getD_none]
  · rw [an]; exact u1
  · rw [an]; exact u2
  · rw [an]; exact u3

end POParser

/-- C60.  A newline missing after a last line that is not a comment, a continuation string or a `msgstr[N]` changes neither the
dictionary nor the outcome of a parse (only the messages: an entry that ends there is reported, but kept). -/
theorem C60_final_newline (c : Cfg) (s : Str) (d : Dictionary) (hr : HarmlessEnd c.ct (splitLines (withoutBom s)).2)
    (hne : (splitLines (withoutBom s)).2 ≠ []) (hF : s.length + 1 < c.fuel) :
    (observe (run c (.ofBytes (s ++ [10])) d)).noLog = (observe (run c (.ofBytes s) d)).noLog := by
  have hl : (s ++ [10]).length = s.length + 1 := by simp
  have hs := last_mainLoop (fuel := c.fuel) (last_tape c.ct s hr hne) (by omega) c.fuel false 0
  have h0 : events c.ct c.fuel (.ofBytes s) = mainLoopE c.ct c.fuel (startTape (.ofBytes s)) c.fuel false 0 := rfl
  have h1 : events c.ct c.fuel (.ofBytes (s ++ [10])) = mainLoopE c.ct c.fuel (startTape (.ofBytes (s ++ [10]))) c.fuel false 0 := rfl
  rw [run_core c _ d (by show (s ++ [10]).length < _; omega), run_core c _ d (by show s.length < _; omega), h0, h1,
    ← coreInterp_essence _ _ _ _ (mainLoopE c.ct c.fuel (startTape (.ofBytes s)) c.fuel false 0).1,
    ← coreInterp_essence _ _ _ _ (mainLoopE c.ct c.fuel (startTape (.ofBytes (s ++ [10]))) c.fuel false 0).1, hs.1, hs.2]

/-- Two entries; the last line has no newline. -/
def noNlDemo : Str := unlines [b!"msgid \"a\"", b!"msgstr \"A\"", [], b!"msgid \"b\""] ++ b!"msgstr \"B\""

example : (splitLines (withoutBom noNlDemo)).2 = b!"msgstr \"B\"" := by decide +kernel

example : HarmlessEnd .c (splitLines (withoutBom noNlDemo)).2 := by
  rw [show (splitLines (withoutBom noNlDemo)).2 = b!"msgstr \"B\"" by decide +kernel]
  unfold HarmlessEnd
  decide +kernel

/-- Both entries are loaded with and without the newline, and a message is logged without it. -/
example : (observe (run ⟨.c, demoLib, true, b!"f", true, 100⟩ (.ofBytes noNlDemo) (.init b!"UTF-8"))).noLog
    = .returned ((Add.singular none b!"b" b!"B").apply ((Add.singular none b!"a" b!"A").apply (.init b!"UTF-8")).1).1 []
    ∧ observe (run ⟨.c, demoLib, true, b!"f", true, 100⟩ (.ofBytes noNlDemo) (.init b!"UTF-8"))
      ≠ observe (run ⟨.c, demoLib, true, b!"f", true, 100⟩ (.ofBytes (noNlDemo ++ [10])) (.init b!"UTF-8")) := by
  decide +kernel

end Tgt
