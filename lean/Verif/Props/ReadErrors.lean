import Verif.Proofs.Broken
import Verif.Props.PoLastLine
/-
Streams that fail while they are read: C72.
-/
namespace Tgt
open Spec Spec.Po POParser

/-- C72.  A read error after a complete line is the same as the end of the file there: the parse ends in the same way, with the
same dictionary and the same messages; nothing at all is said about the error. -/
theorem C72_error_after_line (c : Cfg) (s : Str) (d : Dictionary) (ht : Terminated s) (hF : s.length < c.fuel) :
    observe (run c (.brokenAfter s) d) = observe (run c (.ofBytes s) d) := by
  refine run_same c _ _ (fun p => ?_) d hF hF
  obtain ⟨h1, h2⟩ := startTape_broken s p
  obtain ⟨h3, h4⟩ := startTape_lines s p
  refine ⟨by rw [h1, h3], ?_⟩
  rw [h2, h4]
  have : (splitLines s).2 = [] := ht
  unfold lineCount
  rw [if_pos this]; rfl

namespace POParser

/-- A text of complete lines, whether reading fails after it or not. -/
theorem run_fails (c : Cfg) (s : Str) (b : Bool) (d : Dictionary) (ht : Terminated s) (hF : s.length < c.fuel) :
    observe (run c ⟨s, true, b⟩ d) = observe (run c (.ofBytes s) d) := by
  cases b with
  | false => rfl
  | true => exact C72_error_after_line c s d ht hF

theorem cut_broken (s : Str) : Cut (startTape (.brokenAfter s)) (startTape (.ofBytes s)) (splitLines s).1.length := by
  refine ⟨fun p => by rw [(startTape_broken s p).1, (startTape_lines s p).1], fun p => (startTape_broken s p).2, ?_, ?_⟩
  · by_cases h : (splitLines s).2 = []
    · refine .inl (fun p => ?_)
      rw [(startTape_lines s p).2]; unfold lineCount; rw [if_pos h]; rfl
    · refine .inr (fun p => ?_)
      rw [(startTape_lines s p).2]; unfold lineCount; rw [if_neg h]
  · intro p hp
    rw [(startTape_broken s p).1, (startTape_broken s _).1]
    have hl : (splitLines (withoutBom s)).1.length ≤ (splitLines s).1.length := by
      unfold withoutBom
      split
      · rename_i t; rw [(splitLines_bom t).1]; exact Nat.le_refl _
      · exact Nat.le_refl _
    unfold lineAt
    simp only [List.getD]
    rw [List.getElem?_eq_none (by omega), List.getElem?_eq_none (by omega)]

end POParser

/-- C72.  A read error in the middle of a line: if the same bytes with the end of the file there can be parsed to an end, the
parse of the failing stream ends in the same way with the same dictionary (only messages may differ). -/
theorem C72_error_in_line (c : Cfg) (s : Str) (d : Dictionary) (hN : lineCount s + 2 < 2147483647) (hF : s.length + 1 < c.fuel)
    (he : (observe (run c (.ofBytes s) d)).Ended) :
    (observe (run c (.brokenAfter s) d)).noLog = (observe (run c (.ofBytes s) d)).noLog := by
  have hl : (splitLines s).1.length ≤ lineCount s := by unfold lineCount; split <;> omega
  have hm := cut_mainLoop (ct := c.ct) (fuel := c.fuel) (cut_broken s) (by show _ < 2147483647; omega)
    (by have := lineCount_le s; omega) c.fuel false 0
  have h0 : events c.ct c.fuel (.ofBytes s) = mainLoopE c.ct c.fuel (startTape (.ofBytes s)) c.fuel false 0 := rfl
  have h1 : events c.ct c.fuel (.brokenAfter s) = mainLoopE c.ct c.fuel (startTape (.brokenAfter s)) c.fuel false 0 := rfl
  rw [← h0, ← h1] at hm
  have e1 := run_core c (.ofBytes s) d (by show s.length < _; omega)
  have e2 := run_core c (.brokenAfter s) d (by show s.length < _; omega)
  rw [← coreInterp_essence] at e1 e2
  rw [hm.1] at e2
  rw [e2, e1]
  have he' : (obsCore d (events c.ct c.fuel (.ofBytes s)).2
      (coreInterp c.ct c.lib c.useFuzzy d.charset (essence (events c.ct c.fuel (.ofBytes s)).1) core0)).Ended := by
    rw [← e1]
    revert he
    cases observe (run c (.ofBytes s) d) <;> exact id
  revert he'
  generalize coreInterp c.ct c.lib c.useFuzzy d.charset (essence (events c.ct c.fuel (.ofBytes s)).1) core0 = r
  intro he'
  rcases hm.2 with ⟨p, q, h2, h3⟩ | h2 | h2 | h2
  · rw [h2, h3]; cases r <;> rfl
  · rw [h2]
  · rw [h2] at he' ⊢
    cases r with
    | ok _ k => exact he'.elim
    | _ => rfl
  · rw [h2] at he' ⊢
    cases r with
    | ok _ k => exact he'.elim
    | _ => rfl

/-- C72.  A stream that cannot be read at all (a directory opened as a file) is an empty file: the parse returns, adds nothing
and says nothing. -/
theorem C72_unreadable (c : Cfg) (d : Dictionary) (hF : 0 < c.fuel) : observe (run c (.brokenAfter []) d) = .returned d [] := by
  rw [run_obs c (.brokenAfter []) d hF]
  obtain ⟨g, hg⟩ : ∃ g, c.fuel = g + 1 := ⟨c.fuel - 1, by omega⟩
  have e1 : events c.ct c.fuel (.brokenAfter []) = ([], .ok () 0) := by
    show mainLoopE c.ct c.fuel (startTape (.brokenAfter [])) c.fuel false 0 = _
    conv => lhs; arg 4; rw [hg]
    exact main_eof g (by rw [(startTape_broken [] 0).2]; rfl)
  rw [e1]
  rfl

/-- Two entries and a comment; the stream fails in the middle of the comment. -/
def brokenDemo : Str := unlines [b!"msgid \"a\"", b!"msgstr \"A\"", []] ++ b!"# a transl"

/-- The parse of the failing stream keeps the entry (here the bytes with the end of file would not even be parsed to an end). -/
example : observe (run ⟨.c, demoLib, true, b!"f", true, 100⟩ (.brokenAfter brokenDemo) (.init b!"UTF-8"))
      = .returned ((Add.singular none b!"a" b!"A").apply (.init b!"UTF-8")).1 []
    ∧ observe (run ⟨.c, demoLib, true, b!"f", true, 100⟩ (.ofBytes brokenDemo) (.init b!"UTF-8")) = .unfinished := by
  decide +kernel

/-- Two entries; the stream fails in the second `msgstr`. -/
def brokenDemo2 : Str := unlines [b!"msgid \"a\"", b!"msgstr \"A\"", [], b!"msgid \"b\""] ++ b!"msgstr \"B"

example : (observe (run ⟨.c, demoLib, true, b!"f", true, 100⟩ (.ofBytes brokenDemo2) (.init b!"UTF-8"))).Ended := by
  have : observe (run ⟨.c, demoLib, true, b!"f", true, 100⟩ (.ofBytes brokenDemo2) (.init b!"UTF-8"))
      = .returned ((Add.singular none b!"a" b!"A").apply (.init b!"UTF-8")).1
        [.po .error b!"f" 5 b!"unexpected end of string" b!"msgstr \"B"] := by decide +kernel
  rw [this]; trivial

example : observe (run ⟨.c, demoLib, true, b!"f", true, 100⟩ (.brokenAfter brokenDemo2) (.init b!"UTF-8"))
      = .returned ((Add.singular none b!"a" b!"A").apply (.init b!"UTF-8")).1
        [.po .error b!"f" 5 b!"unexpected end of string" b!"msgstr \"B"] := by decide +kernel

end Tgt
