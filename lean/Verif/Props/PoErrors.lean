import Verif.Proofs.ReadBlank
import Verif.Proofs.ReadOrder
import Verif.Props.PoRead
/-
What an error in a text costs (C30): exactly which blank lines the parser resumes at.
-/
namespace Tgt
open Spec Spec.Po POParser

section
variable {ct : CType} {lib : IconvLib} {uf ped : Bool} {file : Str} {line : Nat → Str}

/-- Messages are only added. -/
theorem loadPieces_log : ∀ (ps : List Piece) (cv : IConv) (d : Dictionary) (l : List Diag) (d' : Dictionary) (l' : List Diag),
    loadPieces ct lib uf ped file line ps cv d l = .returned d' l' → ∃ r, l' = l ++ r := by
  intro ps
  induction ps with
  | nil => intro cv d l d' l' h; cases h; exact ⟨[], by simp⟩
  | cons x ps ih =>
    intro cv d l d' l' h
    have step : ∀ {cv1 d1 r1}, loadPieces ct lib uf ped file line ps cv1 d1 (l ++ r1) = .returned d' l' → ∃ r, l' = l ++ r := by
      intro cv1 d1 r1 h
      obtain ⟨r, hr⟩ := ih _ _ _ _ _ h
      exact ⟨r1 ++ r, by rw [hr, List.append_assoc]⟩
    cases x with
    | notes ns => exact step h
    | single ns fz c id t q =>
      simp only [loadPieces] at h
      split at h
      · split at h
        · rw [List.append_assoc] at h; exact step h
        · cases h
      · split at h
        · split at h
          · cases h
          · rw [List.append_assoc, List.append_assoc] at h; exact step h
        · exact step h
    | plural ns fz c id idp strs q =>
      simp only [loadPieces] at h
      split at h
      · cases h
      · split at h
        · rw [List.append_assoc, List.append_assoc, List.append_assoc] at h; exact step h
        · rw [List.append_assoc] at h; exact step h
    | broken ns strs =>
      simp only [loadPieces] at h
      split at h
      · cases h
      · rw [List.append_assoc] at h; exact step h

/-- Remarks that stand alone are shown. -/
theorem loadPieces_shows (ns : List Note) (post : List Piece) : ∀ (pre : List Piece) (cv : IConv) (d : Dictionary) (l : List Diag) (d' : Dictionary)
    (l' : List Diag), loadPieces ct lib uf ped file line (pre ++ .notes ns :: post) cv d l = .returned d' l' →
    ∀ x ∈ shown ped file line ns, x ∈ l' := by
  intro pre
  induction pre with
  | nil =>
    intro cv d l d' l' h x hx
    obtain ⟨r, rfl⟩ := loadPieces_log post cv d (l ++ shown ped file line ns) _ _ h
    simp [hx]
  | cons y pre ih =>
    intro cv d l d' l' h
    cases y with
    | notes ns => exact ih _ _ _ _ _ h
    | single ns fz c id t q =>
      simp only [loadPieces, List.cons_append] at h
      split at h
      · split at h
        · exact ih _ _ _ _ _ h
        · cases h
      · split at h
        · split at h
          · cases h
          · exact ih _ _ _ _ _ h
        · exact ih _ _ _ _ _ h
    | plural ns fz c id idp strs q =>
      simp only [loadPieces, List.cons_append] at h
      split at h
      · cases h
      · split at h
        · exact ih _ _ _ _ _ h
        · exact ih _ _ _ _ _ h
    | broken ns strs =>
      simp only [loadPieces, List.cons_append] at h
      split at h
      · cases h
      · exact ih _ _ _ _ _ h
end

/-- All readings of a text whose parse returns come to an end and give what was returned. -/
theorem reading_returns (c : Cfg) (s : Str) (d : Dictionary)
    (hs : ∀ p, (lineAt (withoutBom s) p).length < 4294967296) (hN : lineCount s + 8 < 2147483647) (hF : s.length + 8 < c.fuel)
    {d' : Dictionary} {l : List Diag} (hret : observe (run c (.ofBytes s) d) = .returned d' l) {ps : List Piece} {e : Bool}
    (hr : Reading c.ct (lineAt (withoutBom s)) (lineCount s) false 0 ps e) :
    e = true ∧ loadPieces c.ct c.lib c.useFuzzy c.pedantic c.filename (lineAt (withoutBom s)) ps .init d [] = .returned d' l := by
  cases e with
  | false =>
    have := C63_endless c s d hs hN hF ps hr
    rw [hret] at this
    revert this
    cases hl : loadPieces c.ct c.lib c.useFuzzy c.pedantic c.filename (lineAt (withoutBom s)) ps .init d [] with
    | returned a b =>
      intro hx
      rcases hx with hx | ⟨f, hx, _⟩ <;> cases hx
    | _ => intro hx; cases hx
  | true => exact ⟨rfl, by rw [← C63_reading c s d hs hN hF ps hr, hret]⟩

/-- C30, exactly: let `p` be any blank line of any text whose parse returns.  Either there is an error message about line `p`
itself, and then everything from line `p + 1` up to the next separating line is skipped; or reading resumes right after line
`p`: whatever follows is read and loaded as what stands there, no matter what came before (but for the declaration of Big5). -/
theorem C30_after_blank (c : Cfg) (s : Str) (d : Dictionary)
    (hs : ∀ p, (lineAt (withoutBom s) p).length < 4294967296) (hN : lineCount s + 8 < 2147483647) (hF : s.length + 8 < c.fuel)
    (p : Nat) (hp : p < lineCount s) (hb : Blank c.ct (lineAt (withoutBom s) p))
    (d' : Dictionary) (l : List Diag) (hret : observe (run c (.ofBytes s) d) = .returned d' l) :
    (∃ pre, ∀ ps e, Reading c.ct (lineAt (withoutBom s)) (lineCount s) (pre.any (saysBig5 c.ct)) (p + 1) ps e →
        e = true ∧
        loadPieces c.ct c.lib c.useFuzzy c.pedantic c.filename (lineAt (withoutBom s)) (pre ++ ps) .init d [] = .returned d' l) ∨
    (∃ m q, Diag.po .error c.filename (p + 1) m (lineAt (withoutBom s) p) ∈ l ∧ p + 1 < q ∧
      (∀ j, p < j → j < q → j < lineCount s ∧ ¬ Separator c.ct (lineAt (withoutBom s) j)) ∧
      (lineCount s ≤ q ∨ Separator c.ct (lineAt (withoutBom s) q)) ∧
      ∃ pre ps, Reading c.ct (lineAt (withoutBom s)) (lineCount s) (pre.any (saysBig5 c.ct)) q ps true ∧
        loadPieces c.ct c.lib c.useFuzzy c.pedantic c.filename (lineAt (withoutBom s)) (pre ++ ps) .init d [] = .returned d' l) := by
  obtain ⟨ps, e, hr⟩ := C63_total c.ct s
  obtain ⟨rfl, hload⟩ := reading_returns c s d hs hN hF hret hr
  rcases after_blank hr p (Nat.zero_le _) hp hb with ⟨pre, ps', rfl, h1, h2⟩ | ⟨pre, ns, m, ps', q, rfl, h1, h2, h3, h4⟩
  · rw [Bool.false_or] at h1 h2
    exact .inl ⟨pre, fun qs e hq => reading_returns c s d hs hN hF hret (h2 qs _ hq)⟩
  · rw [Bool.false_or] at h4
    refine .inr ⟨m, q, ?_, h1, h2, h3, pre ++ [.notes (ns ++ [⟨.error, p, m, false⟩])], ps', by simpa [saysBig5] using h4, ?_⟩
    · refine loadPieces_shows (ns ++ [⟨.error, p, m, false⟩]) ps' pre _ _ _ _ _ hload _ ?_
      refine List.mem_map.2 ⟨⟨.error, p, m, false⟩, List.mem_filter.2 ⟨by simp, by simp⟩, rfl⟩
    · simpa using hload

/-- C30, for entries: a well-formed entry that directly follows a blank line is loaded, whatever errors there are before, if there
is no error message about this blank line or the entry begins with a separating comment.  Missing: the other case, in which it
is not (`C30_after_blank`). -/
theorem C30_entry_loaded_partial (c : Cfg) (s : Str) (d : Dictionary)
    (hs : ∀ p, (lineAt (withoutBom s) p).length < 4294967296) (hN : lineCount s + 8 < 2147483647) (hF : s.length + 8 < c.fuel)
    (p : Nat) (hp : p + 1 < lineCount s) (hb : Blank c.ct (lineAt (withoutBom s) p))
    (d' : Dictionary) (l : List Diag) (hret : observe (run c (.ofBytes s) d) = .returned d' l)
    (hno : (∀ m, Diag.po .error c.filename (p + 1) m (lineAt (withoutBom s) p) ∉ l) ∨ Separator c.ct (lineAt (withoutBom s) (p + 1))) :
    ∃ pre, ∀ k x, REntry c.ct (pre.any (saysBig5 c.ct)) (p + 1) (block (lineAt (withoutBom s)) (p + 1) k) x →
      Separator c.ct (lineAt (withoutBom s) (p + 1 + k)) →
      ∃ rest, loadPieces c.ct c.lib c.useFuzzy c.pedantic c.filename (lineAt (withoutBom s)) (pre ++ x :: rest) .init d [] = .returned d' l := by
  rcases C30_after_blank c s d hs hN hF p (by omega) hb d' l hret with ⟨pre, h⟩ | ⟨m, q, h1, h2, h3, _⟩
  · refine ⟨pre, fun k x he hsep => ?_⟩
    obtain ⟨rest, e, hr⟩ := reading_total (ct := c.ct) (L := lineAt (withoutBom s)) (N := lineCount s)
      (fun p hp => by rw [lineAt_ends s p hp, lineAt_ends s _ (Nat.le_refl _)]) (lineCount s) (p + 1 + k + 1) (pre.any (saysBig5 c.ct) || saysBig5 c.ct x) (by omega)
    exact ⟨rest, (h _ _ (.entry hp he hsep hr)).2⟩
  · rcases hno with hno | hno
    · exact absurd h1 (hno m)
    · exact absurd hno (h3 (p + 1) (by omega) h2).2

/-! ### The order of messages -/

/-- C64: the messages about a text come in the order of its lines, each about a line of the text or (at most three lines, if the
last line has no newline) beyond its end. -/
theorem C64_in_order (c : Cfg) (s : Str) (d : Dictionary)
    (hs : ∀ p, (lineAt (withoutBom s) p).length < 4294967296) (hN : lineCount s + 8 < 2147483647) (hF : s.length + 8 < c.fuel)
    (hend : (observe (run c (.ofBytes s) d)).Ended) :
    (messageLines (observe (run c (.ofBytes s) d)).log).Pairwise (· ≤ ·) ∧
    (∀ n ∈ messageLines (observe (run c (.ofBytes s) d)).log, 1 ≤ n ∧ n ≤ lineCount s + 4) ∧
    (Terminated s → ∀ n ∈ messageLines (observe (run c (.ofBytes s) d)).log, n ≤ lineCount s + 1) := by
  obtain ⟨ps, e, hr⟩ := C63_total c.ct s
  have hload : observe (run c (.ofBytes s) d) = loadPieces c.ct c.lib c.useFuzzy c.pedantic c.filename (lineAt (withoutBom s)) ps .init d [] := by
    cases e with
    | true => exact C63_reading c s d hs hN hF ps hr
    | false =>
      have := C63_endless c s d hs hN hF ps hr
      revert this
      cases hl : loadPieces c.ct c.lib c.useFuzzy c.pedantic c.filename (lineAt (withoutBom s)) ps .init d [] with
      | returned a b =>
        intro hx
        rcases hx with hx | ⟨f, hx, _⟩ <;> (rw [hx] at hend; exact hend.elim)
      | _ => exact id
  rw [hload] at hend ⊢
  obtain ⟨r, hlog, hthin⟩ := thin_load _ _ _ _ hend
  rw [hlog, List.nil_append]
  have h1 := hthin.upto (o_calm (calm_of c.ct c.fuel s hs hN hF) hr)
  refine ⟨h1.1, fun n hn => by have := h1.2 n hn; omega, fun ht n hn => ?_⟩
  have h2 := hthin.upto (o_terminated (b := false) (N := lineCount s) (by rw [lineAt_ends s _ (Nat.le_refl _), terminated_rest s ht]; intro x hx; cases hx) hr)
  exact (h2.2 n hn).2

/-! ### An example -/

/-- A line that is no entry, and then an entry. -/
def errDemo : Str := unlines [b!"foo", [], b!"msgid \"a\"", b!"msgstr \"b\"", []]

theorem errDemo_returns : observe (run ⟨.c, demoLib, true, b!"f", true, 100⟩ (.ofBytes errDemo) (.init b!"UTF-8"))
    = .returned ((Add.singular none b!"a" b!"b").apply (.init b!"UTF-8")).1 [.po .error b!"f" 1 b!"expected 'msgid'" b!"foo"] := by
  decide +kernel

theorem errDemo_short : ∀ p, (lineAt (withoutBom errDemo) p).length < 4294967296 := by
  intro p
  match p with
  | 0 | 1 | 2 | 3 | 4 => decide +kernel
  | p + 5 => rw [lineAt_ends errDemo (p + 5) (by show 5 ≤ p + 5; omega)]; decide

example : ∃ pre rest, loadPieces .c demoLib true true b!"f" (lineAt (withoutBom errDemo)) (pre ++ .single [] false none b!"a" b!"b" 4 :: rest)
    .init (.init b!"UTF-8") [] = .returned ((Add.singular none b!"a" b!"b").apply (.init b!"UTF-8")).1 [.po .error b!"f" 1 b!"expected 'msgid'" b!"foo"] := by
  obtain ⟨pre, h⟩ := C30_entry_loaded_partial ⟨.c, demoLib, true, b!"f", true, 100⟩ errDemo (.init b!"UTF-8") errDemo_short (by decide +kernel)
    (by decide +kernel) 1 (by decide +kernel) (by decide +kernel) _ _ errDemo_returns (.inl (fun m hm => by simp at hm))
  have lit : ∀ big5 x, x = b!"a" ∨ x = b!"b" → Lit big5 x x [] := by
    rintro big5 x (rfl | rfl) <;> exact .plain (by decide) (by decide) (fun h => absurd h.2 (by unfold isLead; decide)) .nil
  have hid : ∀ big5, RField .c big5 b!"msgid" 2 [b!"msgid \"a\""] b!"a" [] := fun big5 =>
    .mk (sep := [32]) (q := b!"\"a\"") (text := b!"a") (ls := []) (rest := []) (ns := []) (ns' := []) (by decide)
      (.mk (body := b!"a") (trail := []) (u := []) (lit _ _ (.inl rfl))) .nil
  have hstr : ∀ big5, RField .c big5 b!"msgstr" 3 [b!"msgstr \"b\""] b!"b" [] := fun big5 =>
    .mk (sep := [32]) (q := b!"\"b\"") (text := b!"b") (ls := []) (rest := []) (ns := []) (ns' := []) (by decide)
      (.mk (body := b!"b") (trail := []) (u := []) (lit _ _ (.inr rfl))) .nil
  obtain ⟨rest, hr⟩ := h 2 (.single [] false none b!"a" b!"b" 4) (REntry.single (RHead.mk (RStart.none (ct := .c) (n := 2) (cs := []) (fz := false) (by simp) (by simp)) (hid _)) (hstr _)) (by rw [separator_iff]; decide +kernel)
  exact ⟨pre, rest, hr⟩

-- the hypotheses of C64_in_order, and lines in order
example : (observe (run ⟨.c, demoLib, true, b!"f", true, 100⟩ (.ofBytes errDemo) (.init b!"UTF-8"))).Ended ∧
    messageLines (observe (run ⟨.c, demoLib, true, b!"f", true, 100⟩ (.ofBytes readDemo) (.init b!"UTF-8"))).log = [2, 2, 3] := by
  rw [errDemo_returns]
  exact ⟨trivial, by decide +kernel⟩

end Tgt
