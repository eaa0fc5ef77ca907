import Verif.Proofs.TwoLines
import Verif.Props.PoFile
/-
Properties of string literals in PO files: C28.
-/
namespace Tgt
open Spec Spec.Po POParser

/-- The events before a position, all diagnostics, only add to the log. -/
theorem interp_lineWarnings (c : Cfg) (T : Tape) (p : Nat) (u : List Byte) (trail : Str) (v : List Str) (s : PState) :
    interp c T (lineWarnings c.ct p u trail) (v, s)
      = .ok () (v, { s with log := s.log ++ (u.map (fun e => .po .warning c.filename (p + 1) (unknownMsg e) (T p).line) ++
          (if trail.any (fun b => !c.ct.isspace b) then
            [.po .warning c.filename (p + 1) b!"unexpected garbage after string ignoren" (T p).line] else [])) }) := by
  unfold lineWarnings
  rw [interp_append, bind_apply, interp_unknown]
  dsimp only
  split
  · simp [interp, bind_apply, evStep, Prog.pure, unkDiags, mv]
  · simp [interp, Prog.pure, unkDiags, mv]

theorem interp_diags (c : Cfg) (T : Tape) : ∀ (w : List Ev) (v : List Str) (s : PState), (∀ x ∈ w, x.isDiag = true) →
    ∃ l, interp c T w (v, s) = .ok () (v, { s with log := s.log ++ l }) := by
  intro w
  induction w with
  | nil => intro v s _; exact ⟨[], by simp [interp, Prog.pure]⟩
  | cons e w ih =>
    intro v s h
    have he := h e List.mem_cons_self
    cases e with
    | diag lv p m ped =>
      simp only [interp, bind_apply, evStep]
      by_cases hp : (ped && !c.pedantic) = true
      · rw [if_pos hp]
        exact ih v s (fun x hx => h x (List.mem_cons_of_mem _ hx))
      · rw [if_neg hp]
        obtain ⟨l, hl⟩ := ih v { s with log := s.log ++ [.po lv c.filename (p + 1) m (T p).line] }
          (fun x hx => h x (List.mem_cons_of_mem _ hx))
        refine ⟨.po lv c.filename (p + 1) m (T p).line :: l, ?_⟩
        dsimp only
        rw [hl]; simp
    | _ => cases he

/-- A file with one entry, whose `msgstr` line is given verbatim after the opening quote. -/
def oneEntry (id r : Str) : List Str := [writeField b!"msgid" id, b!"msgstr \"" ++ r]

theorem oneEntry_ok (id r : Str) (hr : (10 : Byte) ∉ r) (hsize : (unlines (oneEntry id r)).length + 8 < 2147483647) :
    TextOk (oneEntry id r) := by
  refine textOk_small _ ?_ hsize (by simp [oneEntry, writeField])
  intro l hl
  simp only [oneEntry, List.mem_cons, List.not_mem_nil, or_false] at hl
  rcases hl with rfl | rfl
  · exact writeField_no_nl _ _ (by decide)
  · intro h
    rcases List.mem_append.1 h with h | h
    · exact absurd h (by decide)
    · exact hr h

/-- C28.  What a string means.  Take a file whose only entry has the string line `msgstr "body"trail`: if `body`
means `text` with unknown escapes `u` (see `Lit`), then parsing adds exactly `text` as the translation of `id`
(nothing if it is empty), and logs exactly one warning for each unknown escape in order, one warning if there is
anything but white space after the closing quote, and what the addition logs. -/
theorem C28_decode (c : Cfg) (d : Dictionary) (id body trail text : Str) (u : List Byte)
    (hid : id ≠ []) (hlit : Lit false body text u)
    (hnl : (10 : Byte) ∉ body ++ trail)
    (hsize : (unlines (oneEntry id (body ++ 34 :: trail))).length + 8 < 2147483647)
    (hfuel : (unlines (oneEntry id (body ++ 34 :: trail))).length + 2 ≤ c.fuel) :
    observe (run c (.ofBytes (unlines (oneEntry id (body ++ 34 :: trail)))) d)
      = .returned (if text = [] then d else ((Add.singular none id text).apply d).1)
          (u.map (fun e => .po .warning c.filename 2 (b!"unhandled escape '\\" ++ [e] ++ b!"'")
              (b!"msgstr \"" ++ body ++ 34 :: trail)) ++
           (if Blank c.ct trail then [] else
              [.po .warning c.filename 2 b!"unexpected garbage after string ignoren" (b!"msgstr \"" ++ body ++ 34 :: trail)]) ++
           (if text = [] then [] else ((Add.singular none id text).apply d).2)) := by
  have hr : (10 : Byte) ∉ body ++ 34 :: trail := by
    simp only [List.mem_append, List.mem_cons, not_or] at hnl ⊢
    exact ⟨hnl.1, by decide, hnl.2⟩
  have ht := oneEntry_ok id _ hr hsize
  obtain ⟨h1, h2, h3, h4⟩ := text_tape _ ht
  have hev := two_ok (ct := c.ct) (fuel := c.fuel) id (body ++ 34 :: trail) hid
    (by have := unlines_length (oneEntry id (body ++ 34 :: trail)); simp [oneEntry] at this ⊢; simp [oneEntry] at hfuel; omega) h4 h1.1 h1.2.1
    (h3 2 (by simp [oneEntry])) (fun q => by rw [h2]; simp [oneEntry]) (lex_lit hlit trail)
  rw [run_obs c _ d (by show (unlines _).length < _; omega)]
  have hl1 : (startTape (.ofBytes (unlines (oneEntry id (body ++ 34 :: trail)))) 1).line = b!"msgstr \"" ++ body ++ 34 :: trail := by
    rw [List.append_assoc]; exact h1.2.1
  unfold events
  rw [hev]
  unfold obsE
  dsimp only
  rw [interp_append, bind_apply, interp_lineWarnings]
  dsimp only
  have hblank : (trail.any (fun b => !c.ct.isspace b) = true) ↔ ¬ Blank c.ct trail := by
    unfold Blank; simp
  rw [hl1]
  by_cases hte : text = []
  · rw [if_pos hte, if_pos hte, if_pos hte]
    by_cases hb : Blank c.ct trail
    · simp [interp, Prog.pure, initState, hblank, hb, unknownMsg]
    · simp [interp, Prog.pure, initState, hblank, hb, unknownMsg]
  · rw [if_neg hte, if_neg hte, if_neg hte]
    by_cases hb : Blank c.ct trail
    · simp [interp, bind_apply, evStep, convert, IConv.convert, IConv.init, Prog.pure, initState, hblank, hb, unknownMsg]
    · simp [interp, bind_apply, evStep, convert, IConv.convert, IConv.init, Prog.pure, initState, hblank, hb, unknownMsg]

/-- C28.  Anything else is rejected: if the line after the opening quote is not a string body followed by a closing
quote, the dictionary stays as it is and an error is logged about this line. -/
theorem C28_reject (c : Cfg) (d : Dictionary) (id r : Str) (hnl : (10 : Byte) ∉ r)
    (hlit : ∀ body trail text u, r = body ++ 34 :: trail → ¬ Lit false body text u)
    (hsize : (unlines (oneEntry id r)).length + 8 < 2147483647)
    (hfuel : (unlines (oneEntry id r)).length + 2 ≤ c.fuel) :
    ∃ log m, observe (run c (.ofBytes (unlines (oneEntry id r))) d)
      = .returned d (log ++ [.po .error c.filename 2 m (b!"msgstr \"" ++ r)]) := by
  have ht := oneEntry_ok id _ hnl hsize
  obtain ⟨h1, h2, h3, h4⟩ := text_tape _ ht
  have hx : ∀ t, (lex false r).res ≠ .ok t := by
    rintro ⟨text, rest⟩ h
    obtain ⟨body, hb, hl⟩ := lit_lex false r.length r text rest (Nat.le_refl _) h
    exact hlit body rest text _ hb hl
  obtain ⟨m, w, hev, hw⟩ := two_fail (ct := c.ct) (fuel := c.fuel) id r
    (by have := unlines_length (oneEntry id r); simp [oneEntry] at this ⊢; simp [oneEntry] at hfuel; omega) h4 h1.1 h1.2.1
    (h3 2 (by simp [oneEntry])) (fun q => by rw [h2]; simp [oneEntry]) hx
  rw [run_obs c _ d (by show (unlines _).length < _; omega)]
  unfold events
  rw [hev]
  unfold obsE
  dsimp only
  obtain ⟨l, hl⟩ := interp_diags c (startTape (.ofBytes (unlines (oneEntry id r)))) w [] (initState (.ofBytes (unlines (oneEntry id r))) d) hw
  rw [interp_append, bind_apply, hl]
  refine ⟨l, m, ?_⟩
  have hl1 : (startTape (.ofBytes (unlines (oneEntry id r))) 1).line = b!"msgstr \"" ++ r := h1.2.1
  simp [interp, bind_apply, evStep, Prog.pure, initState, hl1]

/-- C28.  The meaning of a string line is unique: a line has at most one closing quote and one meaning. -/
theorem C28_unique (big5 : Bool) (body body' trail trail' text text' : Str) (u u' : List Byte)
    (h : Lit big5 body text u) (h' : Lit big5 body' text' u') (he : body ++ 34 :: trail = body' ++ 34 :: trail') :
    body = body' ∧ trail = trail' ∧ text = text' ∧ u = u' := by
  have h1 := lex_lit h trail
  have h2 := lex_lit h' trail'
  rw [he, h2] at h1
  simp only [Lex.mk.injEq, Except.ok.injEq, Prod.mk.injEq] at h1
  obtain ⟨rfl, rfl, rfl⟩ := h1
  exact ⟨List.append_cancel_right he, rfl, rfl, rfl⟩

/-- C28.  Writing any byte string in escaped form and parsing it gives it back, without any message. -/
theorem C28_escape_round_trip (c : Cfg) (d : Dictionary) (id text : Str) (hid : id ≠ []) (ht : text ≠ [])
    (hsize : (unlines (oneEntry id (escape text ++ [34]))).length + 8 < 2147483647)
    (hfuel : (unlines (oneEntry id (escape text ++ [34]))).length + 2 ≤ c.fuel) :
    observe (run c (.ofBytes (unlines (oneEntry id (escape text ++ [34])))) d)
      = .returned ((Add.singular none id text).apply d).1 ((Add.singular none id text).apply d).2 := by
  have := C28_decode c d id (escape text) [] text [] hid (escape_lit text)
    (by rw [List.append_nil]; exact escape_no_nl text) hsize hfuel
  rw [this, if_neg ht, if_neg ht, if_pos (show Blank c.ct [] from fun x hx => by cases hx)]
  simp

-- a line with known and unknown escapes, a Latin-1 byte and trailing garbage meets the hypotheses
example : Lit false b!"a\\n\\q\\\"" (b!"a\n\\q\"") b!"q" :=
  .plain (by decide) (by decide) (by simp) (.esc (by decide) (.unknown (by simp [escapes]) (.esc (by decide) .nil)))

example : observe (run ⟨.c, demoLib, true, b!"f", false, 100⟩ (.ofBytes (unlines (oneEntry b!"x" b!"a\\n\\q\\\"\" z"))) (.init b!"UTF-8"))
    = .returned ((Add.singular none b!"x" b!"a\n\\q\"").apply (.init b!"UTF-8")).1
        [.po .warning b!"f" 2 b!"unhandled escape '\\q'" b!"msgstr \"a\\n\\q\\\"\" z",
         .po .warning b!"f" 2 b!"unexpected garbage after string ignoren" b!"msgstr \"a\\n\\q\\\"\" z"] := by decide +kernel

-- lines without closing quote, or with a backslash at the end, are rejected
example : ∀ body trail text u, b!"abc\\" = body ++ 34 :: trail → ¬ Lit false body text u := by
  intro body trail text u h
  have : (34 : Byte) ∈ b!"abc\\" := by rw [h]; simp
  exact absurd this (by decide)

end Tgt
