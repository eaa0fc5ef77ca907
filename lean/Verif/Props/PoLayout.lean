import Verif.Proofs.TwoLines
import Verif.Props.PoFile
/-
Properties of the layout of PO files: C29, C43 (for well-formed files).
-/
namespace Tgt
open Spec Spec.Po POParser

/-! ### C29: strings in pieces -/

/-- C29.  The meaning of a well-formed file is given by its entries alone: two files with the same entries do the
same to a dictionary, however their strings are split into quoted lines, indented, escaped, commented and
separated. -/
theorem C29_layout (c : Cfg) (d : Dictionary) {st st' : Bool} {ls ls' : List Str} {es : List Entry}
    (h : File c.ct st false ls es) (h' : File c.ct st' false ls' es) (ht : TextOk ls) (ht' : TextOk ls')
    (hf : (unlines ls).length + 2 ≤ c.fuel) (hf' : (unlines ls').length + 2 ≤ c.fuel) :
    (observe (run c (.ofBytes (unlines ls)) d)).noLog = (observe (run c (.ofBytes (unlines ls')) d)).noLog := by
  rw [run_file c h ht hf, run_file c h' ht' hf']

/-- C29.  If both are strictly well-formed, even the messages are the same, up to the lines they refer to. -/
theorem C29_layout_messages (c : Cfg) (d : Dictionary) {ls ls' : List Str} {es : List Entry}
    (h : File c.ct true false ls es) (h' : File c.ct true false ls' es) (ht : TextOk ls) (ht' : TextOk ls')
    (hf : (unlines ls).length + 2 ≤ c.fuel) (hf' : (unlines ls').length + 2 ≤ c.fuel) :
    (observe (run c (.ofBytes (unlines ls)) d)).mapLog (List.map unplaced)
      = (observe (run c (.ofBytes (unlines ls')) d)).mapLog (List.map unplaced) := by
  rw [run_file_log c h ht hf, run_file_log c h' ht' hf']

section
variable {ct : CType} {st : Bool}

theorem writeSplit_conts (ps : List Str) : Conts ct false st (ps.map (fun t => [34] ++ escape t ++ [34])) ps.flatten := by
  induction ps with
  | nil => exact .nil
  | cons p ps ih =>
    have h1 : Quoted ct false st (34 :: escape p ++ 34 :: []) p := .mk (escape_lit p) (fun _ => ⟨rfl, blank_nil⟩)
    have := Conts.cons (ws := []) blank_nil (by simp) h1 ih
    simpa using this

theorem writeSplit_field (kw : Str) (x : Pieces) : Field ct false st kw (writeSplit kw x) x.join := by
  have h1 : Quoted ct false st (34 :: escape x.first ++ 34 :: []) x.first := .mk (escape_lit _) (fun _ => ⟨rfl, blank_nil⟩)
  have h2 : Blank ct [32] := by
    intro x hx
    simp at hx
    subst hx
    rw [ct.isspace_ascii 32 (by decide)]; decide
  have := Field.mk (kw := kw) h2 (fun _ => rfl) h1 (writeSplit_conts (ct := ct) (st := st) x.more)
  simpa [writeSplit, writeField, Pieces.join] using this

theorem writeSplitStrs_lines : ∀ (r : List Pieces) (n : Nat), r ≠ [] → n + r.length ≤ 10 →
    PluralLines ct false st (writeSplitStrs n r) ((List.range' n r.length).zip (r.map Pieces.join)) := by
  intro r
  induction r with
  | nil => intro n h; exact absurd rfl h
  | cons s r ih =>
    intro n _ hn
    simp only [List.length_cons] at hn
    cases r with
    | nil =>
      simp only [writeSplitStrs, List.length_cons, List.length_nil, List.range'_succ, List.range'_zero, List.map_cons,
        List.zip_cons_cons, List.zip_nil_right, List.map_nil, List.append_nil]
      exact .one (by omega) (writeSplit_field _ _)
    | cons s2 r2 =>
      have := ih (n + 1) (by simp) (by simp at hn ⊢; omega)
      rw [List.length_cons, List.range'_succ, List.map_cons, List.zip_cons_cons]
      exact .more (by omega) (writeSplit_field _ _) this

theorem writeSplitMessage_entry (m : SplitMessage) (h : m.plural ≠ none → m.strs ≠ [] ∧ m.strs.length ≤ 10) :
    EntryLines ct false st (writeSplitMessage m) (entryOf m.join) := by
  have hc : CtxtLines ct false st (writeSplitCtxt m.ctxt) (m.ctxt.map Pieces.join) := by
    cases m.ctxt with
    | none => exact .none
    | some c => exact .some (writeSplit_field _ _)
  unfold writeSplitMessage entryOf SplitMessage.join
  cases hp : m.plural with
  | none =>
    have := EntryLines.single (ct := ct) (big5 := false) (strict := st) (cs := []) (fz := false) (by simp) (by simp) hc
      (writeSplit_field b!"msgid" m.msgid) (writeSplit_field b!"msgstr" (m.strs.headD ⟨[], []⟩))
    have hj : (m.strs.headD ⟨[], []⟩).join = (m.strs.map Pieces.join).headD [] := by cases m.strs <;> rfl
    rw [hj] at this
    simpa using this
  | some p =>
    obtain ⟨h1, h2⟩ := h (by rw [hp]; simp)
    have := EntryLines.plural (ct := ct) (big5 := false) (strict := st) (cs := []) (fz := false) (by simp) (by simp) hc
      (writeSplit_field b!"msgid" m.msgid) (writeSplit_field b!"msgid_plural" p) (writeSplitStrs_lines m.strs 0 h1 (by omega))
    simpa using this

theorem join_plural {m : SplitMessage} (h : m.join.Ok) : m.plural ≠ none → m.strs ≠ [] ∧ m.strs.length ≤ 10 := by
  intro hp
  have := ok_plural h (by simpa [SplitMessage.join] using hp)
  simpa [SplitMessage.join] using this

theorem writeSplitMessages_file (ms : List SplitMessage) (h : ∀ m ∈ ms, m.join.Ok) :
    File ct st false (writeSplitMessages ms) ((ms.map SplitMessage.join).map entryOf) := by
  induction ms with
  | nil => exact .comments (fun l hl => by cases hl)
  | cons m ms ih =>
    have hm := h m List.mem_cons_self
    have := File.entry (ct := ct) (strict := st) (b := false) (writeSplitMessage_entry m (join_plural hm)) (sep := []) (.inl blank_nil)
      (ls' := writeSplitMessages ms) (es := (ms.map SplitMessage.join).map entryOf)
      (by rw [ok_header hm]; exact ih (fun x hx => h x (List.mem_cons_of_mem _ hx)))
    simpa [writeSplitMessages] using this
end

theorem writeSplit_no_nl (kw : Str) (x : Pieces) (h : (10 : Byte) ∉ kw) : ∀ l ∈ writeSplit kw x, (10 : Byte) ∉ l := by
  intro l hl
  rcases List.mem_cons.1 hl with rfl | hl
  · exact writeField_no_nl _ _ h
  · obtain ⟨t, _, rfl⟩ := List.mem_map.1 hl
    simp only [List.mem_append, List.mem_cons, List.not_mem_nil, or_false, not_or]
    exact ⟨⟨by decide, escape_no_nl t⟩, by decide⟩

theorem writeSplitStrs_no_nl : ∀ (r : List Pieces) (n : Nat), n + r.length ≤ 10 → ∀ l ∈ writeSplitStrs n r, (10 : Byte) ∉ l := by
  intro r
  induction r with
  | nil => intro n _ l hl; cases hl
  | cons s r ih =>
    intro n hn l hl
    simp only [List.length_cons] at hn
    rcases List.mem_append.1 hl with hl | hl
    · exact writeSplit_no_nl _ _ (msgstrN_no_nl n (by omega)) l hl
    · exact ih (n + 1) (by omega) l hl

theorem writeSplitMessages_no_nl (ms : List SplitMessage) (h : ∀ m ∈ ms, m.join.Ok) : ∀ l ∈ writeSplitMessages ms, (10 : Byte) ∉ l := by
  intro l hl
  obtain ⟨m, hm, hl⟩ := List.mem_flatMap.1 hl
  rcases List.mem_append.1 hl with hl | hl
  · unfold writeSplitMessage at hl
    rcases List.mem_append.1 hl with hl | hl
    · rcases List.mem_append.1 hl with hl | hl
      · cases hc : m.ctxt with
        | none => rw [hc] at hl; cases hl
        | some x => rw [hc] at hl; exact writeSplit_no_nl _ _ (by decide) l hl
      · exact writeSplit_no_nl _ _ (by decide) l hl
    · cases hp : m.plural with
      | none => rw [hp] at hl; exact writeSplit_no_nl _ _ (by decide) l hl
      | some p =>
        rw [hp] at hl
        rcases List.mem_append.1 hl with hl | hl
        · exact writeSplit_no_nl _ _ (by decide) l hl
        · exact writeSplitStrs_no_nl _ 0 (by have := (join_plural (h m hm) (by rw [hp]; simp)).2; omega) l hl
  · simp at hl; subst hl; simp

theorem writeSplitMessages_head (ms : List SplitMessage) : ((writeSplitMessages ms).headD []).head? ≠ some 0xef := by
  cases ms with
  | nil => simp [writeSplitMessages]
  | cons m ms =>
    unfold writeSplitMessages
    rw [List.flatMap_cons]
    unfold writeSplitMessage
    cases m.ctxt with
    | none => simp [writeSplitCtxt, writeSplit, writeField]
    | some c => simp [writeSplitCtxt, writeSplit, writeField]

/-- C29.  Take any messages and cut each of their strings (context, msgid, plural msgid, every translation) into any
number of pieces, one quoted line per piece: the parse does exactly what it does with the strings in one piece, and
so does what the concatenations say. -/
theorem C29_split (c : Cfg) (d : Dictionary) (ms : List SplitMessage) (hms : ∀ m ∈ ms, m.join.Ok)
    (hn : ∀ m ∈ ms, m.plural ≠ none → d.pluralForms.isDefined = true ∧ m.strs.length = d.pluralForms.getNplural)
    (hsize : (unlines (writeSplitMessages ms)).length + 8 < 2147483647)
    (hfuel : (unlines (writeSplitMessages ms)).length + 2 ≤ c.fuel) :
    observe (run c (.ofBytes (unlines (writeSplitMessages ms))) d)
      = .returned (addAll d (ms.map (fun m => m.join.add))) (addLog d (ms.map (fun m => m.join.add))) := by
  have hfile := writeSplitMessages_file (ct := c.ct) (st := true) ms hms
  have htext := textOk_small _ (writeSplitMessages_no_nl ms hms) hsize (writeSplitMessages_head ms)
  have hrun := run_file_log c hfile htext hfuel d
  apply observed_placed _ _ _ ?_ (addLog_not_po _ d)
  have hms' : ∀ m ∈ ms.map SplitMessage.join, m.Ok := by
    intro m hm
    obtain ⟨x, hx, rfl⟩ := List.mem_map.1 hm
    exact hms x hx
  rw [hrun, load_messages rfl (ms.map SplitMessage.join) hms' d [] (by
    intro m hm hp
    obtain ⟨x, hx, rfl⟩ := List.mem_map.1 hm
    have := hn x hx (by simpa [SplitMessage.join] using hp)
    simpa [SplitMessage.join] using this)]
  rw [List.map_map]
  rfl

/-- A message in pieces. -/
def demoSplit : List SplitMessage :=
  [⟨some ⟨b!"me", [b!"", b!"nu"]⟩, ⟨[], [b!"Fi\n", b!"le"]⟩, none, [⟨[], [b!"Da", b!"\"tei"]⟩]⟩]

example : ∀ m ∈ demoSplit, m.join.Ok := by
  intro m hm
  simp only [demoSplit, List.mem_cons, List.not_mem_nil, or_false] at hm
  subst hm
  simp [SplitMessage.join, Message.Ok, Pieces.join]

example : observe (run ⟨.c, demoLib, true, b!"f", false, 100⟩ (.ofBytes (unlines (writeSplitMessages demoSplit))) (.init b!"UTF-8"))
    = .returned ((Add.singular (some b!"menu") b!"Fi\nle" b!"Da\"tei").apply (.init b!"UTF-8")).1 [] := by decide +kernel

/-! ### C43: gaps between entries -/

theorem entryLines_comment {ct : CType} {b st : Bool} {ls : List Str} {e : Entry} {l : Str} (hc : Comment l) (hf : ¬ FuzzyFlag l)
    (h : EntryLines ct b st ls e) : EntryLines ct b st (l :: ls) e := by
  have hcs : ∀ {cs : List Str}, (∀ x ∈ cs, Comment x) → ∀ x ∈ l :: cs, Comment x := by
    intro cs h x hx
    rcases List.mem_cons.1 hx with rfl | hx
    · exact hc
    · exact h x hx
  have hfz : ∀ {cs : List Str} {fz : Bool}, (fz = true ↔ ∃ x ∈ cs, FuzzyFlag x) → (fz = true ↔ ∃ x ∈ l :: cs, FuzzyFlag x) := by
    intro cs fz h
    rw [h]
    constructor
    · rintro ⟨x, hx, hf⟩; exact ⟨x, List.mem_cons_of_mem _ hx, hf⟩
    · rintro ⟨x, hx, hf'⟩
      rcases List.mem_cons.1 hx with rfl | hx
      · exact absurd hf' hf
      · exact ⟨x, hx, hf'⟩
  cases h with
  | single h1 h2 h3 h4 h5 => exact .single (cs := l :: _) (hcs h1) (hfz h2) h3 h4 h5
  | plural h1 h2 h3 h4 h5 h6 => exact .plural (cs := l :: _) (hcs h1) (hfz h2) h3 h4 h5 h6

theorem file_filler {ct : CType} {b st : Bool} {ls : List Str} {es : List Entry} {l : Str} (hl : Filler ct l)
    (h : File ct st b ls es) : File ct st b (l :: ls) es := by
  rcases hl with hl | ⟨hc, hf⟩
  · exact .blank (cs := []) (fun x hx => by cases hx) hl h
  · have hcs : ∀ {cs : List Str}, (∀ x ∈ cs, Comment x) → ∀ x ∈ l :: cs, Comment x := by
      intro cs h x hx
      rcases List.mem_cons.1 hx with rfl | hx
      · exact hc
      · exact h x hx
    cases h with
    | comments h => exact .comments (hcs h)
    | blank h1 h2 h3 => exact .blank (cs := l :: _) (hcs h1) h2 h3
    | last h => exact .last (entryLines_comment hc hf h)
    | entry h1 h2 h3 => exact .entry (ls := l :: _) (entryLines_comment hc hf h1) h2 h3

theorem file_fillers {ct : CType} {b st : Bool} {ls : List Str} {es : List Entry} (fs : List Str) (hfs : ∀ l ∈ fs, Filler ct l)
    (h : File ct st b ls es) : File ct st b (fs ++ ls) es := by
  induction fs with
  | nil => exact h
  | cons f fs ih => exact file_filler (hfs f List.mem_cons_self) (ih (fun l hl => hfs l (List.mem_cons_of_mem _ hl)))

theorem withGaps_file {ct : CType} {st : Bool} (g : Nat → List Str) (hg : GapsOk ct g) :
    ∀ (chunks : List (List Str × Entry)) (b : Bool) (i : Nat), EntriesOk ct st b chunks →
    (File ct st b (withGaps g i chunks) (chunks.map Prod.snd)) ∧
    (∀ s r, g i = s :: r → ∃ t, withGaps g i chunks = s :: t ∧ File ct st b t (chunks.map Prod.snd)) := by
  intro chunks
  induction chunks with
  | nil =>
    intro b i _
    have h0 : ∀ fs : List Str, (∀ l ∈ fs, Filler ct l) → File ct st b fs [] := by
      intro fs hfs
      have := file_fillers fs hfs (File.comments (ct := ct) (strict := st) (b := b) (cs := []) (fun x hx => by cases hx))
      simpa using this
    refine ⟨h0 _ (hg i).1, ?_⟩
    intro s r hs
    exact ⟨r, hs, h0 r (fun l hl => (hg i).1 l (by rw [hs]; exact List.mem_cons_of_mem _ hl))⟩
  | cons x chunks ih =>
    obtain ⟨ls, e⟩ := x
    intro b i h
    obtain ⟨s, r, hs, hsep⟩ := (hg (i + 1)).2 (by omega)
    obtain ⟨t, ht, hfile⟩ := (ih _ (i + 1) h.2).2 s r hs
    have hentry : File ct st b (ls ++ withGaps g (i + 1) chunks) (e :: chunks.map Prod.snd) := by
      rw [ht]; exact .entry h.1 hsep hfile
    have h0 : ∀ fs : List Str, (∀ l ∈ fs, Filler ct l) → File ct st b (fs ++ ls ++ withGaps g (i + 1) chunks) (e :: chunks.map Prod.snd) := by
      intro fs hfs
      rw [List.append_assoc]
      exact file_fillers fs hfs hentry
    refine ⟨h0 _ (hg i).1, ?_⟩
    intro s' r' hs'
    refine ⟨r' ++ ls ++ withGaps g (i + 1) chunks, by simp [withGaps, hs'], h0 r' ?_⟩
    exact fun l hl => (hg i).1 l (by rw [hs']; exact List.mem_cons_of_mem _ hl)

/-- C43.  Between entries, and before the first and after the last one, there can be any blank lines and comments
without a fuzzy flag (directly after an entry, a separator is required): for the same entries, any two choices of
these gaps give the same outcome and dictionary. -/
theorem C43_gaps (c : Cfg) (d : Dictionary) {st : Bool} (chunks : List (List Str × Entry)) (g g' : Nat → List Str)
    (h : EntriesOk c.ct st false chunks) (hg : GapsOk c.ct g) (hg' : GapsOk c.ct g')
    (ht : TextOk (withGaps g 0 chunks)) (ht' : TextOk (withGaps g' 0 chunks))
    (hf : (unlines (withGaps g 0 chunks)).length + 2 ≤ c.fuel) (hf' : (unlines (withGaps g' 0 chunks)).length + 2 ≤ c.fuel) :
    (observe (run c (.ofBytes (unlines (withGaps g 0 chunks))) d)).noLog
      = (observe (run c (.ofBytes (unlines (withGaps g' 0 chunks))) d)).noLog :=
  C29_layout c d (withGaps_file g hg chunks false 0 h).1 (withGaps_file g' hg' chunks false 0 h).1 ht ht' hf hf'

/-- C43.  For strictly well-formed entries the messages do not change either, but for the lines they refer to. -/
theorem C43_gaps_messages (c : Cfg) (d : Dictionary) (chunks : List (List Str × Entry)) (g g' : Nat → List Str)
    (h : EntriesOk c.ct true false chunks) (hg : GapsOk c.ct g) (hg' : GapsOk c.ct g')
    (ht : TextOk (withGaps g 0 chunks)) (ht' : TextOk (withGaps g' 0 chunks))
    (hf : (unlines (withGaps g 0 chunks)).length + 2 ≤ c.fuel) (hf' : (unlines (withGaps g' 0 chunks)).length + 2 ≤ c.fuel) :
    (observe (run c (.ofBytes (unlines (withGaps g 0 chunks))) d)).mapLog (List.map unplaced)
      = (observe (run c (.ofBytes (unlines (withGaps g' 0 chunks))) d)).mapLog (List.map unplaced) :=
  C29_layout_messages c d (withGaps_file g hg chunks false 0 h).1 (withGaps_file g' hg' chunks false 0 h).1 ht ht' hf hf'

/-- Two entries. -/
def demoChunks : List (List Str × Entry) :=
  demoMessages.map (fun m => (writeMessage m, entryOf m))

/-- Gaps with a comment in each. -/
def demoGaps : Nat → List Str
  | 0 => [b!"# start", b!"#, c-format", []]
  | _ => [b!"#", b!" \t", b!"#: src/x.cpp:1", []]

example : EntriesOk .c true false demoChunks :=
  ⟨writeMessage_entry _ (by decide), writeMessage_entry _ (by decide), writeMessage_entry _ (by decide),
    writeMessage_entry _ (by decide), trivial⟩

theorem not_fuzzy (l : Str) (h : fuzzyFlag l = false) (hc : Comment l) : ¬ FuzzyFlag l := by
  intro hf
  rw [(fuzzyFlag_iff l hc).2 hf] at h
  cases h

example : GapsOk .c demoGaps := by
  intro i
  cases i with
  | zero =>
    refine ⟨?_, fun h => absurd rfl h⟩
    intro l hl
    simp only [demoGaps, List.mem_cons, List.not_mem_nil, or_false] at hl
    rcases hl with rfl | rfl | rfl
    · exact .inr ⟨rfl, not_fuzzy _ (by decide) rfl⟩
    · exact .inr ⟨rfl, not_fuzzy _ (by decide) rfl⟩
    · exact .inl blank_nil
  | succ n =>
    refine ⟨?_, fun _ => ⟨_, _, rfl, .inr (.inl rfl)⟩⟩
    intro l hl
    simp only [demoGaps, List.mem_cons, List.not_mem_nil, or_false] at hl
    rcases hl with rfl | rfl | rfl | rfl
    · exact .inr ⟨rfl, not_fuzzy _ (by decide) rfl⟩
    · exact .inl (by decide)
    · exact .inr ⟨rfl, not_fuzzy _ (by decide) rfl⟩
    · exact .inl blank_nil

end Tgt
