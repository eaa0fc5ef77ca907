import Verif.Proofs.Grammar
/-
Entries and files, read by tape code.
-/
namespace Tgt.POParser
open Spec Spec.Po

section
variable {ct : CType} {fuel : Nat} {T : Tape} {big5 st : Bool}

theorem isspace_false (ct : CType) (b : Byte) (h1 : b < 128) (h2 : (b == 32 || (9 ≤ b && b ≤ 13)) = false) :
    ct.isspace b = false := by rw [ct.isspace_ascii b h1, h2]

/-- A line that starts with a keyword. -/
theorem m_line (l t : Str) (h : l = 109 :: t) :
    emptyLine ct l = false ∧ scanQuote ct l 0 = none ∧ ¬ Comment l := by
  subst h
  have hm : ct.isspace 109 = false := isspace_false ct _ (by decide) (by decide)
  refine ⟨?_, ?_, ?_⟩
  · unfold emptyLine
    simp [hm]
  · simp [scanQuote, hm]
  · simp [Comment]

theorem separator_iff (l : Str) : Separator ct l ↔ emptyLine ct l = true := by
  have h35 : ct.isspace 35 = false := isspace_false ct _ (by decide) (by decide)
  unfold Separator emptyLine Blank
  match l with
  | [] => simp
  | [b] =>
    by_cases hb : b = 35
    · subst hb; simp
    · simp [hb]
      
  | b :: c :: t =>
    by_cases hb : b = 35
    · subst hb; simp [h35]
    · constructor
      · rintro (h | h | ⟨b', t', h, _⟩)
        · simp [hb]; exact ⟨h b (by simp), h c (by simp), fun x hx => h x (by simp [hx])⟩
        · simp at h
        · simp only [List.cons.injEq] at h; exact absurd h.1 hb
      · intro h
        left
        simp [hb] at h
        intro x hx
        simp only [List.mem_cons] at hx
        rcases hx with rfl | rfl | hx
        · exact h.1
        · exact h.2.1
        · exact h.2.2 x hx

theorem blank_scan (l : Str) (h : Blank ct l) (i : Nat) : scanQuote ct l i = none := by
  induction l generalizing i with
  | nil => rfl
  | cons b t ih =>
    have hb := h b List.mem_cons_self
    have : b ≠ 34 := by rintro rfl; rw [isspace_quote] at hb; cases hb
    simp only [scanQuote, this, if_false, hb, if_true]
    exact ih (fun x hx => h x (List.mem_cons_of_mem _ hx)) _

theorem comment_scan (l : Str) (h : Comment l) (i : Nat) : scanQuote ct l i = none := by
  have h35 : ct.isspace 35 = false := isspace_false ct _ (by decide) (by decide)
  cases l with
  | nil => rfl
  | cons b t =>
    have : b = 35 := by simpa [Comment] using h
    subst this
    simp [scanQuote, h35]

theorem empty_scan (l : Str) (h : emptyLine ct l = true) : scanQuote ct l 0 = none := by
  rcases (separator_iff l).2 h with h | rfl | ⟨b, t, rfl, _⟩
  · exact blank_scan l h 0
  · exact comment_scan b!"#" (by rfl) 0
  · exact comment_scan (35 :: b :: t) (by rfl) 0

theorem blank_not_comment (l : Str) (h : Blank ct l) : ¬ Comment l := by
  have h35 : ct.isspace 35 = false := isspace_false ct _ (by decide) (by decide)
  intro hc
  cases l with
  | nil => simp [Comment] at hc
  | cons b t =>
    have : b = 35 := by simpa [Comment] using hc
    subst this
    have := h 35 List.mem_cons_self
    rw [h35] at this; cases this

/-- The first line of a field. -/
theorem field_head {kw : Str} {ls : List Str} {text : Str} (h : Field ct big5 st kw ls text) :
    ∃ sep q' ls', ls = (kw ++ (sep ++ 34 :: q')) :: ls' ∧ Blank ct sep := by
  obtain ⟨hsep, h2, hq, hc⟩ := h
  rename_i sep q t ls rest
  obtain ⟨hlit, h3⟩ := hq
  rename_i body u trail
  exact ⟨sep, body ++ 34 :: trail, ls, by simp, hsep⟩

theorem prefix_kw (kw r : Str) : hasPrefix kw (kw ++ r) = true := by
  unfold hasPrefix
  rw [List.isPrefixOf_iff_prefix]
  exact ⟨r, rfl⟩

/-- What follows the keyword is white space or a quote. -/
theorem sep_head {sep q : Str} (hsep : Blank ct sep) : ∃ b t, sep ++ 34 :: q = b :: t ∧ (b = 34 ∨ ct.isspace b = true) := by
  cases sep with
  | nil => exact ⟨34, q, rfl, .inl rfl⟩
  | cons b t => exact ⟨b, _, rfl, .inr (hsep b List.mem_cons_self)⟩

theorem not_plural_kw {sep q : Str} (hsep : Blank ct sep) : hasPrefix b!"msgid_plural" (b!"msgid" ++ (sep ++ 34 :: q)) = false := by
  obtain ⟨b, t, h, hb⟩ := sep_head (q := q) hsep
  rw [h]
  have : b ≠ 95 := by
    rintro rfl
    rcases hb with hb | hb
    · cases hb
    · rw [isspace_false ct 95 (by decide) (by decide)] at hb; cases hb
  simp [hasPrefix, List.isPrefixOf, Ne.symm this]

theorem msgstrIndex_kw (n : Nat) (h : n ≤ 9) (r : Str) : msgstrIndex (msgstrN n ++ r) = some n := by
  have : n = 0 ∨ n = 1 ∨ n = 2 ∨ n = 3 ∨ n = 4 ∨ n = 5 ∨ n = 6 ∨ n = 7 ∨ n = 8 ∨ n = 9 := by omega
  rcases this with rfl | rfl | rfl | rfl | rfl | rfl | rfl | rfl | rfl | rfl <;> rfl

theorem msgstrN_length (n : Nat) : (msgstrN n).length = 9 := rfl

theorem pluralLines_pos {ls : List Str} {strs : List (Nat × Str)} (h : PluralLines ct big5 st ls strs) :
    ∃ n sep q ls', n ≤ 9 ∧ ls = (msgstrN n ++ (sep ++ 34 :: q)) :: ls' ∧ Blank ct sep := by
  cases h with
  | one hn hf =>
    obtain ⟨sep, q, ls', h1, h2⟩ := field_head hf
    exact ⟨_, sep, q, ls', hn, h1, h2⟩
  | more hn hf _ =>
    obtain ⟨sep, q, ls', h1, h2⟩ := field_head hf
    exact ⟨_, sep, q, _, hn, by rw [h1]; rfl, h2⟩

theorem y_pluralLoop (hs : Short T) {ls : List Str} {strs : List (Nat × Str)} (h : PluralLines ct big5 st ls strs) :
    ∀ (f p : Nat) (first saw : Bool), At T p ls → ls.length < f → ls.length ≤ fuel → p + ls.length < intMax →
      emptyLine ct (T (p + ls.length)).line = true →
      Yields st (pluralLoopE ct fuel T big5 f first saw) p (strs.map (fun x => Ev.conv x.1 x.2))
        (saw || strs.any (fun x => !x.2.isEmpty)) (p + ls.length) := by
  have hend : ∀ (f p : Nat) (saw : Bool), emptyLine ct (T p).line = true → 0 < f →
      Yields st (pluralLoopE ct fuel T big5 f false saw) p [] saw p := by
    intro f p saw he hf
    obtain ⟨f, rfl⟩ : ∃ g, f = g + 1 := ⟨f - 1, by omega⟩
    unfold pluralLoopE
    refine Yields.line (Yields.ite _ (fun _ => ?_) (fun h => absurd he h))
    rw [if_neg (by decide)]
    exact Yields.pure _
  have step : ∀ {n : Nat} {ls : List Str} {t : Str} (f p : Nat) (first saw : Bool) (w : List Ev) (a : Bool) (r : Nat),
      n ≤ 9 → Field ct big5 st (msgstrN n) ls t → At T p ls → ls.length ≤ fuel → p + ls.length < intMax →
      scanQuote ct (T (p + ls.length)).line 0 = none →
      Yields st (pluralLoopE ct fuel T big5 f false (saw || !t.isEmpty)) (p + ls.length) w a r →
      Yields st (pluralLoopE ct fuel T big5 (f + 1) first saw) p (Ev.conv n t :: w) a r := by
    intro n ls t f p first saw w a r hn hf hat hfu hm hq hy
    obtain ⟨sep, q, ls', rfl, hsep⟩ := field_head hf
    have hl := hat.1
    have hml := m_line (ct := ct) (T p).line _ (by rw [hl]; rfl)
    unfold pluralLoopE
    refine Yields.line (Yields.ite _ (fun he => ?_) (fun _ => ?_))
    · rw [hml.1] at he; cases he
    · have : msgstrIndex (T p).line = some n := by rw [hl]; exact msgstrIndex_kw n hn _
      rw [this]
      dsimp only
      refine Yields.bind0 (y_getString hs hf p 9 (msgstrN_length n) hat hfu hm hq) ?_
      refine Yields.bind (w1 := [Ev.conv n t]) (w2 := w) (Yields.emit rfl) ?_
      have e1 : (if (!t.isEmpty) = true then true else saw) = (saw || !t.isEmpty) := by
        cases t.isEmpty <;> simp
      rw [e1]
      exact hy
  induction h with
  | @one n ls t hn hf =>
    intro f p first saw hat hf1 hf2 hm he
    obtain ⟨f, rfl⟩ : ∃ g, f = g + 1 := ⟨f - 1, by omega⟩
    have hpos : 0 < f := by
      obtain ⟨sep, q, ls', rfl, _⟩ := field_head hf
      simp at hf1; omega
    have := step f p first saw [] (saw || !t.isEmpty) (p + ls.length) hn hf hat hf2 hm (empty_scan _ he) (hend f _ _ he hpos)
    simpa using this
  | @more n ls t ls' r hn hf hr ih =>
    intro f p first saw hat hf1 hf2 hm he
    obtain ⟨f, rfl⟩ : ∃ g, f = g + 1 := ⟨f - 1, by omega⟩
    rw [List.length_append] at hf1 hf2 hm he ⊢
    obtain ⟨hat1, hat2⟩ := At_append.1 hat
    have hpos : 0 < ls.length := by
      obtain ⟨sep, q, ls', rfl, _⟩ := field_head hf
      simp
    have hq : scanQuote ct (T (p + ls.length)).line 0 = none := by
      obtain ⟨n', sep, q, ls'', _, rfl, _⟩ := pluralLines_pos hr
      exact (m_line (ct := ct) (T (p + ls.length)).line _ (by rw [hat2.1]; rfl)).2.1
    have h2 := ih f (p + ls.length) false (saw || !t.isEmpty) hat2 (by omega) (by omega) (by omega)
      (by rw [Nat.add_assoc]; exact he)
    rw [Nat.add_assoc] at h2
    have := step f p first saw _ _ _ hn hf hat1 (by omega) (by omega) hq h2
    simpa [Bool.or_assoc] using this

/-- The events of an entry. -/
def evsOf (e : Entry) : List Ev :=
  match e.body with
  | .single t =>
    if e.msgid.isEmpty then [.header 0 t] else if !t.isEmpty then [.singular e.fuzzy e.ctxt e.msgid t] else []
  | .plural idp strs =>
    .clear :: (strs.map (fun x => Ev.conv x.1 x.2) ++
      (if strs.any (fun x => !x.2.isEmpty) then [.plural 0 e.fuzzy e.ctxt e.msgid idp] else []))

theorem y_finish (p : Nat) (h : emptyLine ct (T p).line = true) (hm : p + 1 < intMax) :
    Yields st (finishE ct fuel T) p [] () (p + 1) := by
  unfold finishE
  refine Yields.line (Yields.bind0 (a := ()) (q := p) (Yields.ite _ (fun he => ?_) (fun _ => Yields.pure _)) (Yields.next hm))
  rw [h] at he; simp at he

theorem y_ctxt (hs : Short T) {ls : List Str} {c : Option Str} (h : CtxtLines ct big5 st ls c) (p : Nat) (hat : At T p ls)
    (hf : ls.length ≤ fuel) (hm : p + ls.length < intMax)
    (hn : ∃ t, (T (p + ls.length)).line = b!"msgid" ++ t) :
    Yields st (ctxtE ct fuel T big5) p [] c (p + ls.length) := by
  obtain ⟨t0, hn⟩ := hn
  unfold ctxtE
  cases h with
  | none =>
    refine Yields.line (Yields.ite _ (fun h => ?_) (fun _ => Yields.pure _))
    simp only [List.length_nil, Nat.add_zero] at hn
    rw [hn] at h
    simp [hasPrefix] at h
  | some hf' =>
    obtain ⟨sep, q, ls', rfl, _⟩ := field_head hf'
    refine Yields.line (Yields.ite _ (fun _ => ?_) (fun h => ?_))
    · refine Yields.bind0 (y_getString hs hf' p 7 rfl hat hf hm ?_) (Yields.pure _)
      exact (m_line (ct := ct) _ _ hn).2.1
    · rw [hat.1] at h
      exact absurd (prefix_kw _ _) h

theorem y_entry (hs : Short T) {ls : List Str} {e : Entry} (h : EntryLines ct big5 st ls e) (p : Nat) (hat : At T p ls)
    (hf : ls.length < fuel) (hm : p + ls.length + 1 < intMax) (he : emptyLine ct (T (p + ls.length)).line = true) :
    Yields st (entryE ct fuel T big5) p (evsOf e) () (p + ls.length + 1) := by
  have hq := empty_scan (ct := ct) _ he
  -- common beginning
  have start : ∀ {cs cls ils rest : List Str} {fz : Bool} {c : Option Str} {id : Str} (w : List Ev),
      (∀ l ∈ cs, Comment l) → (fz = true ↔ ∃ l ∈ cs, FuzzyFlag l) → CtxtLines ct big5 st cls c →
      Field ct big5 st b!"msgid" ils id → ls = cs ++ cls ++ ils ++ rest →
      scanQuote ct (T (p + (cs.length + cls.length + ils.length))).line 0 = none →
      (Yields st (do
          let l ← lineE T
          if hasPrefix b!"msgid_plural" l then pluralEntryE ct fuel T big5 fz c id
          else do
            let l ← lineE T
            if hasPrefix b!"msgstr" l then singularEntryE ct fuel T big5 fz c id
            else errorE ct fuel T b!"expected 'msgstr' or 'msgid_plural'")
        (p + (cs.length + cls.length + ils.length)) w () (p + ls.length)) →
      Yields st (entryE ct fuel T big5) p w () (p + ls.length + 1) := by
    intro cs cls ils rest fz c id w hc hfz hcl hid hls hq2 hy
    rw [hls] at hat hf hm
    simp only [List.length_append] at hf hm
    obtain ⟨hat, hat4⟩ := At_append.1 hat
    obtain ⟨hat, hat3⟩ := At_append.1 hat
    obtain ⟨hat1, hat2⟩ := At_append.1 hat
    simp only [List.length_append] at hat3
    rw [← Nat.add_assoc] at hat3
    -- the lines after the comments
    obtain ⟨sep, q, ils', hils, hsep⟩ := field_head hid
    have hidl : (T (p + cs.length + cls.length)).line = b!"msgid" ++ (sep ++ 34 :: q) := by
      have := hat3; rw [hils] at this; exact this.1
    have hfirst : ∃ t, (T (p + cs.length)).line = 109 :: t := by
      cases hcl with
      | none => simp only [List.length_nil, Nat.add_zero] at hidl; exact ⟨_, hidl⟩
      | some hf' =>
        obtain ⟨sep', q', ls', rfl, _⟩ := field_head hf'
        exact ⟨_, hat2.1⟩
    obtain ⟨t1, ht1⟩ := hfirst
    have hml := m_line (ct := ct) _ _ ht1
    have hfz' : (false || cs.any fuzzyFlag) = fz := by
      rw [Bool.false_or, Bool.eq_iff_iff, hfz, List.any_eq_true]
      constructor
      · rintro ⟨l, h1, h2⟩; exact ⟨l, h1, (fuzzyFlag_iff l (hc l h1)).1 h2⟩
      · rintro ⟨l, h1, h2⟩; exact ⟨l, h1, (fuzzyFlag_iff l (hc l h1)).2 h2⟩
    have hcom := y_commentLoop (T := T) (st := st) cs fuel p false hc hat1 (by omega) (by omega) hml.2.2
    rw [hfz'] at hcom
    unfold entryE
    refine Yields.bind0 hcom (Yields.line ?_)
    refine Yields.bindL (a := ()) (q := p + ls.length) (Yields.ite _ (fun _ => ?_) (fun h => ?_)) (y_finish _ he (by rw [hls]; simp only [List.length_append]; omega))
    · unfold entryBodyE
      refine Yields.bind0 (y_ctxt hs hcl _ hat2 (by omega) (by omega) ⟨_, hidl⟩) ?_
      refine Yields.bind0 (a := id) (q := p + cs.length + cls.length + ils.length) ?_ ?_
      · unfold msgidE
        refine Yields.line (Yields.ite _ (fun _ => ?_) (fun h => ?_))
        · refine y_getString hs hid _ 5 rfl hat3 (by omega) (by omega) ?_
          rw [show p + cs.length + cls.length + ils.length = p + (cs.length + cls.length + ils.length) by omega]
          exact hq2
        · rw [hidl] at h; exact absurd (prefix_kw _ _) h
      · rw [show p + cs.length + cls.length + ils.length = p + (cs.length + cls.length + ils.length) by omega]
        exact hy
    · rw [hml.1] at h; simp at h
  cases h with
  | @single cs fz cls c ils id sls t hc hfz hcl hid hst =>
    obtain ⟨sep, q, sls', hsls, hsep⟩ := field_head hst
    have hat' := (At_append.1 hat).2
    simp only [List.length_append] at hat'
    have hl : (T (p + (cs.length + cls.length + ils.length))).line = b!"msgstr" ++ (sep ++ 34 :: q) := by
      have := hat'; rw [hsls] at this; exact this.1
    refine start (evsOf ⟨fz, c, id, .single t⟩) hc hfz hcl hid rfl (m_line (ct := ct) _ _ hl).2.1 ?_
    simp only [List.length_append] at hf hm hq ⊢
    refine Yields.line (Yields.ite _ (fun h => ?_) (fun _ => Yields.line (Yields.ite _ (fun _ => ?_) (fun h => ?_))))
    · rw [hl] at h; simp [hasPrefix] at h
    · unfold singularEntryE
      rw [← Nat.add_assoc p (cs.length + cls.length + ils.length)] at hq ⊢
      refine Yields.bind0 (y_getString hs hst _ 6 rfl hat' (by omega) (by omega) hq) ?_
      unfold evsOf
      dsimp only
      by_cases h1 : id.isEmpty = true
      · rw [if_pos h1, if_pos h1]
        exact Yields.emitAt (e := .header _ t) rfl rfl
      · rw [if_neg h1, if_neg h1]
        by_cases h2 : (!t.isEmpty) = true
        · rw [if_pos h2, if_pos h2]
          exact Yields.emit rfl
        · rw [if_neg h2, if_neg h2]
          exact Yields.pure _
    · rw [hl] at h; exact absurd (prefix_kw _ _) h
  | @plural cs fz cls c ils id pls idp sls strs hc hfz hcl hid hpl hst =>
    obtain ⟨sep, q, pls', hpls, hsep⟩ := field_head hpl
    obtain ⟨hat0, hat5⟩ := At_append.1 hat
    have hat' := (At_append.1 hat0).2
    simp only [List.length_append] at hat' hat5
    have hl : (T (p + (cs.length + cls.length + ils.length))).line = b!"msgid_plural" ++ (sep ++ 34 :: q) := by
      have := hat'; rw [hpls] at this; exact this.1
    have hl5 : scanQuote ct (T (p + (cs.length + cls.length + ils.length) + pls.length)).line 0 = none := by
      obtain ⟨n', sep', q', ls'', _, h5, _⟩ := pluralLines_pos hst
      rw [h5, ← Nat.add_assoc] at hat5
      exact (m_line (ct := ct) _ _ hat5.1).2.1
    refine start (evsOf ⟨fz, c, id, .plural idp strs⟩) hc hfz hcl hid (by rw [List.append_assoc]) (m_line (ct := ct) _ _ hl).2.1 ?_
    simp only [List.length_append] at hf hm hq he ⊢
    refine Yields.line (Yields.ite _ (fun _ => ?_) (fun h => ?_))
    · unfold pluralEntryE
      refine Yields.bind0 (y_getString hs hpl _ 12 rfl hat' (by omega) (by omega) hl5) ?_
      unfold evsOf
      dsimp only
      refine Yields.bind (w1 := [.clear]) (Yields.emit rfl) ?_
      have e1 : p + (cs.length + cls.length + ils.length + pls.length + sls.length)
          = p + (cs.length + cls.length + ils.length) + pls.length + sls.length := by omega
      rw [e1] at he ⊢
      rw [← Nat.add_assoc] at hat5
      refine Yields.bind (y_pluralLoop hs hst fuel _ true false hat5 (by omega) (by omega) (by omega) he) (Yields.line ?_)
      refine Yields.ite _ (fun h => ?_) (fun _ => ?_)
      · rw [he] at h; simp at h
      · rw [Bool.false_or]
        by_cases h2 : strs.any (fun x => !x.2.isEmpty) = true
        · rw [if_pos h2, if_pos h2]
          exact Yields.emitAt (e := .plural _ fz c id idp) rfl rfl
        · rw [if_neg h2, if_neg h2]
          exact Yields.pure _
    · rw [hl] at h; exact absurd (prefix_kw _ _) h

/-- Comments and then an empty line or the end of the file. -/
theorem y_blank (p : Nat) {cs : List Str} (hc : ∀ l ∈ cs, Comment l) (hat : At T p cs) (hf : cs.length < fuel)
    (hm : p + cs.length + 1 < intMax) (hb : Blank ct (T (p + cs.length)).line) :
    Yields st (entryE ct fuel T big5) p [] () (p + cs.length + 1) := by
  unfold entryE
  have he : emptyLine ct (T (p + cs.length)).line = true := (separator_iff _).1 (.inl hb)
  refine Yields.bind0 (y_commentLoop cs fuel p false hc hat hf (by omega) (blank_not_comment _ hb)) (Yields.line ?_)
  refine Yields.bind0 (a := ()) (q := p + cs.length) (Yields.ite _ (fun h => ?_) (fun _ => Yields.pure _)) (y_finish _ he hm)
  rw [he] at h; simp at h

theorem big5After_essence (b : Bool) (w : List Ev) : big5After ct b w = big5After ct b (essence w) := by
  unfold big5After
  congr 1
  induction w with
  | nil => rfl
  | cons x w ih =>
    rw [List.any_cons, ih]
    cases x <;> simp [essence, Ev.isDiag, Ev.norm]

theorem headerCharset_big5 (b : Bool) (e : Entry) (w : List Ev) (h : essence w = evsOf e) :
    big5After ct b w = (b || e.header?.any (fun t => headerCharset ct t == b!"BIG5")) := by
  rw [big5After_essence, h]
  unfold big5After evsOf Entry.header?
  congr 1
  cases e.body with
  | single t =>
    dsimp only
    by_cases h2 : e.msgid = []
    · simp [h2]
    · simp only [h2, if_false, List.isEmpty_iff]
      split <;> simp
  | plural idp strs =>
    dsimp only
    simp only [List.any_cons, List.any_append, List.any_map, Option.any_none]
    split <;> simp

end
end Tgt.POParser
