import Verif.Proofs.Read2
/-
Entries that come to an end do so within the text, or directly after it.
-/
namespace Tgt.POParser
open Spec Spec.Po

section
variable {ct : CType} {b : Bool}

/-! ### What is proper is not faulty -/

theorem quoted_not_bad {n n' : Nat} {q t m : Str} {ns ns' : List Note} (h : RQuoted ct b n q t ns) (h' : BadString b n' q ns' m) : False := by
  obtain ⟨hl⟩ := h
  rename_i body u trail
  have h1 := lex_lit hl trail
  generalize hq : 34 :: body ++ 34 :: trail = q at h'
  have h3 : ∀ {s : Str} {u' : List Byte} {m : Str}, 34 :: s = 34 :: body ++ 34 :: trail → lex b s = ⟨u', .error m⟩ → False := by
    intro s u' m he hs
    simp only [List.cons_append, List.cons.injEq, true_and] at he
    rw [he, h1] at hs
    cases hs
  cases h' with
  | quoteOnly => simp at hq
  | @noEnd body' text u' hlit hne =>
    have := lex_bad hlit [] _ rfl
    rw [List.append_nil] at this
    exact h3 hq.symm this
  | @backslash body' text u' hlit =>
    refine h3 hq.symm (lex_bad hlit [92] b!"unexpected end of string in handling '\\'" ?_)
    rw [lex.eq_3 b 92 (by decide)]
    have : (b && decide ((0x81 : Byte) ≤ 92) && decide ((92 : Byte) ≤ 0xfe)) = false := by cases b <;> decide
    rw [this]; rfl
  | @halfChar body' text u' c hb hc hlit =>
    have hc34 : c ≠ 34 := by rintro rfl; exact absurd hc.1 (by decide)
    refine h3 hq.symm (lex_bad hlit [c] b!"invalid big5 encoding" ?_)
    rw [lex.eq_3 b c (by simpa using hc34)]
    have : (b && decide ((0x81 : Byte) ≤ c) && decide (c ≤ 0xfe)) = true := by rw [hb]; simpa [isLead] using hc
    rw [this]; rfl

theorem whole_iff {l : Str} : WholeCont ct b l ↔ ∃ ws q n t ns, Blank ct ws ∧ l = ws ++ q ∧ RQuoted ct b n q t ns := by
  constructor
  · rintro ⟨n, t, ns, h⟩
    generalize hl : [l] = ls at h
    cases h with
    | nil => cases hl
    | cons h1 h2 h3 => cases hl; exact ⟨_, _, _, _, _, h1, rfl, h2⟩
  · rintro ⟨ws, q, n, t, ns, h1, rfl, h2⟩
    exact ⟨n, _, _, .cons h1 h2 .nil⟩

theorem whole_continues {l : Str} (h : WholeCont ct b l) : Continues ct l := by
  obtain ⟨ws, q, n, t, ns, h1, rfl, h2⟩ := whole_iff.1 h
  obtain ⟨s, rfl⟩ := quoted_head h2
  exact ⟨ws, s, h1, rfl⟩

theorem quote_split {ws ws' s s' : Str} (h : Blank ct ws) (h' : Blank ct ws') (he : ws ++ 34 :: s = ws' ++ 34 :: s') : ws = ws' ∧ s = s' := by
  have e1 := scanQuote_blank h (q := s) 0
  have e2 := scanQuote_blank h' (q := s') 0
  rw [he, e2] at e1
  have : ws'.length = ws.length := by simpa using e1
  have := List.append_inj he this.symm
  exact ⟨this.1, by simpa using this.2⟩

theorem bad_not_whole {ws q m : Str} {n : Nat} {ns : List Note} (hw : Blank ct ws) (h : BadString b n q ns m) : ¬ WholeCont ct b (ws ++ q) := by
  intro h'
  obtain ⟨ws', q', n', t, ns', h1, he, h2⟩ := whole_iff.1 h'
  obtain ⟨s, rfl⟩ := badString_head h
  obtain ⟨s', rfl⟩ := quoted_head h2
  obtain ⟨-, rfl⟩ := quote_split hw h1 he
  exact quoted_not_bad h2 h

/-- A field of one line. -/
theorem field_one {kw l t : Str} {n : Nat} {ns : List Note} (h : RField ct b kw n [l] t ns) :
    ∃ sep q, Blank ct sep ∧ l = kw ++ sep ++ q ∧ ∃ n t ns, RQuoted ct b n q t ns := by
  generalize hl : [l] = ls at h
  cases h with
  | mk h1 h2 h3 => cases hl; exact ⟨_, _, h1, rfl, _, _, _, h2⟩

theorem field_reindex {kw l t : Str} {n : Nat} {ns : List Note} (h : RField ct b kw n [l] t ns) (n' : Nat) : ∃ ns', RField ct b kw n' [l] t ns' := by
  generalize hl : [l] = ls at h
  cases h with
  | mk h1 h2 h3 =>
    cases hl
    cases h3
    obtain ⟨h2⟩ := h2
    exact ⟨_, .mk h1 (.mk h2) .nil⟩

theorem keyword_excl {kw l m t : Str} {n n' : Nat} {ns ns' : List Note} (h : BadKeyword ct b kw n l ns m) (h' : RField ct b kw n' [l] t ns') : False := by
  obtain ⟨sep', q', hs', he, n2, t2, ns2, hq⟩ := field_one h'
  obtain ⟨s', rfl⟩ := quoted_head hq
  have hlen : 2 ≤ (34 :: s').length := by obtain ⟨_⟩ := hq; simp; omega
  cases h with
  | @short r hr =>
    rw [List.append_assoc, List.append_cancel_left_eq] at he
    rw [he, List.length_append] at hr
    omega
  | @blank r hr hb =>
    rw [List.append_assoc, List.append_cancel_left_eq] at he
    have := hb 34 (by rw [he]; simp)
    rw [isspace_quote] at this
    cases this
  | @other sep c r hsep h2 hc hc34 =>
    rw [List.append_assoc, List.append_assoc, List.append_cancel_left_eq] at he
    have e1 := skipTo_other (r := r) hsep hc hc34 0
    have e2 := skipTo_blank hs' (q := s') 0
    rw [he, e2] at e1
    cases e1
  | @string sep q ns m hsep h2 hq2 =>
    rw [List.append_assoc, List.append_assoc, List.append_cancel_left_eq] at he
    obtain ⟨s, rfl⟩ := badString_head hq2
    obtain ⟨-, rfl⟩ := quote_split hsep hs' he
    exact quoted_not_bad hq hq2
end

/-! ### Bounds -/

section
variable {ct : CType} {fuel : Nat} {T : Tape} {L : Nat → Str} {N : Nat} {b : Bool}

theorem Calm.same (h : Calm ct fuel T L N) {p q : Nat} (hp : N ≤ p) (hq : N ≤ q) : (T p).line = (T q).line := by
  rw [h.line, h.line, h.ends p hp, h.ends q hq]

theorem conts_le (h : Calm ct fuel T L N) {n : Nat} {ls : List Str} {t : Str} {ns : List Note} (hc : RConts ct b n ls t ns) :
    At T n ls → ¬ WholeCont ct b (T (n + ls.length)).line → ls = [] ∨ n + ls.length ≤ N := by
  induction hc with
  | nil => exact fun _ _ => .inl rfl
  | @cons n ws q text ls rest ns ns' hw hq hr ih =>
    intro hat he
    right
    rw [List.length_cons, show n + (ls.length + 1) = n + 1 + ls.length by omega] at he ⊢
    rcases ih hat.2 he with rfl | h1
    · rw [List.length_nil, Nat.add_zero] at he ⊢
      by_cases hn : n < N
      · exact hn
      · exfalso
        rw [h.same (q := n) (by omega) (by omega), hat.1] at he
        exact he (whole_iff.2 ⟨ws, q, n, _, _, hw, rfl, hq⟩)
    · exact h1

theorem field_le (h : Calm ct fuel T L N) {kw : Str} {n : Nat} {ls : List Str} {t : Str} {ns : List Note} (hf : RField ct b kw n ls t ns)
    (hat : At T n ls) (he : ¬ WholeCont ct b (T (n + ls.length)).line) : ls.length = 1 ∨ n + ls.length ≤ N := by
  obtain ⟨h1, h2, h3⟩ := hf
  rename_i sep q text ls rest ns1 ns2
  rw [List.length_cons, show n + (ls.length + 1) = n + 1 + ls.length by omega] at he
  rw [List.length_cons]
  rcases conts_le h h3 hat.2 he with rfl | h4
  · exact .inl rfl
  · right; omega

theorem not_whole {l : Str} (h : ¬ Continues ct l) : ¬ WholeCont ct b l := fun h' => h (whole_continues h')

theorem badField_le (h : Calm ct fuel T L N) {kw : Str} {n : Nat} {ls : List Str} {l m : Str} {ns : List Note} (hf : BadField ct b (109 :: kw) n ls l ns m)
    (hat : At T n (ls ++ [l])) : ls = [] ∨ n + ls.length ≤ N := by
  cases hf with
  | first => exact .inl rfl
  | @later ls t ns ws q ns' m hf hw hb =>
    right
    obtain ⟨hat1, hat2, _⟩ := At_append.1 hat
    have hne := bad_not_whole hw hb
    rw [← hat2] at hne
    rcases field_le h hf hat1 hne with h1 | h1
    · rw [h1] at hat2 ⊢
      by_cases hn : n < N
      · exact hn
      · exfalso
        obtain ⟨r, ls', hr⟩ := rfield_head hf
        rw [hr] at hat1
        have e1 : (T n).line = 109 :: (kw ++ r) := hat1.1
        rw [h.same (q := n) (by omega) (by omega), e1] at hat2
        obtain ⟨s, rfl⟩ := badString_head hb
        exact (kw_line (ct := ct) rfl).1 ⟨ws, s, hw, hat2⟩
    · exact h1

theorem comments_le (h : Calm ct fuel T L N) : ∀ (cs : List Str) (n : Nat), (∀ l ∈ cs, Comment l) → At T n cs → n ≤ N →
    ¬ Comment (T (n + cs.length)).line → n + cs.length ≤ N := by
  intro cs
  induction cs with
  | nil => intro n _ _ hn _; exact hn
  | cons c cs ih =>
    intro n hc hat hn he
    rw [List.length_cons, show n + (cs.length + 1) = n + 1 + cs.length by omega] at he ⊢
    by_cases hlt : n < N
    · exact ih (n + 1) (fun l hl => hc l (by simp [hl])) hat.2 hlt he
    · exfalso
      rw [h.same (q := n) (by omega) (by omega), hat.1] at he
      exact he (hc c (by simp))

theorem start_le (h : Calm ct fuel T L N) {n : Nat} {ls : List Str} {fz : Bool} {c : Option Str} {ns : List Note} (hs : RStart ct b n ls fz c ns)
    (hat : At T n ls) (hn : n ≤ N) (h0 : c = none → ¬ Comment (T (n + ls.length)).line) (h1 : ¬ WholeCont ct b (T (n + ls.length)).line) :
    n + ls.length ≤ N + 1 := by
  cases hs with
  | none hc hfz => have := comments_le h ls n hc hat hn (h0 rfl); omega
  | @some cs fz cls t ns hc hfz hf =>
    obtain ⟨hat1, hat2⟩ := At_append.1 hat
    rw [List.length_append] at h1 ⊢
    obtain ⟨r, cls', hcl⟩ := rfield_head hf
    have hl : (T (n + cs.length)).line = b!"msgctxt" ++ r := by rw [hcl] at hat2; exact hat2.1
    have hk := kw_line (ct := ct) (l := (T (n + cs.length)).line) (by rw [hl]; rfl)
    have := comments_le h cs n hc hat1 hn hk.2.2
    have := field_le h hf hat2 (by rw [Nat.add_assoc]; exact h1)
    omega

theorem head_le (h : Calm ct fuel T L N) {n : Nat} {ls : List Str} {fz : Bool} {c : Option Str} {id : Str} {ns : List Note}
    (hh : RHead ct b n ls fz c id ns) (hat : At T n ls) (hn : n ≤ N) (h1 : ¬ WholeCont ct b (T (n + ls.length)).line) : n + ls.length ≤ N + 2 := by
  obtain ⟨hs, hf⟩ := hh
  rename_i ls ns1 ls' ns2
  obtain ⟨hat1, hat2⟩ := At_append.1 hat
  rw [List.length_append] at h1 ⊢
  obtain ⟨r, cls', hcl⟩ := rfield_head hf
  have hl : (T (n + ls.length)).line = b!"msgid" ++ r := by rw [hcl] at hat2; exact hat2.1
  have hk := kw_line (ct := ct) (l := (T (n + ls.length)).line) (by rw [hl]; rfl)
  have := start_le h hs hat1 hn (fun _ => hk.2.2) (not_whole hk.1)
  have := field_le h hf hat2 (by rw [Nat.add_assoc]; exact h1)
  omega

theorem strs_le (h : Calm ct fuel T L N) {n : Nat} {ls : List Str} {strs : List NumberedStr} (hs : RStrs ct b n ls strs) :
    At T n ls → ¬ WholeCont ct b (T (n + ls.length)).line →
    (N ≤ n + ls.length → ∀ j t ns, j ≤ 9 → ¬ RField ct b (msgstrN j) (n + ls.length) [(T (n + ls.length)).line] t ns) →
    ls = [] ∨ n + ls.length ≤ N := by
  induction hs with
  | nil => exact fun _ _ _ => .inl rfl
  | @cons n k ls t ns1 ls' rs hk hfl hrs ih =>
    intro hat hc hg
    right
    obtain ⟨hat1, hat2⟩ := At_append.1 hat
    rw [List.length_append, ← Nat.add_assoc] at hc hg ⊢
    have hcont : ¬ WholeCont ct b (T (n + ls.length)).line := by
      cases hrs with
      | nil => simpa using hc
      | cons _ hf2 _ =>
        obtain ⟨r1, ls1, hl1⟩ := rfield_head hf2
        rw [hl1] at hat2
        exact not_whole (kw_line (ct := ct) (l := (T (n + ls.length)).line) (by rw [hat2.1]; rfl)).1
    rcases ih hat2 hc hg with rfl | h1
    · rw [List.length_nil, Nat.add_zero] at hg ⊢
      rcases field_le h hfl hat1 hcont with h2 | h2
      · by_cases hn : n < N
        · omega
        · exfalso
          match ls, h2 with
          | [l], _ =>
            obtain ⟨ns', hf'⟩ := field_reindex hfl (n + [l].length)
            rw [← hat1.1, h.same (p := n) (q := n + [l].length) (by omega) (by omega)] at hf'
            exact hg (by omega) k t ns' hk hf'
      · exact h2
    · exact h1

theorem plural_le (h : Calm ct fuel T L N) {n : Nat} {ls : List Str} {fz : Bool} {c : Option Str} {id idp : Str} {strs : List NumberedStr} {ns : List Note}
    (hp : RPlural ct b n ls fz c id idp strs ns) (hat : At T n ls) (hn : n ≤ N) (h1 : ¬ WholeCont ct b (T (n + ls.length)).line)
    (hg : N ≤ n + ls.length → ∀ j t ns, j ≤ 9 → ¬ RField ct b (msgstrN j) (n + ls.length) [(T (n + ls.length)).line] t ns) :
    n + ls.length ≤ N + 3 := by
  obtain ⟨hh, hf, hs⟩ := hp
  rename_i ls ns1 ls' ns2 ls''
  obtain ⟨hat12, hat3⟩ := At_append.1 hat
  obtain ⟨hat1, hat2⟩ := At_append.1 hat12
  rw [List.length_append, ← Nat.add_assoc] at h1 hg ⊢
  obtain ⟨r0, ls0, hl0⟩ := rfield_head hf
  have hl : (T (n + ls.length)).line = b!"msgid_plural" ++ r0 := by rw [hl0] at hat2; exact hat2.1
  have hkl := kw_line (ct := ct) (l := (T (n + ls.length)).line) (by rw [hl]; rfl)
  have b1 := head_le h hh hat1 hn (not_whole hkl.1)
  have hcont : ¬ WholeCont ct b (T (n + (ls ++ ls').length)).line := by
    cases hs with
    | nil => simpa using h1
    | cons _ hf2 _ =>
      obtain ⟨r1, ls1, hl1⟩ := rfield_head hf2
      rw [hl1] at hat3
      exact not_whole (kw_line (ct := ct) (l := (T (n + (ls ++ ls').length)).line) (by rw [hat3.1]; rfl)).1
  have b2 := field_le h hf hat2 (by rw [List.length_append, ← Nat.add_assoc] at hcont; exact hcont)
  have b3 := strs_le h hs hat3 h1 hg
  rw [List.length_append] at b3 ⊢
  rcases b3 with rfl | b3
  · rw [List.length_nil]; omega
  · omega

theorem not_strLine {l : Str} (h : ¬ StrLine l) (n j : Nat) (t : Str) (ns : List Note) (hj : j ≤ 9) : ¬ RField ct b (msgstrN j) n [l] t ns := by
  intro hf
  obtain ⟨r, ls', he⟩ := rfield_head hf
  cases he
  exact h ⟨j, hj, r, rfl⟩

theorem strLine_kw {l : Str} (h : StrLine l) : ∃ r, l = 109 :: r := by
  obtain ⟨k, _, r, hr⟩ := h
  exact ⟨_, hr.symm⟩

theorem rentry_le (h : Calm ct fuel T L N) {n : Nat} {ls : List Str} {x : Piece} (he : REntry ct b n ls x) (hat : At T n ls) (hn : n ≤ N)
    (hc : ¬ Continues ct (T (n + ls.length)).line) (hs : ¬ StrLine (T (n + ls.length)).line) : n + ls.length ≤ N + 3 := by
  cases he with
  | @single ls fz c id ns ls' t ns' hh hf =>
    obtain ⟨hat1, hat2⟩ := At_append.1 hat
    obtain ⟨r0, ls0, hl0⟩ := rfield_head hf
    have hl : (T (n + ls.length)).line = b!"msgstr" ++ r0 := by rw [hl0] at hat2; exact hat2.1
    have hkl := kw_line (ct := ct) (l := (T (n + ls.length)).line) (by rw [hl]; rfl)
    have b1 := head_le h hh hat1 hn (not_whole hkl.1)
    rw [List.length_append, ← Nat.add_assoc] at hc ⊢
    have b2 := field_le h hf hat2 (not_whole hc)
    omega
  | plural hp _ => exact plural_le h hp hat hn (not_whole hc) (fun _ j t ns hj => not_strLine hs _ _ _ _ hj)

theorem bad_le (h : Calm ct fuel T L N) {n : Nat} {ls : List Str} {l m : Str} {pre : List Piece} {ns : List Note}
    (he : BadEntry ct b n ls l pre ns m) (hat : At T n (ls ++ [l])) (hn : n ≤ N) : n + ls.length ≤ N + 3 := by
  have hat0 := (At_append.1 hat).1
  have hl : (T (n + ls.length)).line = l := (At_append.1 hat).2.1
  -- a faulty field after something
  have fld : ∀ {ls ls' : List Str} {l m : Str} {kw : Str} {ns : List Note}, BadField ct b (109 :: kw) (n + ls.length) ls' l ns m → At T n (ls ++ ls' ++ [l]) →
      (At T n ls → ¬ Continues ct (T (n + ls.length)).line → ¬ Comment (T (n + ls.length)).line → n + ls.length ≤ N + 3) →
      n + (ls ++ ls').length ≤ N + 3 := by
    intro ls ls' l m kw ns hb hat hle
    rw [List.append_assoc] at hat
    obtain ⟨hat1, hat2⟩ := At_append.1 hat
    obtain ⟨r0, ls0, hl0⟩ := badField_head hb
    have hl : (T (n + ls.length)).line = 109 :: (kw ++ r0) := by rw [hl0] at hat2; exact hat2.1
    have hkl := kw_line (ct := ct) hl
    have := hle hat1 hkl.1 hkl.2.2
    rw [List.length_append, ← Nat.add_assoc]
    rcases badField_le h hb hat2 with rfl | h1
    · exact this
    · omega
  cases he with
  | ctxt hc hb => exact fld hb hat (fun ha _ h2 => by have := comments_le h _ n hc ha hn h2; omega)
  | noId hc g1 g2 g3 g4 => have := comments_le h ls n hc hat0 hn (by rw [hl]; exact g1); omega
  | noIdAfterCtxt hs g1 g2 => have := start_le h hs hat0 hn (fun h => by cases h) (by rw [hl]; exact not_whole g1); omega
  | id hs hb => exact fld hb hat (fun ha h1 h2 => by have := start_le h hs ha hn (fun _ => h2) (not_whole h1); omega)
  | noStr hh g1 => have := head_le h hh hat0 hn (by rw [hl]; exact not_whole g1); omega
  | str hh hb => exact fld hb hat (fun ha h1 h2 => by have := head_le h hh ha hn (not_whole h1); omega)
  | idPlural hh hb => exact fld hb hat (fun ha h1 h2 => by have := head_le h hh ha hn (not_whole h1); omega)
  | noStrs hp g1 =>
    refine plural_le h hp hat0 hn (by rw [hl]; exact not_whole (sep_not_continues g1)) (fun _ j t ns hj => ?_)
    rw [hl]
    refine not_strLine (fun hs => ?_) _ _ _ _ hj
    obtain ⟨r, rfl⟩ := strLine_kw hs
    exact (kw_line (ct := ct) rfl).2.1 g1
  | otherStr hp g1 g2 g3 =>
    exact plural_le h hp hat0 hn (by rw [hl]; exact not_whole g2) (fun _ j t ns hj => by rw [hl]; exact not_strLine g3 _ _ _ _ hj)
  | @strN ls fz c id idp strs ns k ls' l ns' m hp hk hb =>
    refine fld hb hat (fun ha h1 h2 => plural_le h hp ha hn (not_whole h1) (fun hN j t ns hj hf => ?_))
    rw [List.append_assoc] at hat
    obtain ⟨hat1, hat2⟩ := At_append.1 hat
    have hnil : ls' = [] := by
      rcases badField_le h hb hat2 with h1 | h1
      · exact h1
      · exact List.eq_nil_of_length_eq_zero (by omega)
    subst hnil
    have hl2 : (T (n + ls.length)).line = l := hat2.1
    rw [hl2] at hf
    cases hb with
    | first hb =>
      have hjk : j = k := by
        obtain ⟨r1, ls1, h1⟩ := rfield_head hf
        obtain ⟨r2, ls2, h2⟩ := badField_head (.first hb)
        simp only [List.nil_append, List.cons.injEq] at h1 h2
        have e1 := msgstrIndex_kw j hj r1
        have e2 := msgstrIndex_kw k hk r2
        rw [← h1.1, h2.1, e2] at e1
        cases e1; rfl
      subst hjk
      exact keyword_excl hb hf
    | later hb' => obtain ⟨_, _, h1⟩ := rfield_head hb'; cases h1
  | after he g1 g2 =>
    cases he with
    | @single ls fz c id ns ls' t ns' hh hf =>
      obtain ⟨hat1, hat2⟩ := At_append.1 hat0
      obtain ⟨r0, ls0, hl0⟩ := rfield_head hf
      have hl3 : (T (n + ls.length)).line = b!"msgstr" ++ r0 := by rw [hl0] at hat2; exact hat2.1
      have hkl := kw_line (ct := ct) (l := (T (n + ls.length)).line) (by rw [hl3]; rfl)
      have b1 := head_le h hh hat1 hn (not_whole hkl.1)
      rw [List.length_append, ← Nat.add_assoc] at hl ⊢
      have b2 := field_le h hf hat2 (by rw [hl]; exact not_whole g2)
      omega
end
end Tgt.POParser
