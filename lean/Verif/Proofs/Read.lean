import Verif.Spec.PoRead
import Verif.Proofs.Items
/-
Texts as described by `Reading`, read by tape code: exactly which messages, and where.
-/
namespace Tgt.POParser
open Spec Spec.Po

/-- A remark as an event. -/
def _root_.Tgt.Spec.Po.Note.ev (x : Note) : Ev := .diag x.level x.line x.msg x.fussy

/-- The code at `p` ends with `r`, its messages are `ns`, its other events `w`. -/
def Acts {α : Type} (e : E α) (p : Nat) (ns : List Note) (w : List Ev) (r : TRes α) : Prop :=
  ∃ v, e p = (v, r) ∧ v.filter Ev.isDiag = ns.map Note.ev ∧ v.filter (fun x => !x.isDiag) = w

section
variable {α β : Type} {p q : Nat} {ns ns' : List Note} {w w' : List Ev} {a : α}

theorem Acts.pure (a : α) : Acts (E.pure a) p [] [] (.ok a p) := ⟨[], rfl, rfl, rfl⟩
theorem Acts.throw : Acts (E.throw : E α) p [] [] (.err p) := ⟨[], rfl, rfl, rfl⟩

theorem Acts.bind {e : E α} {f : α → E β} {r : TRes β} (h1 : Acts e p ns w (.ok a q)) (h2 : Acts (f a) q ns' w' r) :
    Acts (e >>= f) p (ns ++ ns') (w ++ w') r := by
  obtain ⟨v1, e1, s1, d1⟩ := h1
  obtain ⟨v2, e2, s2, d2⟩ := h2
  refine ⟨v1 ++ v2, ?_, by rw [List.filter_append, s1, s2, List.map_append], by rw [List.filter_append, d1, d2]⟩
  rw [e_bind]; unfold E.bind; rw [e1]; dsimp only; rw [e2]

theorem Acts.bindErr {e : E α} {f : α → E β} (h1 : Acts e p ns w (.err q)) : Acts (e >>= f) p ns w (.err q) := by
  obtain ⟨v1, e1, s1, d1⟩ := h1
  exact ⟨v1, by rw [e_bind]; unfold E.bind; rw [e1], s1, d1⟩

/-- Sequencing when the first part does nothing. -/
theorem Acts.bind0 {e : E α} {f : α → E β} {r : TRes β} (h1 : Acts e p [] [] (.ok a q)) (h2 : Acts (f a) q ns w r) :
    Acts (e >>= f) p ns w r := Acts.bind h1 h2

/-- Sequencing when the first part only makes remarks. -/
theorem Acts.bindN {e : E α} {f : α → E β} {r : TRes β} (h1 : Acts e p ns [] (.ok a q)) (h2 : Acts (f a) q ns' w r) :
    Acts (e >>= f) p (ns ++ ns') w r := Acts.bind h1 h2

theorem Acts.line {T : Tape} {f : Str → E β} {r : TRes β} (h : Acts (f (T p).line) p ns w r) : Acts (lineE T >>= f) p ns w r :=
  Acts.bind0 ⟨[], rfl, rfl, rfl⟩ h

theorem Acts.next (h : p + 1 < intMax) : Acts nextE p [] [] (.ok () (p + 1)) :=
  ⟨[], by unfold nextE; rw [if_neg (by omega)], rfl, rfl⟩

theorem Acts.warn (m : Str) (ped : Bool) : Acts (warnE m ped) p [⟨.warning, p, m, ped⟩] [] (.ok () p) := ⟨_, rfl, rfl, rfl⟩

theorem Acts.emit {e : Ev} (h : e.isDiag = false) : Acts (E.emit [e]) p [] [e] (.ok () p) := ⟨_, rfl, by simp [h], by simp [h]⟩

theorem Acts.emitAt {g : Nat → List Ev} {e : Ev} (hg : g p = [e]) (h : e.isDiag = false) : Acts (E.emitAt g) p [] [e] (.ok () p) :=
  ⟨_, rfl, by simp [hg, h], by simp [hg, h]⟩

theorem Acts.pos {e1 e2 : E α} {c : Prop} [Decidable c] {r : TRes α} (hc : c) (h : Acts e1 p ns w r) : Acts (if c then e1 else e2) p ns w r := by
  rw [if_pos hc]; exact h
theorem Acts.neg {e1 e2 : E α} {c : Prop} [Decidable c] {r : TRes α} (hc : ¬ c) (h : Acts e2 p ns w r) : Acts (if c then e1 else e2) p ns w r := by
  rw [if_neg hc]; exact h
end

/-! ### The tape of a text -/

/-- A tape with `N` lines, not too long, and enough fuel. -/
structure Calm (ct : CType) (fuel : Nat) (T : Tape) (L : Nat → Str) (N : Nat) : Prop where
  line : ∀ p, (T p).line = L p
  short : ∀ p, (L p).length < 4294967296
  ends : ∀ p, N ≤ p → L p = L N
  eof : ∀ p, (T p).eof = true ↔ N ≤ p
  fuel : N + 7 < fuel
  few : N + 7 < intMax

/-- Where reading goes on after a fault in line `p`. -/
def Resume (ct : CType) (L : Nat → Str) (N : Nat) (p q : Nat) : Prop :=
  p < q ∧ (∀ j, p < j → j < q → j < N ∧ ¬ Separator ct (L j)) ∧ (N ≤ q ∨ Separator ct (L q))

section
variable {ct : CType} {fuel : Nat} {T : Tape} {L : Nat → Str} {N : Nat} {b : Bool}

theorem sep_nil : Separator ct [] := .inl (fun _ h => by cases h)

theorem Resume.le {p q : Nat} (hp : p ≤ N + 3) (hr : Resume ct L N p q) : q ≤ N + 4 := by
  obtain ⟨h1, h2, _⟩ := hr
  by_cases hq : q ≤ N + 4
  · exact hq
  · have := (h2 (N + 4) (by omega) (by omega)).1
    omega

theorem a_recover (h : Calm ct fuel T L N) : ∀ (f p q : Nat), p ≤ N + 3 → Resume ct L N p q → N + 5 < f + p →
    Acts (recoverE ct T f) p [] [] (.ok () q) := by
  intro f
  induction f with
  | zero => intro p q hp hr hf; omega
  | succ f ih =>
    intro p q hp hr hf
    have hq := hr.le hp
    have hfew := h.few
    obtain ⟨h1, h2, h3⟩ := hr
    unfold recoverE
    refine Acts.bind0 (Acts.next (by omega)) ?_
    show Acts (if (!(T (p + 1)).eof && !emptyLine ct (T (p + 1)).line) = true then recoverE ct T f else E.pure ()) (p + 1) [] [] (.ok () q)
    by_cases hpq : p + 1 = q
    · subst hpq
      refine Acts.neg ?_ (Acts.pure _)
      rcases h3 with h3 | h3
      · rw [(h.eof _).2 h3]; simp
      · rw [h.line, (separator_iff _).1 h3]; simp
    · obtain ⟨hlt, hns⟩ := h2 (p + 1) (by omega) (by omega)
      refine Acts.pos ?_ (ih (p + 1) q (by omega) ⟨by omega, fun j hj hj' => h2 j (by omega) hj', h3⟩ (by omega))
      have e1 : (T (p + 1)).eof = false := by
        cases hx : (T (p + 1)).eof with
        | false => rfl
        | true => have := (h.eof _).1 hx; omega
      have e2 : emptyLine ct (T (p + 1)).line = false := by
        cases hx : emptyLine ct (T (p + 1)).line with
        | false => rfl
        | true => rw [h.line] at hx; exact absurd ((separator_iff _).2 hx) hns
      rw [e1, e2]; rfl

theorem a_error {α : Type} (h : Calm ct fuel T L N) (m : Str) {p q : Nat} (hp : p ≤ N + 3) (hr : Resume ct L N p q) :
    Acts (errorE (α := α) ct fuel T m) p [⟨.error, p, m, false⟩] [] (.err q) := by
  unfold errorE
  have hF := h.fuel
  refine Acts.bindN (ns := [⟨.error, p, m, false⟩]) (ns' := []) (a := ()) (q := p) ⟨[.diag .error p m false], rfl, rfl, rfl⟩ ?_
  exact Acts.bind0 (a_recover h fuel p q hp hr (by omega)) Acts.throw

/-! ### Strings -/

/-- What `lex` makes of a string without end. -/
theorem lex_bad {body text : Str} {u : List Byte} (h : Lit b body text u) (e : Str) (m : Str)
    (he : lex b e = ⟨[], .error m⟩) :
    lex b (body ++ e) = ⟨u, .error m⟩ := by
  induction h with
  | nil => exact he
  | @plain c body text u h1 h2 h3 _ ih =>
    have hb : (b && decide (0x81 ≤ c) && decide (c ≤ 0xfe)) = false := by
      cases hc : (b && decide (0x81 ≤ c) && decide (c ≤ 0xfe)) with
      | false => rfl
      | true =>
        simp only [Bool.and_eq_true, decide_eq_true_eq] at hc
        exact absurd ⟨hc.1.1, hc.1.2, hc.2⟩ h3
    show lex b (c :: (body ++ e)) = _
    cases hx : body ++ e with
    | nil =>
      rw [hx] at ih
      rw [lex.eq_3 b c (by simpa using h1), hb]
      simp only [Bool.false_eq_true, if_false, h2]
      simp only [lex] at ih
      exact ih
    | cons d t =>
      rw [hx] at ih
      rw [lex.eq_4 b c d t (by simpa using h1), hb]
      simp only [Bool.false_eq_true, if_false, h2]
      rw [ih]; rfl
  | @pair c d body text u h1 h2 _ ih =>
    show lex b (c :: d :: (body ++ e)) = _
    have hb : c ≠ 34 := by
      rintro rfl
      exact absurd h2.1 (by decide)
    rw [lex.eq_4 b c d _ (by simpa using hb)]
    have : (b && decide (0x81 ≤ c) && decide (c ≤ 0xfe)) = true := by
      rw [h1]; simpa [isLead] using h2
    rw [this]
    simp only [if_true]
    rw [ih]; rfl
  | @esc x r body text u h1 _ ih =>
    show lex b (92 :: x :: (body ++ e)) = _
    rw [lex.eq_4 b 92 x _ (by decide)]
    have : (b && decide ((0x81 : Byte) ≤ 92) && decide ((92 : Byte) ≤ 0xfe)) = false := by
      cases b <;> decide
    rw [this]
    simp only [Bool.false_eq_true, if_false, if_true, escapes_unescape h1]
    rw [ih]; rfl
  | @unknown x body text u h1 _ ih =>
    show lex b (92 :: x :: (body ++ e)) = _
    rw [lex.eq_4 b 92 x _ (by decide)]
    have : (b && decide ((0x81 : Byte) ≤ 92) && decide ((92 : Byte) ≤ 0xfe)) = false := by
      cases b <;> decide
    rw [this]
    simp only [Bool.false_eq_true, if_false, if_true, unescape_none h1]
    rw [ih]; rfl

theorem escapeNotes_ev (p : Nat) (u : List Byte) :
    u.map (fun e => Ev.diag .warning p (unknownMsg e) false) = (escapeNotes p u).map Note.ev := by
  unfold escapeNotes
  rw [List.map_map]
  rfl

theorem a_unknown (p : Nat) (u : List Byte) :
    Acts (E.emitAt (fun p => u.map (fun e => .diag .warning p (unknownMsg e) false))) p (escapeNotes p u) [] (.ok () p) := by
  refine ⟨u.map (fun e => .diag .warning p (unknownMsg e) false), rfl, ?_, ?_⟩
  · rw [escapeNotes_ev]
    exact List.filter_eq_self.2 (fun x hx => by obtain ⟨y, _, rfl⟩ := List.mem_map.1 hx; rfl)
  · rw [escapeNotes_ev]
    exact List.filter_eq_nil_iff.2 (fun x hx => by obtain ⟨y, _, rfl⟩ := List.mem_map.1 hx; simp [Note.ev, Ev.isDiag])

/-- Up to the quote. -/
theorem line_split {p skip : Nat} {pre q : Str} (h : Calm ct fuel T L N) (hl : (T p).line = pre ++ 34 :: q) (hpre : pre.length = skip) :
    u32 (T p).line.length = skip + 1 + q.length ∧ (T p).line[skip]? = some 34 ∧ (T p).line.drop (skip + 1) = q := by
  refine ⟨?_, ?_, ?_⟩
  · have : (T p).line.length < 4294967296 := by rw [h.line]; exact h.short p
    rw [show u32 (T p).line.length = (T p).line.length from Nat.mod_eq_of_lt this, hl]
    simp [hpre]; omega
  · rw [hl, List.getElem?_append_right (by omega)]
    simp [hpre]
  · rw [hl, ← hpre, List.drop_append, List.drop_eq_nil_of_le (by omega)]
    simp

theorem a_getStringLine (h : Calm ct fuel T L N) {p skip : Nat} {pre q text : Str} {ns : List Note} (out : Str) (hl : (T p).line = pre ++ q)
    (hpre : pre.length = skip) (hq : RQuoted ct b p q text ns) :
    Acts (getStringLineE ct fuel T b out skip) p ns [] (.ok (out ++ text) p) := by
  obtain ⟨hlit⟩ := hq
  rename_i body u trail
  obtain ⟨h1, h2, h3⟩ := line_split h (show (T p).line = pre ++ 34 :: (body ++ 34 :: trail) from hl) hpre
  unfold getStringLineE
  refine Acts.line (Acts.neg (by rw [h1]; simp; omega) (Acts.neg (by simp [h2]) ?_))
  dsimp only
  rw [h3, lex_lit hlit trail]
  refine Acts.bindN (a_unknown p u) ?_
  dsimp only
  unfold trailNotes
  by_cases hb : Blank ct trail
  · rw [if_pos hb]
    refine Acts.neg ?_ (Acts.pure _)
    simp only [List.any_eq_true]
    rintro ⟨x, hx, h2⟩
    rw [hb x hx] at h2
    simp at h2
  · rw [if_neg hb]
    refine Acts.pos ?_ (Acts.bindN (ns' := []) (Acts.warn _ _) (Acts.pure _))
    simp only [List.any_eq_true]
    refine Classical.byContradiction (fun hx => hb (fun x hx' => ?_))
    cases hs : ct.isspace x with
    | true => rfl
    | false => exact absurd ⟨x, hx', by rw [hs]; rfl⟩ hx

theorem a_badStringLine (h : Calm ct fuel T L N) {p skip r : Nat} {pre q m : Str} {ns : List Note} (out : Str) (hl : (T p).line = pre ++ q)
    (hpre : pre.length = skip) (hq : BadString b p q ns m) (hp : p ≤ N + 3) (hr : Resume ct L N p r) :
    Acts (getStringLineE ct fuel T b out skip) p (ns ++ [⟨.error, p, m, false⟩]) [] (.err r) := by
  have go : ∀ (s : Str) (u : List Byte), q = 34 :: s → s ≠ [] → ns = escapeNotes p u → lex b s = ⟨u, .error m⟩ →
      Acts (getStringLineE ct fuel T b out skip) p (ns ++ [⟨.error, p, m, false⟩]) [] (.err r) := by
    intro s u hqs hne hns hlex
    rw [hqs] at hl
    obtain ⟨h1, h2, h3⟩ := line_split h hl hpre
    have : 0 < s.length := List.length_pos_iff.2 hne
    unfold getStringLineE
    refine Acts.line (Acts.neg (by rw [h1]; omega) (Acts.neg (by simp [h2]) ?_))
    dsimp only
    rw [h3, hlex, hns]
    exact Acts.bindN (a_unknown p u) (a_error h m hp hr)
  cases hq with
  | quoteOnly =>
    obtain ⟨h1, h2, h3⟩ := line_split h hl hpre
    unfold getStringLineE
    exact Acts.line (Acts.pos (by rw [h1]; simp) (a_error h _ hp hr))
  | @noEnd body text u hlit hne =>
    refine go body u rfl hne rfl ?_
    have := lex_bad hlit [] _ rfl
    rwa [List.append_nil] at this
  | @backslash body text u hlit =>
    refine go (body ++ [92]) u rfl (by simp) rfl (lex_bad hlit [92] _ ?_)
    rw [lex.eq_3 b 92 (by decide)]
    have : (b && decide ((0x81 : Byte) ≤ 92) && decide ((92 : Byte) ≤ 0xfe)) = false := by cases b <;> decide
    rw [this]; rfl
  | @halfChar body text u c hb hc hlit =>
    have hc34 : c ≠ 34 := by rintro rfl; exact absurd hc.1 (by decide)
    refine go (body ++ [c]) u rfl (by simp) rfl (lex_bad hlit [c] _ ?_)
    rw [lex.eq_3 b c (by simpa using hc34)]
    have : (b && decide ((0x81 : Byte) ≤ c) && decide (c ≤ 0xfe)) = true := by rw [hb]; simpa [isLead] using hc
    rw [this]; rfl

theorem continues_scan {l : Str} : (∀ i, scanQuote ct l i = none) ↔ ¬ Continues ct l := by
  constructor
  · rintro h ⟨ws, t, hw, rfl⟩
    have := h 0
    rw [scanQuote_blank hw] at this
    cases this
  · intro h
    induction l with
    | nil => intro i; rfl
    | cons x l ih =>
      intro i
      unfold scanQuote
      by_cases hx : x = 34
      · exact absurd ⟨[], l, (fun _ h => nomatch h), (by rw [hx]; rfl)⟩ h
      · rw [if_neg hx]
        by_cases hs : ct.isspace x = true
        · rw [if_pos hs]
          refine ih (fun ⟨ws, t, hw, hl⟩ => h ⟨x :: ws, t, ?_, by rw [hl]; rfl⟩) _
          intro y hy
          rcases List.mem_cons.1 hy with rfl | hy
          · exact hs
          · exact hw y hy
        · rw [if_neg hs]

theorem indent_ev (p : Nat) (ws : Str) :
    Acts (if ws.length = 1 then warnE b!"leading whitespace before string" true else E.pure ()) p (indentNotes p ws) [] (.ok () p) := by
  unfold indentNotes
  by_cases h : ws.length = 1
  · rw [if_pos h, if_pos h]; exact Acts.warn _ _
  · rw [if_neg h, if_neg h]; exact Acts.pure _

theorem quoted_head {n : Nat} {q text : Str} {ns : List Note} (h : RQuoted ct b n q text ns) : ∃ s, q = 34 :: s := by
  obtain ⟨_⟩ := h; exact ⟨_, rfl⟩
theorem badString_head {n : Nat} {q m : Str} {ns : List Note} (h : BadString b n q ns m) : ∃ s, q = 34 :: s := by
  cases h <;> exact ⟨_, rfl⟩

theorem a_contLoop (h : Calm ct fuel T L N) {n : Nat} {ls : List Str} {text : Str} {ns : List Note} (hc : RConts ct b n ls text ns) :
    ∀ (f p : Nat) (out : Str), n = p + 1 → At T (p + 1) ls → ls.length < f → p + ls.length + 1 < intMax →
      ¬ Continues ct (T (p + 1 + ls.length)).line →
      Acts (contLoopE ct fuel T b f out) p ns [] (.ok (out ++ text) (p + 1 + ls.length)) := by
  induction hc with
  | nil =>
    intro f p out _ _ hf hm hq
    obtain ⟨f, rfl⟩ : ∃ g, f = g + 1 := ⟨f - 1, by simp at hf; omega⟩
    unfold contLoopE
    refine Acts.bind0 (Acts.next (by simpa using hm)) (Acts.line ?_)
    simp only [List.length_nil, Nat.add_zero] at hq ⊢
    rw [continues_scan.2 hq]
    simp only [List.append_nil]
    exact Acts.pure _
  | @cons n ws q t ls rest ns ns' hw hq _ ih =>
    intro f p out hn hat hf hm hend
    subst hn
    obtain ⟨f, rfl⟩ : ∃ g, f = g + 1 := ⟨f - 1, by simp at hf; omega⟩
    unfold contLoopE
    simp only [List.length_cons] at hf hm hend ⊢
    obtain ⟨hl, hat⟩ := hat
    refine Acts.bind0 (Acts.next (by omega)) (Acts.line ?_)
    have hsq : scanQuote ct (T (p + 1)).line 0 = some ws.length := by
      obtain ⟨s, rfl⟩ := quoted_head hq
      rw [hl, scanQuote_blank hw]
      simp
    rw [hsq]
    dsimp only
    rw [List.append_assoc]
    refine Acts.bindN (indent_ev _ _) (Acts.bindN (a_getStringLine h out hl rfl hq) ?_)
    have e1 : p + 1 + (ls.length + 1) = p + 1 + 1 + ls.length := by omega
    have := ih f (p + 1) (out ++ t) rfl hat (by omega) (by omega) (by rw [← e1]; exact hend)
    rw [e1, ← List.append_assoc]
    exact this

/-- Continuation lines, the last of which is wrong. -/
theorem a_contLoop_bad (h : Calm ct fuel T L N) {n : Nat} {ls : List Str} {text : Str} {ns : List Note} (hc : RConts ct b n ls text ns)
    {ws q m : Str} {ns' : List Note} (hw : Blank ct ws) {r : Nat} :
    ∀ (f p : Nat) (out : Str), n = p + 1 → At T (p + 1) ls → ls.length < f → p + ls.length + 1 ≤ N + 3 →
      (T (p + 1 + ls.length)).line = ws ++ q → BadString b (p + 1 + ls.length) q ns' m → Resume ct L N (p + 1 + ls.length) r →
      Acts (contLoopE ct fuel T b f out) p (ns ++ indentNotes (p + 1 + ls.length) ws ++ ns' ++ [⟨.error, p + 1 + ls.length, m, false⟩]) [] (.err r) := by
  have hfew := h.few
  induction hc with
  | nil =>
    intro f p out _ _ hf hm hl hq hr
    obtain ⟨f, rfl⟩ : ∃ g, f = g + 1 := ⟨f - 1, by simp at hf; omega⟩
    unfold contLoopE
    simp only [List.length_nil, Nat.add_zero] at hl hq hr hm ⊢
    refine Acts.bind0 (Acts.next (by omega)) (Acts.line ?_)
    have hsq : scanQuote ct (T (p + 1)).line 0 = some ws.length := by
      obtain ⟨s, rfl⟩ := badString_head hq
      rw [hl, scanQuote_blank hw]
      simp
    rw [hsq]
    dsimp only
    rw [List.nil_append, List.append_assoc]
    exact Acts.bindN (indent_ev _ _) (Acts.bindErr (a_badStringLine h out hl rfl hq (by omega) hr))
  | @cons n ws' q' t ls rest ns1 ns2 hw' hq' _ ih =>
    intro f p out hn hat hf hm hl hq hr
    subst hn
    obtain ⟨f, rfl⟩ : ∃ g, f = g + 1 := ⟨f - 1, by simp at hf; omega⟩
    unfold contLoopE
    simp only [List.length_cons] at hf hm hl hq hr ⊢
    obtain ⟨hl', hat⟩ := hat
    refine Acts.bind0 (Acts.next (by omega)) (Acts.line ?_)
    have hsq : scanQuote ct (T (p + 1)).line 0 = some ws'.length := by
      obtain ⟨s, rfl⟩ := quoted_head hq'
      rw [hl', scanQuote_blank hw']
      simp
    rw [hsq]
    dsimp only
    simp only [List.append_assoc]
    refine Acts.bindN (indent_ev _ _) (Acts.bindN (a_getStringLine h out hl' rfl hq') ?_)
    have e1 : p + 1 + (ls.length + 1) = p + 1 + 1 + ls.length := by omega
    rw [e1] at hl hq hr ⊢
    have := ih f (p + 1) (out ++ t) rfl hat (by omega) (by omega) hl hq hr
    simp only [List.append_assoc] at this
    exact this

/-! ### Keywords -/

/-- The first line of a field, up to the string. -/
theorem a_first (h : Calm ct fuel T L N) {p skip : Nat} {kw sep q : Str} {ns : List Note} {r : TRes Str} (hl : (T p).line = kw ++ sep ++ q)
    (hk : kw.length = skip) (hsep : Blank ct sep) (hq : ∃ s, q = 34 :: s) (h2 : 2 ≤ (sep ++ q).length)
    (hline : ∀ i, i = skip + sep.length → Acts (getStringLineE ct fuel T b [] i) p ns [] r) :
    Acts (if (T p).line[skip]? = some 32 ∧ (T p).line[skip + 1]? = some 34 then getStringLineE ct fuel T b [] (skip + 1)
      else do
        warnE b!"keyword and string must be seperated by a single space" true
        match skipTo ct (((T p).line.take (u32 (T p).line.length)).drop skip) skip with
        | .error m => errorE ct fuel T m
        | .ok i => getStringLineE ct fuel T b [] i) p (spaceNotes p sep ++ ns) [] r := by
  obtain ⟨s, rfl⟩ := hq
  have hu : u32 (T p).line.length = (T p).line.length := Nat.mod_eq_of_lt (by rw [h.line]; exact h.short p)
  unfold spaceNotes
  by_cases hsp : sep = [32]
  · rw [if_pos hsp, List.nil_append]
    subst hsp
    refine Acts.pos ?_ (hline _ rfl)
    rw [hl, List.append_assoc, ← hk]
    constructor
    · rw [List.getElem?_append_right (by omega)]; simp
    · rw [List.getElem?_append_right (by omega)]; simp
  · rw [if_neg hsp]
    refine Acts.neg ?_ (Acts.bindN (Acts.warn _ _) ?_)
    · rintro ⟨h1, h2⟩
      apply hsp
      rw [hl] at h1 h2
      rw [List.append_assoc, List.getElem?_append_right (by omega)] at h1 h2
      cases sep with
      | nil => simp [hk] at h1
      | cons a s' =>
        cases s' with
        | nil => simp [hk] at h1; rw [h1]
        | cons a2 s2 =>
          have : skip + 1 - kw.length = 1 := by omega
          rw [this] at h2
          simp at h2
          subst h2
          have := hsep 34 (by simp)
          rw [isspace_quote] at this
          cases this
    · rw [hu, List.take_length]
      have hd : (T p).line.drop skip = sep ++ 34 :: s := by
        rw [hl, ← hk, List.append_assoc, List.drop_left]
      rw [hd, skipTo_blank hsep]
      exact hline _ rfl

theorem len_line (h : Calm ct fuel T L N) {p : Nat} {kw r : Str} (hl : (T p).line = kw ++ r) : u32 (T p).line.length = kw.length + r.length := by
  rw [show u32 (T p).line.length = (T p).line.length from Nat.mod_eq_of_lt (by rw [h.line]; exact h.short p), hl, List.length_append]

theorem a_getString' (h : Calm ct fuel T L N) {kw : Str} {p : Nat} {ls : List Str} {text : Str} {ns : List Note}
    (hf : RField ct b kw p ls text ns) (skip : Nat) (hk : kw.length = skip) (hat : At T p ls) (hfu : ls.length ≤ fuel) (hm : p + ls.length < intMax)
    (hend : ¬ Continues ct (T (p + ls.length)).line) :
    Acts (getStringE ct fuel T b skip) p ns [] (.ok text (p + ls.length)) := by
  obtain ⟨hsep, hq, hc⟩ := hf
  rename_i sep q t ls rest ns1 ns2
  obtain ⟨hl, hat⟩ := hat
  simp only [List.length_cons] at hfu hm hend ⊢
  have hlen := len_line h (show (T p).line = kw ++ (sep ++ q) by rw [hl, List.append_assoc])
  have h2 : 2 ≤ (sep ++ q).length := by
    obtain ⟨_⟩ := hq; simp; omega
  unfold getStringE
  refine Acts.line (Acts.neg (by rw [hlen]; omega) (Acts.bindN (a := t) (q := p) (a_first h hl hk hsep (quoted_head hq) h2 (fun i hi => ?_)) ?_))
  · have := a_getStringLine (p := p) (skip := i) h [] hl (by simp [hk, hi]) hq
    rwa [List.nil_append] at this
  · have e1 : p + (ls.length + 1) = p + 1 + ls.length := by omega
    rw [e1] at hend ⊢
    exact a_contLoop h hc fuel p t rfl hat (by omega) (by omega) hend

theorem a_getString (h : Calm ct fuel T L N) {kw : Str} {p : Nat} {ls : List Str} {text : Str} {ns : List Note}
    (hf : RField ct b kw p ls text ns) (skip : Nat) (hk : kw.length = skip) (hat : At T p ls) (hN : p + ls.length ≤ N + 3)
    (hend : ¬ Continues ct (T (p + ls.length)).line) :
    Acts (getStringE ct fuel T b skip) p ns [] (.ok text (p + ls.length)) := by
  have hfew := h.few
  have hfu := h.fuel
  exact a_getString' h hf skip hk hat (by omega) (by omega) hend

theorem skipTo_other {ws r : Str} {c : Byte} (hw : Blank ct ws) (hc : ct.isspace c = false) (hc34 : c ≠ 34) (i : Nat) :
    skipTo ct (ws ++ c :: r) i = .error b!"string must start with '\"'" := by
  induction ws generalizing i with
  | nil => simp [skipTo, hc, hc34]
  | cons x t ih =>
    have hb := hw x List.mem_cons_self
    have : x ≠ 34 := by rintro rfl; rw [isspace_quote] at hb; cases hb
    simp only [List.cons_append, skipTo, this, if_false, hb, Bool.not_true, Bool.false_eq_true]
    exact ih (fun x hx => hw x (List.mem_cons_of_mem _ hx)) _

theorem skipTo_end {ws : Str} (hw : Blank ct ws) (i : Nat) : skipTo ct ws i = .error b!"unexpected end of line" := by
  induction ws generalizing i with
  | nil => rfl
  | cons x t ih =>
    have hb := hw x List.mem_cons_self
    have : x ≠ 34 := by rintro rfl; rw [isspace_quote] at hb; cases hb
    simp only [skipTo, this, if_false, hb, Bool.not_true, Bool.false_eq_true]
    exact ih (fun x hx => hw x (List.mem_cons_of_mem _ hx)) _

theorem a_badString (h : Calm ct fuel T L N) {kw : Str} {p : Nat} {ls : List Str} {l m : Str} {ns : List Note}
    (hf : BadField ct b kw p ls l ns m) (skip : Nat) (hk : kw.length = skip) (hat : At T p (ls ++ [l])) (hN : p + ls.length ≤ N + 3)
    {r : Nat} (hr : Resume ct L N (p + ls.length) r) :
    Acts (getStringE ct fuel T b skip) p (ns ++ [⟨.error, p + ls.length, m, false⟩]) [] (.err r) := by
  have hfew := h.few
  have hfu := h.fuel
  cases hf with
  | first hb =>
    have hl : (T p).line = l := hat.1
    simp only [List.length_nil, Nat.add_zero] at hN hr ⊢
    unfold getStringE
    cases hb with
    | @short s hs =>
      have hlen := len_line h hl
      exact Acts.line (Acts.pos (by rw [hlen]; omega) (a_error h _ hN hr))
    | @blank s hs hbl =>
      have hlen := len_line h hl
      have hu : u32 (T p).line.length = (T p).line.length := Nat.mod_eq_of_lt (by rw [h.line]; exact h.short p)
      refine Acts.line (Acts.neg (by rw [hlen]; omega) (Acts.bindErr (Acts.neg ?_ ?_)))
      · rintro ⟨_, h2⟩
        rw [hl, List.getElem?_append_right (by omega)] at h2
        have := hbl 34 (List.mem_of_getElem? h2)
        rw [isspace_quote] at this
        cases this
      · have : spaceNotes p s = [⟨.warning, p, b!"keyword and string must be seperated by a single space", true⟩] := by
          unfold spaceNotes
          rw [if_neg (by rintro rfl; simp at hs)]
        rw [this]
        refine Acts.bindN (Acts.warn _ _) ?_
        rw [hu, List.take_length, hl, ← hk, List.drop_left, skipTo_end hbl]
        exact a_error h _ hN hr
    | @other sep c s hsep h2 hc hc34 =>
      have hl' : (T p).line = kw ++ (sep ++ c :: s) := by rw [hl, List.append_assoc]
      have hlen := len_line h hl'
      have hu : u32 (T p).line.length = (T p).line.length := Nat.mod_eq_of_lt (by rw [h.line]; exact h.short p)
      refine Acts.line (Acts.neg (by rw [hlen]; omega) (Acts.bindErr (Acts.neg ?_ (Acts.bindN (Acts.warn _ _) ?_))))
      · rintro ⟨g1, g2⟩
        rw [hl', List.getElem?_append_right (by omega)] at g1 g2
        match sep, hsep, g1, g2 with
        | [], _, g1, g2 =>
          simp [hk] at g1
          subst g1
          rw [ct.isspace_ascii 32 (by decide)] at hc
          cases hc
        | [x], _, g1, g2 =>
          have : skip + 1 - kw.length = 1 := by omega
          rw [this] at g2
          simp at g2
          exact hc34 g2
        | x :: y :: t, hsep, g1, g2 =>
          have : skip + 1 - kw.length = 1 := by omega
          rw [this] at g2
          simp at g2
          subst g2
          have := hsep 34 (by simp)
          rw [isspace_quote] at this
          cases this
      · rw [hu, List.take_length, hl', ← hk, List.drop_left, skipTo_other hsep hc hc34]
        exact a_error h _ hN hr
    | @string sep q ns m hsep h2 hq =>
      have hlen := len_line h (show (T p).line = kw ++ (sep ++ q) by rw [hl, List.append_assoc])
      rw [List.append_assoc]
      refine Acts.line (Acts.neg (by rw [hlen]; omega) (Acts.bindErr (a_first h hl hk hsep (badString_head hq) h2 (fun i hi => ?_))))
      exact a_badStringLine h [] hl (by simp [hk, hi]) hq hN hr
  | @later ls t ns ws q ns' m hfld hws hbad =>
    obtain ⟨hsep, hq, hc⟩ := hfld
    rename_i sep q1 t1 ls rest ns1 ns2
    obtain ⟨hat1, hat2, _⟩ := At_append.1 hat
    obtain ⟨hl, hat1⟩ := hat1
    simp only [List.length_cons] at hN hr hat2 hbad ⊢
    have hlen := len_line h (show (T p).line = kw ++ (sep ++ q1) by rw [hl, List.append_assoc])
    have h2 : 2 ≤ (sep ++ q1).length := by
      obtain ⟨_⟩ := hq; simp; omega
    unfold getStringE
    have e1 : p + (ls.length + 1) = p + 1 + ls.length := by omega
    rw [e1] at hr hat2 hbad ⊢
    have hcb := a_contLoop_bad h hc hws fuel p t1 rfl hat1 (by omega) (by omega) hat2 hbad hr
    have hfirst := a_first h hl hk hsep (quoted_head hq) h2 (r := .ok t1 p) (ns := ns1) (b := b) (fun i hi => by
      have := a_getStringLine (p := p) (skip := i) h [] hl (by simp [hk, hi]) hq
      rwa [List.nil_append] at this)
    have := Acts.bindN hfirst (f := fun out => contLoopE ct fuel T b fuel out) hcb
    simp only [List.append_assoc] at this ⊢
    exact Acts.line (Acts.neg (by rw [hlen]; omega) this)
end
end Tgt.POParser
