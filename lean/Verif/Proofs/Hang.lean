import Verif.Proofs.Grammar3
/-
Tape code that never comes to an end, because the last line of the text lacks its newline and is read again and again.
-/
namespace Tgt.POParser
open Spec Spec.Po

/-- Events that can be part of an unfinished entry. -/
def Ev.soft : Ev → Bool
  | .clear => true
  | .conv _ _ => true
  | _ => false

/-- The code does not come to an end, and all it does meanwhile is collecting plural strings. -/
def HangS {α : Type} (e : E α) (p : Nat) : Prop :=
  ((e p).2 = .diverge ∨ (e p).2 = .overflow) ∧ ∀ x ∈ essence (e p).1, x.soft = true

section
variable {α β : Type} {st : Bool} {p q : Nat} {w : List Ev} {a : α}

theorem HangS.first {e : E α} {f : α → E β} (h : HangS e p) : HangS (e >>= f) p := by
  unfold HangS at *
  rw [e_bind]
  unfold E.bind
  rcases hx : e p with ⟨w, r⟩
  rw [hx] at h
  obtain ⟨h1, h2⟩ := h
  dsimp only at h1 h2
  rcases h1 with rfl | rfl
  · exact ⟨.inl rfl, h2⟩
  · exact ⟨.inr rfl, h2⟩

theorem HangS.second {e : E α} {f : α → E β} (h1 : Yields st e p w a q) (hw : ∀ x ∈ w, x.soft = true) (h2 : HangS (f a) q) :
    HangS (e >>= f) p := by
  obtain ⟨v, e1, s1, d1⟩ := h1
  unfold HangS at *
  rw [e_bind]
  unfold E.bind
  rw [e1]
  dsimp only
  refine ⟨h2.1, fun x hx => ?_⟩
  rw [essence_append, s1] at hx
  rcases List.mem_append.1 hx with h | h
  · exact hw x h
  · exact h2.2 x h

theorem HangS.second0 {e : E α} {f : α → E β} (h1 : Yields st e p [] a q) (h2 : HangS (f a) q) : HangS (e >>= f) p :=
  HangS.second h1 (fun x hx => by cases hx) h2

theorem HangS.line {T : Tape} {f : Str → E β} (h : HangS (f (T p).line) p) : HangS (lineE T >>= f) p :=
  HangS.second0 (st := false) (a := (T p).line) (q := p) ⟨[], rfl, rfl, fun x hx => by cases hx⟩ h

theorem HangS.next {f : Unit → E β} (h : p + 1 < intMax → HangS (f ()) (p + 1)) : HangS (nextE >>= f) p := by
  by_cases hp : p + 1 < intMax
  · exact HangS.second0 (st := false) (Yields.next hp) (h hp)
  · unfold HangS
    rw [e_bind]
    unfold E.bind nextE
    rw [if_pos (by omega)]
    exact ⟨.inr rfl, fun x hx => by cases hx⟩

theorem HangS.diverge : HangS (E.diverge : E α) p := ⟨.inl rfl, fun x hx => by cases hx⟩
end

section
variable {ct : CType} {fuel : Nat} {T : Tape} {big5 st : Bool}

theorem h_comments : ∀ (f : Nat) (fz : Bool) (p : Nat), (∀ q, p ≤ q → Comment (T q).line) → HangS (commentLoopE T f fz) p := by
  intro f
  induction f with
  | zero => intro fz p _; exact HangS.diverge
  | succ f ih =>
    intro fz p h
    unfold commentLoopE
    refine HangS.line ?_
    rw [if_pos ((hash_iff _).2 (h p (Nat.le_refl _)))]
    exact HangS.next (fun _ => ih _ _ (fun q hq => h q (by omega)))

/-- Stuck at a continuation line. -/
theorem h_contLoop_stuck (hs : Short T) {ws qq t : Str} (hw : Blank ct ws) (hst : st = true → ws.length ≠ 1) (hq : Quoted ct big5 st qq t) :
    ∀ (f p : Nat) (out : Str), (∀ q, p < q → (T q).line = ws ++ qq) → HangS (contLoopE ct fuel T big5 f out) p := by
  intro f
  induction f with
  | zero => intro p out _; exact HangS.diverge
  | succ f ih =>
    intro p out hl
    unfold contLoopE
    refine HangS.next (fun hm => HangS.line ?_)
    have hsq : scanQuote ct (T (p + 1)).line 0 = some ws.length := by
      obtain ⟨hlit, hst2⟩ := hq
      rename_i body u trail
      rw [hl _ (by omega), show ws ++ (34 :: body ++ 34 :: trail) = ws ++ 34 :: (body ++ 34 :: trail) from rfl, scanQuote_blank hw]
      simp
    rw [hsq]
    dsimp only
    refine HangS.second0 (st := st) (a := ()) (q := p + 1) (Yields.ite _ (fun h1 => Yields.warn _ _ ?_) (fun _ => Yields.pure _)) ?_
    · cases hst' : st with
      | false => rfl
      | true => exact absurd h1 (hst hst')
    · exact HangS.second0 (y_getStringLine out (hl _ (by omega)) rfl (hs _) hq) (ih (p + 1) _ (fun q hq => hl q (by omega)))

theorem h_contLoop (hs : Short T) {ls : List Str} {text : Str} (h : Conts ct big5 st ls text) :
    ∀ (f p : Nat) (out : Str), ls ≠ [] → At T (p + 1) ls → (∀ q, p + ls.length ≤ q → (T q).line = (T (p + ls.length)).line) →
      HangS (contLoopE ct fuel T big5 f out) p := by
  induction h with
  | nil => intro f p out h; exact absurd rfl h
  | @cons ws q t ls rest hw hst hq hr ih =>
    intro f p out hne0 hat hstuck
    clear hne0
    cases f with
    | zero => exact HangS.diverge
    | succ f =>
      by_cases hls : ls = []
      · subst hls
        refine h_contLoop_stuck hs hw hst hq (f + 1) p out (fun q' hq' => ?_)
        simp only [List.length_cons, List.length_nil, Nat.zero_add] at hstuck
        rw [hstuck q' (by omega)]
        exact hat.1
      · unfold contLoopE
        simp only [List.length_cons] at hstuck
        obtain ⟨hl, hat⟩ := hat
        refine HangS.next (fun hm => HangS.line ?_)
        have hsq : scanQuote ct (T (p + 1)).line 0 = some ws.length := by
          obtain ⟨hlit, hst2⟩ := hq
          rename_i body u trail
          rw [hl, show ws ++ (34 :: body ++ 34 :: trail) = ws ++ 34 :: (body ++ 34 :: trail) from rfl, scanQuote_blank hw]
          simp
        rw [hsq]
        dsimp only
        refine HangS.second0 (st := st) (a := ()) (q := p + 1) (Yields.ite _ (fun h1 => Yields.warn _ _ ?_) (fun _ => Yields.pure _)) ?_
        · cases hst' : st with
          | false => rfl
          | true => exact absurd h1 (hst hst')
        · refine HangS.second0 (y_getStringLine out hl rfl (hs _) hq) (ih f (p + 1) _ hls hat (fun q' hq' => ?_))
          have e1 : p + 1 + ls.length = p + (ls.length + 1) := by omega
          rw [e1] at hq' ⊢
          exact hstuck q' hq'

/-- A string after a keyword hangs if its continuation does. -/
theorem h_getString (hs : Short T) {kw sep qq t l : Str} (hsep : Blank ct sep) (hst : st = true → sep = [32]) (hq : Quoted ct big5 st qq t)
    (p skip : Nat) (hk : kw.length = skip) (hl : (T p).line = l) (hl' : l = kw ++ sep ++ qq)
    (h : HangS (contLoopE ct fuel T big5 fuel t) p) : HangS (getStringE ct fuel T big5 skip) p := by
  subst hl'
  unfold getStringE
  have hu : u32 (T p).line.length = (T p).line.length := Nat.mod_eq_of_lt (hs p)
  have hq' := hq
  obtain ⟨hlit, hst2⟩ := hq'
  rename_i body u trail
  refine HangS.line ?_
  rw [if_neg (by rw [hu, hl]; simp; omega)]
  refine HangS.second0 (st := st) (a := t) (q := p) (Yields.ite _ (fun h => ?_) (fun h => ?_)) h
  · have hsp : sep = [32] := by
      obtain ⟨h1, h2⟩ := h
      rw [hl] at h1 h2
      rw [List.append_assoc, List.getElem?_append_right (by omega)] at h1 h2
      cases sep with
      | nil => simp [hk] at h1
      | cons a s =>
        cases s with
        | nil => simp [hk] at h1; rw [h1]
        | cons a2 s2 =>
          have : skip + 1 - kw.length = 1 := by omega
          rw [this] at h2
          simp at h2
          subst h2
          have := hsep 34 (by simp)
          rw [isspace_quote] at this
          cases this
    subst hsp
    have := y_getStringLine (fuel := fuel) (p := p) (skip := skip + 1) [] hl (by simp [hk]) (hs p) hq
    simpa using this
  · have hns : st = false := by
      cases hst' : st with
      | false => rfl
      | true =>
        exfalso
        apply h
        rw [hl, hst hst', ← hk]
        constructor
        · simp
        · rw [List.append_assoc, List.getElem?_append_right (by omega)]
          simp
    refine Yields.bind0 (Yields.warn _ _ hns) ?_
    rw [hu, List.take_length]
    have hd : (T p).line.drop skip = sep ++ 34 :: (body ++ 34 :: trail) := by
      rw [hl, ← hk, List.append_assoc, List.drop_left]
      rfl
    rw [hd, skipTo_blank hsep]
    have := y_getStringLine (fuel := fuel) (p := p) (skip := skip + sep.length) [] hl (by simp [hk]) (hs p) hq
    simpa using this

/-- A field of more than one line, the last of which is stuck. -/
theorem h_field (hs : Short T) {kw : Str} {ls : List Str} {text : Str} (h : Field ct big5 st kw ls text)
    (p skip : Nat) (hk : kw.length = skip) (hat : At T p ls) (hlen : 1 < ls.length)
    (hstuck : ∀ q, p + (ls.length - 1) ≤ q → (T q).line = (T (p + (ls.length - 1))).line) :
    HangS (getStringE ct fuel T big5 skip) p := by
  obtain ⟨hsep, hst, hq, hc⟩ := h
  rename_i sep q t ls rest
  refine h_getString hs hsep hst hq p skip hk hat.1 rfl ?_
  simp only [List.length_cons, Nat.add_sub_cancel] at hlen hstuck
  exact h_contLoop hs hc fuel p t (by intro h; subst h; simp at hlen) hat.2 hstuck

/-- Stuck at a `msgstr[N]` line. -/
theorem h_plural_stuck (hs : Short T) {n : Nat} (hn : n ≤ 9) {l t : Str} (h : Field ct big5 st (msgstrN n) [l] t) (hfu : 0 < fuel) :
    ∀ (f p : Nat) (first saw : Bool), (∀ q, p ≤ q → (T q).line = l) → HangS (pluralLoopE ct fuel T big5 f first saw) p := by
  obtain ⟨sep, qq, ls', hl, hsep⟩ := field_head h
  simp only [List.cons.injEq] at hl
  obtain ⟨hl, _⟩ := hl
  intro f
  induction f with
  | zero => intro p _ _ _; exact HangS.diverge
  | succ f ih =>
    intro p first saw hstuck
    have hml := m_line (ct := ct) (T p).line _ (by rw [hstuck p (Nat.le_refl _), hl]; rfl)
    unfold pluralLoopE
    refine HangS.line ?_
    rw [if_neg (by rw [hml.1]; simp)]
    have : msgstrIndex (T p).line = some n := by rw [hstuck p (Nat.le_refl _), hl]; exact msgstrIndex_kw n hn _
    rw [this]
    dsimp only
    by_cases hm : p + 1 < intMax
    · refine HangS.second0 (y_getString hs h p 9 (msgstrN_length n) ⟨hstuck p (Nat.le_refl _), trivial⟩ hfu hm ?_) ?_
      · simp only [List.length_cons, List.length_nil, Nat.zero_add]
        rw [hstuck _ (by omega), ← hstuck p (Nat.le_refl _)]
        exact hml.2.1
      · refine HangS.second (st := st) (w := [Ev.conv n t]) (a := ()) (Yields.emit rfl) ?_ (ih _ _ _ (fun q hq => hstuck q ?_))
        · intro x hx
          simp at hx
          subst hx
          rfl
        · simp only [List.length_cons, List.length_nil] at hq; omega
    · refine HangS.first ?_
      obtain ⟨hsep', hst, hq, hc⟩ := h
      refine h_getString hs hsep' hst hq p 9 (msgstrN_length n) (hstuck p (Nat.le_refl _)) rfl ?_
      obtain ⟨g, rfl⟩ : ∃ g, fuel = g + 1 := ⟨fuel - 1, by omega⟩
      unfold contLoopE
      exact HangS.next (fun h => absurd h hm)

theorem h_pluralLoop (hs : Short T) {ls : List Str} {strs : List (Nat × Str)} (h : PluralLines ct big5 st ls strs) :
    ∀ (f p : Nat) (first saw : Bool), At T p ls → ls.length ≤ fuel → p + ls.length < intMax →
      (∀ q, p + (ls.length - 1) ≤ q → (T q).line = (T (p + (ls.length - 1))).line) →
      HangS (pluralLoopE ct fuel T big5 f first saw) p := by
  induction h with
  | @one n ls t hn hf =>
    intro f p first saw hat hfu hm hstuck
    by_cases h1 : 1 < ls.length
    · cases f with
      | zero => exact HangS.diverge
      | succ f =>
        obtain ⟨sep, qq, ls', hl, hsep⟩ := field_head hf
        have hl0 : (T p).line = msgstrN n ++ (sep ++ 34 :: qq) := by rw [hl] at hat; exact hat.1
        have hml := m_line (ct := ct) (T p).line _ (by rw [hl0]; rfl)
        unfold pluralLoopE
        refine HangS.line ?_
        rw [if_neg (by rw [hml.1]; simp)]
        have : msgstrIndex (T p).line = some n := by rw [hl0]; exact msgstrIndex_kw n hn _
        rw [this]
        dsimp only
        exact HangS.first (h_field hs hf p 9 (msgstrN_length n) hat h1 hstuck)
    · obtain ⟨sep, qq, ls', hl, hsep⟩ := field_head hf
      have hls : ls' = [] := by
        rw [hl] at h1
        simp only [List.length_cons] at h1
        exact List.length_eq_zero_iff.1 (by omega)
      subst hls
      subst hl
      refine h_plural_stuck hs hn hf hfu f p first saw (fun q hq => ?_)
      have := hstuck q (by simpa using hq)
      rw [this]
      exact hat.1
  | @more n ls t ls' r hn hf hr ih =>
    intro f p first saw hat hfu hm hstuck
    cases f with
    | zero => exact HangS.diverge
    | succ f =>
      rw [List.length_append] at hfu hm hstuck
      obtain ⟨hat1, hat2⟩ := At_append.1 hat
      obtain ⟨n', sep', q', ls'', _, hl', _⟩ := pluralLines_pos hr
      have hpos' : 0 < ls'.length := by rw [hl']; simp
      have hq : scanQuote ct (T (p + ls.length)).line 0 = none := by
        have hat2 := hat2
        rw [hl'] at hat2
        exact (m_line (ct := ct) (T (p + ls.length)).line _ (by rw [hat2.1]; rfl)).2.1
      obtain ⟨sep, qq, ls1, hl, hsep⟩ := field_head hf
      have hl0 : (T p).line = msgstrN n ++ (sep ++ 34 :: qq) := by rw [hl] at hat1; exact hat1.1
      have hml := m_line (ct := ct) (T p).line _ (by rw [hl0]; rfl)
      unfold pluralLoopE
      refine HangS.line ?_
      rw [if_neg (by rw [hml.1]; simp)]
      have : msgstrIndex (T p).line = some n := by rw [hl0]; exact msgstrIndex_kw n hn _
      rw [this]
      dsimp only
      refine HangS.second0 (y_getString hs hf p 9 (msgstrN_length n) hat1 (by omega) (by omega) hq) ?_
      refine HangS.second (st := st) (w := [Ev.conv n t]) (a := ()) (Yields.emit rfl) ?_ ?_
      · intro x hx
        simp at hx
        subst hx
        rfl
      · have e1 : p + ls.length + (ls'.length - 1) = p + (ls.length + ls'.length - 1) := by omega
        exact ih f _ _ _ hat2 (by omega) (by omega) (by rw [e1]; exact hstuck)

/-- An entry whose last line is stuck, unless that is harmless. -/
theorem h_entry (hs : Short T) {ls : List Str} {e : Entry} (h : EntryLines ct big5 st ls e) (p : Nat) (hat : At T p ls)
    (hf : ls.length < fuel) (hm : p + ls.length + 1 < intMax)
    (hstuck : ∀ q, p + (ls.length - 1) ≤ q → (T q).line = (T (p + (ls.length - 1))).line)
    (hbad : ¬ HarmlessEnd ct (T (p + (ls.length - 1))).line) :
    HangS (entryE ct fuel T big5) p := by
  -- common beginning
  have start : ∀ {cs cls ils rest : List Str} {fz : Bool} {c : Option Str} {id : Str},
      (∀ l ∈ cs, Comment l) → (fz = true ↔ ∃ l ∈ cs, FuzzyFlag l) → CtxtLines ct big5 st cls c →
      Field ct big5 st b!"msgid" ils id → ls = cs ++ cls ++ ils ++ rest →
      scanQuote ct (T (p + (cs.length + cls.length + ils.length))).line 0 = none →
      (HangS (do
          let l ← lineE T
          if hasPrefix b!"msgid_plural" l then pluralEntryE ct fuel T big5 fz c id
          else do
            let l ← lineE T
            if hasPrefix b!"msgstr" l then singularEntryE ct fuel T big5 fz c id
            else errorE ct fuel T b!"expected 'msgstr' or 'msgid_plural'")
        (p + (cs.length + cls.length + ils.length))) →
      HangS (entryE ct fuel T big5) p := by
    intro cs cls ils rest fz c id hc hfz hcl hid hls hq2 hy
    rw [hls] at hat hf hm
    simp only [List.length_append] at hf hm
    obtain ⟨hat, hat4⟩ := At_append.1 hat
    obtain ⟨hat, hat3⟩ := At_append.1 hat
    obtain ⟨hat1, hat2⟩ := At_append.1 hat
    simp only [List.length_append] at hat3
    rw [← Nat.add_assoc] at hat3
    obtain ⟨sep, q, ils', hils, hsep⟩ := field_head hid
    have hidl : (T (p + cs.length + cls.length)).line = b!"msgid" ++ (sep ++ 34 :: q) := by
      have := hat3; rw [hils] at this; exact this.1
    have hfirst : ∃ t, (T (p + cs.length)).line = 109 :: t := by
      cases hcl with
      | none => simp only [List.length_nil, Nat.add_zero] at hidl; exact ⟨_, hidl⟩
      | some hf' =>
        obtain ⟨sep', q', ls', rfl, _⟩ := field_head hf'
        exact ⟨_, hat2.1⟩
    obtain ⟨t1, ht1⟩ := hfirst
    have hml := m_line (ct := ct) _ _ ht1
    have hfz' : (false || cs.any fuzzyFlag) = fz := by
      rw [Bool.false_or, Bool.eq_iff_iff, hfz, List.any_eq_true]
      constructor
      · rintro ⟨l, h1, h2⟩; exact ⟨l, h1, (fuzzyFlag_iff l (hc l h1)).1 h2⟩
      · rintro ⟨l, h1, h2⟩; exact ⟨l, h1, (fuzzyFlag_iff l (hc l h1)).2 h2⟩
    have hcom := y_commentLoop (T := T) (st := st) cs fuel p false hc hat1 (by omega) (by omega) hml.2.2
    rw [hfz'] at hcom
    unfold entryE
    refine HangS.second0 hcom (HangS.line ?_)
    rw [if_pos (by rw [hml.1]; rfl)]
    refine HangS.first ?_
    unfold entryBodyE
    refine HangS.second0 (y_ctxt hs hcl _ hat2 (by omega) (by omega) ⟨_, hidl⟩) ?_
    refine HangS.second0 (st := st) (a := id) (q := p + cs.length + cls.length + ils.length) ?_ ?_
    · unfold msgidE
      refine Yields.line (Yields.ite _ (fun _ => ?_) (fun h => ?_))
      · refine y_getString hs hid _ 5 rfl hat3 (by omega) (by omega) ?_
        rw [show p + cs.length + cls.length + ils.length = p + (cs.length + cls.length + ils.length) by omega]
        exact hq2
      · rw [hidl] at h; exact absurd (prefix_kw _ _) h
    · rw [show p + cs.length + cls.length + ils.length = p + (cs.length + cls.length + ils.length) by omega]
      exact hy
  cases h with
  | @single cs fz cls c ils id sls t hc hfz hcl hid hst =>
    obtain ⟨sep, q, sls', hsls, hsep⟩ := field_head hst
    have hat' := (At_append.1 hat).2
    simp only [List.length_append] at hat'
    have hl : (T (p + (cs.length + cls.length + ils.length))).line = b!"msgstr" ++ (sep ++ 34 :: q) := by
      have := hat'; rw [hsls] at this; exact this.1
    refine start hc hfz hcl hid rfl (m_line (ct := ct) _ _ hl).2.1 ?_
    refine HangS.line ?_
    rw [if_neg (by rw [hl]; simp [hasPrefix])]
    refine HangS.line ?_
    rw [if_pos (by rw [hl]; exact prefix_kw _ _)]
    unfold singularEntryE
    refine HangS.first ?_
    simp only [List.length_append] at hstuck hbad
    by_cases h1 : 1 < sls.length
    · have e1 : p + (cs.length + cls.length + ils.length) + (sls.length - 1) = p + (cs.length + cls.length + ils.length + sls.length - 1) := by omega
      exact h_field hs hst _ 6 rfl hat' h1 (by rw [e1]; exact hstuck)
    · exfalso
      have hpos : sls.length = 1 := by rw [hsls] at h1 ⊢; simp only [List.length_cons] at h1 ⊢; omega
      rw [hpos, show p + (cs.length + cls.length + ils.length + 1 - 1) = p + (cs.length + cls.length + ils.length) by omega, hl] at hbad
      refine hbad ⟨by simp, ?_, ?_⟩
      · have : ct.isspace 109 = false := isspace_false ct 109 (by decide) (by decide)
        simp [this]
      · intro ⟨r, hr⟩
        simp only [List.cons_append, List.nil_append, List.cons.injEq, true_and] at hr
        obtain ⟨b, t, hb, hor⟩ := sep_head (ct := ct) (q := q) hsep
        rw [hb] at hr
        simp only [List.cons.injEq] at hr
        rw [← hr.1] at hor
        rcases hor with h | h
        · simp at h
        · rw [isspace_false ct 91 (by decide) (by decide)] at h; cases h
  | @plural cs fz cls c ils id pls idp sls strs hc hfz hcl hid hpl hst =>
    obtain ⟨sep, q, pls', hpls, hsep⟩ := field_head hpl
    obtain ⟨hat0, hat5⟩ := At_append.1 hat
    have hat' := (At_append.1 hat0).2
    simp only [List.length_append] at hat' hat5
    have hl : (T (p + (cs.length + cls.length + ils.length))).line = b!"msgid_plural" ++ (sep ++ 34 :: q) := by
      have := hat'; rw [hpls] at this; exact this.1
    obtain ⟨n', sep', q', ls'', _, h5, _⟩ := pluralLines_pos hst
    have hpos : 0 < sls.length := by rw [h5]; simp
    have hl5 : scanQuote ct (T (p + (cs.length + cls.length + ils.length) + pls.length)).line 0 = none := by
      rw [h5, ← Nat.add_assoc] at hat5
      exact (m_line (ct := ct) _ _ hat5.1).2.1
    refine start hc hfz hcl hid (by rw [List.append_assoc]) (m_line (ct := ct) _ _ hl).2.1 ?_
    simp only [List.length_append] at hf hm hstuck hbad ⊢
    refine HangS.line ?_
    rw [if_pos (by rw [hl]; exact prefix_kw _ _)]
    unfold pluralEntryE
    refine HangS.second0 (y_getString hs hpl _ 12 rfl hat' (by omega) (by omega) hl5) ?_
    refine HangS.second (st := st) (w := [.clear]) (a := ()) (Yields.emit rfl) ?_ ?_
    · intro x hx
      simp at hx
      subst hx
      rfl
    · rw [← Nat.add_assoc] at hat5
      refine HangS.first (h_pluralLoop hs hst fuel _ true false hat5 (by omega) (by omega) ?_)
      have e1 : p + (cs.length + cls.length + ils.length) + pls.length + (sls.length - 1)
        = p + (cs.length + cls.length + ils.length + pls.length + sls.length - 1) := by omega
      rw [e1]
      exact hstuck

/-- Comments up to the end, the last line stuck. -/
theorem h_comment_entry (p : Nat) (h : ∀ q, p ≤ q → Comment (T q).line) : HangS (entryE ct fuel T big5) p := by
  unfold entryE
  exact HangS.first (h_comments fuel false p h)

/-- The main loop does not come to an end, after loading the entries `es`. -/
def HangM (e : E Unit) (p : Nat) (es : List Entry) : Prop :=
  ((e p).2 = .diverge ∨ (e p).2 = .overflow) ∧ ∃ w, essence (e p).1 = es.flatMap evsOf ++ w ∧ ∀ x ∈ w, x.soft = true

theorem hangM_here {f : Nat} {b : Bool} {p : Nat} (he : (T p).eof = false) (h : HangS (entryE ct fuel T b) p) :
    HangM (mainLoopE ct fuel T (f + 1) b) p [] := by
  unfold HangS at h
  unfold HangM mainLoopE
  rw [he]
  simp only [Bool.not_false, if_true]
  rcases hx : entryE ct fuel T b p with ⟨w, r⟩
  rw [hx] at h
  obtain ⟨h1, h2⟩ := h
  dsimp only at h1 h2
  rcases h1 with rfl | rfl
  · exact ⟨.inl rfl, _, rfl, h2⟩
  · exact ⟨.inr rfl, _, rfl, h2⟩

theorem hangM_step {f : Nat} {b : Bool} {p q : Nat} {b' : Bool} {e es : List Entry} (he : (T p).eof = false)
    (h : Yields st (entryE ct fuel T b) p (e.flatMap evsOf) () q) (hb : ∀ w', essence w' = e.flatMap evsOf → big5After ct b w' = b')
    (h2 : HangM (mainLoopE ct fuel T f b') q es) :
    HangM (mainLoopE ct fuel T (f + 1) b) p (e ++ es) := by
  obtain ⟨v1, e1, s1, d1⟩ := h
  obtain ⟨h2, w2, h3, h4⟩ := h2
  unfold HangM
  have : mainLoopE ct fuel T (f + 1) b p = (v1 ++ (mainLoopE ct fuel T f b' q).1, (mainLoopE ct fuel T f b' q).2) := by
    rw [mainLoopE]
    dsimp only
    rw [he]
    simp only [Bool.not_false, if_true]
    rw [e1]
    dsimp only
    rw [hb v1 s1]
  rw [this]
  refine ⟨h2, w2, ?_, h4⟩
  dsimp only
  rw [essence_append, s1, h3, List.flatMap_append, List.append_assoc]

theorem getLast_app {A B : List Str} (h : B ≠ []) : (A ++ B).getLast? = B.getLast? := by
  rw [List.getLast?_append]
  cases hb : B.getLast? with
  | none => exact absurd (List.getLast?_eq_none_iff.1 hb) h
  | some x => rfl

/-- The last line of an entry. -/
theorem entry_last {ls : List Str} {r : Str} {e : Entry} (h : EntryLines ct big5 st (ls ++ [r]) e) : ¬ Comment r ∧ ¬ Blank ct r := by
  have hfield : ∀ {kw : Str} {fl : List Str} {t : Str}, Field ct big5 st kw fl t → (∃ k, kw = 109 :: k) → ∀ x ∈ fl, ¬ Comment x ∧ ¬ Blank ct x := by
    intro kw fl t hf ⟨k, hk⟩ x hx
    obtain ⟨hsep, hst, hq, hc⟩ := hf
    rename_i sep q t ls rest
    have hsp : ct.isspace 109 = false := isspace_false ct 109 (by decide) (by decide)
    rcases List.mem_cons.1 hx with rfl | hx
    · subst hk
      refine ⟨by simp [Comment], fun hb => ?_⟩
      rw [hb 109 (by simp)] at hsp
      cases hsp
    · clear hq
      induction hc with
      | nil => cases hx
      | @cons ws q t ls rest hw _ hq _ ih =>
        rcases List.mem_cons.1 hx with rfl | hx
        · obtain ⟨_, _⟩ := hq
          constructor
          · cases ws with
            | nil => simp [Comment]
            | cons b ws =>
              simp only [Comment, List.cons_append, List.head?_cons, Option.some.injEq]
              rintro rfl
              have := hw 35 (by simp)
              rw [isspace_false ct 35 (by decide) (by decide)] at this
              cases this
          · intro hb
            have := hb 34 (by simp)
            rw [isspace_quote] at this
            cases this
        · exact ih (by exact List.mem_cons_of_mem _ hx) hx
  have hplural : ∀ {sls : List Str} {strs : List (Nat × Str)}, PluralLines ct big5 st sls strs → ∀ x ∈ sls, ¬ Comment x ∧ ¬ Blank ct x := by
    intro sls strs h
    induction h with
    | one _ hf => exact hfield hf ⟨_, rfl⟩
    | more _ hf _ ih =>
      intro x hx
      rcases List.mem_append.1 hx with hx | hx
      · exact hfield hf ⟨_, rfl⟩ x hx
      · exact ih x hx
  have hmem : ∀ {A B : List Str}, B ≠ [] → ls ++ [r] = A ++ B → r ∈ B := by
    intro A B hB he
    have := congrArg List.getLast? he
    rw [getLast_app (by simp), getLast_app hB] at this
    simp only [List.getLast?_singleton] at this
    exact List.mem_of_getLast? this.symm
  generalize hL : ls ++ [r] = L at h
  cases h with
  | single _ _ _ _ hst =>
    obtain ⟨sep, q, sls', hsls, hsep⟩ := field_head hst
    exact hfield hst ⟨_, rfl⟩ r (hmem (by rw [hsls]; simp) hL)
  | plural _ _ _ _ _ hst =>
    obtain ⟨n', sep', q', ls'', _, h5, _⟩ := pluralLines_pos hst
    exact hplural hst r (hmem (by rw [h5]; simp) hL)

theorem dropWhile_blank {l : Str} (h : Blank ct l) : l.dropWhile ct.isspace = [] := by
  induction l with
  | nil => rfl
  | cons b t ih =>
    rw [List.dropWhile_cons, if_pos (h b (by simp))]
    exact ih (fun x hx => h x (by simp [hx]))

theorem snoc_of_ne {ls : List Str} (h : ls ≠ []) : ∃ ls' r, ls = ls' ++ [r] :=
  ⟨ls.dropLast, ls.getLast h, (List.dropLast_concat_getLast h).symm⟩

theorem noEv (b : Bool) (w' : List Ev) (hw : essence w' = []) : big5After ct b w' = b := by
  rw [big5After_essence, hw]
  simp [big5After]

/-- A well-formed file whose last line lacks its newline, when this is not harmless. -/
theorem h_file (hs : Short T) {b : Bool} {L : List Str} {es : List Entry} (h : File ct st b L es) :
    ∀ (ls : List Str) (r : Str) (f p : Nat), L = ls ++ [r] → At T p L → (∀ q, (T q).eof = decide (p + L.length ≤ q)) →
      (∀ q, p + ls.length ≤ q → (T q).line = r) → L.length + 1 < f → L.length < fuel → p + L.length + 1 < intMax →
      ¬ HarmlessEnd ct r → (Comment r → ∀ l, ls.getLast? = some l → Blank ct l ∨ Comment l) →
      ∃ es', es' <+: es ∧ HangM (mainLoopE ct fuel T f b) p es' := by
  induction h with
  | @comments b cs hc =>
    intro ls r f p hL hat heof hend hf hfu hm hbad hprev
    obtain ⟨f, rfl⟩ : ∃ g, f = g + 1 := ⟨f - 1, by omega⟩
    refine ⟨[], List.prefix_refl _, hangM_here (by rw [heof]; rw [hL]; simp) (h_comment_entry p ?_)⟩
    subst hL
    have : ∀ (A : List Str) (p : Nat), (∀ l ∈ A, Comment l) → At T p A → ∀ q, p ≤ q → q < p + A.length → Comment (T q).line := by
      intro A
      induction A with
      | nil => intro p _ _ q h1 h2; simp at h2; omega
      | cons l A ih =>
        intro p hA hat q h1 h2
        by_cases hq : q = p
        · subst hq; rw [hat.1]; exact hA l (by simp)
        · exact ih (p + 1) (fun x hx => hA x (by simp [hx])) hat.2 q (by omega) (by simp only [List.length_cons] at h2; omega)
    intro q hq
    by_cases hq' : q < p + (ls ++ [r]).length
    · exact this _ p hc hat q hq hq'
    · rw [hend q (by simp only [List.length_append] at hq'; omega)]
      exact hc r (by simp)
  | @blank b cs bl ls' es hc hbl hfile ih =>
    intro ls r f p hL hat heof hend hf hfu hm hbad hprev
    obtain ⟨f, rfl⟩ : ∃ g, f = g + 1 := ⟨f - 1, by omega⟩
    obtain ⟨hat1, hat2⟩ := At_append.1 hat
    by_cases hn : ls' = []
    · subst hn
      have hr : bl = r := by
        have := congrArg List.getLast? hL
        simpa using this
      subst hr
      exfalso
      refine hbad ⟨fun h => blank_not_comment _ hbl h, ?_, ?_⟩
      · have := dropWhile_blank hbl
        simp [this]
      · intro ⟨x, hx⟩
        have := hbl 109 (by rw [← hx]; simp)
        rw [isspace_false ct 109 (by decide) (by decide)] at this
        cases this
    · obtain ⟨ls2, r', hls2⟩ := snoc_of_ne hn
      have hr : ls = cs ++ bl :: ls2 ∧ r = r' := by
        rw [hls2] at hL
        have : cs ++ bl :: (ls2 ++ [r']) = (cs ++ bl :: ls2) ++ [r'] := by simp
        rw [this] at hL
        have := List.append_inj' hL rfl
        exact ⟨this.1.symm, by simpa using this.2.symm⟩
      obtain ⟨rfl, rfl⟩ := hr
      simp only [List.length_append, List.length_cons] at *
      have e1 : p + (cs.length + (ls'.length + 1)) = p + cs.length + 1 + ls'.length := by omega
      obtain ⟨es', h1, h2⟩ := ih ls2 r f (p + cs.length + 1) hls2 hat2.2 (fun q => by rw [heof, e1]) (fun q h => hend q (by omega))
        (by omega) (by omega) (by omega) hbad (fun hc l hl => hprev hc l (by
          rw [getLast_app (by simp), List.getLast?_cons]; simp [hl]))
      refine ⟨es', h1, ?_⟩
      exact hangM_step (e := []) (st := st) (f := f) (b' := b) (by rw [heof]; exact decide_eq_false (by omega))
        (y_blank p (st := st) (big5 := b) hc hat1 (by omega) (by omega) (by rw [hat2.1]; exact hbl)) (noEv b) h2
  | @last b L e he =>
    intro ls r f p hL hat heof hend hf hfu hm hbad hprev
    obtain ⟨f, rfl⟩ : ∃ g, f = g + 1 := ⟨f - 1, by omega⟩
    have hpos := entryLines_pos he
    have hlen : L.length - 1 = ls.length := by rw [hL]; simp
    refine ⟨[], List.nil_prefix, hangM_here (by rw [heof]; exact decide_eq_false (by omega)) (h_entry hs he p hat hfu hm ?_ ?_)⟩
    · intro q hq
      rw [hlen] at hq ⊢
      rw [hend q hq, hend _ (Nat.le_refl _)]
    · rw [hlen, hend _ (Nat.le_refl _)]
      exact hbad
  | @entry b ls1 e sep ls' es he hsep hfile ih =>
    intro ls r f p hL hat heof hend hf hfu hm hbad hprev
    obtain ⟨f, rfl⟩ : ∃ g, f = g + 1 := ⟨f - 1, by omega⟩
    have hpos := entryLines_pos he
    obtain ⟨hat1, hat2⟩ := At_append.1 hat
    by_cases hn : ls' = []
    · subst hn
      exfalso
      have hr : ls = ls1 ∧ r = sep := by
        have := List.append_inj' hL rfl
        exact ⟨this.1.symm, by simpa using this.2.symm⟩
      obtain ⟨rfl, rfl⟩ := hr
      by_cases hcr : Comment r
      · obtain ⟨ls2, r', rfl⟩ := snoc_of_ne (ls := ls) (by intro h; subst h; simp at hpos)
        have := entry_last he
        rcases hprev hcr r' (by simp) with h | h
        · exact this.2 h
        · exact this.1 h
      · have hblank : Blank ct r := by
          rcases hsep with h | h | ⟨b', t', h, _⟩
          · exact h
          · exact absurd (by rw [h]; rfl) hcr
          · exact absurd (by rw [h]; rfl) hcr
        refine hbad ⟨hcr, ?_, ?_⟩
        · have := dropWhile_blank hblank
          simp [this]
        · intro ⟨x, hx⟩
          have := hblank 109 (by rw [← hx]; simp)
          rw [isspace_false ct 109 (by decide) (by decide)] at this
          cases this
    · obtain ⟨ls2, r', hls2⟩ := snoc_of_ne hn
      have hr : ls = ls1 ++ sep :: ls2 ∧ r = r' := by
        rw [hls2] at hL
        have : ls1 ++ sep :: (ls2 ++ [r']) = (ls1 ++ sep :: ls2) ++ [r'] := by simp
        rw [this] at hL
        have := List.append_inj' hL rfl
        exact ⟨this.1.symm, by simpa using this.2.symm⟩
      obtain ⟨rfl, rfl⟩ := hr
      simp only [List.length_append, List.length_cons] at *
      have e1 : p + (ls1.length + (ls'.length + 1)) = p + ls1.length + 1 + ls'.length := by omega
      obtain ⟨es', h1, h2⟩ := ih ls2 r f (p + ls1.length + 1) hls2 hat2.2 (fun q => by rw [heof, e1]) (fun q h => hend q (by omega))
        (by omega) (by omega) (by omega) hbad (fun hc l hl => hprev hc l (by
          rw [getLast_app (by simp), List.getLast?_cons]; simp [hl]))
      refine ⟨e :: es', List.cons_prefix_cons.2 ⟨rfl, h1⟩, ?_⟩
      have hy := y_entry (fuel := fuel) hs he p hat1 (by omega) (by omega) (by rw [hat2.1]; exact (separator_iff _).1 hsep)
      refine hangM_step (e := [e]) (st := st) (f := f) (by rw [heof]; exact decide_eq_false (by omega))
        (by simpa using hy) (fun w' hw => ?_) h2
      rw [headerCharset_big5 b e w' (by simpa using hw)]
      simp only [headerCharset_eq]

/-- A well-formed file whose last line lacks its newline and is a comment directly after an entry. -/
theorem y_file_sep (hs : Short T) {b : Bool} {L : List Str} {es : List Entry} (h : File ct st b L es) :
    ∀ (ls : List Str) (r : Str) (f p : Nat), L = ls ++ [r] → At T p L → (∀ q, (T q).eof = decide (p + L.length ≤ q)) →
      L.length + 1 < f → L.length < fuel → p + L.length + 1 < intMax →
      Comment r → (∃ l, ls.getLast? = some l ∧ ¬ Blank ct l ∧ ¬ Comment l) →
      ∃ q, Yields st (mainLoopE ct fuel T f b) p (es.flatMap evsOf) () q := by
  induction h with
  | @comments b cs hc =>
    intro ls r f p hL hat heof hf hfu hm hr ⟨l, hl, hl1, hl2⟩
    exact absurd (hc l (by rw [hL]; exact List.mem_append_left _ (List.mem_of_getLast? hl))) hl2
  | @blank b cs bl ls' es hc hbl hfile ih =>
    intro ls r f p hL hat heof hf hfu hm hrc ⟨l, hl, hl1, hl2⟩
    obtain ⟨f, rfl⟩ : ∃ g, f = g + 1 := ⟨f - 1, by omega⟩
    obtain ⟨hat1, hat2⟩ := At_append.1 hat
    by_cases hn : ls' = []
    · subst hn
      have hr : bl = r := by
        have := congrArg List.getLast? hL
        simpa using this
      subst hr
      exact absurd hrc (blank_not_comment _ hbl)
    · obtain ⟨ls2, r', hls2⟩ := snoc_of_ne hn
      have hr : ls = cs ++ bl :: ls2 ∧ r = r' := by
        rw [hls2] at hL
        have : cs ++ bl :: (ls2 ++ [r']) = (cs ++ bl :: ls2) ++ [r'] := by simp
        rw [this] at hL
        have := List.append_inj' hL rfl
        exact ⟨this.1.symm, by simpa using this.2.symm⟩
      obtain ⟨rfl, rfl⟩ := hr
      have hl' : ls2.getLast? = some l := by
        rw [getLast_app (by simp), List.getLast?_cons] at hl
        cases h2 : ls2.getLast? with
        | none => rw [h2] at hl; simp at hl; subst hl; exact absurd hbl hl1
        | some x => rw [h2] at hl; simpa using hl
      simp only [List.length_append, List.length_cons] at *
      have e1 : p + (cs.length + (ls'.length + 1)) = p + cs.length + 1 + ls'.length := by omega
      obtain ⟨q, hq⟩ := ih ls2 r f (p + cs.length + 1) hls2 hat2.2 (fun q => by rw [heof, e1])
        (by omega) (by omega) (by omega) hrc ⟨l, hl', hl1, hl2⟩
      refine ⟨q, ?_⟩
      exact mainLoop_step (f := f) (b' := b) (by rw [heof]; exact decide_eq_false (by omega))
        (y_blank p (st := st) (big5 := b) hc hat1 (by omega) (by omega) (by rw [hat2.1]; exact hbl)) (noEv b) hq
  | @last b L e he =>
    intro ls r f p hL hat heof hf hfu hm hrc _
    rw [hL] at he
    exact absurd hrc (entry_last he).1
  | @entry b ls1 e sep ls' es he hsep hfile ih =>
    intro ls r f p hL hat heof hf hfu hm hrc ⟨l, hl, hl1, hl2⟩
    obtain ⟨f, rfl⟩ : ∃ g, f = g + 1 := ⟨f - 1, by omega⟩
    have hpos := entryLines_pos he
    obtain ⟨hat1, hat2⟩ := At_append.1 hat
    have hb' := fun w' hw => headerCharset_big5 (ct := ct) b e w' hw
    by_cases hn : ls' = []
    · subst hn
      have hes : es = [] := by
        generalize hnil : ([] : List Str) = L0 at hfile
        cases hfile with
        | comments => rfl
        | blank => simp at hnil
        | last h => have := entryLines_pos h; rw [← hnil] at this; simp at this
        | entry => simp at hnil
      subst hes
      simp only [List.length_append, List.length_cons, List.length_nil] at *
      refine ⟨p + ls1.length + 1, ?_⟩
      rw [List.flatMap_cons, List.flatMap_nil]
      exact mainLoop_step (f := f) (by rw [heof]; exact decide_eq_false (by omega))
        (y_entry hs he p hat1 (by omega) (by omega) (by rw [hat2.1]; exact (separator_iff _).1 hsep)) hb'
        (mainLoop_end (by rw [heof]; exact decide_eq_true (by omega)) (by omega))
    · obtain ⟨ls2, r', hls2⟩ := snoc_of_ne hn
      have hr : ls = ls1 ++ sep :: ls2 ∧ r = r' := by
        rw [hls2] at hL
        have : ls1 ++ sep :: (ls2 ++ [r']) = (ls1 ++ sep :: ls2) ++ [r'] := by simp
        rw [this] at hL
        have := List.append_inj' hL rfl
        exact ⟨this.1.symm, by simpa using this.2.symm⟩
      obtain ⟨rfl, rfl⟩ := hr
      have hl' : ls2.getLast? = some l := by
        rw [getLast_app (by simp), List.getLast?_cons] at hl
        cases h2 : ls2.getLast? with
        | none =>
          rw [h2] at hl; simp at hl; subst hl
          exfalso
          rcases hsep with h | h | ⟨b', t', h, _⟩
          · exact hl1 h
          · exact hl2 (by rw [h]; rfl)
          · exact hl2 (by rw [h]; rfl)
        | some x => rw [h2] at hl; simpa using hl
      simp only [List.length_append, List.length_cons] at *
      have e1 : p + (ls1.length + (ls'.length + 1)) = p + ls1.length + 1 + ls'.length := by omega
      obtain ⟨q, hq⟩ := ih ls2 r f (p + ls1.length + 1) hls2 hat2.2 (fun q => by rw [heof, e1])
        (by omega) (by omega) (by omega) hrc ⟨l, hl', hl1, hl2⟩
      refine ⟨q, ?_⟩
      rw [List.flatMap_cons]
      refine mainLoop_step (f := f) (by rw [heof]; exact decide_eq_false (by omega))
        (y_entry hs he p hat1 (by omega) (by omega) (by rw [hat2.1]; exact (separator_iff _).1 hsep))
        (fun w' hw => ?_) hq
      rw [headerCharset_big5 b e w' hw]
      simp only [headerCharset_eq]
end
end Tgt.POParser
