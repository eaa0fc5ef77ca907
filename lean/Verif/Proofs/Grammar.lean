import Verif.Proofs.Core
import Verif.Proofs.EvsAll
import Verif.Spec.PoFile
/-
Well-formed PO text, read by tape code.
-/
namespace Tgt.POParser
open Spec Spec.Po

/-- An error message. -/
def Ev.isErr : Ev → Bool
  | .diag .error _ _ _ => true
  | _ => false

theorem Ev.isErr_of {e : Ev} (h : e.isDiag = false) : e.isErr = false := by
  cases e with
  | diag lv p m q => cases h
  | _ => rfl

/-- The code ends normally with value `a` at `q`; its events, up to messages and positions, are `w`;
there are no error messages, in strict mode no messages at all. -/
def Yields {α : Type} (strict : Bool) (e : E α) (p : Nat) (w : List Ev) (a : α) (q : Nat) : Prop :=
  ∃ w', e p = (w', .ok a q) ∧ essence w' = w ∧ ∀ x ∈ w', x.isErr = false ∧ (strict = true → x.isDiag = false)

section
variable {α β : Type} {st : Bool} {p q r : Nat} {w w1 w2 : List Ev} {a : α} {b : β}

theorem Yields.pure (a : α) : Yields st (E.pure a) p [] a p := ⟨[], rfl, rfl, fun x hx => by cases hx⟩

theorem Yields.bind {e : E α} {f : α → E β} (h1 : Yields st e p w1 a q) (h2 : Yields st (f a) q w2 b r) :
    Yields st (e >>= f) p (w1 ++ w2) b r := by
  obtain ⟨v1, e1, s1, d1⟩ := h1
  obtain ⟨v2, e2, s2, d2⟩ := h2
  refine ⟨v1 ++ v2, ?_, by rw [essence_append, s1, s2], ?_⟩
  · rw [e_bind]; unfold E.bind; rw [e1]; dsimp only; rw [e2]
  · intro x hx
    rcases List.mem_append.1 hx with h | h
    · exact d1 x h
    · exact d2 x h

/-- Sequencing when the first part has no events. -/
theorem Yields.bind0 {e : E α} {f : α → E β} (h1 : Yields st e p [] a q) (h2 : Yields st (f a) q w2 b r) :
    Yields st (e >>= f) p w2 b r := Yields.bind h1 h2

/-- Sequencing when the second part has no events. -/
theorem Yields.bindL {e : E α} {f : α → E β} (h1 : Yields st e p w1 a q) (h2 : Yields st (f a) q [] b r) :
    Yields st (e >>= f) p w1 b r := by
  have := Yields.bind h1 h2
  rwa [List.append_nil] at this

theorem Yields.line {T : Tape} {f : Str → E β} (h : Yields st (f (T p).line) p w b r) :
    Yields st (lineE T >>= f) p w b r :=
  Yields.bind0 ⟨[], rfl, rfl, fun x hx => by cases hx⟩ h

theorem Yields.ite {e1 e2 : E α} (c : Prop) [Decidable c] (h1 : c → Yields st e1 p w a q) (h2 : ¬ c → Yields st e2 p w a q) :
    Yields st (if c then e1 else e2) p w a q := by
  split
  · exact h1 (by assumption)
  · exact h2 (by assumption)

theorem Yields.next (h : p + 1 < intMax) : Yields st nextE p [] () (p + 1) :=
  ⟨[], by unfold nextE; rw [if_neg (by omega)], rfl, fun x hx => by cases hx⟩

theorem Yields.warn (m : Str) (ped : Bool) (h : st = false) : Yields st (warnE m ped) p [] () p :=
  ⟨_, rfl, rfl, fun x hx => by
    simp at hx; subst hx; exact ⟨rfl, fun hs => by rw [h] at hs; cases hs⟩⟩

theorem Yields.emit {e : Ev} (h : e.isDiag = false) : Yields st (E.emit [e]) p [e.norm] () p :=
  ⟨_, rfl, by simp [essence, h], fun x hx => by simp at hx; subst hx; exact ⟨Ev.isErr_of h, fun _ => h⟩⟩

theorem Yields.emitAt {g : Nat → List Ev} {e : Ev} (hg : g p = [e]) (h : e.isDiag = false) :
    Yields st (E.emitAt g) p [e.norm] () p :=
  ⟨_, rfl, by rw [hg]; simp [essence, h], fun x hx => by
    rw [hg] at hx; simp at hx; subst hx; exact ⟨Ev.isErr_of h, fun _ => h⟩⟩
end

/-! ### Literals -/

theorem escapes_unescape {e r : Byte} (h : (e, r) ∈ escapes) : unescape e = some r := by
  simp only [escapes, List.mem_cons, Prod.mk.injEq, List.not_mem_nil, or_false] at h
  rcases h with ⟨rfl, rfl⟩ | ⟨rfl, rfl⟩ | ⟨rfl, rfl⟩ | ⟨rfl, rfl⟩ | ⟨rfl, rfl⟩ | ⟨rfl, rfl⟩ | ⟨rfl, rfl⟩ | ⟨rfl, rfl⟩ <;> rfl

theorem unescape_escapes {e r : Byte} (h : unescape e = some r) : (e, r) ∈ escapes := by
  unfold unescape at h
  split at h <;> cases h <;> simp [escapes]

theorem unescape_none {e : Byte} (h : ∀ r, (e, r) ∉ escapes) : unescape e = none := by
  cases h1 : unescape e with
  | none => rfl
  | some r => exact absurd (unescape_escapes h1) (h r)

theorem lead_iff (b : Byte) : ((0x81 ≤ b : Bool) && (b ≤ 0xfe : Bool)) = true ↔ isLead b := by
  simp [isLead]

theorem lex_lit {big5 : Bool} {body text : Str} {u : List Byte} (h : Lit big5 body text u) (rest : Str) :
    lex big5 (body ++ 34 :: rest) = ⟨u, .ok (text, rest)⟩ := by
  induction h with
  | nil => simp [lex]
  | @plain b body text u h1 h2 h3 _ ih =>
    have hb : (big5 && decide (0x81 ≤ b) && decide (b ≤ 0xfe)) = false := by
      cases hc : (big5 && decide (0x81 ≤ b) && decide (b ≤ 0xfe)) with
      | false => rfl
      | true =>
        simp only [Bool.and_eq_true, decide_eq_true_eq] at hc
        exact absurd ⟨hc.1.1, hc.1.2, hc.2⟩ h3
    obtain ⟨c, t, hc⟩ : ∃ c t, body ++ 34 :: rest = c :: t := by
      cases body with
      | nil => exact ⟨_, _, rfl⟩
      | cons c t => exact ⟨_, _, rfl⟩
    show lex big5 (b :: (body ++ 34 :: rest)) = _
    rw [hc] at ih ⊢
    rw [lex.eq_4 big5 b c t (by simpa using h1)]
    rw [hb]
    simp only [Bool.false_eq_true, if_false, h2]
    rw [ih]; rfl
  | @pair b c body text u h1 h2 _ ih =>
    show lex big5 (b :: c :: (body ++ 34 :: rest)) = _
    have hb : b ≠ 34 := by
      rintro rfl
      exact absurd h2.1 (by decide)
    rw [lex.eq_4 big5 b c _ (by simpa using hb)]
    have : (big5 && decide (0x81 ≤ b) && decide (b ≤ 0xfe)) = true := by
      rw [h1]; simpa [isLead] using h2
    rw [this]
    simp only [if_true]
    rw [ih]; rfl
  | @esc e r body text u h1 _ ih =>
    show lex big5 (92 :: e :: (body ++ 34 :: rest)) = _
    rw [lex.eq_4 big5 92 e _ (by decide)]
    have : (big5 && decide ((0x81 : Byte) ≤ 92) && decide ((92 : Byte) ≤ 0xfe)) = false := by
      cases big5 <;> decide
    rw [this]
    simp only [Bool.false_eq_true, if_false, if_true, escapes_unescape h1]
    rw [ih]; rfl
  | @unknown e body text u h1 _ ih =>
    show lex big5 (92 :: e :: (body ++ 34 :: rest)) = _
    rw [lex.eq_4 big5 92 e _ (by decide)]
    have : (big5 && decide ((0x81 : Byte) ≤ 92) && decide ((92 : Byte) ≤ 0xfe)) = false := by
      cases big5 <;> decide
    rw [this]
    simp only [Bool.false_eq_true, if_false, if_true, unescape_none h1]
    rw [ih]; rfl

theorem Lex.push_ok {w t rest : Str} {r : Lex} (h : (Lex.push w r).res = .ok (t, rest)) :
    ∃ t', r.res = .ok (t', rest) ∧ t = w ++ t' := by
  unfold Lex.push at h
  cases hr : r.res with
  | error m => rw [hr] at h; cases h
  | ok x =>
    obtain ⟨t', rest'⟩ := x
    rw [hr] at h
    cases h
    exact ⟨t', rfl, rfl⟩

/-- What `lex` accepts is a literal. -/
theorem lit_lex (big5 : Bool) (n : Nat) : ∀ (l text rest : Str), l.length ≤ n →
    (lex big5 l).res = .ok (text, rest) →
    ∃ body, l = body ++ 34 :: rest ∧ Lit big5 body text (lex big5 l).unknown := by
  induction n with
  | zero =>
    intro l text rest hn h
    have : l = [] := List.length_eq_zero_iff.1 (by omega)
    subst this
    simp [lex] at h
  | succ n ih =>
    intro l text rest hn h
    match l, hn, h with
    | [], _, h => simp [lex] at h
    | [ch], _, h =>
      by_cases hq : ch = 34
      · subst hq
        simp only [lex, Except.ok.injEq, Prod.mk.injEq] at h
        obtain ⟨rfl, rfl⟩ := h
        exact ⟨[], rfl, by simp only [lex]; exact Lit.nil⟩
      · rw [lex.eq_3 big5 ch (by simpa using hq)] at h
        split at h
        · cases h
        · split at h <;> cases h
    | ch :: e :: t, hn, h =>
      simp only [List.length_cons] at hn
      by_cases hq : ch = 34
      · subst hq
        simp only [lex, Except.ok.injEq, Prod.mk.injEq] at h
        obtain ⟨rfl, rfl⟩ := h
        exact ⟨[], rfl, by simp only [lex]; exact Lit.nil⟩
      · rw [lex.eq_4 big5 ch e t (by simpa using hq)] at h ⊢
        split at h
        · rename_i hb
          rw [if_pos hb]
          simp only [Bool.and_eq_true, decide_eq_true_eq] at hb
          obtain ⟨t', h1, rfl⟩ := Lex.push_ok h
          obtain ⟨body, rfl, h2⟩ := ih t t' rest (by omega) h1
          exact ⟨ch :: e :: body, rfl, Lit.pair hb.1.1 ⟨hb.1.2, hb.2⟩ h2⟩
        · rename_i hb
          rw [if_neg hb]
          split at h
          · rename_i h92
            subst h92
            rw [if_pos rfl]
            cases hu : unescape e with
            | some r =>
              rw [hu] at h
              obtain ⟨t', h1, rfl⟩ := Lex.push_ok h
              obtain ⟨body, rfl, h2⟩ := ih t t' rest (by omega) h1
              exact ⟨92 :: e :: body, rfl, Lit.esc (unescape_escapes hu) h2⟩
            | none =>
              rw [hu] at h
              obtain ⟨t', h1, rfl⟩ := Lex.push_ok h
              obtain ⟨body, rfl, h2⟩ := ih t t' rest (by omega) h1
              exact ⟨92 :: e :: body, rfl, Lit.unknown (fun r hr => by rw [escapes_unescape hr] at hu; cases hu) h2⟩
          · rename_i h92
            rw [if_neg h92]
            obtain ⟨t', h1, rfl⟩ := Lex.push_ok h
            obtain ⟨body, he, h2⟩ := ih (e :: t) t' rest (by simp; omega) h1
            refine ⟨ch :: body, by rw [he]; rfl, Lit.plain hq h92 ?_ h2⟩
            rintro ⟨h3, h4⟩
            apply hb
            simp only [Bool.and_eq_true, decide_eq_true_eq]
            exact ⟨⟨h3, h4.1⟩, h4.2⟩

/-! ### Lines on the tape -/

/-- The tape has these lines from position `p` on. -/
def At (T : Tape) : Nat → List Str → Prop
  | _, [] => True
  | p, l :: ls => (T p).line = l ∧ At T (p + 1) ls

theorem At_append {T : Tape} {p : Nat} {l1 l2 : List Str} : At T p (l1 ++ l2) ↔ At T p l1 ∧ At T (p + l1.length) l2 := by
  induction l1 generalizing p with
  | nil => simp [At]
  | cons l ls ih =>
    simp only [List.cons_append, At, List.length_cons, ih, and_assoc]
    have : p + 1 + ls.length = p + (ls.length + 1) := by omega
    rw [this]

section
variable {ct : CType} {fuel : Nat} {T : Tape} {big5 st : Bool}

theorem y_getStringLine {p skip : Nat} {pre q text : Str} (out : Str) (hl : (T p).line = pre ++ q) (hpre : pre.length = skip)
    (hlen : (T p).line.length < 4294967296) (hq : Quoted ct big5 st q text) :
    Yields st (getStringLineE ct fuel T big5 out skip) p [] (out ++ text) p := by
  obtain ⟨hlit, hst⟩ := hq
  rename_i body u trail
  unfold getStringLineE
  have hu : u32 (T p).line.length = (T p).line.length := Nat.mod_eq_of_lt hlen
  refine Yields.line (Yields.ite _ (fun h => ?_) (fun _ => Yields.ite _ (fun h => ?_) (fun _ => ?_)))
  · rw [hu, hl] at h
    simp at h
    omega
  · rw [hl] at h
    exfalso; apply h
    rw [List.getElem?_append_right (by omega)]
    simp [hpre]
  · have hd : (T p).line.drop (skip + 1) = body ++ 34 :: trail := by
      rw [hl, ← hpre]
      rw [List.drop_append, List.drop_eq_nil_of_le (by omega)]
      simp
    dsimp only
    rw [hd, lex_lit hlit trail]
    dsimp only
    refine Yields.bind0 (a := ()) (q := p) ?_ ?_
    · refine ⟨_, rfl, ?_, ?_⟩
      · simp [essence, Ev.isDiag]
      · intro x hx
        refine ⟨?_, fun hs => ?_⟩
        · simp only [List.mem_map] at hx
          obtain ⟨_, _, rfl⟩ := hx
          rfl
        · rw [(hst hs).1] at hx
          cases hx
    · refine Yields.ite _ (fun h => ?_) (fun _ => Yields.pure _)
      refine Yields.bind0 (Yields.warn _ _ ?_) (Yields.pure _)
      cases hs : st with
      | false => rfl
      | true =>
        exfalso
        simp only [List.any_eq_true] at h
        obtain ⟨b, hb, h2⟩ := h
        rw [(hst hs).2 b hb] at h2
        simp at h2

theorem isspace_quote (ct : CType) : ct.isspace 34 = false := by
  rw [ct.isspace_ascii 34 (by decide)]; decide

theorem scanQuote_blank {ws q : Str} (hw : Blank ct ws) (i : Nat) :
    scanQuote ct (ws ++ 34 :: q) i = some (i + ws.length) := by
  induction ws generalizing i with
  | nil => simp [scanQuote]
  | cons b t ih =>
    have hb := hw b List.mem_cons_self
    have : b ≠ 34 := by rintro rfl; rw [isspace_quote] at hb; cases hb
    simp only [List.cons_append, scanQuote, this, if_false, hb, if_true]
    rw [ih (fun x hx => hw x (List.mem_cons_of_mem _ hx))]
    simp; omega

theorem skipTo_blank {ws q : Str} (hw : Blank ct ws) (i : Nat) :
    skipTo ct (ws ++ 34 :: q) i = .ok (i + ws.length) := by
  induction ws generalizing i with
  | nil => simp [skipTo]
  | cons b t ih =>
    have hb := hw b List.mem_cons_self
    have : b ≠ 34 := by rintro rfl; rw [isspace_quote] at hb; cases hb
    simp only [List.cons_append, skipTo, this, if_false, hb, Bool.not_true, Bool.false_eq_true]
    rw [ih (fun x hx => hw x (List.mem_cons_of_mem _ hx))]
    simp; omega

/-- Hypotheses about a tape: short lines. -/
def Short (T : Tape) : Prop := ∀ p, (T p).line.length < 4294967296

theorem y_contLoop (hs : Short T) {ls : List Str} {text : Str} (h : Conts ct big5 st ls text) :
    ∀ (f p : Nat) (out : Str), At T (p + 1) ls → ls.length < f → p + ls.length + 1 < intMax →
      scanQuote ct (T (p + 1 + ls.length)).line 0 = none →
      Yields st (contLoopE ct fuel T big5 f out) p [] (out ++ text) (p + 1 + ls.length) := by
  induction h with
  | nil =>
    intro f p out _ hf hm hq
    obtain ⟨f, rfl⟩ : ∃ g, f = g + 1 := ⟨f - 1, by simp at hf; omega⟩
    unfold contLoopE
    refine Yields.bind0 (Yields.next (by simpa using hm)) (Yields.line ?_)
    simp only [List.length_nil, Nat.add_zero] at hq ⊢
    rw [hq]
    simp only [List.append_nil]
    exact Yields.pure _
  | @cons ws q t ls rest hw hst hq _ ih =>
    intro f p out hat hf hm hend
    obtain ⟨f, rfl⟩ : ∃ g, f = g + 1 := ⟨f - 1, by simp at hf; omega⟩
    unfold contLoopE
    simp only [List.length_cons] at hf hm hend ⊢
    obtain ⟨hl, hat⟩ := hat
    refine Yields.bind0 (Yields.next (by omega)) (Yields.line ?_)
    have hsq : scanQuote ct (T (p + 1)).line 0 = some ws.length := by
      obtain ⟨hlit, hst2⟩ := hq
      rename_i body u trail
      rw [hl, show ws ++ (34 :: body ++ 34 :: trail) = ws ++ 34 :: (body ++ 34 :: trail) from rfl, scanQuote_blank hw]
      simp
    rw [hsq]
    dsimp only
    refine Yields.bind0 (a := ()) (q := p + 1) (Yields.ite _ (fun h1 => Yields.warn _ _ ?_) (fun _ => Yields.pure _)) ?_
    · cases hst' : st with
      | false => rfl
      | true => exact absurd h1 (hst hst')
    · refine Yields.bind0 (y_getStringLine out hl rfl (hs _) hq) ?_
      have e1 : p + 1 + (ls.length + 1) = p + 1 + 1 + ls.length := by omega
      have := ih f (p + 1) (out ++ t) hat (by omega) (by omega) (by rw [← e1]; exact hend)
      rw [e1, ← List.append_assoc]
      exact this

/-- A string after a keyword. -/
theorem y_getString (hs : Short T) {kw : Str} {ls : List Str} {text : Str} (h : Field ct big5 st kw ls text)
    (p skip : Nat) (hk : kw.length = skip) (hat : At T p ls) (hf : ls.length ≤ fuel) (hm : p + ls.length < intMax)
    (hend : scanQuote ct (T (p + ls.length)).line 0 = none) :
    Yields st (getStringE ct fuel T big5 skip) p [] text (p + ls.length) := by
  obtain ⟨hsep, hst, hq, hc⟩ := h
  rename_i sep q t ls rest
  obtain ⟨hl, hat⟩ := hat
  unfold getStringE
  have hu : u32 (T p).line.length = (T p).line.length := Nat.mod_eq_of_lt (hs p)
  simp only [List.length_cons] at hf hm hend ⊢
  have hq' := hq
  obtain ⟨hlit, hst2⟩ := hq'
  rename_i body u trail
  have hrest : Yields st (contLoopE ct fuel T big5 fuel t) p [] (t ++ rest) (p + (ls.length + 1)) := by
    have e1 : p + (ls.length + 1) = p + 1 + ls.length := by omega
    rw [e1] at hend ⊢
    exact y_contLoop hs hc fuel p t hat (by omega) (by omega) hend
  refine Yields.line (Yields.ite _ (fun h => ?_) (fun _ => ?_))
  · rw [hu, hl] at h
    simp at h
    omega
  · refine Yields.bind0 (a := t) (q := p) (Yields.ite _ (fun h => ?_) (fun h => ?_)) hrest
    · -- one space
      have hsp : sep = [32] := by
        obtain ⟨h1, h2⟩ := h
        rw [hl] at h1 h2
        rw [List.append_assoc, List.getElem?_append_right (by omega)] at h1 h2
        cases sep with
        | nil => simp [hk] at h1
        | cons a s =>
          cases s with
          | nil => simp [hk] at h1; rw [h1]
          | cons a2 s2 =>
            have : skip + 1 - kw.length = 1 := by omega
            rw [this] at h2
            simp at h2
            subst h2
            have := hsep 34 (by simp)
            rw [isspace_quote] at this
            cases this
      subst hsp
      have := y_getStringLine (fuel := fuel) (p := p) (skip := skip + 1) [] hl (by simp [hk]) (hs p) hq
      simpa using this
    · have hns : st = false := by
        cases hst' : st with
        | false => rfl
        | true =>
          exfalso
          apply h
          rw [hl, hst hst', ← hk]
          constructor
          · simp
          · rw [List.append_assoc, List.getElem?_append_right (by omega)]
            simp
      refine Yields.bind0 (Yields.warn _ _ hns) ?_
      rw [hu, List.take_length]
      have hd : (T p).line.drop skip = sep ++ 34 :: (body ++ 34 :: trail) := by
        rw [hl, ← hk, List.append_assoc, List.drop_left]
        rfl
      rw [hd, skipTo_blank hsep]
      have := y_getStringLine (fuel := fuel) (p := p) (skip := skip + sep.length) [] hl (by simp [hk]) (hs p) hq
      simpa using this

theorem hash_iff (l : Str) : hasPrefix b!"#" l = true ↔ Comment l := by
  cases l with
  | nil => simp [hasPrefix, Comment]
  | cons b t =>
    unfold hasPrefix Comment
    simp only [List.isPrefixOf, Bool.and_true, beq_iff_eq, List.head?_cons, Option.some.injEq]
    exact eq_comm

theorem occursIn_iff (w l : Str) : occursIn w l = true ↔ ∃ a b, l = a ++ w ++ b := by
  induction l with
  | nil =>
    simp only [occursIn, List.isEmpty_iff]
    constructor
    · rintro rfl; exact ⟨[], [], rfl⟩
    · rintro ⟨a, b, h⟩
      have := congrArg List.length h
      simp at this
      exact List.length_eq_zero_iff.1 (by omega)
  | cons c t ih =>
    simp only [occursIn, Bool.or_eq_true, ih, List.isPrefixOf_iff_prefix]
    constructor
    · rintro (⟨b, h⟩ | ⟨a, b, h⟩)
      · exact ⟨[], b, by simpa using h.symm⟩
      · exact ⟨c :: a, b, by rw [h]; rfl⟩
    · rintro ⟨a, b, h⟩
      cases a with
      | nil => exact .inl ⟨b, by simpa using h.symm⟩
      | cons d a =>
        simp only [List.cons_append, List.cons.injEq] at h
        exact .inr ⟨a, b, by rw [h.2]⟩

theorem fuzzyFlag_iff (l : Str) (h : Comment l) : fuzzyFlag l = true ↔ FuzzyFlag l := by
  unfold fuzzyFlag FuzzyFlag
  match l, h with
  | [b], h =>
    simp only [List.length_singleton, Bool.and_eq_true, decide_eq_true_eq]
    constructor
    · rintro ⟨⟨h1, _⟩, _⟩; omega
    · rintro ⟨a, b, h1⟩; simp at h1
  | b :: c :: t, h =>
    have hb : b = 35 := by simpa [Comment] using h
    subst hb
    simp only [List.length_cons, Bool.and_eq_true, decide_eq_true_eq, occursIn_iff, List.drop_succ_cons, List.drop_zero]
    constructor
    · rintro ⟨⟨_, h2⟩, a, b, h3⟩
      simp only [List.getElem?_cons_succ, List.getElem?_cons_zero, beq_iff_eq, Option.some.injEq] at h2
      exact ⟨a, b, by rw [h2, h3]; simp⟩
    · rintro ⟨a, b, h1⟩
      simp only [List.cons_append, List.nil_append, List.cons.injEq, true_and] at h1
      obtain ⟨rfl, h1⟩ := h1
      exact ⟨⟨by omega, by simp⟩, a, b, h1⟩

theorem y_commentLoop : ∀ (cs : List Str) (f p : Nat) (fz : Bool), (∀ l ∈ cs, Comment l) → At T p cs → cs.length < f →
    p + cs.length < intMax → ¬ Comment (T (p + cs.length)).line →
    Yields st (commentLoopE T f fz) p [] (fz || cs.any fuzzyFlag) (p + cs.length) := by
  intro cs
  induction cs with
  | nil =>
    intro f p fz _ _ hf hm he
    obtain ⟨f, rfl⟩ : ∃ g, f = g + 1 := ⟨f - 1, by simp at hf; omega⟩
    unfold commentLoopE
    refine Yields.line (Yields.ite _ (fun h => ?_) (fun _ => ?_))
    · exact absurd ((hash_iff _).1 h) he
    · simp only [List.any_nil, Bool.or_false, List.length_nil, Nat.add_zero]
      exact Yields.pure _
  | cons l ls ih =>
    intro f p fz hc hat hf hm he
    obtain ⟨f, rfl⟩ : ∃ g, f = g + 1 := ⟨f - 1, by simp at hf; omega⟩
    simp only [List.length_cons] at hf hm he
    obtain ⟨hl, hat⟩ := hat
    unfold commentLoopE
    refine Yields.line (Yields.ite _ (fun _ => ?_) (fun h => ?_))
    · refine Yields.bind0 (Yields.next (by omega)) ?_
      have e1 : p + (ls.length + 1) = p + 1 + ls.length := by omega
      rw [List.length_cons, e1]
      rw [e1] at he
      have := ih f (p + 1) (if fuzzyFlag (T p).line = true then true else fz) (fun x hx => hc x (List.mem_cons_of_mem _ hx)) hat
        (by omega) (by omega) he
      rw [hl] at this ⊢
      have e2 : (fz || (l :: ls).any fuzzyFlag) = ((if fuzzyFlag l = true then true else fz) || ls.any fuzzyFlag) := by
        simp only [List.any_cons]
        cases fuzzyFlag l <;> simp
      rw [e2]
      exact this
    · rw [hl] at h
      exact absurd ((hash_iff l).2 (hc l List.mem_cons_self)) h
end
end Tgt.POParser
