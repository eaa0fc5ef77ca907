import Verif.Proofs.Items
import Verif.Proofs.Wall
import Verif.Proofs.TwoLines
/-
A last line without its newline is read like one with it.
-/
namespace Tgt.POParser
open Spec Spec.Po

/-- The same result on both sides, the same events up to diagnostics; normal ends satisfy `Q`. -/
structure Cg {α : Type} (e e' : E α) (p : Nat) (Q : α → Nat → Prop) : Prop where
  ev : essence (e p).1 = essence (e' p).1
  res : (e p).2 = (e' p).2
  ok : ∀ a q, (e p).2 = .ok a q → Q a q

section
variable {α β : Type} {p : Nat} {Q : α → Nat → Prop} {Q' : β → Nat → Prop}

theorem Cg.bind {e e' : E α} {f f' : α → E β} (h : Cg e e' p Q)
    (hf : ∀ a q, Q a q → Cg (f a) (f' a) q Q') : Cg (e >>= f) (e' >>= f') p Q' := by
  obtain ⟨h1, h2, h3⟩ := h
  have hr : (e >>= f) p = E.bind e f p := rfl
  have hr' : (e' >>= f') p = E.bind e' f' p := rfl
  rcases hx : e p with ⟨v, r⟩
  rcases hy : e' p with ⟨v', r'⟩
  rw [hx] at h1 h2 h3
  rw [hy] at h1 h2
  dsimp only at h1 h2 h3
  subst h2
  cases r with
  | ok a q =>
    obtain ⟨k1, k2, k3⟩ := hf a q (h3 a q rfl)
    have e1 : (e >>= f) p = (v ++ (f a q).1, (f a q).2) := by rw [hr]; unfold E.bind; rw [hx]
    have e2 : (e' >>= f') p = (v' ++ (f' a q).1, (f' a q).2) := by rw [hr']; unfold E.bind; rw [hy]
    refine ⟨?_, ?_, ?_⟩
    · rw [e1, e2, essence_append, essence_append, h1, k1]
    · rw [e1, e2]; exact k2
    · intro b q' hb; rw [e1] at hb; exact k3 b q' hb
  | err q =>
    have e1 : (e >>= f) p = (v, .err q) := by rw [hr]; unfold E.bind; rw [hx]
    have e2 : (e' >>= f') p = (v', .err q) := by rw [hr']; unfold E.bind; rw [hy]
    exact ⟨by rw [e1, e2]; exact h1, by rw [e1, e2], fun b q' hb => by rw [e1] at hb; cases hb⟩
  | overflow =>
    have e1 : (e >>= f) p = (v, .overflow) := by rw [hr]; unfold E.bind; rw [hx]
    have e2 : (e' >>= f') p = (v', .overflow) := by rw [hr']; unfold E.bind; rw [hy]
    exact ⟨by rw [e1, e2]; exact h1, by rw [e1, e2], fun b q' hb => by rw [e1] at hb; cases hb⟩
  | diverge =>
    have e1 : (e >>= f) p = (v, .diverge) := by rw [hr]; unfold E.bind; rw [hx]
    have e2 : (e' >>= f') p = (v', .diverge) := by rw [hr']; unfold E.bind; rw [hy]
    exact ⟨by rw [e1, e2]; exact h1, by rw [e1, e2], fun b q' hb => by rw [e1] at hb; cases hb⟩

theorem Cg.rfl' {e : E α} (h : ∀ a q, (e p).2 = .ok a q → Q a q) : Cg e e p Q := ⟨rfl, rfl, h⟩

theorem Cg.pure {a : α} (h : Q a p) : Cg (E.pure a) (E.pure a) p Q := .rfl' (fun _ _ hq => by cases hq; exact h)
theorem Cg.emitAt {g : Nat → List Ev} {Q : Unit → Nat → Prop} (h : Q () p) : Cg (E.emitAt g) (E.emitAt g) p Q :=
  .rfl' (fun _ _ hq => by cases hq; exact h)
theorem Cg.emit {g : List Ev} {Q : Unit → Nat → Prop} (h : Q () p) : Cg (E.emit g) (E.emit g) p Q :=
  .rfl' (fun _ _ hq => by cases hq; exact h)
theorem Cg.warn {m : Str} {b : Bool} {Q : Unit → Nat → Prop} (h : Q () p) : Cg (warnE m b) (warnE m b) p Q :=
  .rfl' (fun _ _ hq => by cases hq; exact h)
theorem Cg.diverge : Cg (E.diverge : E α) E.diverge p Q := .rfl' (fun _ _ hq => by cases hq)
theorem Cg.next {Q : Unit → Nat → Prop} (h : Q () (p + 1)) : Cg nextE nextE p Q :=
  .rfl' (fun a q hq => by rw [next_ok hq]; exact h)

theorem Cg.mono {e e' : E α} {Q2 : α → Nat → Prop} (h : Cg e e' p Q) (hq : ∀ a q, Q a q → Q2 a q) : Cg e e' p Q2 :=
  ⟨h.ev, h.res, fun a q ha => hq a q (h.ok a q ha)⟩

theorem Cg.ite {e1 e2 e1' e2' : E α} (c : Prop) [Decidable c] (h1 : c → Cg e1 e1' p Q) (h2 : ¬ c → Cg e2 e2' p Q) :
    Cg (if c then e1 else e2) (if c then e1' else e2') p Q := by
  split
  · exact h1 (by assumption)
  · exact h2 (by assumption)
end

/-- Two tapes that agree up to line `n`, the last one; later the first repeats it and the second is empty.  The line starts no
comment, string or `msgstr[N]`. -/
structure Last (ct : CType) (T T' : Tape) (n : Nat) : Prop where
  line : ∀ p, p ≤ n → (T p).line = (T' p).line
  eof : ∀ p, (T p).eof = (T' p).eof
  over : ∀ p, n < p → (T p).eof = true
  stuck : ∀ p, n < p → (T p).line = (T n).line
  gone : ∀ p, n < p → (T' p).line = []
  noHash : hasPrefix b!"#" (T n).line = false
  noQuote : scanQuote ct (T n).line 0 = none
  noIndex : msgstrIndex (T n).line = none

variable {α : Type} {ct : CType} {fuel : Nat} {T T' : Tape} {b : Bool} {n : Nat}

theorem Cg.line {β : Type} {f f' : Str → E β} {p : Nat} {Q : β → Nat → Prop} (h : Last ct T T' n) (hp : p ≤ n)
    (hf : Cg (f (T p).line) (f' (T p).line) p Q) : Cg (lineE T >>= f) (lineE T' >>= f') p Q := by
  have e1 : (lineE T >>= f) p = f (T p).line p := rfl
  have e2 : (lineE T' >>= f') p = f' (T p).line p := by rw [h.line p hp]; rfl
  exact ⟨by rw [e1, e2]; exact hf.ev, by rw [e1, e2]; exact hf.res, fun a q ha => hf.ok a q (by rw [e1] at ha; exact ha)⟩

/-- Reading the line after the last one. -/
theorem Cg.lineOver {β : Type} {f f' : Str → E β} {Q : β → Nat → Prop} {p : Nat} (h : Last ct T T' n) (hp : n < p)
    (hf : Cg (f (T n).line) (f' []) p Q) : Cg (lineE T >>= f) (lineE T' >>= f') p Q := by
  have e1 : (lineE T >>= f) p = f (T n).line p := by rw [← h.stuck p hp]; rfl
  have e2 : (lineE T' >>= f') p = f' [] p := by rw [← h.gone p hp]; rfl
  exact ⟨by rw [e1, e2]; exact hf.ev, by rw [e1, e2]; exact hf.res, fun a q ha => hf.ok a q (by rw [e1] at ha; exact ha)⟩

theorem last_recover (h : Last ct T T' n) : ∀ (f p : Nat), recoverE ct T f p = recoverE ct T' f p := by
  intro f
  induction f with
  | zero => intro p; rfl
  | succ f ih =>
    intro p
    by_cases ho : p + 1 ≥ intMax
    · have e : ∀ U : Tape, recoverE ct U (f + 1) p = ([], .overflow) := by
        intro U
        show (nextE >>= fun _ => _) p = _
        rw [e_bind]; unfold E.bind nextE; rw [if_pos ho]
      rw [e, e]
    · have e : ∀ U : Tape, recoverE ct U (f + 1) p
          = if !(U (p + 1)).eof && !emptyLine ct (U (p + 1)).line then recoverE ct U f (p + 1) else ([], .ok () (p + 1)) := by
        intro U
        show (nextE >>= fun _ => _) p = _
        rw [e_bind]; unfold E.bind nextE; rw [if_neg ho]
        dsimp only
        rw [List.nil_append]
        show (if (!(U (p + 1)).eof && !emptyLine ct (U (p + 1)).line) = true then recoverE ct U f else E.pure ()) (p + 1) = _
        split <;> rfl
      rw [e, e, ← h.eof (p + 1), ih]
      rcases Nat.lt_or_ge n (p + 1) with h1 | h1
      · rw [h.over _ h1]; rfl
      · rw [h.line _ h1]

theorem errorE_eq (U : Tape) (m : Str) (p : Nat) : errorE (α := α) ct fuel U m p
      = (Ev.diag .error p m false :: (recoverE ct U fuel p).1,
          match (recoverE ct U fuel p).2 with
          | .ok _ q => .err q
          | .err q => .err q
          | .overflow => .overflow
          | .diverge => .diverge) := by
  show (E.bind (E.emitAt (fun p => [Ev.diag .error p m false])) (fun _ => E.bind (recoverE ct U fuel) (fun _ => E.throw))) p = _
  simp only [E.bind, E.emitAt]
  rcases recoverE ct U fuel p with ⟨v, r⟩
  cases r <;> simp [E.throw]

theorem Cg.error (h : Last ct T T' n) {p : Nat} (m m' : Str) {Q : α → Nat → Prop} :
    Cg (errorE ct fuel T m) (errorE ct fuel T' m') p Q := by
  refine ⟨?_, ?_, ?_⟩
  · rw [errorE_eq, errorE_eq, last_recover h]
    have : ∀ m w, essence (Ev.diag .error p m false :: w) = essence w := fun m w => by simp [essence, Ev.isDiag]
    rw [this, this]
  · rw [errorE_eq, errorE_eq, last_recover h]
  · intro a q hq
    rw [errorE_eq] at hq
    dsimp only at hq
    split at hq <;> cases hq

theorem cg_getStringLine (h : Last ct T T' n) (out : Str) (skip : Nat) {p : Nat} (hp : p ≤ n) :
    Cg (getStringLineE ct fuel T b out skip) (getStringLineE ct fuel T' b out skip) p (fun _ q => q = p) := by
  unfold getStringLineE
  refine Cg.line h hp (Cg.ite _ (fun _ => Cg.error h _ _) (fun _ => Cg.ite _ (fun _ => Cg.error h _ _) (fun _ => ?_)))
  refine Cg.bind (Q := fun _ q => q = p) (Cg.emitAt rfl) (fun _ q hq => ?_)
  subst hq
  split
  · exact Cg.error h _ _
  · exact Cg.ite _ (fun _ => Cg.bind (Q := fun _ q => q = _) (Cg.warn rfl) (fun _ q hq => Cg.pure hq)) (fun _ => Cg.pure rfl)

theorem cg_contLoop (h : Last ct T T' n) : ∀ (f : Nat) (out : Str) (p : Nat), p ≤ n →
    Cg (contLoopE ct fuel T b f out) (contLoopE ct fuel T' b f out) p (fun _ q => q ≤ n + 1 ∧ (q = n + 1 → p = n)) := by
  intro f
  induction f with
  | zero => intro out p _; exact Cg.diverge
  | succ f ih =>
    intro out p hp
    unfold contLoopE
    refine Cg.bind (Q := fun _ q => q = p + 1) (Cg.next rfl) (fun _ q hq => ?_)
    subst hq
    rcases Nat.lt_or_ge n (p + 1) with h1 | h1
    · refine Cg.lineOver h h1 ?_
      rw [h.noQuote]
      exact Cg.pure (by omega)
    · refine Cg.line h h1 ?_
      split
      · rename_i i hi
        have hlt : p + 1 < n := by
          rcases Nat.lt_or_ge (p + 1) n with h2 | h2
          · exact h2
          · have : p + 1 = n := by omega
            rw [this, h.noQuote] at hi; cases hi
        refine Cg.bind (Q := fun _ q => q = p + 1) (Cg.ite _ (fun _ => Cg.warn rfl) (fun _ => Cg.pure rfl)) (fun _ q hq => ?_)
        subst hq
        refine Cg.bind (cg_getStringLine h _ _ h1) (fun s q hq => ?_)
        subst hq
        refine (ih _ _ h1).mono (fun a q hq => ⟨hq.1, fun e => ?_⟩)
        have := hq.2 e
        omega
      · exact Cg.pure (by omega)

theorem cg_getString (h : Last ct T T' n) (skip : Nat) {p : Nat} (hp : p ≤ n) :
    Cg (getStringE ct fuel T b skip) (getStringE ct fuel T' b skip) p (fun _ q => q ≤ n + 1 ∧ (q = n + 1 → p = n)) := by
  unfold getStringE
  refine Cg.line h hp (Cg.ite _ (fun _ => Cg.error h _ _) (fun _ => ?_))
  refine Cg.bind (Q := fun _ q => q = p) (Cg.ite _ (fun _ => cg_getStringLine h _ _ hp) (fun _ => ?_)) (fun s q hq => ?_)
  · refine Cg.bind (Q := fun _ q => q = p) (Cg.warn rfl) (fun _ q hq => ?_)
    subst hq
    split
    · exact Cg.error h _ _
    · exact cg_getStringLine h _ _ hp
  · subst hq
    exact cg_contLoop h _ _ _ hp

theorem cg_commentLoop (h : Last ct T T' n) : ∀ (f : Nat) (fz : Bool) (p : Nat), p ≤ n →
    Cg (commentLoopE T f fz) (commentLoopE T' f fz) p (fun _ q => q ≤ n) := by
  intro f
  induction f with
  | zero => intro fz p _; exact Cg.diverge
  | succ f ih =>
    intro fz p hp
    unfold commentLoopE
    refine Cg.line h hp (Cg.ite _ (fun hc => ?_) (fun _ => Cg.pure hp))
    refine Cg.bind (Q := fun _ q => q = p + 1) (Cg.next rfl) (fun _ q hq => ?_)
    subst hq
    refine ih _ _ ?_
    rcases Nat.lt_or_ge p n with h1 | h1
    · omega
    · have : p = n := by omega
      rw [this, h.noHash] at hc; cases hc

theorem cg_pluralLoop (h : Last ct T T' n) : ∀ (f : Nat) (first saw : Bool) (p : Nat), p ≤ n →
    Cg (pluralLoopE ct fuel T b f first saw) (pluralLoopE ct fuel T' b f first saw) p (fun _ q => q ≤ n) := by
  intro f
  induction f with
  | zero => intro first saw p _; exact Cg.diverge
  | succ f ih =>
    intro first saw p hp
    unfold pluralLoopE
    refine Cg.line h hp (Cg.ite _ (fun _ => Cg.ite _ (fun _ => Cg.error h _ _) (fun _ => Cg.pure hp)) (fun _ => ?_))
    split
    · rename_i k hk
      refine Cg.bind (cg_getString h _ hp) (fun s q hq => ?_)
      refine Cg.bind (Q := fun _ q' => q' = q) (Cg.emit rfl) (fun _ q' hq' => ?_)
      subst hq'
      refine ih _ _ _ ?_
      rcases Nat.lt_or_ge n q' with h1 | h1
      · have := hq.2 (by omega)
        rw [this, h.noIndex] at hk; cases hk
      · exact h1
    · exact Cg.error h _ _

/-- A line with a keyword is not blank. -/
theorem kw_nonempty {k l : Str} (hk : hasPrefix (109 :: k) l = true) : emptyLine ct l = false := by
  cases l with
  | nil => cases hk
  | cons x t =>
    have hx : x = 109 := by simp [hasPrefix, List.isPrefixOf] at hk; exact hk.1.symm
    subst hx
    simp [emptyLine, m_nospace]

theorem cg_pluralOver (h : Last ct T T' n) (hk : hasPrefix b!"msgid_plural" (T n).line = true) {q : Nat} (hq : n < q) (f : Nat) :
    Cg (pluralLoopE ct fuel T b f true false) (pluralLoopE ct fuel T' b f true false) q (fun _ _ => False) := by
  cases f with
  | zero => exact Cg.diverge
  | succ f =>
    unfold pluralLoopE
    refine Cg.lineOver h hq ?_
    rw [kw_nonempty hk, h.noIndex]
    exact Cg.error h _ _

theorem cg_pluralEntry (h : Last ct T T' n) (fz : Bool) (ctxt : Option Str) (id : Str) {p : Nat} (hp : p ≤ n)
    (hk : hasPrefix b!"msgid_plural" (T p).line = true) :
    Cg (pluralEntryE ct fuel T b fz ctxt id) (pluralEntryE ct fuel T' b fz ctxt id) p (fun _ q => q ≤ n) := by
  unfold pluralEntryE
  refine Cg.bind (cg_getString h _ hp) (fun s q hq => ?_)
  refine Cg.bind (Q := fun _ q' => q' = q) (Cg.emit rfl) (fun _ q' hq' => ?_)
  subst hq'
  rcases Nat.lt_or_ge n q' with h1 | h1
  · have hpn := hq.2 (by omega)
    subst hpn
    exact Cg.bind (Q := fun _ _ => False) (cg_pluralOver h hk h1 fuel) (fun _ _ hf => hf.elim)
  · refine Cg.bind (cg_pluralLoop h _ _ _ _ h1) (fun s q hq => ?_)
    refine Cg.line h hq (Cg.ite _ (fun _ => Cg.error h _ _) (fun _ => Cg.ite _ (fun _ => Cg.emitAt hq) (fun _ => Cg.pure hq)))

theorem cg_singularEntry (h : Last ct T T' n) (fz : Bool) (ctxt : Option Str) (id : Str) {p : Nat} (hp : p ≤ n) :
    Cg (singularEntryE ct fuel T b fz ctxt id) (singularEntryE ct fuel T' b fz ctxt id) p (fun _ q => q ≤ n + 1 ∧ (q = n + 1 → p = n)) := by
  unfold singularEntryE
  refine Cg.bind (cg_getString h _ hp) (fun s q hq => ?_)
  exact Cg.ite _ (fun _ => Cg.emitAt hq) (fun _ => Cg.ite _ (fun _ => Cg.emit hq) (fun _ => Cg.pure hq))

/-- Two different words cannot both begin a line. -/
theorem prefix_excl {k k' l : Str} (h : hasPrefix k l = true) (h' : hasPrefix k' l = true) : hasPrefix k k' = true ∨ hasPrefix k' k = true := by
  have h1 := List.isPrefixOf_iff_prefix.1 h
  have h2 := List.isPrefixOf_iff_prefix.1 h'
  rcases Nat.le_total k.length k'.length with hl | hl
  · exact .inl (List.isPrefixOf_iff_prefix.2 (List.prefix_of_prefix_length_le h1 h2 hl))
  · exact .inr (List.isPrefixOf_iff_prefix.2 (List.prefix_of_prefix_length_le h2 h1 hl))

/-- `msgid_plural` is not read as `msgid`. -/
theorem getString_plural {p q : Nat} {t : Str} (hk : hasPrefix b!"msgid_plural" (T p).line = true) (h : (getStringE ct fuel T b 5 p).2 = .ok t q) : False := by
  rw [(eqv_getString (ct := ct) (fuel := fuel) (T := T) (b := b) 5 p).2] at h
  obtain ⟨x, r, h0, _⟩ := bind_ok h
  obtain ⟨_, t', h1, _⟩ := rdE_ok h0
  have h2 : hasPrefix b!"msgid" (T p).line = true := by
    have := List.isPrefixOf_iff_prefix.1 hk
    exact List.isPrefixOf_iff_prefix.2 (List.IsPrefix.trans ⟨b!"_plural", rfl⟩ this)
  obtain ⟨sep, qt, h4, h5, h6⟩ := rdKw_field (ct := ct) h2 rfl h1
  have h7 := hasPrefix_split hk
  rw [h4] at h7
  obtain ⟨hl, _⟩ := h6
  cases sep with
  | nil =>
    have := congrArg (fun l : Str => l[5]?) h7
    simp at this
  | cons y sep =>
    have := congrArg (fun l : Str => l[5]?) h7
    simp at this
    have hy := h5 y List.mem_cons_self
    rw [this, ct.isspace_ascii 95 (by decide)] at hy
    exact absurd hy (by decide)

theorem Cg.and {e e' : E α} {p : Nat} {Q R : α → Nat → Prop} (h : Cg e e' p Q) (hr : ∀ a q, (e p).2 = .ok a q → R a q) :
    Cg e e' p (fun a q => Q a q ∧ R a q) := ⟨h.ev, h.res, fun a q ha => ⟨h.ok a q ha, hr a q ha⟩⟩

theorem cg_ctxt (h : Last ct T T' n) {p : Nat} (hp : p ≤ n) :
    Cg (ctxtE ct fuel T b) (ctxtE ct fuel T' b) p (fun _ q => q ≤ n + 1 ∧ (q = n + 1 → hasPrefix b!"msgctxt" (T n).line = true)) := by
  unfold ctxtE
  refine Cg.line h hp (Cg.ite _ (fun hk => ?_) (fun _ => Cg.pure (by omega)))
  refine Cg.bind (cg_getString h _ hp) (fun t q hq => Cg.pure ⟨hq.1, fun e => ?_⟩)
  rw [hq.2 e] at hk; exact hk

theorem cg_msgid (h : Last ct T T' n) {p : Nat} (hp : p ≤ n + 1) (hc : p = n + 1 → hasPrefix b!"msgctxt" (T n).line = true) :
    Cg (msgidE ct fuel T b) (msgidE ct fuel T' b) p (fun _ q => q ≤ n + 1 ∧
      (q = n + 1 → hasPrefix b!"msgid" (T n).line = true ∧ hasPrefix b!"msgid_plural" (T n).line = false)) := by
  unfold msgidE
  rcases Nat.lt_or_ge n p with h1 | h1
  · refine Cg.lineOver h h1 ?_
    have : hasPrefix b!"msgid" (T n).line = false := by
      cases hx : hasPrefix b!"msgid" (T n).line with
      | false => rfl
      | true => rcases prefix_excl hx (hc (by omega)) with h2 | h2 <;> exact absurd h2 (by decide)
    rw [this]
    exact Cg.error h _ _
  · refine Cg.line h h1 (Cg.ite _ (fun hk => ?_) (fun _ => Cg.error h _ _))
    refine ((cg_getString h _ h1).and (R := fun _ _ => hasPrefix b!"msgid_plural" (T p).line = false) ?_).mono ?_
    · intro t q ht
      cases hx : hasPrefix b!"msgid_plural" (T p).line with
      | false => rfl
      | true => exact (getString_plural hx ht).elim
    · intro t q ⟨h2, h3⟩
      refine ⟨h2.1, fun e => ?_⟩
      rw [h2.2 e] at hk h3
      exact ⟨hk, h3⟩

theorem cg_entryBody (h : Last ct T T' n) (fz : Bool) {p : Nat} (hp : p ≤ n) :
    Cg (entryBodyE ct fuel T b fz) (entryBodyE ct fuel T' b fz) p (fun _ q => q ≤ n + 1 ∧ (q = n + 1 → hasPrefix b!"msgstr" (T n).line = true)) := by
  unfold entryBodyE
  refine Cg.bind (cg_ctxt h hp) (fun c q hq => Cg.bind (cg_msgid h hq.1 hq.2) (fun i q hq => ?_))
  rcases Nat.lt_or_ge n q with h1 | h1
  · obtain ⟨h2, h3⟩ := hq.2 (by omega)
    refine Cg.lineOver h h1 ?_
    rw [h3]
    refine Cg.lineOver h h1 ?_
    have : hasPrefix b!"msgstr" (T n).line = false := by
      cases hx : hasPrefix b!"msgstr" (T n).line with
      | false => rfl
      | true => rcases prefix_excl hx h2 with h2 | h2 <;> exact absurd h2 (by decide)
    rw [this]
    exact Cg.error h _ _
  · refine Cg.line h h1 (Cg.ite _ (fun hk => (cg_pluralEntry h _ _ _ h1 hk).mono (fun _ q hq => by omega)) (fun _ => ?_))
    refine Cg.line h h1 (Cg.ite _ (fun hk => (cg_singularEntry h _ _ _ h1).mono (fun _ q hq => ⟨hq.1, fun e => ?_⟩)) (fun _ => Cg.error h _ _))
    rw [hq.2 e] at hk; exact hk

/-- The same up to diagnostics, and up to an error at the end. -/
def Near (x y : List Ev × TRes Unit) : Prop :=
  essence x.1 = essence y.1 ∧ (x.2 = y.2 ∨ ∃ q, x.2 = .err q ∧ y.2 = .ok () q)

theorem Cg.near {e e' : E Unit} {p : Nat} {Q : Unit → Nat → Prop} (h : Cg e e' p Q) : Near (e p) (e' p) := ⟨h.ev, .inl h.res⟩

theorem Near.bind {e e' : E α} {f f' : α → E Unit} {p : Nat} {Q : α → Nat → Prop} (h : Cg e e' p Q)
    (hf : ∀ a q, Q a q → Near (f a q) (f' a q)) : Near ((e >>= f) p) ((e' >>= f') p) := by
  obtain ⟨h1, h2, h3⟩ := h
  have hr : (e >>= f) p = E.bind e f p := rfl
  have hr' : (e' >>= f') p = E.bind e' f' p := rfl
  rcases hx : e p with ⟨v, r⟩
  rcases hy : e' p with ⟨v', r'⟩
  rw [hx] at h1 h2 h3
  rw [hy] at h1 h2
  dsimp only at h1 h2 h3
  subst h2
  rw [hr, hr']
  unfold E.bind
  rw [hx, hy]
  cases r with
  | ok a q =>
    obtain ⟨k1, k2⟩ := hf a q (h3 a q rfl)
    dsimp only
    exact ⟨by rw [essence_append, essence_append, h1, k1], k2⟩
  | err q => exact ⟨h1, .inl rfl⟩
  | overflow => exact ⟨h1, .inl rfl⟩
  | diverge => exact ⟨h1, .inl rfl⟩

theorem near_finish (h : Last ct T T' n) (hF : 0 < fuel) {p : Nat} (hp : p ≤ n + 1) (hc : p = n + 1 → hasPrefix b!"msgstr" (T n).line = true) :
    Near (finishE ct fuel T p) (finishE ct fuel T' p) := by
  unfold finishE
  rcases Nat.lt_or_ge n p with h1 | h1
  · have e1 : ∀ (U : Tape) (f : Str → E Unit), (lineE U >>= f) p = f (U p).line p := fun _ _ => rfl
    rw [e1, e1, h.stuck p h1, h.gone p h1, kw_nonempty (hc (by omega))]
    have e2 : emptyLine ct [] = true := rfl
    rw [e2]
    simp only [Bool.not_false, Bool.not_true, if_true, Bool.false_eq_true, if_false]
    have e3 : ((E.pure () >>= fun _ => nextE) p : List Ev × TRes Unit) = nextE p := by
      show E.bind (E.pure ()) (fun _ => nextE) p = _
      unfold E.bind E.pure; simp
    rw [e3]
    cases fuel with
    | zero => exact absurd hF (by omega)
    | succ f =>
      by_cases ho : p + 1 ≥ intMax
      · have e : recoverE ct T (f + 1) p = ([], .overflow) := by
          show (nextE >>= fun _ => _) p = _
          rw [e_bind]; unfold E.bind nextE; rw [if_pos ho]
        have e4 : ((errorE (α := Unit) ct (f + 1) T b!"expected empty line" >>= fun _ => nextE) p : List Ev × TRes Unit)
            = ([Ev.diag .error p b!"expected empty line" false], .overflow) := by
          rw [e_bind]; unfold E.bind; rw [errorE_eq, e]
        rw [e4]
        unfold nextE
        rw [if_pos ho]
        exact ⟨by simp [essence, Ev.isDiag], .inl rfl⟩
      · have e : recoverE ct T (f + 1) p
            = if !(T (p + 1)).eof && !emptyLine ct (T (p + 1)).line then recoverE ct T f (p + 1) else ([], .ok () (p + 1)) := by
          show (nextE >>= fun _ => _) p = _
          rw [e_bind]; unfold E.bind nextE; rw [if_neg ho]
          dsimp only
          rw [List.nil_append]
          show (if (!(T (p + 1)).eof && !emptyLine ct (T (p + 1)).line) = true then recoverE ct T f else E.pure ()) (p + 1) = _
          split <;> rfl
        rw [h.over (p + 1) (by omega)] at e
        have e4 : ((errorE (α := Unit) ct (f + 1) T b!"expected empty line" >>= fun _ => nextE) p : List Ev × TRes Unit)
            = ([Ev.diag .error p b!"expected empty line" false], .err (p + 1)) := by
          rw [e_bind]; unfold E.bind; rw [errorE_eq, e]; rfl
        rw [e4]
        unfold nextE
        rw [if_neg ho]
        exact ⟨by simp [essence, Ev.isDiag], .inr ⟨p + 1, rfl, rfl⟩⟩
  · refine (Cg.line (Q := fun _ _ => True) h h1 ?_).near
    exact Cg.bind (Q := fun _ _ => True) (Cg.ite _ (fun _ => Cg.error h _ _) (fun _ => Cg.pure trivial)) (fun _ _ _ => Cg.next trivial)

theorem near_line {f f' : Str → E Unit} {p : Nat} (h : Last ct T T' n) (hp : p ≤ n) (hf : Near (f (T p).line p) (f' (T p).line p)) :
    Near ((lineE T >>= f) p) ((lineE T' >>= f') p) := by
  have e1 : (lineE T >>= f) p = f (T p).line p := rfl
  have e2 : (lineE T' >>= f') p = f' (T p).line p := by rw [h.line p hp]; rfl
  rw [e1, e2]; exact hf

/-- Where a body may end. -/
def BodyEnd (T : Tape) (n : Nat) (_ : Unit) (q : Nat) : Prop := q ≤ n + 1 ∧ (q = n + 1 → hasPrefix b!"msgstr" (T n).line = true)

theorem near_entry2 {β : Type} {e e' : E β} {Q : β → Nat → Prop} (x x' : β → E Unit) {k k' : Unit → E Unit} {p : Nat} {c : Str → Bool}
    (h : Last ct T T' n) (hc : Cg e e' p Q)
    (hQ : ∀ a q, Q a q → q ≤ n) (hx : ∀ a q, Q a q → Cg (x a) (x' a) q (BodyEnd T n)) (hk : ∀ q, BodyEnd T n () q → Near (k () q) (k' () q)) :
    Near ((e >>= fun a => lineE T >>= fun l => (if c l then x a else E.pure ()) >>= k) p)
      ((e' >>= fun a => lineE T' >>= fun l => (if c l then x' a else E.pure ()) >>= k') p) := by
  refine Near.bind hc (fun a q hq => near_line h (hQ a q hq) ?_)
  refine Near.bind (Q := BodyEnd T n) (Cg.ite _ (fun _ => hx a q hq) (fun _ => Cg.pure ?_)) (fun _ q hq => hk q hq)
  have := hQ a q hq
  exact ⟨Nat.le_succ_of_le this, fun e => absurd e (Nat.ne_of_lt (Nat.lt_succ_of_le this))⟩

theorem ne_a (h : Last ct T T' n) : ∀ (fz : Bool) (q : Nat), q ≤ n → Cg (entryBodyE ct fuel T b fz) (entryBodyE ct fuel T' b fz) q (BodyEnd T n) :=
  fun fz _ hq => cg_entryBody h fz hq

theorem ne_b (h : Last ct T T' n) (hF : 0 < fuel) : ∀ q, BodyEnd T n () q → Near (finishE ct fuel T q) (finishE ct fuel T' q) :=
  fun _ hq => near_finish h hF hq.1 hq.2

theorem ne_c (h : Last ct T T' n) (hF : 0 < fuel) {p : Nat} (hp : p ≤ n) : 
    Near ((commentLoopE T fuel false >>= fun a => lineE T >>= fun l => (if !emptyLine ct l then entryBodyE ct fuel T b a else E.pure ()) >>= fun _ => finishE ct fuel T) p)
      ((commentLoopE T' fuel false >>= fun a => lineE T' >>= fun l => (if !emptyLine ct l then entryBodyE ct fuel T' b a else E.pure ()) >>= fun _ => finishE ct fuel T') p) :=
  near_entry2 (c := fun l => !emptyLine ct l) (k := fun _ => finishE ct fuel T) (k' := fun _ => finishE ct fuel T') (entryBodyE ct fuel T b) (entryBodyE ct fuel T' b) h (cg_commentLoop h fuel false p hp) (fun _ _ hq => hq)
    (fun fz q hq => ne_a h fz q hq) (fun q hq => ne_b h hF q hq)

theorem entryE_eq (U : Tape) : entryE ct fuel U b = (commentLoopE U fuel false >>= fun a => lineE U >>= fun l => (if !emptyLine ct l then entryBodyE ct fuel U b a else E.pure ()) >>= fun _ => finishE ct fuel U) := rfl

theorem near_entry (h : Last ct T T' n) (hF : 0 < fuel) {p : Nat} (hp : p ≤ n) : Near (entryE ct fuel T b p) (entryE ct fuel T' b p) := by
  rw [entryE_eq, entryE_eq]
  exact ne_c h hF hp

theorem main_stop {U : Tape} (f : Nat) {p : Nat} {b : Bool} {v : List Ev} {r : TRes Unit} (he : (U p).eof = false) (hx : entryE ct fuel U b p = (v, r)) :
    mainLoopE ct fuel U (f + 1) b p
      = match (generalizing := false) r with
        | .ok _ q => (v ++ (mainLoopE ct fuel U f (big5After ct b v) q).1, (mainLoopE ct fuel U f (big5After ct b v) q).2)
        | .err q => (v ++ (mainLoopE ct fuel U f (big5After ct b v) q).1, (mainLoopE ct fuel U f (big5After ct b v) q).2)
        | .overflow => (v, .overflow)
        | .diverge => (v, .diverge) := by
  conv => lhs; unfold mainLoopE
  rw [he, hx]
  cases r <;> rfl

theorem last_mainLoop (h : Last ct T T' n) (hF : 0 < fuel) : ∀ (f : Nat) (b : Bool) (p : Nat),
    Eqv (mainLoopE ct fuel T f b p) (mainLoopE ct fuel T' f b p) := by
  intro f
  induction f with
  | zero =>
    intro b p
    have e : ∀ U : Tape, mainLoopE ct fuel U 0 b p = E.diverge p := fun _ => rfl
    rw [e, e]; exact .rfl
  | succ f ih =>
    intro b p
    by_cases he : (T p).eof = true
    · rw [main_eof f he, main_eof f ((h.eof p).symm.trans he)]; exact .rfl
    · have he : (T p).eof = false := by simpa using he
      have he' : (T' p).eof = false := (h.eof p).symm.trans he
      have hp : p ≤ n := by
        rcases Nat.lt_or_ge n p with h1 | h1
        · rw [h.over p h1] at he; cases he
        · exact h1
      obtain ⟨h1, h2⟩ := near_entry (fuel := fuel) (b := b) h hF hp
      rcases hx : entryE ct fuel T b p with ⟨v, r⟩
      rcases hy : entryE ct fuel T' b p with ⟨v', r'⟩
      rw [main_stop f he hx, main_stop f he' hy]
      rw [hx, hy] at h1 h2
      dsimp only at h1 h2
      have key : ∀ q, Eqv (v ++ (mainLoopE ct fuel T f (big5After ct b v) q).1, (mainLoopE ct fuel T f (big5After ct b v) q).2)
          (v' ++ (mainLoopE ct fuel T' f (big5After ct b v') q).1, (mainLoopE ct fuel T' f (big5After ct b v') q).2) := by
        intro q
        have : big5After ct b v' = big5After ct b v := by
          rw [big5After_essence (ct := ct) b v', ← h1, ← big5After_essence (ct := ct) b v]
        rw [this]
        obtain ⟨k1, k2⟩ := ih (big5After ct b v) q
        exact ⟨by rw [essence_append, essence_append, h1, k1], k2⟩
      rcases h2 with rfl | ⟨q, rfl, rfl⟩
      · cases r with
        | ok a q => exact key q
        | err q => exact key q
        | overflow => exact ⟨h1, rfl⟩
        | diverge => exact ⟨h1, rfl⟩
      · exact key q

end Tgt.POParser
