import Verif.Proofs.Grammar3
/-
Two blank lines stop everything: parser code that starts before them does not see what comes after them.
-/
namespace Tgt.POParser
open Spec Spec.Po

/-- The same result on both sides; normal ends satisfy `Q`, errors end at most one line behind the wall. -/
structure Loc {α : Type} (w : Nat) (e e' : E α) (p : Nat) (Q : α → Nat → Prop) : Prop where
  eq : e p = e' p
  ok : ∀ a q, (e p).2 = .ok a q → Q a q
  err : ∀ q, (e p).2 = .err q → q ≤ w + 1

section
variable {α β : Type} {w p : Nat} {Q : α → Nat → Prop} {Q' : β → Nat → Prop}

theorem Loc.pure {a : α} (h : Q a p) : Loc w (E.pure a) (E.pure a) p Q :=
  ⟨rfl, fun a q hq => by cases hq; exact h, fun q hq => by cases hq⟩

theorem Loc.bind {e e' : E α} {f f' : α → E β} (h : Loc w e e' p Q)
    (hf : ∀ a q, Q a q → Loc w (f a) (f' a) q Q') : Loc w (e >>= f) (e' >>= f') p Q' := by
  obtain ⟨h1, h2, h3⟩ := h
  have hr : ∀ g : α → E β, (e >>= g) p = E.bind e g p := fun g => rfl
  have hr' : ∀ g : α → E β, (e' >>= g) p = E.bind e' g p := fun g => rfl
  rcases hx : e p with ⟨v, r⟩
  rw [hx] at h1 h2 h3
  cases r with
  | ok a q =>
    obtain ⟨k1, k2, k3⟩ := hf a q (h2 a q rfl)
    refine ⟨?_, ?_, ?_⟩
    · rw [hr, hr']; unfold E.bind; rw [hx, ← h1]; dsimp only; rw [k1]
    · intro b q' hb; rw [hr] at hb; unfold E.bind at hb; rw [hx] at hb; exact k2 b q' hb
    · intro q' hb; rw [hr] at hb; unfold E.bind at hb; rw [hx] at hb; exact k3 q' hb
  | err q =>
    refine ⟨?_, ?_, ?_⟩
    · rw [hr, hr']; unfold E.bind; rw [hx, ← h1]
    · intro b q' hb; rw [hr] at hb; unfold E.bind at hb; rw [hx] at hb; cases hb
    · intro q' hb; rw [hr] at hb; unfold E.bind at hb; rw [hx] at hb; cases hb; exact h3 q rfl
  | overflow =>
    refine ⟨?_, ?_, ?_⟩
    · rw [hr, hr']; unfold E.bind; rw [hx, ← h1]
    · intro b q' hb; rw [hr] at hb; unfold E.bind at hb; rw [hx] at hb; cases hb
    · intro q' hb; rw [hr] at hb; unfold E.bind at hb; rw [hx] at hb; cases hb
  | diverge =>
    refine ⟨?_, ?_, ?_⟩
    · rw [hr, hr']; unfold E.bind; rw [hx, ← h1]
    · intro b q' hb; rw [hr] at hb; unfold E.bind at hb; rw [hx] at hb; cases hb
    · intro q' hb; rw [hr] at hb; unfold E.bind at hb; rw [hx] at hb; cases hb

theorem Loc.mono {e e' : E α} {Q2 : α → Nat → Prop} (h : Loc w e e' p Q) (hq : ∀ a q, Q a q → Q2 a q) : Loc w e e' p Q2 :=
  ⟨h.eq, fun a q ha => hq a q (h.ok a q ha), h.err⟩

theorem Loc.ite {e1 e2 e1' e2' : E α} (c : Prop) [Decidable c] (h1 : c → Loc w e1 e1' p Q) (h2 : ¬ c → Loc w e2 e2' p Q) :
    Loc w (if c then e1 else e2) (if c then e1' else e2') p Q := by
  split
  · exact h1 (by assumption)
  · exact h2 (by assumption)

theorem Loc.emitAt {g : Nat → List Ev} {Q : Unit → Nat → Prop} (h : Q () p) : Loc w (E.emitAt g) (E.emitAt g) p Q :=
  ⟨rfl, fun a q hq => by cases hq; exact h, fun q hq => by cases hq⟩

theorem Loc.emit {g : List Ev} {Q : Unit → Nat → Prop} (h : Q () p) : Loc w (E.emit g) (E.emit g) p Q :=
  ⟨rfl, fun a q hq => by cases hq; exact h, fun q hq => by cases hq⟩

theorem Loc.warn {m : Str} {b : Bool} {Q : Unit → Nat → Prop} (h : Q () p) : Loc w (warnE m b) (warnE m b) p Q :=
  ⟨rfl, fun a q hq => by cases hq; exact h, fun q hq => by cases hq⟩

theorem Loc.diverge : Loc w (E.diverge : E α) E.diverge p Q :=
  ⟨rfl, fun a q hq => (by cases hq), fun q hq => (by cases hq)⟩

theorem Loc.next {Q : Unit → Nat → Prop} (h : Q () (p + 1)) : Loc w nextE nextE p Q := by
  refine ⟨rfl, fun a q hq => ?_, fun q hq => ?_⟩
  · unfold nextE at hq; split at hq <;> cases hq; exact h
  · unfold nextE at hq; split at hq <;> cases hq
end

/-- Two tapes that agree up to the second of two blank lines. -/
structure Wall (ct : CType) (T T' : Tape) (w : Nat) : Prop where
  line : ∀ p, p ≤ w + 1 → (T p).line = (T' p).line
  eof : ∀ p, p ≤ w + 1 → (T p).eof = false
  eof' : ∀ p, p ≤ w + 1 → (T' p).eof = false
  blank : Blank ct (T w).line
  blank1 : Blank ct (T (w + 1)).line

variable {α : Type} {ct : CType} {fuel : Nat} {T T' : Tape} {b : Bool} {w : Nat}

theorem Loc.line {β : Type} {f f' : Str → E β} {p : Nat} {Q : β → Nat → Prop} (h : Wall ct T T' w) (hp : p ≤ w + 1)
    (hf : Loc w (f (T p).line) (f' (T p).line) p Q) : Loc w (lineE T >>= f) (lineE T' >>= f') p Q := by
  have e1 : (lineE T >>= f) p = f (T p).line p := rfl
  have e2 : (lineE T' >>= f') p = f' (T p).line p := by rw [h.line p hp]; rfl
  exact ⟨by rw [e1, e2]; exact hf.eq, fun a q ha => hf.ok a q (by rw [e1] at ha; exact ha),
    fun q ha => hf.err q (by rw [e1] at ha; exact ha)⟩

theorem blank_empty {l : Str} (h : Blank ct l) : emptyLine ct l = true := by
  unfold emptyLine
  cases l with
  | nil => rfl
  | cons x t =>
    by_cases hx : x = 35
    · have := h x List.mem_cons_self
      rw [hx, ct.isspace_ascii 35 (by decide)] at this
      exact absurd this (by decide)
    · split
      · rename_i e; cases e
      · rename_i e; cases e; exact absurd rfl hx
      · rw [List.all_eq_true]; exact h

theorem blank_noPrefix {l : Str} (h : Blank ct l) {a : Byte} {k : Str} (ha : ct.isspace a = false) : hasPrefix (a :: k) l = false := by
  cases l with
  | nil => rfl
  | cons x t =>
    have hx := h x List.mem_cons_self
    have : a ≠ x := fun e => by rw [e, hx] at ha; cases ha
    simp [hasPrefix, List.isPrefixOf, this]

theorem blank_noQuote {l : Str} (h : Blank ct l) (i : Nat) : scanQuote ct l i = none := by
  induction l generalizing i with
  | nil => rfl
  | cons x t ih =>
    have hx := h x List.mem_cons_self
    have : x ≠ 34 := fun e => by rw [e, ct.isspace_ascii 34 (by decide)] at hx; exact absurd hx (by decide)
    unfold scanQuote
    rw [if_neg this, if_pos hx]
    exact ih (fun y hy => h y (List.mem_cons_of_mem _ hy)) _

theorem m_nospace (ct : CType) : ct.isspace 109 = false := by rw [ct.isspace_ascii 109 (by decide)]; rfl
theorem hash_nospace (ct : CType) : ct.isspace 35 = false := by rw [ct.isspace_ascii 35 (by decide)]; rfl

/-- A keyword at `p` means that `p` is not the wall. -/
theorem Wall.lt (h : Wall ct T T' w) {p : Nat} (hp : p ≤ w) {a : Byte} {k : Str} (ha : ct.isspace a = false)
    (hk : hasPrefix (a :: k) (T p).line = true) : p < w := by
  rcases Nat.lt_or_ge p w with h1 | h1
  · exact h1
  · have : p = w := by omega
    rw [this, blank_noPrefix h.blank ha] at hk
    cases hk

theorem loc_recover (h : Wall ct T T' w) : ∀ (f p : Nat), p ≤ w →
    recoverE ct T f p = recoverE ct T' f p ∧ ∀ a q, (recoverE ct T f p).2 = .ok a q → q ≤ w + 1 := by
  intro f
  induction f with
  | zero => intro p _; exact ⟨rfl, fun a q hq => by cases hq⟩
  | succ f ih =>
    intro p hp
    by_cases ho : p + 1 ≥ intMax
    · have e : ∀ U : Tape, recoverE ct U (f + 1) p = ([], .overflow) := by
        intro U
        show (nextE >>= fun _ => _) p = _
        rw [e_bind]; unfold E.bind nextE; rw [if_pos ho]
      rw [e, e]
      exact ⟨rfl, fun a q hq => by cases hq⟩
    · have e : ∀ U : Tape, recoverE ct U (f + 1) p
          = if !(U (p + 1)).eof && !emptyLine ct (U (p + 1)).line then recoverE ct U f (p + 1) else ([], .ok () (p + 1)) := by
        intro U
        show (nextE >>= fun _ => _) p = _
        rw [e_bind]; unfold E.bind nextE; rw [if_neg ho]
        dsimp only
        rw [List.nil_append]
        show ((lineE U >>= fun l => eofE U >>= fun e => if (!e && !emptyLine ct l) = true then recoverE ct U f else E.pure ()) (p + 1)) = _
        show (if (!(U (p + 1)).eof && !emptyLine ct (U (p + 1)).line) = true then recoverE ct U f else E.pure ()) (p + 1) = _
        split <;> rfl
      rw [e, e, ← h.line (p + 1) (by omega), h.eof (p + 1) (by omega), h.eof' (p + 1) (by omega)]
      rcases Nat.lt_or_ge p w with h1 | h1
      · split
        · exact ih (p + 1) (by omega)
        · exact ⟨rfl, fun a q hq => by cases hq; omega⟩
      · have : p = w := by omega
        subst this
        rw [blank_empty h.blank1]
        exact ⟨rfl, fun a q hq => by cases hq; omega⟩

theorem Loc.error (h : Wall ct T T' w) {p : Nat} (hp : p ≤ w) (m : Str) {Q : α → Nat → Prop} :
    Loc w (errorE ct fuel T m) (errorE ct fuel T' m) p Q := by
  have e : ∀ U : Tape, errorE (α := α) ct fuel U m p
      = (Ev.diag .error p m false :: (recoverE ct U fuel p).1,
          match (recoverE ct U fuel p).2 with
          | .ok _ q => .err q
          | .err q => .err q
          | .overflow => .overflow
          | .diverge => .diverge) := by
    intro U
    show (E.bind (E.emitAt (fun p => [Ev.diag .error p m false])) (fun _ => E.bind (recoverE ct U fuel) (fun _ => E.throw))) p = _
    simp only [E.bind, E.emitAt]
    rcases recoverE ct U fuel p with ⟨v, r⟩
    cases r <;> simp [E.throw]
  obtain ⟨h1, h2⟩ := loc_recover h fuel p hp
  refine ⟨by rw [e, e, h1], fun a q hq => ?_, fun q hq => ?_⟩
  · rw [e] at hq; dsimp only at hq; split at hq <;> cases hq
  · rw [e] at hq; dsimp only at hq
    split at hq
    · rename_i q' hx; cases hq; exact h2 _ _ hx
    · rename_i q' hx
      -- recovery does not throw
      exfalso
      clear e h1 h2
      revert hx
      generalize fuel = f
      induction f generalizing p with
      | zero => intro hx; cases hx
      | succ f ih =>
        intro hx
        by_cases ho : p + 1 ≥ intMax
        · have : recoverE ct T (f + 1) p = ([], .overflow) := by
            show (nextE >>= fun _ => _) p = _
            rw [e_bind]; unfold E.bind nextE; rw [if_pos ho]
          rw [this] at hx; cases hx
        · have : recoverE ct T (f + 1) p
              = if !(T (p + 1)).eof && !emptyLine ct (T (p + 1)).line then recoverE ct T f (p + 1) else ([], .ok () (p + 1)) := by
            show (nextE >>= fun _ => _) p = _
            rw [e_bind]; unfold E.bind nextE; rw [if_neg ho]
            dsimp only
            rw [List.nil_append]
            show (if (!(T (p + 1)).eof && !emptyLine ct (T (p + 1)).line) = true then recoverE ct T f else E.pure ()) (p + 1) = _
            split <;> rfl
          rw [this] at hx
          split at hx
          · rcases Nat.lt_or_ge p w with h1 | h1
            · exact ih (by omega) hx
            · have : p = w := by omega
              subst this
              rename_i hc
              rw [blank_empty h.blank1] at hc
              simp at hc
          · cases hx
    · cases hq
    · cases hq

theorem loc_getStringLine (h : Wall ct T T' w) (out : Str) (skip : Nat) {p : Nat} (hp : p ≤ w) :
    Loc w (getStringLineE ct fuel T b out skip) (getStringLineE ct fuel T' b out skip) p (fun _ q => q = p) := by
  unfold getStringLineE
  refine Loc.line h (by omega) (Loc.ite _ (fun _ => Loc.error h hp _) (fun _ => Loc.ite _ (fun _ => Loc.error h hp _) (fun _ => ?_)))
  refine Loc.bind (Q := fun _ q => q = p) (Loc.emitAt rfl) (fun _ q hq => ?_)
  subst hq
  split
  · exact Loc.error h hp _
  · exact Loc.ite _ (fun _ => Loc.bind (Q := fun _ q => q = _) (Loc.warn rfl) (fun _ q hq => Loc.pure hq)) (fun _ => Loc.pure rfl)

theorem loc_contLoop (h : Wall ct T T' w) : ∀ (f : Nat) (out : Str) (p : Nat), p < w →
    Loc w (contLoopE ct fuel T b f out) (contLoopE ct fuel T' b f out) p (fun _ q => q ≤ w) := by
  intro f
  induction f with
  | zero => intro out p _; exact Loc.diverge
  | succ f ih =>
    intro out p hp
    unfold contLoopE
    refine Loc.bind (Q := fun _ q => q = p + 1) (Loc.next rfl) (fun _ q hq => ?_)
    subst hq
    refine Loc.line h (by omega) ?_
    split
    · rename_i i hi
      have hlt : p + 1 < w := by
        rcases Nat.lt_or_ge (p + 1) w with h1 | h1
        · exact h1
        · have : p + 1 = w := by omega
          rw [this, blank_noQuote h.blank] at hi; cases hi
      refine Loc.bind (Q := fun _ q => q = p + 1) (Loc.ite _ (fun _ => Loc.warn rfl) (fun _ => Loc.pure rfl)) (fun _ q hq => ?_)
      subst hq
      refine Loc.bind (loc_getStringLine h _ _ (by omega)) (fun s q hq => ?_)
      subst hq
      exact ih _ _ hlt
    · exact Loc.pure (by omega)

theorem loc_getString (h : Wall ct T T' w) (skip : Nat) {p : Nat} (hp : p < w) :
    Loc w (getStringE ct fuel T b skip) (getStringE ct fuel T' b skip) p (fun _ q => q ≤ w) := by
  unfold getStringE
  refine Loc.line h (by omega) (Loc.ite _ (fun _ => Loc.error h (by omega) _) (fun _ => ?_))
  refine Loc.bind (Q := fun _ q => q = p) (Loc.ite _ (fun _ => loc_getStringLine h _ _ (by omega)) (fun _ => ?_)) (fun s q hq => ?_)
  · refine Loc.bind (Q := fun _ q => q = p) (Loc.warn rfl) (fun _ q hq => ?_)
    subst hq
    split
    · exact Loc.error h (by omega) _
    · exact loc_getStringLine h _ _ (by omega)
  · subst hq
    exact loc_contLoop h _ _ _ hp

theorem loc_commentLoop (h : Wall ct T T' w) : ∀ (f : Nat) (fz : Bool) (p : Nat), p ≤ w →
    Loc w (commentLoopE T f fz) (commentLoopE T' f fz) p (fun _ q => q ≤ w) := by
  intro f
  induction f with
  | zero => intro fz p _; exact Loc.diverge
  | succ f ih =>
    intro fz p hp
    unfold commentLoopE
    refine Loc.line h (by omega) (Loc.ite _ (fun hc => ?_) (fun _ => Loc.pure hp))
    have hlt := h.lt hp (hash_nospace ct) hc
    refine Loc.bind (Q := fun _ q => q = p + 1) (Loc.next rfl) (fun _ q hq => ?_)
    subst hq
    exact ih _ _ (by omega)

theorem msgstrIndex_prefix {l : Str} {n : Nat} (h : msgstrIndex l = some n) : hasPrefix b!"msgstr[" l = true := by
  unfold msgstrIndex at h
  split at h
  · rename_i hc; simp only [Bool.and_eq_true] at hc; exact hc.1
  · cases h

theorem loc_pluralLoop (h : Wall ct T T' w) : ∀ (f : Nat) (first saw : Bool) (p : Nat), p ≤ w →
    Loc w (pluralLoopE ct fuel T b f first saw) (pluralLoopE ct fuel T' b f first saw) p (fun _ q => q ≤ w) := by
  intro f
  induction f with
  | zero => intro first saw p _; exact Loc.diverge
  | succ f ih =>
    intro first saw p hp
    unfold pluralLoopE
    refine Loc.line h (by omega) (Loc.ite _ (fun _ => Loc.ite _ (fun _ => Loc.error h hp _) (fun _ => Loc.pure hp)) (fun _ => ?_))
    split
    · rename_i n hn
      have hlt := h.lt hp (m_nospace ct) (msgstrIndex_prefix hn)
      refine Loc.bind (loc_getString h _ hlt) (fun s q hq => ?_)
      refine Loc.bind (Q := fun _ q' => q' = q) (Loc.emit rfl) (fun _ q' hq' => ?_)
      subst hq'
      exact ih _ _ _ hq
    · exact Loc.error h hp _

theorem loc_pluralEntry (h : Wall ct T T' w) (fz : Bool) (ctxt : Option Str) (id : Str) {p : Nat} (hp : p < w) :
    Loc w (pluralEntryE ct fuel T b fz ctxt id) (pluralEntryE ct fuel T' b fz ctxt id) p (fun _ q => q ≤ w) := by
  unfold pluralEntryE
  refine Loc.bind (loc_getString h _ hp) (fun s q hq => ?_)
  refine Loc.bind (Q := fun _ q' => q' ≤ w) (Loc.emit hq) (fun _ q hq => ?_)
  refine Loc.bind (loc_pluralLoop h _ _ _ _ hq) (fun s q hq => ?_)
  refine Loc.line h (by omega) (Loc.ite _ (fun _ => Loc.error h hq _) (fun _ => Loc.ite _ (fun _ => Loc.emitAt hq) (fun _ => Loc.pure hq)))

theorem loc_singularEntry (h : Wall ct T T' w) (fz : Bool) (ctxt : Option Str) (id : Str) {p : Nat} (hp : p < w) :
    Loc w (singularEntryE ct fuel T b fz ctxt id) (singularEntryE ct fuel T' b fz ctxt id) p (fun _ q => q ≤ w) := by
  unfold singularEntryE
  refine Loc.bind (loc_getString h _ hp) (fun s q hq => ?_)
  exact Loc.ite _ (fun _ => Loc.emitAt hq) (fun _ => Loc.ite _ (fun _ => Loc.emit hq) (fun _ => Loc.pure hq))

theorem loc_entryBody (h : Wall ct T T' w) (fz : Bool) {p : Nat} (hp : p ≤ w) :
    Loc w (entryBodyE ct fuel T b fz) (entryBodyE ct fuel T' b fz) p (fun _ q => q ≤ w) := by
  unfold entryBodyE
  refine Loc.bind (Q := fun _ q => q ≤ w) ?_ (fun ctxt q hq => ?_)
  · unfold ctxtE
    refine Loc.line h (by omega) (Loc.ite _ (fun hc => ?_) (fun _ => Loc.pure hp))
    exact Loc.bind (loc_getString h _ (h.lt hp (m_nospace ct) hc)) (fun s q hq => Loc.pure hq)
  · refine Loc.bind (Q := fun _ q => q ≤ w) ?_ (fun id q hq => ?_)
    · unfold msgidE
      exact Loc.line h (by omega) (Loc.ite _ (fun hc => loc_getString h _ (h.lt hq (m_nospace ct) hc)) (fun _ => Loc.error h hq _))
    · refine Loc.line h (by omega) (Loc.ite _ (fun hc => loc_pluralEntry h _ _ _ (h.lt hq (m_nospace ct) hc)) (fun _ => ?_))
      exact Loc.line h (by omega) (Loc.ite _ (fun hc => loc_singularEntry h _ _ _ (h.lt hq (m_nospace ct) hc)) (fun _ => Loc.error h hq _))

theorem loc_entry (h : Wall ct T T' w) {p : Nat} (hp : p ≤ w) :
    Loc w (entryE ct fuel T b) (entryE ct fuel T' b) p (fun _ q => q ≤ w + 1) := by
  unfold entryE
  refine Loc.bind (loc_commentLoop h _ _ _ hp) (fun fz q hq => ?_)
  refine Loc.line h (by omega) (Loc.bind (Q := fun _ q => q ≤ w) (Loc.ite _ (fun _ => loc_entryBody h _ hq) (fun _ => Loc.pure hq)) (fun _ q hq => ?_))
  unfold finishE
  refine Loc.line h (by omega) (Loc.bind (Q := fun _ q => q ≤ w) (Loc.ite _ (fun _ => Loc.error h hq _) (fun _ => Loc.pure hq)) (fun _ q hq => ?_))
  exact Loc.next (by omega)

theorem entry_blank {U : Tape} {p : Nat} (hb : Blank ct (U p).line) (hf : 0 < fuel) (hp : p + 1 < intMax) :
    entryE ct fuel U b p = ([], .ok () (p + 1)) := by
  obtain ⟨f, rfl⟩ : ∃ g, fuel = g + 1 := ⟨fuel - 1, by omega⟩
  have h1 : hasPrefix b!"#" (U p).line = false := blank_noPrefix hb (hash_nospace ct)
  have h2 := blank_empty hb
  have hc : commentLoopE U (f + 1) false p = ([], .ok false p) := by
    show (if hasPrefix b!"#" (U p).line then _ else E.pure false) p = _
    rw [h1]; rfl
  have hfin : finishE ct (f + 1) U p = ([], .ok () (p + 1)) := by
    show (E.bind (if !emptyLine ct (U p).line then errorE ct (f + 1) U b!"expected empty line" else E.pure ()) (fun _ => nextE)) p = _
    rw [h2]
    simp only [Bool.not_true, Bool.false_eq_true, if_false, E.bind, E.pure, nextE, if_neg (show ¬ p + 1 ≥ intMax by omega), List.nil_append]
  show (E.bind (commentLoopE U (f + 1) false) (fun fuzzy => E.bind (lineE U) (fun l =>
    E.bind (if !emptyLine ct l then entryBodyE ct (f + 1) U b fuzzy else E.pure ()) (fun _ => finishE ct (f + 1) U)))) p = _
  simp only [E.bind, hc, lineE, h2, Bool.not_true, Bool.false_eq_true, if_false, E.pure, hfin, List.nil_append]

/-- Everything before the wall amounts to some events, whatever comes after it; then the main loop goes on behind the wall. -/
theorem main_wall (hf : 0 < fuel) (hw : w + 2 < intMax)
    (hT : Wall ct T T w)
    (hstep : ∀ b p, p ≤ w → (∃ v q, entryE ct fuel T b p = (v, .ok () q) ∧ p < q) ∨ (∃ v q, entryE ct fuel T b p = (v, .err q) ∧ p < q)) :
    ∀ (n f : Nat) (b : Bool) (p : Nat), w + 2 - p ≤ n → p ≤ w + 1 → n ≤ f → ∃ v k, k ≤ n ∧ ∀ T', Wall ct T T' w →
      mainLoopE ct fuel T' f b p
        = (v ++ (mainLoopE ct fuel T' (f - k) (big5After ct b v) (w + 2)).1, (mainLoopE ct fuel T' (f - k) (big5After ct b v) (w + 2)).2) := by
  intro n
  induction n with
  | zero => intro f b p h1 h2; omega
  | succ n ih =>
    intro f b p h1 h2 h3
    obtain ⟨f, rfl⟩ : ∃ g, f = g + 1 := ⟨f - 1, by omega⟩
    rcases Nat.lt_or_ge w p with hp | hp
    · have hp : p = w + 1 := by omega
      subst hp
      refine ⟨[], 1, by omega, fun T' hT' => ?_⟩
      have e := entry_blank (b := b) (U := T') (p := w + 1) (ct := ct) (by rw [← hT'.line _ (Nat.le_refl _)]; exact hT'.blank1) hf (by omega)
      have hb : big5After ct b [] = b := by simp [big5After]
      conv => lhs; unfold mainLoopE
      rw [hT'.eof' _ (Nat.le_refl _), e]
      simp only [Bool.not_false, if_true, List.nil_append, hb, Nat.add_sub_cancel]
    · have key : ∀ v r q, entryE ct fuel T b p = (v, r) → (r = .ok () q ∨ r = .err q) → p < q → q ≤ w + 1 →
          ∃ v k, k ≤ n + 1 ∧ ∀ T', Wall ct T T' w →
            mainLoopE ct fuel T' (f + 1) b p
              = (v ++ (mainLoopE ct fuel T' (f + 1 - k) (big5After ct b v) (w + 2)).1, (mainLoopE ct fuel T' (f + 1 - k) (big5After ct b v) (w + 2)).2) := by
        intro v r q he hr hlt hle
        obtain ⟨v2, k, hk, h⟩ := ih f (big5After ct b v) q (by omega) hle (by omega)
        refine ⟨v ++ v2, k + 1, by omega, fun T' hT' => ?_⟩
        have hb : big5After ct b (v ++ v2) = big5After ct (big5After ct b v) v2 := by
          simp [big5After, Bool.or_assoc]
        have hk' : f + 1 - (k + 1) = f - k := by omega
        rw [hb, hk', List.append_assoc]
        have he' : entryE ct fuel T' b p = (v, r) := by rw [← (loc_entry hT' hp).eq]; exact he
        have hh := h T' hT'
        conv => lhs; unfold mainLoopE
        rw [hT'.eof' _ (by omega), he']
        rcases hr with rfl | rfl
        · simp only [Bool.not_false, if_true]
          rw [hh]
        · simp only [Bool.not_false, if_true]
          rw [hh]
      rcases hstep b p hp with ⟨v, q, he, hlt⟩ | ⟨v, q, he, hlt⟩
      · exact key v _ q he (.inl rfl) hlt ((loc_entry hT hp).ok () q (by rw [he]))
      · exact key v _ q he (.inr rfl) hlt ((loc_entry hT hp).err q (by rw [he]))

end Tgt.POParser
