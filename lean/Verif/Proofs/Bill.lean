import Verif.Proofs.Post
import Verif.Spec.Size
/-
How much the events of a parse can add to the dictionary and to the log, against the bytes of the lines they come from.
-/
namespace Tgt.POParser
open Spec

/-- Bytes of plural strings collected, size added to the dictionary (conversions not counted), messages logged; upper bounds. -/
structure Bill where
  pend : Nat
  size : Nat
  msgs : Nat

def optLen : Option Str → Nat
  | none => 0
  | some c => c.length

/-- What an event adds. -/
def Bill.add (B : Bill) : Ev → Bill
  | .diag _ _ _ _ => { B with msgs := B.msgs + 1 }
  | .clear => { B with pend := 0 }
  | .conv _ t => { B with pend := B.pend + t.length, msgs := B.msgs + 1 }
  | .plural _ _ c i _ => { B with size := B.size + 12 + optLen c + i.length + B.pend, msgs := B.msgs + 2 }
  | .singular _ c i t => { B with size := B.size + 3 + optLen c + i.length + t.length, msgs := B.msgs + 2 }
  | .header _ t => { B with msgs := B.msgs + 1 + t.length / 14 }

/-- What events add. -/
def Bill.adds (B : Bill) : List Ev → Bill
  | [] => B
  | e :: w => (B.add e).adds w

theorem Bill.adds_append (w w' : List Ev) : ∀ B : Bill, B.adds (w ++ w') = (B.adds w).adds w' := by
  induction w with
  | nil => intro B; rfl
  | cons e w ih => intro B; exact ih _

theorem Bill.add_le (B : Bill) (e : Ev) : B.size ≤ (B.add e).size ∧ B.msgs ≤ (B.add e).msgs := by
  cases e <;> simp only [Bill.add] <;> omega

theorem Bill.adds_le (w : List Ev) : ∀ B : Bill, B.size ≤ (B.adds w).size ∧ B.msgs ≤ (B.adds w).msgs := by
  induction w with
  | nil => intro B; exact ⟨Nat.le_refl _, Nat.le_refl _⟩
  | cons e w ih =>
    intro B
    have h1 := B.add_le e; have h2 := ih (B.add e)
    exact ⟨Nat.le_trans h1.1 h2.1, Nat.le_trans h1.2 h2.2⟩

/-- Started at `p` with bill `B`: the bill when the code ends. -/
def Wc {α : Type} (e : E α) (Q : α → Nat → Bill → Prop) (Z : Nat → Bill → Prop) (p : Nat) (B : Bill) : Prop :=
  match e p with
  | (w, .ok a q) => Q a q (B.adds w)
  | (w, .err q) => Z q (B.adds w)
  | (w, .overflow) => ∃ q, Z q (B.adds w)
  | (w, .diverge) => ∃ q, Z q (B.adds w)

section
variable {α β : Type} {Q : α → Nat → Bill → Prop} {Q' : β → Nat → Bill → Prop} {Z : Nat → Bill → Prop} {p : Nat} {B : Bill}

theorem wc_pure {a : α} (h : Q a p B) : Wc (E.pure a) Q Z p B := h

theorem wc_bind {e : E α} {f : α → E β} (h : Wc e (fun a q B => Wc (f a) Q' Z q B) Z p B) : Wc (e >>= f) Q' Z p B := by
  unfold Wc at h
  unfold Wc
  rw [e_bind]; unfold E.bind
  rcases hx : e p with ⟨w, r⟩
  rw [hx] at h
  cases r with
  | ok a q =>
    dsimp only at h ⊢
    rcases hy : f a q with ⟨w', r'⟩
    rw [hy] at h
    cases r' <;> (dsimp only at h ⊢; rw [Bill.adds_append]; exact h)
  | err q => exact h
  | overflow => exact h
  | diverge => exact h

theorem wc_mono {e : E α} {Q1 : α → Nat → Bill → Prop} (h : Wc e Q1 Z p B) (hQ : ∀ a q B, Q1 a q B → Q a q B) : Wc e Q Z p B := by
  unfold Wc at h ⊢
  rcases hx : e p with ⟨w, r⟩
  rw [hx] at h
  cases r with
  | ok a q => exact hQ _ _ _ h
  | err q => exact h
  | overflow => exact h
  | diverge => exact h

theorem wc_ite {e1 e2 : E α} (c : Prop) [Decidable c] (h1 : c → Wc e1 Q Z p B) (h2 : ¬ c → Wc e2 Q Z p B) :
    Wc (if c then e1 else e2) Q Z p B := by
  split
  · exact h1 (by assumption)
  · exact h2 (by assumption)

theorem wc_line {T : Tape} {f : Str → E α} (h : Wc (f (T p).line) Q Z p B) : Wc (lineE T >>= f) Q Z p B := h
theorem wc_eof {T : Tape} {f : Bool → E α} (h : Wc (f (T p).eof) Q Z p B) : Wc (eofE T >>= f) Q Z p B := h
theorem wc_warn {m : Str} {b : Bool} {Q : Unit → Nat → Bill → Prop} (h : Q () p { B with msgs := B.msgs + 1 }) : Wc (warnE m b) Q Z p B := h
theorem wc_emit {l : List Ev} {Q : Unit → Nat → Bill → Prop} (h : Q () p (B.adds l)) : Wc (E.emit l) Q Z p B := h
theorem wc_emitAt {l : Nat → List Ev} {Q : Unit → Nat → Bill → Prop} (h : Q () p (B.adds (l p))) : Wc (E.emitAt l) Q Z p B := h
theorem wc_throw (h : Z p B) : Wc (E.throw : E α) Q Z p B := h
theorem wc_diverge (h : Z p B) : Wc (E.diverge : E α) Q Z p B := ⟨p, h⟩
theorem wc_next {Q : Unit → Nat → Bill → Prop} (h : Q () (p + 1) B) (hz : Z (p + 1) B) : Wc nextE Q Z p B := by
  unfold Wc nextE
  split
  · rename_i h1; split at h1 <;> cases h1; exact h
  · rename_i h1; split at h1 <;> cases h1
  · rename_i h1; split at h1 <;> cases h1; exact ⟨p + 1, hz⟩
  · rename_i h1; split at h1 <;> cases h1
end

/-- The bytes of the lines before line `p`. -/
def bytesTo (T : Tape) : Nat → Nat
  | 0 => 0
  | p + 1 => bytesTo T p + (T p).line.length

theorem bytesTo_succ (T : Tape) (p : Nat) : bytesTo T (p + 1) = bytesTo T p + (T p).line.length := rfl

/-- The lines before `p` pay for everything. -/
def Paid (T : Tape) (q : Nat) (B : Bill) : Prop := B.size ≤ bytesTo T q ∧ B.msgs ≤ bytesTo T q

section
variable {α β : Type} {ct : CType} {fuel : Nat} {T : Tape} {b : Bool}

theorem wc_recover : ∀ (f p : Nat) (B : Bill), Paid T (p + 1) B → Wc (recoverE ct T f) (fun _ => Paid T) (Paid T) p B := by
  intro f
  induction f with
  | zero => intro p B h; exact ⟨p + 1, h⟩
  | succ f ih =>
    intro p B h
    unfold recoverE
    refine wc_bind (wc_next (wc_line (wc_eof (wc_ite _ (fun _ => ih _ _ ?_) (fun _ => wc_pure h)))) h)
    have := bytesTo_succ T (p + 1)
    exact ⟨by have := h.1; omega, by have := h.2; omega⟩

theorem wc_error {Q : α → Nat → Bill → Prop} (m : Str) (p : Nat) (B : Bill) (h1 : B.size ≤ bytesTo T (p + 1)) (h2 : B.msgs + 1 ≤ bytesTo T (p + 1)) :
    Wc (errorE (α := α) ct fuel T m) Q (Paid T) p B := by
  unfold errorE
  exact wc_bind (wc_emitAt (wc_bind (wc_mono (wc_recover fuel p _ ⟨h1, h2⟩) (fun _ _ _ h => wc_throw h))))

/-! ### Strings -/

theorem push_ok {w : Str} {r : Lex} {t rest : Str} (h : (r.push w).res = .ok (t, rest)) : ∃ t', r.res = .ok (t', rest) ∧ t = w ++ t' := by
  unfold Lex.push at h
  cases hr : r.res with
  | error m => rw [hr] at h; cases h
  | ok x =>
    rw [hr] at h
    obtain ⟨a, b⟩ := x
    injection h with h
    injection h with h1 h2
    exact ⟨a, by rw [h2], h1.symm⟩

theorem lex_len (b : Bool) : ∀ (n : Nat) (s : Str), s.length ≤ n → 2 * (lex b s).unknown.length ≤ s.length ∧
    ∀ t rest, (lex b s).res = .ok (t, rest) → t.length + 1 + rest.length ≤ s.length ∧ 2 * (lex b s).unknown.length ≤ t.length := by
  intro n
  induction n with
  | zero =>
    intro s hs
    have : s = [] := List.length_eq_zero_iff.1 (by omega)
    subst this
    exact ⟨Nat.le_refl _, fun t rest h => (by cases h)⟩
  | succ n ih =>
    intro s hs
    unfold lex
    split
    · exact ⟨by simp, fun t rest h => by cases h⟩
    · refine ⟨by simp, fun t rest h => ?_⟩
      injection h with h; injection h with h1 h2
      subst h1; subst h2
      simp only [List.length_cons, List.length_nil]; omega
    · refine ⟨?_, fun t rest h => ?_⟩
      · split
        · simp
        · split <;> simp
      · split at h
        · cases h
        · split at h <;> cases h
    · rename_i ch e t _
      have h1 := ih t (by simp only [List.length_cons] at hs; omega)
      have h2 := ih (e :: t) (by simp only [List.length_cons] at hs ⊢; omega)
      split
      · refine ⟨by show 2 * (lex b t).unknown.length ≤ _; simp only [List.length_cons]; omega, fun t' rest h => ?_⟩
        obtain ⟨t1, h3, rfl⟩ := push_ok h
        have := h1.2 _ _ h3
        show _ ∧ 2 * (lex b t).unknown.length ≤ _
        simp only [List.length_cons, List.length_append, List.length_nil] at this ⊢; omega
      · split
        · split
          · refine ⟨by show 2 * (lex b t).unknown.length ≤ _; simp only [List.length_cons]; omega, fun t' rest h => ?_⟩
            obtain ⟨t1, h3, rfl⟩ := push_ok h
            have := h1.2 _ _ h3
            show _ ∧ 2 * (lex b t).unknown.length ≤ _
            simp only [List.length_cons, List.length_append, List.length_nil] at this ⊢; omega
          · refine ⟨by simp only [List.length_cons]; omega, fun t' rest h => ?_⟩
            obtain ⟨t1, h3, rfl⟩ := push_ok h
            have := h1.2 _ _ h3
            simp only [List.length_cons, List.length_append, List.length_nil] at this ⊢; omega
        · refine ⟨by show 2 * (lex b (e :: t)).unknown.length ≤ _; simp only [List.length_cons] at h2 ⊢; omega, fun t' rest h => ?_⟩
          obtain ⟨t1, h3, rfl⟩ := push_ok h
          have := h2.2 _ _ h3
          show _ ∧ 2 * (lex b (e :: t)).unknown.length ≤ _
          simp only [List.length_cons, List.length_append, List.length_nil] at this ⊢; omega

theorem adds_unknown (u : List Byte) (p : Nat) : ∀ B : Bill, B.adds (u.map (fun e => Ev.diag .warning p (unknownMsg e) false))
    = { B with msgs := B.msgs + u.length } := by
  induction u with
  | nil => intro B; rfl
  | cons a u ih =>
    intro B
    show (B.add _).adds _ = _
    rw [ih]
    simp only [Bill.add, List.length_cons]
    congr 1
    omega

theorem lt_of_get {l : Str} {i : Nat} {x : Byte} (h : l[i]? = some x) : i < l.length := by
  rcases Nat.lt_or_ge i l.length with h1 | h1
  · exact h1
  · rw [List.getElem?_eq_none h1] at h; cases h

theorem wc_getStringLine {Q : Str → Nat → Bill → Prop} (out : Str) (skip p : Nat) (B : Bill) (hs : B.size ≤ bytesTo T p)
    (hk : skip < (T p).line.length) (hm : B.msgs ≤ bytesTo T p + skip)
    (hQ : ∀ (t : Str) (m : Nat), 2 * m + t.length + 2 * skip + 2 ≤ 2 * B.msgs + 2 * (T p).line.length →
      t.length + skip + 2 ≤ (T p).line.length → Q (out ++ t) p { B with msgs := m }) :
    Wc (getStringLineE ct fuel T b out skip) Q (Paid T) p B := by
  have hb := bytesTo_succ T p
  unfold getStringLineE
  refine wc_line (wc_ite _ (fun _ => wc_error _ p B (by omega) (by omega)) (fun _ => wc_ite _ (fun _ => wc_error _ p B (by omega) (by omega)) (fun _ => ?_)))
  have hl := lex_len b _ ((T p).line.drop (skip + 1)) (Nat.le_refl _)
  have hd : ((T p).line.drop (skip + 1)).length = (T p).line.length - (skip + 1) := List.length_drop
  dsimp only
  refine wc_bind (wc_emitAt ?_)
  rw [adds_unknown]
  cases hr : (lex b ((T p).line.drop (skip + 1))).res with
  | error m =>
    have := hl.1
    exact wc_error _ p _ (by show B.size ≤ _; omega) (by show B.msgs + _ + 1 ≤ _; omega)
  | ok x =>
    obtain ⟨t, rest⟩ := x
    have h2 := hl.2 _ _ hr
    dsimp only
    refine wc_ite _ (fun ha => wc_bind (wc_warn (wc_pure (hQ t (B.msgs + _ + 1) ?_ ?_)))) (fun _ => wc_pure (hQ t _ ?_ ?_)) <;> omega

theorem scanQuote_get {ct : CType} : ∀ {l : Str} {i j : Nat}, scanQuote ct l i = some j → i ≤ j ∧ j - i < l.length := by
  intro l
  induction l with
  | nil => intro i j h; cases h
  | cons x l ih =>
    intro i j h
    unfold scanQuote at h
    split at h
    · cases h; simp
    · split at h
      · have := ih h
        simp only [List.length_cons]; omega
      · cases h

theorem wc_contLoop {Q : Str → Nat → Bill → Prop} {K K' : Nat} : ∀ (f : Nat) (out : Str) (p : Nat) (B : Bill), B.size ≤ bytesTo T (p + 1) →
    B.msgs ≤ bytesTo T (p + 1) → 2 * B.msgs + out.length + K ≤ 2 * bytesTo T (p + 1) → out.length + K' ≤ bytesTo T (p + 1) →
    (∀ (s : Str) (q m : Nat), p < q → m ≤ bytesTo T q → 2 * m + s.length + K ≤ 2 * bytesTo T q → s.length + K' ≤ bytesTo T q → Q s q { B with msgs := m }) →
    Wc (contLoopE ct fuel T b f out) Q (Paid T) p B := by
  intro f
  induction f with
  | zero => intro out p B h1 h2 _ _ _; exact ⟨p + 1, h1, h2⟩
  | succ f ih =>
    intro out p B h1 h2 h3 h4 hQ
    have hb := bytesTo_succ T (p + 1)
    unfold contLoopE
    refine wc_bind (wc_next (wc_line ?_) ⟨h1, h2⟩)
    cases hq : scanQuote ct (T (p + 1)).line 0 with
    | none => exact wc_pure (hQ out (p + 1) B.msgs (by omega) h2 h3 h4)
    | some i =>
      have hi := scanQuote_get hq
      dsimp only
      have hgo : ∀ m, m ≤ B.msgs + i → m ≤ B.msgs + 1 → Wc (getStringLineE ct fuel T b out i >>= fun out => contLoopE ct fuel T b f out) Q (Paid T) (p + 1) { B with msgs := m } := by
        intro m hm hm1
        refine wc_bind (wc_getStringLine out i (p + 1) _ (by show B.size ≤ _; omega) (by omega) (by show m ≤ _; omega) (fun t m' h5 h6 => ?_))
        dsimp only at h5
        have hl : (out ++ t).length = out.length + t.length := List.length_append
        exact ih (out ++ t) (p + 1) _ (by show B.size ≤ _; omega) (by show m' ≤ _; omega) (by show 2 * m' + _ + _ ≤ _; omega) (by omega)
          (fun s q m'' h7 h8 h9 h10 => hQ s q m'' (by omega) h8 h9 h10)
      refine wc_bind (wc_ite _ (fun h => wc_warn (hgo _ (by omega) (by omega))) (fun _ => wc_pure (hgo B.msgs (by omega) (by omega))))

theorem wc_getString {Q : Str → Nat → Bill → Prop} (skip p : Nat) (B : Bill) (hs : B.size ≤ bytesTo T p) (hm : B.msgs ≤ bytesTo T p)
    (hn : 0 < (T p).line.length) (hk : 0 < skip)
    (hQ : ∀ (t : Str) (q m : Nat), p < q → 2 * m + t.length + 2 * skip + 2 * bytesTo T p ≤ 2 * B.msgs + 2 * bytesTo T q →
      t.length + skip + 2 + bytesTo T p ≤ bytesTo T q → Q t q { B with msgs := m }) :
    Wc (getStringE ct fuel T b skip) Q (Paid T) p B := by
  have hb := bytesTo_succ T p
  have hu : u32 (T p).line.length ≤ (T p).line.length := Nat.mod_le _ _
  unfold getStringE
  refine wc_line (wc_ite _ (fun _ => wc_error _ p B (by omega) (by omega)) (fun hl => ?_))
  have hrest : ∀ (i m : Nat), skip ≤ i → i < (T p).line.length → m ≤ B.msgs + 1 → (m = B.msgs ∨ skip ≤ i) →
      (m = B.msgs + 1 → True) →
      Wc (getStringLineE ct fuel T b [] i) (fun s => Wc (contLoopE ct fuel T b fuel s) Q (Paid T)) (Paid T) p { B with msgs := m } := by
    intro i m h1 h2 h3 _ _
    refine wc_getStringLine [] i p _ hs h2 (by show m ≤ _; omega) (fun t m' h5 h6 => ?_)
    dsimp only at h5
    rw [List.nil_append]
    have h7 : 2 * m' + t.length + 2 * skip ≤ 2 * B.msgs + 2 * (T p).line.length := by omega
    refine wc_contLoop (K := 2 * skip + 2 * bytesTo T p - 2 * B.msgs) (K' := skip + 2 + bytesTo T p) fuel t p _ (by show B.size ≤ _; omega)
      (by show m' ≤ _; omega) (by show 2 * m' + _ + _ ≤ _; omega) (by omega) (fun s q m'' h8 h9 h10 h11 => hQ s q m'' h8 (by omega) (by omega))
  refine wc_bind (wc_ite _ (fun h => hrest (skip + 1) B.msgs (by omega) (lt_of_get h.2) (by omega) (.inl rfl) (fun _ => trivial)) (fun _ => wc_bind (wc_warn ?_)))
  cases hx : skipTo ct (((T p).line.take (u32 (T p).line.length)).drop skip) skip with
  | error m => exact wc_error _ p _ (by show B.size ≤ _; omega) (by show B.msgs + 1 + 1 ≤ _; omega)
  | ok i =>
    obtain ⟨ws, t, _, h2, h3⟩ := skipTo_ok hx
    have h4 := congrArg List.length h2
    rw [List.length_drop, List.length_take, List.length_append, List.length_cons] at h4
    exact hrest i _ (by omega) (by omega) (by omega) (.inr (by omega)) (fun _ => trivial)

theorem wc_commentLoop {Q : Bool → Nat → Bill → Prop} {B : Bill} : ∀ (f : Nat) (fz : Bool) (p : Nat), Paid T p B →
    (∀ s q, p ≤ q → bytesTo T p ≤ bytesTo T q → Q s q B) → Wc (commentLoopE T f fz) Q (Paid T) p B := by
  intro f
  induction f with
  | zero => intro fz p h hQ; exact ⟨p, h⟩
  | succ f ih =>
    intro fz p h hQ
    have hb := bytesTo_succ T p
    have hp : Paid T (p + 1) B := ⟨by have := h.1; omega, by have := h.2; omega⟩
    unfold commentLoopE
    refine wc_line (wc_ite _ (fun _ => wc_bind (wc_next (ih _ (p + 1) hp (fun s q h1 h2 => hQ s q (by omega) (by omega))) hp))
      (fun _ => wc_pure (hQ _ _ (Nat.le_refl _) (Nat.le_refl _))))

theorem pos_of_prefix {k l : Str} (h : hasPrefix k l = true) (hk : 0 < k.length) : 0 < l.length := by
  obtain ⟨t, ht⟩ := List.isPrefixOf_iff_prefix.1 h
  rw [← ht, List.length_append]; omega

theorem pos_of_nonempty {ct : CType} {l : Str} (h : ¬ emptyLine ct l = true) : 0 < l.length := by
  cases l with
  | nil => exact absurd rfl h
  | cons a l => simp

theorem wc_pluralLoop {Q : Bool → Nat → Bill → Prop} {K : Nat} : ∀ (f : Nat) (first saw : Bool) (p : Nat) (B : Bill),
    B.size + K + B.pend ≤ bytesTo T p → B.msgs + 3 ≤ bytesTo T p →
    (∀ s q (k m : Nat), p ≤ q → B.size + K + k ≤ bytesTo T q → m + 3 ≤ bytesTo T q → Q s q ⟨k, B.size, m⟩) →
    Wc (pluralLoopE ct fuel T b f first saw) Q (Paid T) p B := by
  intro f
  induction f with
  | zero => intro first saw p B h1 h2 _; exact ⟨p, (by show B.size ≤ _; omega), (by show B.msgs ≤ _; omega)⟩
  | succ f ih =>
    intro first saw p B h1 h2 hQ
    have hb := bytesTo_succ T p
    unfold pluralLoopE
    refine wc_line (wc_ite _ (fun _ => wc_ite _ (fun _ => wc_error _ p B (by omega) (by omega)) (fun _ => wc_pure (hQ _ _ B.pend B.msgs (Nat.le_refl _) h1 h2)))
      (fun he => ?_))
    cases hi : msgstrIndex (T p).line with
    | none => exact wc_error _ p B (by omega) (by omega)
    | some n =>
      dsimp only
      refine wc_bind (wc_getString 9 p B (by omega) (by omega) (pos_of_nonempty he) (by omega) (fun t q m h3 h4 h5 => wc_bind (wc_emit ?_)))
      show Wc _ Q (Paid T) q ⟨B.pend + t.length, B.size, m + 1⟩
      exact ih _ _ q _ (by show B.size + K + (B.pend + t.length) ≤ _; omega) (by show m + 1 + 3 ≤ _; omega)
        (fun s q' k m' h6 h7 h8 => hQ s q' k m' (by omega) h7 h8)

theorem wc_finish (p : Nat) (B : Bill) (h : Paid T p B) : Wc (finishE ct fuel T) (fun _ => Paid T) (Paid T) p B := by
  have hb := bytesTo_succ T p
  have h1 := h.1; have h2 := h.2
  unfold finishE
  refine wc_line (wc_bind (wc_ite _ (fun he => wc_error _ p B (by omega) ?_)
    (fun _ => wc_pure (wc_next ⟨by omega, by omega⟩ ⟨by omega, by omega⟩))))
  have := pos_of_nonempty (ct := ct) (l := (T p).line) (by simpa using he)
  omega

theorem wc_entry (p : Nat) (B : Bill) (h : Paid T p B) : Wc (entryE ct fuel T b) (fun _ => Paid T) (Paid T) p B := by
  unfold entryE
  refine wc_bind (wc_commentLoop fuel false p h (fun fz q0 _ hq0 => wc_line ?_))
  have h1 := h.1; have h2 := h.2
  refine wc_bind (wc_ite _ (fun he => ?_) (fun _ => wc_pure (wc_finish q0 B ⟨by omega, by omega⟩)))
  have hne := pos_of_nonempty (ct := ct) (l := (T q0).line) (by simpa using he)
  have hb := bytesTo_succ T q0
  unfold entryBodyE
  -- the context
  have hctxt : Wc (ctxtE ct fuel T b) (fun c q B' => bytesTo T q0 + optLen c ≤ bytesTo T q ∧ B'.size = B.size ∧ B'.msgs ≤ bytesTo T q ∧
      B'.msgs + 1 ≤ bytesTo T (q + 1)) (Paid T) q0 B := by
    unfold ctxtE
    refine wc_line (wc_ite _ (fun hp => wc_bind (wc_getString 7 q0 B (by omega) (by omega) hne (by omega) (fun t q m h3 h4 h5 => wc_pure ?_)))
      (fun _ => wc_pure ⟨by simp [optLen], rfl, by omega, by omega⟩))
    have hb := bytesTo_succ T q
    refine ⟨?_, rfl, ?_, ?_⟩
    · show _ + t.length ≤ _; omega
    · show m ≤ _; omega
    · show m + 1 ≤ _; omega
  refine wc_bind (wc_mono hctxt (fun ctxt q1 B1 hq1 => ?_))
  obtain ⟨h3, h4, h5, h6⟩ := hq1
  have hb1 := bytesTo_succ T q1
  -- the message
  have hid : Wc (msgidE ct fuel T b) (fun i q B' => bytesTo T q1 + 7 + i.length ≤ bytesTo T q ∧ B'.size = B.size ∧ B'.msgs + 5 ≤ bytesTo T q)
      (Paid T) q1 B1 := by
    unfold msgidE
    refine wc_line (wc_ite _ (fun hp => wc_getString 5 q1 B1 (by omega) (by omega) (pos_of_prefix hp (by decide)) (by omega) (fun t q m h7 h8 h9 => ?_))
      (fun _ => wc_error _ q1 B1 (by omega) (by omega)))
    exact ⟨by omega, h4, by show m + 5 ≤ _; omega⟩
  refine wc_bind (wc_mono hid (fun id q2 B2 hq2 => ?_))
  obtain ⟨h7, h8, h9⟩ := hq2
  have hb2 := bytesTo_succ T q2
  refine wc_line (wc_ite _ (fun hp => ?_) (fun _ => wc_line (wc_ite _ (fun hp => ?_) (fun _ => wc_error _ q2 B2 (by omega) (by omega)))))
  · unfold pluralEntryE
    refine wc_bind (wc_getString 12 q2 B2 (by omega) (by omega) (pos_of_prefix hp (by decide)) (by omega) (fun idp q3 m h10 h11 h12 => wc_bind (wc_emit ?_)))
    show Wc _ _ (Paid T) q3 ⟨0, B2.size, m⟩
    refine wc_bind (wc_pluralLoop (K := 12 + optLen ctxt + id.length) fuel true false q3 _ (by show B2.size + _ + 0 ≤ _; omega) (by show m + 3 ≤ _; omega)
      (fun saw q4 k m' h13 h14 h15 => wc_line ?_))
    dsimp only at h14
    have hb4 := bytesTo_succ T q4
    refine wc_ite _ (fun _ => wc_error _ q4 _ (by show B2.size ≤ _; omega) (by show m' + 1 ≤ _; omega))
      (fun _ => wc_ite _ (fun _ => wc_emitAt (wc_finish q4 _ ?_)) (fun _ => wc_pure (wc_finish q4 _ ?_)))
    · refine ⟨?_, ?_⟩
      · show B2.size + 12 + optLen ctxt + id.length + k ≤ _; omega
      · show m' + 2 ≤ _; omega
    · refine ⟨?_, ?_⟩
      · show B2.size ≤ _; omega
      · show m' ≤ _; omega
  · unfold singularEntryE
    refine wc_bind (wc_getString 6 q2 B2 (by omega) (by omega) (pos_of_prefix hp (by decide)) (by omega) (fun t q3 m h10 h11 h12 => ?_))
    refine wc_ite _ (fun _ => wc_emitAt (wc_finish q3 _ ?_)) (fun _ => wc_ite _ (fun _ => wc_emit (wc_finish q3 _ ?_)) (fun _ => wc_pure (wc_finish q3 _ ?_)))
    · refine ⟨?_, ?_⟩
      · show B2.size ≤ _; omega
      · show m + 1 + t.length / 14 ≤ _; omega
    · refine ⟨?_, ?_⟩
      · show B2.size + 3 + optLen ctxt + id.length + t.length ≤ _; omega
      · show m + 2 ≤ _; omega
    · refine ⟨?_, ?_⟩
      · show B2.size ≤ _; omega
      · show m ≤ _; omega

/-- The lines pay for all events of a parse; those read, if it comes to the end. -/
theorem wc_mainLoop : ∀ (f : Nat) (b : Bool) (p : Nat) (B : Bill), Paid T p B → Wc (mainLoopE ct fuel T f b) (fun _ => Paid T) (Paid T) p B := by
  intro f
  induction f with
  | zero => intro b p B h; exact ⟨p, h⟩
  | succ f ih =>
    intro b p B h
    unfold Wc mainLoopE
    by_cases he : (T p).eof = true
    · rw [he]; exact h
    · have he' : (T p).eof = false := by simpa using he
      rw [he']
      simp only [Bool.not_false, if_true]
      have hen := wc_entry (ct := ct) (fuel := fuel) (b := b) p B h
      unfold Wc at hen
      rcases hx : entryE ct fuel T b p with ⟨w, res⟩
      rw [hx] at hen
      cases res with
      | ok a q =>
        dsimp only at hen ⊢
        have := ih (big5After ct b w) q _ hen
        unfold Wc at this
        rcases hy : mainLoopE ct fuel T f (big5After ct b w) q with ⟨w', r'⟩
        rw [hy] at this
        cases r' <;> (dsimp only at this ⊢; rw [Bill.adds_append]; exact this)
      | err q =>
        dsimp only at hen ⊢
        have := ih (big5After ct b w) q _ hen
        unfold Wc at this
        rcases hy : mainLoopE ct fuel T f (big5After ct b w) q with ⟨w', r'⟩
        rw [hy] at this
        cases r' <;> (dsimp only at this ⊢; rw [Bill.adds_append]; exact this)
      | overflow => exact hen
      | diverge => exact hen

theorem wc_any {e : E α} {p : Nat} {B : Bill} (h : Wc e (fun _ => Paid T) (Paid T) p B) : ∃ q, Paid T q (B.adds (e p).1) := by
  unfold Wc at h
  rcases hx : e p with ⟨w, r⟩
  rw [hx] at h
  cases r with
  | ok a q => exact ⟨q, h⟩
  | err q => exact ⟨q, h⟩
  | overflow => exact h
  | diverge => exact h
end
end Tgt.POParser
