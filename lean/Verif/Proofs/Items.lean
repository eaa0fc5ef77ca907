import Verif.Spec.PoItems
import Verif.Proofs.Post
import Verif.Proofs.Grammar3
import Verif.Proofs.EvsAll
/-
What the parser reads in an arbitrary text.
-/
namespace Tgt.POParser
open Spec Spec.Po

/-! ### Lines -/

theorem at_block {T : Tape} {L : Nat → Str} (hL : ∀ p, (T p).line = L p) {p : Nat} {ls : List Str} (h : At T p ls) :
    block L p ls.length = ls := by
  induction ls generalizing p with
  | nil => rfl
  | cons l ls ih =>
    obtain ⟨h1, h2⟩ := h
    have := ih h2
    unfold block at this ⊢
    rw [List.length_cons, List.range_succ_eq_map, List.map_cons, List.map_map, ← h1, hL]
    congr 1
    conv => rhs; rw [← this]
    refine List.map_congr_left (fun i _ => ?_)
    show L (p + (i + 1)) = L (p + 1 + i)
    congr 1; omega

section
variable {ct : CType} {fuel : Nat} {T : Tape} {b : Bool}

theorem rdLine_quoted {l t : Str} {skip : Nat} (h : rdLine b l skip = some t) : Quoted ct b false (l.drop skip) t := by
  unfold rdLine at h
  split at h
  · cases h
  · split at h
    · cases h
    · rename_i _ h34
      have h34 : l[skip]? = some 34 := by simpa using h34
      split at h
      · cases h
      · rename_i t' rest hx
        cases h
        obtain ⟨body, h1, h2⟩ := lit_lex b _ _ _ _ (Nat.le_refl _) hx
        have hlt : skip < l.length := by
          rw [List.getElem?_eq_some_iff] at h34; exact h34.1
        have h3 : l.drop skip = 34 :: l.drop (skip + 1) := by
          rw [List.drop_eq_getElem_cons hlt]
          rw [List.getElem?_eq_some_iff] at h34
          rw [h34.2]
        rw [h3, h1]
        exact .mk h2 (fun h => by cases h)

theorem scan_some {l : Str} {n i : Nat} (h : scanQuote ct l n = some i) : n ≤ i ∧ Blank ct (l.take (i - n)) := by
  induction l generalizing n with
  | nil => cases h
  | cons x l ih =>
    unfold scanQuote at h
    split at h
    · cases h; exact ⟨Nat.le_refl _, by simp [Blank]⟩
    · split at h
      · rename_i hs
        obtain ⟨h1, h2⟩ := ih h
        refine ⟨by omega, ?_⟩
        have : i - n = (i - (n + 1)) + 1 := by omega
        rw [this, List.take_succ_cons]
        intro y hy
        rcases List.mem_cons.1 hy with rfl | hy
        · exact hs
        · exact h2 y hy
      · cases h

theorem skip_some {l : Str} {n i : Nat} (h : skipTo ct l n = .ok i) : n ≤ i ∧ Blank ct (l.take (i - n)) := by
  induction l generalizing n with
  | nil => cases h
  | cons x l ih =>
    unfold skipTo at h
    split at h
    · cases h; exact ⟨Nat.le_refl _, by simp [Blank]⟩
    · split at h
      · cases h
      · rename_i hs
        obtain ⟨h1, h2⟩ := ih h
        refine ⟨by omega, ?_⟩
        have : i - n = (i - (n + 1)) + 1 := by omega
        rw [this, List.take_succ_cons]
        intro y hy
        rcases List.mem_cons.1 hy with rfl | hy
        · simpa using hs
        · exact h2 y hy

theorem hasPrefix_split {w l : Str} (h : hasPrefix w l = true) : l = w ++ l.drop w.length := by
  have : w <+: l := by simpa [hasPrefix] using h
  obtain ⟨t, rfl⟩ := this
  simp

/-- What is read after a keyword. -/
theorem rdKw_field {kw l t : Str} {skip : Nat} (hk : hasPrefix kw l = true) (hs : kw.length = skip) (h : rdKw ct b l skip = some t) :
    ∃ sep q, l = kw ++ sep ++ q ∧ Blank ct sep ∧ Quoted ct b false q t := by
  have hl := hasPrefix_split hk
  rw [hs] at hl
  have hcut : ∀ i, skip ≤ i → l = kw ++ (l.drop skip).take (i - skip) ++ l.drop i := by
    intro i hi
    have : l.drop i = (l.drop skip).drop (i - skip) := by rw [List.drop_drop]; congr 1; omega
    rw [this, List.append_assoc, List.take_append_drop]
    exact hl
  unfold rdKw at h
  split at h
  · cases h
  · split at h
    · rename_i h0
      refine ⟨_, _, hcut (skip + 1) (by omega), ?_, rdLine_quoted h⟩
      obtain ⟨h1, _⟩ := h0
      have hlt : skip < l.length := by rw [List.getElem?_eq_some_iff] at h1; exact h1.1
      have : (l.drop skip).take (skip + 1 - skip) = [32] := by
        rw [show skip + 1 - skip = 1 by omega, List.drop_eq_getElem_cons hlt]
        rw [List.getElem?_eq_some_iff] at h1
        rw [h1.2]; rfl
      rw [this]
      intro x hx
      simp only [List.mem_singleton] at hx
      subst hx
      rw [ct.isspace_ascii 32 (by decide)]; decide
    · split at h
      · cases h
      · rename_i i hi
        obtain ⟨h1, h2⟩ := skip_some hi
        refine ⟨_, _, hcut i h1, ?_, rdLine_quoted h⟩
        intro x hx
        refine h2 x ?_
        have hlt : i < u32 l.length := by
          unfold rdLine at h
          split at h
          · cases h
          · omega
        rw [List.take_drop] at hx ⊢
        rw [List.take_take]
        have : min (skip + (i - skip)) (u32 l.length) = skip + (i - skip) := by omega
        rw [this]
        exact hx

theorem rdE_ok {out t : Str} {o : Option Str} {p q : Nat} (h : (rdE ct fuel T out o p).2 = .ok t q) :
    q = p ∧ ∃ t', o = some t' ∧ t = out ++ t' := by
  cases o with
  | none =>
    have h0 : ∀ {α : Type} (m : Str) (a : α), (errorE ct fuel T m p).2 ≠ .ok a q := by
      intro α m a hx
      exact (post_error (G := fun _ => True) (R := fun _ => False) top_ok ct fuel T m (p := p)).2 a q hx
    exact absurd h (h0 _ _)
  | some t' => cases h; exact ⟨rfl, t', rfl, rfl⟩

theorem bind_ok {α β : Type} {e : E α} {f : α → E β} {p q : Nat} {a : β} (h : ((e >>= f) p).2 = .ok a q) :
    ∃ x r, (e p).2 = .ok x r ∧ (f x r).2 = .ok a q := by
  rw [e_bind] at h
  unfold E.bind at h
  rcases hx : e p with ⟨v, r⟩
  rw [hx] at h
  cases r with
  | ok x r => exact ⟨x, r, rfl, h⟩
  | err q => cases h
  | overflow => cases h
  | diverge => cases h

theorem next_ok {p q : Nat} (h : (nextE p).2 = .ok () q) : q = p + 1 := by
  unfold nextE at h
  split at h
  · cases h
  · cases h; rfl

theorem inv_contLoop : ∀ (f : Nat) (out t : Str) (p q : Nat), (contLoopE ct fuel T b f out p).2 = .ok t q →
    ∃ ls text, At T (p + 1) ls ∧ Conts ct b false ls text ∧ t = out ++ text ∧ q = p + 1 + ls.length := by
  intro f
  induction f with
  | zero => intro out t p q h; cases h
  | succ f ih =>
    intro out t p q h
    unfold contLoopE at h
    obtain ⟨_, p1, h1, h⟩ := bind_ok h
    have h1 := next_ok h1
    subst h1
    replace h : ((match scanQuote ct (T (p + 1)).line 0 with
      | some i => (if i = 1 then warnE b!"leading whitespace before string" true else E.pure ()) >>= fun _ =>
          getStringLineE ct fuel T b out i >>= fun out => contLoopE ct fuel T b f out
      | none => E.pure out : E Str) (p + 1)).2 = .ok t q := h
    cases hs : scanQuote ct (T (p + 1)).line 0 with
    | none =>
      rw [hs] at h
      cases h
      exact ⟨[], [], trivial, .nil, by simp, rfl⟩
    | some i =>
      rw [hs] at h
      dsimp only at h
      rw [(eqv_ite_warn (c := i = 1) (m := b!"leading whitespace before string") (q := true)
        (f := getStringLineE ct fuel T b out i >>= fun out => contLoopE ct fuel T b f out) (p := p + 1)).2] at h
      obtain ⟨x, r, h1, h⟩ := bind_ok h
      rw [(eqv_getStringLine (ct := ct) (fuel := fuel) (T := T) (b := b) out i (p + 1)).2] at h1
      obtain ⟨hr, t', h1', rfl⟩ := rdE_ok h1
      rw [hr] at h
      obtain ⟨ls, text, h2, h3, rfl, rfl⟩ := ih _ _ _ _ h
      refine ⟨(T (p + 1)).line :: ls, t' ++ text, ⟨rfl, h2⟩, ?_, by rw [List.append_assoc], by simp only [List.length_cons]; omega⟩
      have hc := Conts.cons (scan_some hs).2 (fun h => by cases h) (rdLine_quoted (ct := ct) h1') h3
      rw [Nat.sub_zero, List.take_append_drop] at hc
      exact hc

theorem inv_getString {kw : Str} {skip p q : Nat} {t : Str} (hk : hasPrefix kw (T p).line = true) (hs : kw.length = skip)
    (h : (getStringE ct fuel T b skip p).2 = .ok t q) :
    ∃ ls, At T p ls ∧ Field ct b false kw ls t ∧ q = p + ls.length ∧ 0 < ls.length := by
  rw [(eqv_getString (ct := ct) (fuel := fuel) (T := T) (b := b) skip p).2] at h
  obtain ⟨x, r, h0, hc⟩ := bind_ok h
  obtain ⟨hr, t', h1, rfl⟩ := rdE_ok h0
  rw [hr] at hc
  clear h h0
  obtain ⟨ls, text, h2, h3, rfl, rfl⟩ := inv_contLoop _ _ _ _ _ hc
  obtain ⟨sep, qt, h4, h5, h6⟩ := rdKw_field (ct := ct) hk hs h1
  refine ⟨(kw ++ sep ++ qt) :: ls, ⟨h4, h2⟩, ?_, by simp only [List.length_cons]; omega, by simp⟩
  exact .mk h5 (fun h => by cases h) h6 h3

theorem quiet_getString (skip p : Nat) : essence (getStringE ct fuel T b skip p).1 = [] := by
  have h : ∀ x ∈ (getStringE ct fuel T b skip p).1, Ev.isDiag x = true := nh_getString ct fuel T b skip p
  unfold essence
  rw [List.filter_eq_nil_iff.2 (fun x hx => by rw [h x hx]; simp)]
  rfl

theorem inv_commentLoop : ∀ (f : Nat) (fz fz' : Bool) (p q : Nat), (commentLoopE T f fz p).2 = .ok fz' q →
    ∃ cs, At T p cs ∧ (∀ l ∈ cs, Comment l) ∧ (fz' = true ↔ fz = true ∨ ∃ l ∈ cs, FuzzyFlag l) ∧ q = p + cs.length := by
  intro f
  induction f with
  | zero => intro fz fz' p q h; cases h
  | succ f ih =>
    intro fz fz' p q h
    unfold commentLoopE at h
    replace h : ((if hasPrefix b!"#" (T p).line = true then nextE >>= fun _ => commentLoopE T f (if fuzzyFlag (T p).line then true else fz)
      else E.pure fz : E Bool) p).2 = .ok fz' q := h
    by_cases hh : hasPrefix b!"#" (T p).line = true
    · rw [if_pos hh] at h
      obtain ⟨_, r, h1, h⟩ := bind_ok h
      have h1 := next_ok h1
      subst h1
      obtain ⟨cs, h2, h3, h4, rfl⟩ := ih _ _ _ _ h
      have hc := (hash_iff _).1 hh
      refine ⟨(T p).line :: cs, ⟨rfl, h2⟩, ?_, ?_, by simp only [List.length_cons]; omega⟩
      · intro l hl
        rcases List.mem_cons.1 hl with rfl | hl
        · exact hc
        · exact h3 l hl
      · rw [h4]
        have hf := fuzzyFlag_iff _ hc
        by_cases hfl : fuzzyFlag (T p).line = true
        · rw [if_pos hfl]
          simp only [true_or, true_iff]
          exact .inr ⟨_, List.mem_cons_self, hf.1 hfl⟩
        · rw [if_neg hfl]
          constructor
          · rintro (h | ⟨l, hl, h⟩)
            · exact .inl h
            · exact .inr ⟨l, List.mem_cons_of_mem _ hl, h⟩
          · rintro (h | ⟨l, hl, h⟩)
            · exact .inl h
            · rcases List.mem_cons.1 hl with rfl | hl
              · exact absurd (hf.2 h) hfl
              · exact .inr ⟨l, hl, h⟩
    · rw [if_neg hh] at h
      cases h
      exact ⟨[], trivial, by simp, by simp, rfl⟩

theorem digit_back : ∀ d : Byte, isdigit d = true → (48 : Byte) + (d.toNat - 48).toUInt8 = d := by
  intro d h
  unfold isdigit at h
  simp only [Bool.and_eq_true, decide_eq_true_eq, UInt8.le_iff_toNat_le] at h
  have h1 : (48 : Byte).toNat = 48 := rfl
  have h2 : (57 : Byte).toNat = 57 := rfl
  apply UInt8.toNat.inj
  rw [UInt8.toNat_add, Nat.toUInt8_eq, UInt8.toNat_ofNat', h1]
  omega

theorem msgstrIndex_split {l : Str} {n : Nat} (h : msgstrIndex l = some n) : n ≤ 9 ∧ hasPrefix (msgstrN n) l = true := by
  refine ⟨msgstrIndex_le _ _ h, ?_⟩
  unfold msgstrIndex at h
  split at h
  · rename_i h0
    simp only [Bool.and_eq_true, decide_eq_true_eq] at h0
    have hl := hasPrefix_split h0.1
    split at h
    · rename_i d e h7 h8
      split at h
      · rename_i hd
        simp only [Bool.and_eq_true, beq_iff_eq] at hd
        cases h
        rw [hl] at h7 h8
        generalize l.drop (b!"msgstr[").length = r at *
        rw [hl]
        match r, h7, h8 with
        | d' :: e' :: r', h7, h8 =>
          have e1 : d' = d := by simpa using h7
          have e2 : e' = e := by simpa using h8
          subst e1 e2
          rw [hd.2]
          have : (48 : Byte) + (d'.toNat - 48).toUInt8 = d' := by
            have hdg := hd.1
            exact digit_back d' hdg
          show hasPrefix (b!"msgstr[" ++ [48 + (d'.toNat - 48).toUInt8] ++ b!"]") (b!"msgstr[" ++ d' :: 93 :: r') = true
          rw [this]
          simp [hasPrefix]
        | [x], h7, h8 => simp at h8
        | [], h7, h8 => simp at h7
      · cases h
    · cases h
  · cases h

/-! ### Positions only grow -/

/-- Positions only grow. -/
def Up {α : Type} (e : E α) (p : Nat) : Prop := ∀ q, (∃ a, (e p).2 = .ok a q) ∨ (e p).2 = .err q → p ≤ q

theorem Up.bind {α β : Type} {e : E α} {f : α → E β} {p : Nat} (h : Up e p) (hf : ∀ a q, (e p).2 = .ok a q → Up (f a) q) : Up (e >>= f) p := by
  intro q hq
  rw [e_bind] at hq
  unfold E.bind at hq
  rcases hx : e p with ⟨v, r⟩
  rw [hx] at hq
  unfold Up at h
  rw [hx] at h hf
  cases r with
  | ok a r =>
    have h1 := h r (.inl ⟨a, rfl⟩)
    have h2 := hf a r rfl q hq
    omega
  | err r =>
    rcases hq with ⟨_, hq⟩ | hq
    · cases hq
    · cases hq; exact h _ (.inr rfl)
  | overflow => rcases hq with ⟨_, hq⟩ | hq <;> cases hq
  | diverge => rcases hq with ⟨_, hq⟩ | hq <;> cases hq

theorem Up.stay {α : Type} {e : E α} {p : Nat} (h : ∀ q, (∃ a, (e p).2 = .ok a q) ∨ (e p).2 = .err q → q = p) : Up e p :=
  fun q hq => by rw [h q hq]; exact Nat.le_refl _

theorem Up.pure {α : Type} (a : α) (p : Nat) : Up (E.pure a) p := Up.stay (fun q hq => by rcases hq with ⟨_, hq⟩ | hq <;> cases hq; rfl)
theorem Up.throw {α : Type} (p : Nat) : Up (E.throw : E α) p := Up.stay (fun q hq => by rcases hq with ⟨_, hq⟩ | hq <;> cases hq; rfl)
theorem Up.emit (w : List Ev) (p : Nat) : Up (E.emit w) p := Up.stay (fun q hq => by rcases hq with ⟨_, hq⟩ | hq <;> cases hq; rfl)
theorem Up.emitAt (w : Nat → List Ev) (p : Nat) : Up (E.emitAt w) p := Up.stay (fun q hq => by rcases hq with ⟨_, hq⟩ | hq <;> cases hq; rfl)
theorem Up.diverge {α : Type} (p : Nat) : Up (E.diverge : E α) p := fun q hq => by rcases hq with ⟨_, hq⟩ | hq <;> cases hq
theorem Up.next (p : Nat) : Up nextE p := by
  intro q hq
  unfold nextE at hq
  split at hq
  · rcases hq with ⟨_, hq⟩ | hq <;> cases hq
  · rcases hq with ⟨_, hq⟩ | hq
    · cases hq; omega
    · cases hq
theorem Up.ite {α : Type} {c : Prop} [Decidable c] {e1 e2 : E α} {p : Nat} (h1 : c → Up e1 p) (h2 : ¬ c → Up e2 p) : Up (if c then e1 else e2) p := by
  split
  · exact h1 (by assumption)
  · exact h2 (by assumption)
theorem Up.line {α : Type} {f : Str → E α} {p : Nat} (h : Up (f (T p).line) p) : Up (lineE T >>= f) p := h

theorem up_recover : ∀ (f p : Nat), Up (recoverE ct T f) p := by
  intro f
  induction f with
  | zero => intro p; exact Up.diverge p
  | succ f ih =>
    intro p
    unfold recoverE
    refine Up.bind (Up.next p) (fun _ p _ => ?_)
    show Up (if (!(T p).eof && !emptyLine ct (T p).line) = true then recoverE ct T f else E.pure ()) p
    exact Up.ite (fun _ => ih p) (fun _ => Up.pure _ _)

theorem up_error {α : Type} (m : Str) (p : Nat) : Up (errorE (α := α) ct fuel T m) p := by
  unfold errorE
  exact Up.bind (Up.emitAt _ _) (fun _ p _ => Up.bind (up_recover _ _) (fun _ p _ => Up.throw p))

theorem up_of_eqv {α : Type} {e e' : E α} {p : Nat} (h : Eqv (e p) (e' p)) (hu : Up e' p) : Up e p := by
  intro q hq
  rw [h.2] at hq
  exact hu q hq

theorem up_rd {out : Str} {o : Option Str} (p : Nat) : Up (rdE ct fuel T out o) p := by
  cases o with
  | none => exact up_error _ _
  | some t => exact Up.pure _ _

theorem up_contLoop : ∀ (f : Nat) (out : Str) (p : Nat), Up (contLoopE ct fuel T b f out) p := by
  intro f
  induction f with
  | zero => intro out p; exact Up.diverge p
  | succ f ih =>
    intro out p
    unfold contLoopE
    refine Up.bind (Up.next p) (fun _ p _ => Up.line ?_)
    cases hs : scanQuote ct (T p).line 0 with
    | none => exact Up.pure _ _
    | some i =>
      exact up_of_eqv (eqv_ite_warn (f := getStringLineE ct fuel T b out i >>= fun out => contLoopE ct fuel T b f out))
        (Up.bind (up_of_eqv (e' := rdE ct fuel T out (rdLine b (T p).line i)) (eqv_getStringLine _ _ _) (up_rd p)) (fun a q _ => ih a q))

theorem up_getString (skip p : Nat) : Up (getStringE ct fuel T b skip) p :=
  up_of_eqv (e' := rdE ct fuel T [] (rdKw ct b (T p).line skip) >>= fun o => contLoopE ct fuel T b fuel o) (eqv_getString _ _)
    (Up.bind (up_rd p) (fun _ _ _ => up_contLoop _ _ _))

theorem up_commentLoop : ∀ (f : Nat) (fz : Bool) (p : Nat), Up (commentLoopE T f fz) p := by
  intro f
  induction f with
  | zero => intro fz p; exact Up.diverge p
  | succ f ih =>
    intro fz p
    unfold commentLoopE
    exact Up.line (Up.ite (fun _ => Up.bind (Up.next p) (fun _ p _ => ih _ _)) (fun _ => Up.pure _ _))

theorem up_finish (p : Nat) : Up (finishE ct fuel T) p := by
  unfold finishE
  exact Up.line (Up.bind (Up.ite (fun _ => up_error _ _) (fun _ => Up.pure _ _)) (fun _ p _ => Up.next p))

/-! ### Entries -/

/-- The result of a sequence. -/
theorem bind_split {α β : Type} (e : E α) (f : α → E β) (p : Nat) :
    (∃ a q, (e p).2 = .ok a q ∧ essence ((e >>= f) p).1 = essence (e p).1 ++ essence (f a q).1 ∧ ((e >>= f) p).2 = (f a q).2) ∨
    ((∀ a q, (e p).2 ≠ .ok a q) ∧ essence ((e >>= f) p).1 = essence (e p).1 ∧ (∀ a q, ((e >>= f) p).2 ≠ .ok a q) ∧
      ∀ q, ((e >>= f) p).2 = .err q → (e p).2 = .err q) := by
  rw [e_bind]; unfold E.bind
  rcases hx : e p with ⟨v, r⟩
  cases r with
  | ok a q => exact .inl ⟨a, q, rfl, essence_append _ _, rfl⟩
  | err q => exact .inr ⟨fun a q h => (by cases h), rfl, fun a q h => (by cases h), fun q h => by cases h; rfl⟩
  | overflow => exact .inr ⟨fun a q h => (by cases h), rfl, fun a q h => (by cases h), fun q h => by cases h⟩
  | diverge => exact .inr ⟨fun a q h => (by cases h), rfl, fun a q h => (by cases h), fun q h => by cases h⟩

/-- Events of an item; `none`: a plural entry without a readable string. -/
def evsOf' : Option Item → List Ev
  | none => [.clear]
  | some (.whole e) => evsOf e
  | some (.broken e) => match e.body with
    | .plural _ strs => .clear :: strs.map (fun x => Ev.conv x.1 x.2)
    | .single _ => []

/-- What running some code at `p` comes to: items found from `p0` on. -/
def Goal {α : Type} (ct : CType) (L : Nat → Str) (b : Bool) (p0 : Nat) (e : E α) (p : Nat) : Prop :=
  ∃ (is : List (Option Item)) (m : Nat), essence (e p).1 = is.flatMap evsOf' ∧ Found ct L b p0 (is.filterMap id) m ∧
    ∀ q, (∃ a, (e p).2 = .ok a q) ∨ (e p).2 = .err q → m ≤ q

variable {L : Nat → Str} {p0 : Nat}

theorem goal_quiet {α : Type} {e : E α} {p : Nat} (hq : essence (e p).1 = []) (hu : Up e p) (h0 : p0 ≤ p) : Goal ct L b p0 e p :=
  ⟨[], p0, by rw [hq]; rfl, .nil (Nat.le_refl _), fun q h => Nat.le_trans h0 (hu q h)⟩

theorem Goal.bind {α β : Type} {e : E α} {f : α → E β} {p : Nat} (hq : essence (e p).1 = []) (hu : Up e p) (h0 : p0 ≤ p)
    (hf : ∀ a q, (e p).2 = .ok a q → Goal ct L b p0 (f a) q) : Goal ct L b p0 (e >>= f) p := by
  rcases bind_split e f p with ⟨a, q, h1, h2, h3⟩ | ⟨h1, h2, h3, h4⟩
  · obtain ⟨is, m, g1, g2, g3⟩ := hf a q h1
    refine ⟨is, m, by rw [h2, hq, g1]; rfl, g2, fun q' hq' => g3 q' (by rw [h3] at hq'; exact hq')⟩
  · refine ⟨[], p0, by rw [h2, hq]; rfl, .nil (Nat.le_refl _), fun q' hq' => ?_⟩
    rcases hq' with ⟨a, hq'⟩ | hq'
    · exact absurd hq' (h3 a q')
    · exact Nat.le_trans h0 (hu q' (.inr (h4 q' hq')))

theorem Goal.then {α β : Type} {e : E α} {f : α → E β} {p : Nat} (h : Goal ct L b p0 e p)
    (hq : ∀ a q, essence (f a q).1 = []) (hu : ∀ a q, Up (f a) q) : Goal ct L b p0 (e >>= f) p := by
  obtain ⟨is, m, g1, g2, g3⟩ := h
  rcases bind_split e f p with ⟨a, q, h1, h2, h3⟩ | ⟨h1, h2, h3, h4⟩
  · refine ⟨is, m, by rw [h2, hq, g1, List.append_nil], g2, fun q' hq' => ?_⟩
    rw [h3] at hq'
    exact Nat.le_trans (g3 q (.inl ⟨a, h1⟩)) (hu a q q' hq')
  · refine ⟨is, m, by rw [h2, g1], g2, fun q' hq' => ?_⟩
    rcases hq' with ⟨a, hq'⟩ | hq'
    · exact absurd hq' (h3 a q')
    · exact g3 q' (.inr (h4 q' hq'))

theorem Goal.line {α : Type} {f : Str → E α} {p : Nat} (h : Goal ct L b p0 (f (T p).line) p) : Goal ct L b p0 (lineE T >>= f) p := h
theorem Goal.ite {α : Type} {c : Prop} [Decidable c] {e1 e2 : E α} {p : Nat} (h1 : c → Goal ct L b p0 e1 p) (h2 : ¬ c → Goal ct L b p0 e2 p) :
    Goal ct L b p0 (if c then e1 else e2) p := by
  split
  · exact h1 (by assumption)
  · exact h2 (by assumption)

theorem quiet_of {α : Type} {e : E α} (h : Evs Ev.isDiag e) (p : Nat) : essence (e p).1 = [] := by
  unfold essence
  rw [List.filter_eq_nil_iff.2 (fun x hx => by rw [h p x hx]; simp)]
  rfl

theorem goal_error {α : Type} (m : Str) {p : Nat} (h0 : p0 ≤ p) : Goal ct L b p0 (errorE (α := α) ct fuel T m) p :=
  goal_quiet (quiet_of (nh_error ct fuel T m) p) (up_error m p) h0

/-- The `msgstr[N]` lines read, up to what ends them. -/
theorem inv_pluralLoop {N : Nat} (hN : ∀ p, N ≤ p → (T p).line = (T N).line) : ∀ (f : Nat) (first saw : Bool) (p : Nat), N < f + p →
    (first = false → ∃ p', p' < p ∧ emptyLine ct (T p').line = false ∧ N < f + 1 + p') →
    ∃ strs ls, essence (pluralLoopE ct fuel T b f first saw p).1 = strs.map (fun x => Ev.conv x.1 x.2) ∧ At T p ls ∧
      ((strs = [] ∧ ls = []) ∨ PluralLines ct b false ls strs) ∧
      (∀ a q, (pluralLoopE ct fuel T b f first saw p).2 = .ok a q → q = p + ls.length ∧ emptyLine ct (T q).line = true ∧
        (first = true → strs ≠ []) ∧ (a = true ↔ saw = true ∨ ∃ x ∈ strs, x.2 ≠ [])) ∧
      ((∀ a q, (pluralLoopE ct fuel T b f first saw p).2 ≠ .ok a q) → (first = false ∨ strs ≠ []) →
        emptyLine ct (T (p + ls.length)).line = false) ∧
      (∀ q, (pluralLoopE ct fuel T b f first saw p).2 = .err q → p + ls.length ≤ q) := by
  intro f
  induction f with
  | zero =>
    intro first saw p hb hf
    refine ⟨[], [], rfl, trivial, .inl ⟨rfl, rfl⟩, fun a q h => (by cases h), fun _ h => ?_, fun q h => (by cases h)⟩
    rcases h with h | h
    · obtain ⟨p', h1, h2, h3⟩ := hf h
      rw [List.length_nil, Nat.add_zero, hN p (by omega), ← hN p' (by omega)]
      exact h2
    · exact absurd rfl h
  | succ f ih =>
    intro first saw p hb hf
    unfold pluralLoopE
    show ∃ strs ls, essence ((if emptyLine ct (T p).line = true then _ else _ : E Bool) p).1 = _ ∧ At T p ls ∧ _ ∧
      (∀ a q, ((if emptyLine ct (T p).line = true then _ else _ : E Bool) p).2 = .ok a q → _) ∧
      ((∀ a q, ((if emptyLine ct (T p).line = true then _ else _ : E Bool) p).2 ≠ .ok a q) → _) ∧
      (∀ q, ((if emptyLine ct (T p).line = true then _ else _ : E Bool) p).2 = .err q → _)
    have noerr : ∀ (m : Str) (a : Bool) (q : Nat), (errorE (α := Bool) ct fuel T m p).2 ≠ .ok a q := fun m a q hx =>
      (post_error (G := fun _ => True) (R := fun _ => False) top_ok ct fuel T m (p := p)).2 a q hx
    by_cases he : emptyLine ct (T p).line = true
    · rw [if_pos he]
      by_cases h1 : first = true
      · rw [if_pos h1]
        refine ⟨[], [], quiet_of (nh_error ct fuel T _) p, trivial, .inl ⟨rfl, rfl⟩, fun a q h => absurd h (noerr _ _ _), fun _ h => ?_,
          fun q h => up_error _ _ q (.inr h)⟩
        rcases h with h | h
        · rw [h1] at h; cases h
        · exact absurd rfl h
      · rw [if_neg h1]
        refine ⟨[], [], rfl, trivial, .inl ⟨rfl, rfl⟩, fun a q h => ?_, fun h _ => absurd rfl (h saw p), fun q h => by cases h⟩
        cases h
        exact ⟨rfl, he, fun h => absurd h h1, by simp⟩
    · rw [if_neg he]
      have he' : emptyLine ct (T p).line = false := by simpa using he
      cases hm : msgstrIndex (T p).line with
      | none =>
        exact ⟨[], [], quiet_of (nh_error ct fuel T _) p, trivial, .inl ⟨rfl, rfl⟩, fun a q h => absurd h (noerr _ _ _), fun _ _ => he',
          fun q h => up_error _ _ q (.inr h)⟩
      | some n =>
        dsimp only
        obtain ⟨hn, hpre⟩ := msgstrIndex_split hm
        rcases bind_split (getStringE ct fuel T b 9) (fun msgstr => E.emit [.conv n msgstr] >>= fun _ =>
          pluralLoopE ct fuel T b f false (if !msgstr.isEmpty then true else saw)) p with ⟨t, q, h1, h2, h3⟩ | ⟨h1, h2, h3, h4⟩
        · obtain ⟨ls1, g1, g2, rfl, g4⟩ := inv_getString hpre (msgstrN_length n) h1
          obtain ⟨strs, ls, i1, i2, i3, i4, i5, i6⟩ := ih false (if !t.isEmpty then true else saw) (p + ls1.length) (by omega)
            (fun _ => ⟨p, by omega, he', by omega⟩)
          have hev : essence ((E.emit [Ev.conv n t] >>= fun _ => pluralLoopE ct fuel T b f false (if !t.isEmpty then true else saw)) (p + ls1.length)).1
              = .conv n t :: essence (pluralLoopE ct fuel T b f false (if !t.isEmpty then true else saw) (p + ls1.length)).1 :=
            essence_append [Ev.conv n t] _
          refine ⟨(n, t) :: strs, ls1 ++ ls, ?_, ?_, ?_, ?_, ?_, ?_⟩
          · rw [h2, quiet_getString, hev, i1]; rfl
          · exact At_append.2 ⟨g1, i2⟩
          · refine .inr ?_
            rcases i3 with ⟨rfl, rfl⟩ | i3
            · rw [List.append_nil]; exact .one hn g2
            · exact .more hn g2 i3
          · intro a q hx
            rw [h3] at hx
            obtain ⟨j1, j2, j3, j4⟩ := i4 a q hx
            refine ⟨by rw [List.length_append]; omega, j2, fun _ h => (by cases h), ?_⟩
            rw [j4]
            by_cases ht : t = []
            · subst ht; simp
            · have : (!t.isEmpty) = true := by simpa using ht
              rw [if_pos this]
              simp [ht]
          · intro hx _
            rw [List.length_append, ← Nat.add_assoc]
            exact i5 (fun a q h => hx a q (by rw [h3]; exact h)) (.inl rfl)
          · intro q hx
            rw [h3] at hx
            rw [List.length_append, ← Nat.add_assoc]
            exact i6 q hx
        · refine ⟨[], [], by rw [h2, quiet_getString]; rfl, trivial, .inl ⟨rfl, rfl⟩, fun a q h => absurd h (h3 a q), fun _ _ => he', fun q h => ?_⟩
          exact up_getString 9 p q (.inr (h4 q h))

theorem field_len {kw : Str} {ls : List Str} {t : Str} (h : Field ct b false kw ls t) : 0 < ls.length := by
  cases h; simp

theorem quiet_finish (p : Nat) : essence (finishE ct fuel T p).1 = [] := by
  refine quiet_of ?_ p
  unfold finishE
  exact nh_bind nh_line (fun _ => nh_bind (nh_ite _ (nh_error _ _ _ _) (nh_pure _)) (fun _ => nh_next))

/-- What came before the translation. -/
structure Head (ct : CType) (b : Bool) (T : Tape) (p0 : Nat) (fz : Bool) (c : Option Str) (i : Str) (cs cls ils : List Str) : Prop where
  at_ : At T p0 (cs ++ cls ++ ils)
  comments : ∀ l ∈ cs, Comment l
  fuzzy : fz = true ↔ ∃ l ∈ cs, FuzzyFlag l
  ctxt : CtxtLines ct b false cls c
  msgid : Field ct b false b!"msgid" ils i

theorem goal_singular (hL : ∀ p, (T p).line = L p) {fz : Bool} {c : Option Str} {i : Str} {cs cls ils : List Str}
    (h : Head ct b T p0 fz c i cs cls ils) {p : Nat} (hp : p = p0 + (cs ++ cls ++ ils).length)
    (hk : hasPrefix b!"msgstr" (T p).line = true) : Goal ct L b p0 (singularEntryE ct fuel T b fz c i) p := by
  unfold singularEntryE
  refine Goal.bind (quiet_getString 6 p) (up_getString 6 p) (by omega) (fun t q hq => ?_)
  obtain ⟨sls, g1, g2, rfl, _⟩ := inv_getString hk rfl hq
  have hE : EntryLines ct b false (cs ++ cls ++ ils ++ sls) ⟨fz, c, i, .single t⟩ := .single h.comments h.fuzzy h.ctxt h.msgid g2
  have hat : At T p0 (cs ++ cls ++ ils ++ sls) := At_append.2 ⟨h.at_, by rw [← hp]; exact g1⟩
  have hlen : p0 + (cs ++ cls ++ ils ++ sls).length = p + sls.length := by rw [hp]; simp only [List.length_append]; omega
  refine ⟨[some (.whole ⟨fz, c, i, .single t⟩)], p + sls.length, ?_, ?_, ?_⟩
  · simp only [List.flatMap_cons, List.flatMap_nil, List.append_nil, evsOf', evsOf]
    split
    · rfl
    · split
      · rfl
      · rfl
  · refine .whole (k := (cs ++ cls ++ ils ++ sls).length) (Nat.le_refl p0) (by rw [at_block hL hat]; exact hE) ?_ ?_
    · rintro ⟨_, _, h⟩; cases h
    · rw [hlen]; exact .nil (Nat.le_refl _)
  · intro q hq
    split at hq
    · rcases hq with ⟨_, hq⟩ | hq <;> cases hq; exact Nat.le_refl _
    · split at hq
      · rcases hq with ⟨_, hq⟩ | hq <;> cases hq; exact Nat.le_refl _
      · rcases hq with ⟨_, hq⟩ | hq <;> cases hq; exact Nat.le_refl _

theorem goal_plural (hL : ∀ p, (T p).line = L p) {N : Nat} (hN : ∀ p, N ≤ p → (T p).line = (T N).line) (hF : N < fuel)
    {fz : Bool} {c : Option Str} {i : Str} {cs cls ils : List Str}
    (h : Head ct b T p0 fz c i cs cls ils) {p : Nat} (hp : p = p0 + (cs ++ cls ++ ils).length)
    (hk : hasPrefix b!"msgid_plural" (T p).line = true) : Goal ct L b p0 (pluralEntryE ct fuel T b fz c i) p := by
  unfold pluralEntryE
  refine Goal.bind (quiet_getString 12 p) (up_getString 12 p) (by omega) (fun idp q hq => ?_)
  obtain ⟨pls, g1, g2, rfl, _⟩ := inv_getString hk rfl hq
  obtain ⟨strs, ls, i1, i2, i3, i4, i5, i6⟩ := inv_pluralLoop (ct := ct) (fuel := fuel) (T := T) (b := b) hN fuel true false (p + pls.length)
    (by omega) (fun h => by cases h)
  have hat : At T p0 (cs ++ cls ++ ils ++ pls ++ ls) := At_append.2 ⟨At_append.2 ⟨h.at_, by rw [← hp]; exact g1⟩, by
    rw [List.length_append, ← Nat.add_assoc, ← hp]; exact i2⟩
  have hlen : p0 + (cs ++ cls ++ ils ++ pls ++ ls).length = p + pls.length + ls.length := by
    rw [hp]; simp only [List.length_append]; omega
  -- the events after the loop
  generalize hg : (fun saw : Bool => lineE T >>= fun l =>
      (if !emptyLine ct l then errorE ct fuel T b!"expected 'msgstr[N]' or empty line"
      else if saw then E.emitAt (fun p => [.plural p fz c i idp]) else E.pure () : E Unit)) = g
  have hgo : ∀ saw q, emptyLine ct (T q).line = true → (g saw q) = (if saw then ([Ev.plural q fz c i idp], TRes.ok () q) else ([], .ok () q)) := by
    intro saw q he
    rw [← hg]
    show ((if (!emptyLine ct (T q).line) = true then _ else _ : E Unit) q) = _
    rw [he]
    cases saw <;> rfl
  have hwhole : essence ((E.emit [Ev.clear] >>= fun _ => pluralLoopE ct fuel T b fuel true false >>= g) (p + pls.length)).1
      = .clear :: essence ((pluralLoopE ct fuel T b fuel true false >>= g) (p + pls.length)).1 := essence_append [Ev.clear] _
  have hres : ((E.emit [Ev.clear] >>= fun _ => pluralLoopE ct fuel T b fuel true false >>= g) (p + pls.length)).2
      = ((pluralLoopE ct fuel T b fuel true false >>= g) (p + pls.length)).2 := rfl
  show Goal ct L b p0 (E.emit [Ev.clear] >>= fun _ => pluralLoopE ct fuel T b fuel true false >>= g) (p + pls.length)
  unfold Goal
  rw [hwhole, hres]
  rcases bind_split (pluralLoopE ct fuel T b fuel true false) g (p + pls.length) with ⟨a, q, h1, h2, h3⟩ | ⟨h1, h2, h3, h4⟩
  · obtain ⟨rfl, j2, j3, j4⟩ := i4 a q h1
    have hne := j3 rfl
    rcases i3 with ⟨h, _⟩ | i3
    · exact absurd h hne
    have hE : EntryLines ct b false (cs ++ cls ++ ils ++ pls ++ ls) ⟨fz, c, i, .plural idp strs⟩ :=
      .plural h.comments h.fuzzy h.ctxt h.msgid g2 i3
    refine ⟨[some (.whole ⟨fz, c, i, .plural idp strs⟩)], p + pls.length + ls.length, ?_, ?_, ?_⟩
    · rw [h2, i1, hgo a _ j2]
      simp only [List.flatMap_cons, List.flatMap_nil, List.append_nil, evsOf', evsOf]
      congr 2
      have hany : (strs.any (fun x => !x.2.isEmpty) = true) ↔ ∃ x ∈ strs, x.2 ≠ [] := by simp [List.any_eq_true]
      by_cases ha : a = true
      · rw [if_pos ha, if_pos (hany.2 (by simpa using j4.1 ha))]; rfl
      · rw [if_neg ha, if_neg (fun hx => ha (j4.2 (.inr (hany.1 hx))))]; rfl
    · refine .whole (k := (cs ++ cls ++ ils ++ pls ++ ls).length) (Nat.le_refl p0) (by rw [at_block hL hat]; exact hE) ?_ ?_
      · intro _
        rw [hlen, ← hL]
        exact (separator_iff _).2 j2
      · rw [hlen]; exact .nil (Nat.le_refl _)
    · intro q hq
      rw [h3, hgo a _ j2] at hq
      split at hq
      · rcases hq with ⟨_, hq⟩ | hq <;> cases hq; exact Nat.le_refl _
      · rcases hq with ⟨_, hq⟩ | hq <;> cases hq; exact Nat.le_refl _
  · rcases i3 with ⟨hs, hl⟩ | i3
    · subst hs hl
      refine ⟨[none], p0, ?_, .nil (Nat.le_refl _), fun q hq => ?_⟩
      · rw [h2, i1]; rfl
      · rcases hq with ⟨a, hq⟩ | hq
        · exact absurd hq (h3 a q)
        · have := i6 q (h4 q hq)
          omega
    · have hne : strs ≠ [] := by cases i3 <;> simp
      have hE : EntryLines ct b false (cs ++ cls ++ ils ++ pls ++ ls) ⟨fz, c, i, .plural idp strs⟩ :=
        .plural h.comments h.fuzzy h.ctxt h.msgid g2 i3
      refine ⟨[some (.broken ⟨fz, c, i, .plural idp strs⟩)], p + pls.length + ls.length, ?_, ?_, fun q hq => ?_⟩
      · rw [h2, i1]
        simp [evsOf']
      · refine .broken (k := (cs ++ cls ++ ils ++ pls ++ ls).length) (Nat.le_refl p0) (by rw [at_block hL hat]; exact hE) ⟨_, _, rfl⟩ ?_ ?_
        · rw [hlen, ← hL, separator_iff, i5 h1 (.inr hne)]
          simp
        · rw [hlen]; exact .nil (Nat.le_refl _)
      · rcases hq with ⟨a, hq⟩ | hq
        · exact absurd hq (h3 a q)
        · exact i6 q (h4 q hq)

theorem goal_entry (hL : ∀ p, (T p).line = L p) {N : Nat} (hN : ∀ p, N ≤ p → (T p).line = (T N).line) (hF : N < fuel) (p0 : Nat) :
    Goal ct L b p0 (entryE ct fuel T b) p0 := by
  unfold entryE
  refine Goal.bind (quiet_of (nh_commentLoop T fuel false) p0) (up_commentLoop _ _ _) (Nat.le_refl _) (fun fz p1 h1 => Goal.line ?_)
  obtain ⟨cs, c1, c2, c3, rfl⟩ := inv_commentLoop _ _ _ _ _ h1
  refine Goal.then (f := fun _ => finishE ct fuel T) ?_ (fun _ q => quiet_finish q) (fun _ q => up_finish q)
  refine Goal.ite (fun _ => ?_) (fun _ => goal_quiet rfl (Up.pure _ _) (by omega))
  unfold entryBodyE
  have hq1 : ∀ p, essence (ctxtE ct fuel T b p).1 = [] := by
    refine quiet_of ?_
    unfold ctxtE
    exact nh_bind nh_line (fun _ => nh_ite _ (nh_bind (nh_getString _ _ _ _ _) (fun _ => nh_pure _)) (nh_pure _))
  have hu1 : ∀ p, Up (ctxtE ct fuel T b) p := by
    intro p
    unfold ctxtE
    exact Up.line (Up.ite (fun _ => Up.bind (up_getString _ _) (fun _ _ _ => Up.pure _ _)) (fun _ => Up.pure _ _))
  refine Goal.bind (hq1 _) (hu1 _) (by omega) (fun c p2 h2 => ?_)
  have hc : ∃ cls, At T (p0 + cs.length) cls ∧ CtxtLines ct b false cls c ∧ p2 = p0 + cs.length + cls.length := by
    unfold ctxtE at h2
    replace h2 : ((if hasPrefix b!"msgctxt" (T (p0 + cs.length)).line = true then (getStringE ct fuel T b 7 >>= fun t => E.pure (some t))
      else E.pure none : E (Option Str)) (p0 + cs.length)).2 = .ok c p2 := h2
    by_cases hk : hasPrefix b!"msgctxt" (T (p0 + cs.length)).line = true
    · rw [if_pos hk] at h2
      obtain ⟨t, r, k1, k2⟩ := bind_ok h2
      cases k2
      obtain ⟨ls, k3, k4, k5, _⟩ := inv_getString hk rfl k1
      exact ⟨ls, k3, .some k4, k5⟩
    · rw [if_neg hk] at h2
      cases h2
      exact ⟨[], trivial, .none, rfl⟩
  obtain ⟨cls, d1, d2, rfl⟩ := hc
  have hq2 : ∀ p, essence (msgidE ct fuel T b p).1 = [] := by
    refine quiet_of ?_
    unfold msgidE
    exact nh_bind nh_line (fun _ => nh_ite _ (nh_getString _ _ _ _ _) (nh_error _ _ _ _))
  have hu2 : ∀ p, Up (msgidE ct fuel T b) p := by
    intro p
    unfold msgidE
    exact Up.line (Up.ite (fun _ => up_getString _ _) (fun _ => up_error _ _))
  refine Goal.bind (hq2 _) (hu2 _) (by omega) (fun i p3 h3 => ?_)
  have hi : ∃ ils, At T (p0 + cs.length + cls.length) ils ∧ Field ct b false b!"msgid" ils i ∧ p3 = p0 + cs.length + cls.length + ils.length := by
    unfold msgidE at h3
    replace h3 : ((if hasPrefix b!"msgid" (T (p0 + cs.length + cls.length)).line = true then getStringE ct fuel T b 5
      else errorE ct fuel T b!"expected 'msgid'" : E Str) (p0 + cs.length + cls.length)).2 = .ok i p3 := h3
    by_cases hk : hasPrefix b!"msgid" (T (p0 + cs.length + cls.length)).line = true
    · rw [if_pos hk] at h3
      obtain ⟨ls, k3, k4, k5, _⟩ := inv_getString hk rfl h3
      exact ⟨ls, k3, k4, k5⟩
    · rw [if_neg hk] at h3
      exact absurd h3 (fun hx => (post_error (G := fun _ => True) (R := fun _ => False) top_ok ct fuel T _ (p := _)).2 i _ hx)
  obtain ⟨ils, e1, e2, rfl⟩ := hi
  have hlen : p0 + cs.length + cls.length + ils.length = p0 + (cs ++ cls ++ ils).length := by
    rw [List.length_append, List.length_append]; omega
  have hh : Head ct b T p0 fz c i cs cls ils := by
    refine ⟨At_append.2 ⟨At_append.2 ⟨c1, d1⟩, ?_⟩, c2, by simpa using c3, d2, e2⟩
    rw [List.length_append, ← Nat.add_assoc]; exact e1
  exact Goal.line (Goal.ite (fun hk => goal_plural hL hN hF hh hlen hk) (fun _ => Goal.line (Goal.ite (fun hk => goal_singular hL hh hlen hk)
    (fun _ => goal_error _ (by omega)))))


/-! ### The whole text -/

/-- Big5 mode after some items. -/
def big5Items (ct : CType) (b : Bool) (is : List Item) : Bool :=
  b || is.any (fun i => match i with
    | .whole e => e.header?.any (fun t => declaredCharset ct t == b!"BIG5")
    | .broken _ => false)

theorem found_append {b : Bool} {n m : Nat} {is : List Item} (h : Found ct L b n is m) : ∀ {m' n' : Nat} {is' : List Item},
    m ≤ n' → Found ct L (big5Items ct b is) n' is' m' → Found ct L b n (is ++ is') m' := by
  induction h with
  | nil h0 =>
    intro m' n' is' hm h'
    unfold big5Items at h'
    rw [List.any_nil, Bool.or_false] at h'
    cases h' with
    | nil h1 => exact .nil (by omega)
    | whole h1 h2 h3 h4 => exact .whole (by omega) h2 h3 h4
    | broken h1 h2 h3 h4 h5 => exact .broken (by omega) h2 h3 h4 h5
  | whole h1 h2 h3 h4 ih =>
    intro m' n' is' hm h'
    refine .whole h1 h2 h3 (ih hm ?_)
    unfold big5Items at h' ⊢
    rw [List.any_cons, ← Bool.or_assoc] at h'
    exact h'
  | broken h1 h2 h3 h4 h5 ih =>
    intro m' n' is' hm h'
    refine .broken h1 h2 h3 h4 (ih hm ?_)
    unfold big5Items at h' ⊢
    rw [List.any_cons, Bool.false_or] at h'
    exact h'

theorem big5After_append (b : Bool) (w w' : List Ev) : big5After ct b (w ++ w') = big5After ct (big5After ct b w) w' := by
  unfold big5After
  rw [List.any_append, Bool.or_assoc]

theorem big5_items (b : Bool) (w : List Ev) (is : List (Option Item)) (h : essence w = is.flatMap evsOf') :
    big5After ct b w = big5Items ct b (is.filterMap id) := by
  rw [big5After_essence, h]
  clear h
  have conv0 : ∀ (strs : List (Nat × Str)) b, big5After ct b (strs.map (fun x => Ev.conv x.1 x.2)) = b := by
    intro strs b
    unfold big5After
    rw [List.any_map, List.any_eq_false.2 (fun x _ => by simp), Bool.or_false]
  induction is generalizing b with
  | nil => rfl
  | cons x is ih =>
    rw [List.flatMap_cons, big5After_append, ih]
    cases x with
    | none =>
      show big5Items ct (big5After ct b [.clear]) _ = _
      rw [show big5After ct b [.clear] = b from by simp [big5After]]
      rfl
    | some x =>
      show _ = big5Items ct b (x :: is.filterMap id)
      have hs : big5Items ct b (x :: is.filterMap id) = big5Items ct (big5Items ct b [x]) (is.filterMap id) := by
        unfold big5Items
        rw [List.any_cons, List.any_cons, List.any_nil, Bool.or_false, Bool.or_assoc]
      rw [hs]
      congr 1
      cases x with
      | whole e =>
        have he : essence (evsOf e) = evsOf e := by
          unfold evsOf
          cases e.body with
          | single t =>
            dsimp only
            split
            · rfl
            · split <;> rfl
          | plural idp strs =>
            dsimp only
            show essence ([Ev.clear] ++ (_ ++ _)) = _
            rw [essence_append, essence_append]
            have h1 : essence (strs.map (fun x => Ev.conv x.1 x.2)) = strs.map (fun x => Ev.conv x.1 x.2) := by
              induction strs with
              | nil => rfl
              | cons y strs ih2 =>
                rw [List.map_cons, show Ev.conv y.1 y.2 :: List.map (fun x => Ev.conv x.1 x.2) strs = [Ev.conv y.1 y.2] ++ strs.map (fun x => Ev.conv x.1 x.2) from rfl,
                  essence_append, ih2]; rfl
            rw [h1]
            split <;> rfl
        have := headerCharset_big5 (ct := ct) b e (evsOf e) he
        rw [evsOf', this]
        unfold big5Items
        rw [List.any_cons, List.any_nil, Bool.or_false]
        dsimp only
        simp only [headerCharset_eq]
      | broken e =>
        obtain ⟨fz, c, i, body⟩ := e
        unfold big5Items
        rw [List.any_cons, List.any_nil, Bool.or_false, Bool.or_false]
        cases body with
        | single t => simp [big5After, evsOf']
        | plural idp strs =>
          show big5After ct b ([Ev.clear] ++ _) = _
          rw [big5After_append, conv0]
          simp [big5After]

theorem items_mainLoop (hL : ∀ p, (T p).line = L p) {N : Nat} (hN : ∀ p, N ≤ p → (T p).line = (T N).line) (hF : N < fuel) :
    ∀ (f : Nat) (b : Bool) (p : Nat), ∃ (is : List (Option Item)) (m : Nat),
      essence (mainLoopE ct fuel T f b p).1 = is.flatMap evsOf' ∧ Found ct L b p (is.filterMap id) m := by
  intro f
  induction f with
  | zero => intro b p; exact ⟨[], p, rfl, .nil (Nat.le_refl _)⟩
  | succ f ih =>
    intro b p
    obtain ⟨is, m, g1, g2, g3⟩ := goal_entry (ct := ct) (b := b) hL hN hF p
    unfold mainLoopE
    cases hp : (T p).eof with
    | true => exact ⟨[], p, rfl, .nil (Nat.le_refl _)⟩
    | false =>
      simp only [Bool.not_false, if_true]
      rcases hx : entryE ct fuel T b p with ⟨v, r⟩
      rw [hx] at g1 g3
      dsimp only at g1 g3
      have step : ∀ q, m ≤ q → ∃ (is : List (Option Item)) (m : Nat),
          essence (v ++ (mainLoopE ct fuel T f (big5After ct b v) q).1) = is.flatMap evsOf' ∧ Found ct L b p (is.filterMap id) m := by
        intro q hq
        obtain ⟨is', m', i1, i2⟩ := ih (big5After ct b v) q
        refine ⟨is ++ is', m', by rw [essence_append, g1, i1, List.flatMap_append], ?_⟩
        rw [List.filterMap_append]
        refine found_append g2 hq ?_
        rw [← big5_items b v is g1]
        exact i2
      cases r with
      | ok a q => exact step q (g3 q (.inl ⟨a, rfl⟩))
      | err q => exact step q (g3 q (.inr rfl))
      | overflow => exact ⟨is, m, g1, g2⟩
      | diverge => exact ⟨is, m, g1, g2⟩
end

/-! ### What items do -/

theorem found_ok {ct : CType} {L : Nat → Str} {b : Bool} {n m : Nat} {is : List Item} (h : Found ct L b n is m) :
    ∀ i ∈ is, (∀ idp, i.entry.body ≠ .plural idp []) ∧ ∀ e, i = .broken e → e.isPlural := by
  have ne : ∀ {b ls e}, EntryLines ct b false ls e → ∀ idp, e.body ≠ .plural idp [] := by
    intro b ls e he idp
    cases he with
    | single => intro h; cases h
    | plural _ _ _ _ _ hp =>
      intro h
      cases h
      cases hp
  induction h with
  | nil => intro i hi; cases hi
  | whole h1 h2 h3 h4 ih =>
    intro i hi
    rcases List.mem_cons.1 hi with rfl | hi
    · exact ⟨ne h2, fun e h => by cases h⟩
    · exact ih i hi
  | broken h1 h2 h3 h4 h5 ih =>
    intro i hi
    rcases List.mem_cons.1 hi with rfl | hi
    · exact ⟨ne h2, fun e h => by cases h; exact h3⟩
    · exact ih i hi

theorem counted_body (uf : Bool) (i : Item) : (i.counted uf).body = i.entry.body := by cases i <;> rfl

theorem coreStep_counted (ct lib) (cs : Str) (uf fz : Bool) (k : Core) :
    (∀ c i t, coreStep ct lib uf cs (.singular fz c i t) k = coreStep ct lib false cs (.singular (fz && !uf) c i t) k) ∧
    (∀ p c i idp, coreStep ct lib uf cs (.plural p fz c i idp) k = coreStep ct lib false cs (.plural p (fz && !uf) c i idp) k) := by
  have h : (uf || !fz) = (false || !(fz && !uf)) := by cases uf <;> cases fz <;> rfl
  exact ⟨fun c i t => by simp only [coreStep, h], fun p c i idp => by simp only [coreStep, h]⟩

theorem coreInterp_flag (ct lib uf cs) (e e' : Ev) (w : List Ev) (he : ∀ k, coreStep ct lib uf cs e k = coreStep ct lib false cs e' k)
    (hw : ∀ k, coreInterp ct lib uf cs w k = coreInterp ct lib false cs w k) (k : Core) :
    coreInterp ct lib uf cs (e :: w) k = coreInterp ct lib false cs (e' :: w) k := by
  simp only [coreInterp]
  rw [bind_apply, bind_apply, he]
  cases coreStep ct lib false cs e' k with
  | ok a k' => exact hw k'
  | _ => rfl

theorem interp_convs (ct lib uf cs) (strs : List (Nat × Str)) (k : Core) :
    coreInterp ct lib uf cs (strs.map (fun x => Ev.conv x.1 x.2)) k = coreInterp ct lib false cs (strs.map (fun x => Ev.conv x.1 x.2)) k := by
  rw [convertAll_interp, convertAll_interp]

theorem interp_congr (ct lib uf cs) (w1 w2 w1' w2' : List Ev) (h1 : ∀ k, coreInterp ct lib uf cs w1 k = coreInterp ct lib false cs w1' k)
    (h2 : ∀ k, coreInterp ct lib uf cs w2 k = coreInterp ct lib false cs w2' k) (k : Core) :
    coreInterp ct lib uf cs (w1 ++ w2) k = coreInterp ct lib false cs (w1' ++ w2') k := by
  rw [coreInterp_append, coreInterp_append, bind_apply, bind_apply, h1]
  cases coreInterp ct lib false cs w1' k with
  | ok a k' => exact h2 k'
  | _ => rfl

theorem interp_one (ct lib uf cs) (e e' : Ev) (he : ∀ k, coreStep ct lib uf cs e k = coreStep ct lib false cs e' k) (k : Core) :
    coreInterp ct lib uf cs [e] k = coreInterp ct lib false cs [e'] k := by
  simp only [coreInterp]
  rw [bind_apply, bind_apply, he]

/-- The events of an item do what those of the entry it counts as do. -/
theorem interp_counted (ct lib uf cs) (i : Item) (hb : ∀ e, i = .broken e → e.isPlural) (k : Core) :
    coreInterp ct lib uf cs (evsOf' (some i)) k = coreInterp ct lib false cs (evsOf (i.counted uf)) k := by
  cases i with
  | whole e =>
    obtain ⟨fz, c, i, body⟩ := e
    cases body with
    | single t =>
      show coreInterp ct lib uf cs (if i.isEmpty then [.header 0 t] else if !t.isEmpty then [.singular fz c i t] else []) k
        = coreInterp ct lib false cs (if i.isEmpty then [.header 0 t] else if !t.isEmpty then [.singular (fz && !uf) c i t] else []) k
      split
      · exact interp_one ct lib uf cs _ _ (fun _ => rfl) k
      · split
        · exact interp_one ct lib uf cs _ _ (fun k => (coreStep_counted ct lib cs uf fz k).1 _ _ _) k
        · rfl
    | plural idp strs =>
      show coreInterp ct lib uf cs ([Ev.clear] ++ (strs.map (fun x => Ev.conv x.1 x.2) ++ (if strs.any (fun x => !x.2.isEmpty) then [.plural 0 fz c i idp] else []))) k
        = coreInterp ct lib false cs ([Ev.clear] ++ (strs.map (fun x => Ev.conv x.1 x.2) ++ (if strs.any (fun x => !x.2.isEmpty) then [.plural 0 (fz && !uf) c i idp] else []))) k
      refine interp_congr ct lib uf cs _ _ _ _ (interp_one ct lib uf cs _ _ (fun _ => rfl))
        (interp_congr ct lib uf cs _ _ _ _ (interp_convs ct lib uf cs strs) (fun k => ?_)) k
      split
      · exact interp_one ct lib uf cs _ _ (fun k => (coreStep_counted ct lib cs uf fz k).2 _ _ _ _) k
      · rfl
  | broken e =>
    obtain ⟨fz, c, i, body⟩ := e
    cases body with
    | single t => obtain ⟨_, _, h⟩ := hb _ rfl; cases h
    | plural idp strs =>
      show coreInterp ct lib uf cs ([Ev.clear] ++ strs.map (fun x => Ev.conv x.1 x.2)) k
        = coreInterp ct lib false cs ([Ev.clear] ++ (strs.map (fun x => Ev.conv x.1 x.2) ++ (if strs.any (fun x => !x.2.isEmpty) then [.plural 0 true c i idp] else []))) k
      refine interp_congr ct lib uf cs _ _ _ _ (interp_one ct lib uf cs _ _ (fun _ => rfl)) (fun k => ?_) k
      rw [coreInterp_append, bind_apply, interp_convs]
      cases coreInterp ct lib false cs (strs.map (fun x => Ev.conv x.1 x.2)) k with
      | ok a k' =>
        show Res.ok a k' = coreInterp ct lib false cs _ k'
        split
        · simp only [coreInterp, bind_apply, coreStep]; rfl
        · rfl
      | _ => rfl

theorem items_load (ct lib uf cs) (is : List (Option Item)) (hi : ∀ i ∈ is.filterMap id, (∀ idp, i.entry.body ≠ .plural idp []) ∧ ∀ e, i = .broken e → e.isPlural) :
    ∀ k : Core, loadRes (coreInterp ct lib uf cs (is.flatMap evsOf') k) = loadItems ct lib uf cs (is.filterMap id) k.conv k.eff := by
  unfold loadItems
  induction is with
  | nil => intro k; rfl
  | cons x is ih =>
    intro k
    rw [List.flatMap_cons, coreInterp_append, bind_apply]
    cases x with
    | none => exact ih hi { k with vec := [] }
    | some i =>
      have hi' : ∀ j ∈ is.filterMap id, (∀ idp, j.entry.body ≠ .plural idp []) ∧ ∀ e, j = .broken e → e.isPlural :=
        fun j hj => hi j (by show j ∈ i :: is.filterMap id; exact List.mem_cons_of_mem _ hj)
      have ih := ih hi'
      have hi0 := hi i (by show i ∈ i :: is.filterMap id; exact List.mem_cons_self)
      have hne : ∀ e ∈ (i :: is.filterMap id).map (Item.counted uf), ∀ idp, e.body ≠ .plural idp [] := by
        intro e he idp
        obtain ⟨j, hj, rfl⟩ := List.mem_map.1 he
        rw [counted_body]
        exact (hi j hj).1 idp
      have hload := load_eq ct lib false cs ((i :: is.filterMap id).map (Item.counted uf)) hne k
      show _ = load ct lib false cs ((i :: is.filterMap id).map (Item.counted uf)) k.conv k.eff
      rw [← hload, List.map_cons, List.flatMap_cons, coreInterp_append, bind_apply, interp_counted ct lib uf cs i hi0.2]
      cases coreInterp ct lib false cs (evsOf (i.counted uf)) k with
      | ok a k' =>
        show loadRes (coreInterp ct lib uf cs (is.flatMap evsOf') k') = loadRes (coreInterp ct lib false cs _ k')
        rw [ih k', load_eq ct lib false cs _ (fun e he => hne e (by rw [List.map_cons]; exact List.mem_cons_of_mem _ he)) k']
      | _ => rfl
end Tgt.POParser
