import Verif.Proofs.Items
import Verif.Proofs.Grammar4
import Verif.Spec.PoForm
/-
What is read without a message is well-formed.
-/
namespace Tgt.POParser
open Spec Spec.Po

/-- A message about the form of the text; `st`: warnings, too. -/
def Ev.Bad (st : Bool) : Ev → Prop
  | .diag .error _ _ ped => ped = false
  | .diag .warning _ m _ => st = true ∧ FormWarning m
  | _ => False

/-- The code ends normally without any message about the form of the text. -/
structure OkC {α : Type} (st : Bool) (e : E α) (p : Nat) (a : α) (q : Nat) : Prop where
  ok : (e p).2 = .ok a q
  clean : ∀ x ∈ (e p).1, ¬ x.Bad st

section
variable {ct : CType} {fuel : Nat} {T : Tape} {b st : Bool}

theorem bind_okC {α β : Type} {e : E α} {f : α → E β} {p q : Nat} {a : β} (h : OkC st (e >>= f) p a q) :
    ∃ x r, OkC st e p x r ∧ OkC st (f x) r a q := by
  obtain ⟨h1, h2⟩ := h
  rw [e_bind] at h1 h2
  unfold E.bind at h1 h2
  rcases hx : e p with ⟨v, r⟩
  rw [hx] at h1 h2
  cases r with
  | ok x r =>
    dsimp only at h1 h2
    refine ⟨x, r, ⟨by rw [hx], fun y hy => h2 y ?_⟩, ⟨h1, fun y hy => h2 y ?_⟩⟩
    · rw [hx] at hy; exact List.mem_append.2 (.inl hy)
    · exact List.mem_append.2 (.inr hy)
  | err q => cases h1
  | overflow => cases h1
  | diverge => cases h1

theorem line_okC {α : Type} {f : Str → E α} {p q : Nat} {a : α} (h : OkC st (lineE T >>= f) p a q) : OkC st (f (T p).line) p a q := ⟨h.ok, h.clean⟩

theorem error_okC {α : Type} {m : Str} {p q : Nat} {a : α} (h : OkC st (errorE (α := α) ct fuel T m) p a q) : False :=
  (post_error (G := fun _ => True) (R := fun _ => False) top_ok ct fuel T m (p := p)).2 a q h.ok

theorem pure_okC {α : Type} {p q : Nat} {a x : α} (h : OkC st (E.pure x) p a q) : a = x ∧ q = p := by
  cases h.ok; exact ⟨rfl, rfl⟩

theorem warn_okC {m : Str} {ped : Bool} {p q : Nat} {a : Unit} (hm : FormWarning m) (h : OkC st (warnE m ped) p a q) : st = false ∧ q = p := by
  cases h.ok
  refine ⟨?_, rfl⟩
  cases hst : st with
  | false => rfl
  | true => exact absurd ⟨hst, hm⟩ (h.clean _ List.mem_cons_self)

theorem inv_lineC {p q skip : Nat} {out t : Str} (h : OkC st (getStringLineE ct fuel T b out skip) p t q) :
    q = p ∧ skip + 1 < u32 (T p).line.length ∧ ∃ t', t = out ++ t' ∧ Quoted ct b st ((T p).line.drop skip) t' := by
  unfold getStringLineE at h
  replace h := line_okC h
  split at h
  · exact (error_okC h).elim
  · split at h
    · exact (error_okC h).elim
    · rename_i hlen h34
      have h34 : (T p).line[skip]? = some 34 := by simpa using h34
      obtain ⟨_, r, h1, h2⟩ := bind_okC h
      have hu : st = true → (lex b ((T p).line.drop (skip + 1))).unknown = [] := by
        intro hs
        cases hx : (lex b ((T p).line.drop (skip + 1))).unknown with
        | nil => rfl
        | cons e u =>
          have hm : Ev.diag .warning p (unknownMsg e) false ∈
              (lex b ((T p).line.drop (skip + 1))).unknown.map (fun e => Ev.diag .warning p (unknownMsg e) false) := by
            rw [hx]
            exact List.mem_cons_self
          exact absurd ⟨hs, .inr (.inr (.inr ⟨e, rfl⟩))⟩ (h1.clean _ hm)
      have hr : r = p := by cases h1.ok; rfl
      subst hr
      split at h2
      · exact (error_okC h2).elim
      · rename_i t' rest hx
        obtain ⟨body, g1, g2⟩ := lit_lex b _ _ _ _ (Nat.le_refl _) hx
        have hlt : skip < (T r).line.length := by
          rw [List.getElem?_eq_some_iff] at h34; exact h34.1
        have h3 : (T r).line.drop skip = 34 :: (T r).line.drop (skip + 1) := by
          rw [List.drop_eq_getElem_cons hlt]
          rw [List.getElem?_eq_some_iff] at h34
          rw [h34.2]
        have hq : (st = true → Blank ct rest) → Quoted ct b st ((T r).line.drop skip) t' := by
          intro hb
          rw [h3, g1]
          exact .mk g2 (fun hs => ⟨hu hs, hb hs⟩)
        split at h2
        · obtain ⟨_, r', k1, k2⟩ := bind_okC h2
          obtain ⟨hs, rfl⟩ := warn_okC (.inr (.inr (.inl rfl))) k1
          obtain ⟨rfl, rfl⟩ := pure_okC k2
          exact ⟨rfl, by omega, t', rfl, hq (fun hs' => by rw [hs] at hs'; cases hs')⟩
        · rename_i hany
          obtain ⟨rfl, rfl⟩ := pure_okC h2
          refine ⟨rfl, by omega, t', rfl, hq (fun _ x hx => ?_)⟩
          simp only [List.any_eq_true, not_exists, not_and] at hany
          simpa using hany x hx

theorem next_okC {p q : Nat} {a : Unit} (h : OkC st nextE p a q) : q = p + 1 := next_ok h.ok

theorem inv_contC : ∀ (f : Nat) (out t : Str) (p q : Nat), OkC st (contLoopE ct fuel T b f out) p t q →
    ∃ ls text, At T (p + 1) ls ∧ Conts ct b st ls text ∧ t = out ++ text ∧ q = p + 1 + ls.length := by
  intro f
  induction f with
  | zero => intro out t p q h; cases h.ok
  | succ f ih =>
    intro out t p q h
    unfold contLoopE at h
    obtain ⟨_, p1, h1, h⟩ := bind_okC h
    have h1 := next_okC h1
    subst h1
    replace h := line_okC h
    cases hs : scanQuote ct (T (p + 1)).line 0 with
    | none =>
      rw [hs] at h
      obtain ⟨rfl, rfl⟩ := pure_okC h
      exact ⟨[], [], trivial, .nil, by simp, rfl⟩
    | some i =>
      rw [hs] at h
      dsimp only at h
      obtain ⟨_, r, k1, k2⟩ := bind_okC h
      have hr : r = p + 1 ∧ (st = true → i ≠ 1) := by
        split at k1
        · obtain ⟨hst, hr⟩ := warn_okC (.inr (.inl rfl)) k1
          exact ⟨hr, fun hs => by rw [hst] at hs; cases hs⟩
        · rename_i hi
          exact ⟨(pure_okC k1).2, fun _ => hi⟩
      obtain ⟨rfl, hi⟩ := hr
      obtain ⟨x, r, k3, k4⟩ := bind_okC k2
      obtain ⟨rfl, hlen, t', rfl, hq⟩ := inv_lineC k3
      obtain ⟨ls, text, h2, h3, rfl, rfl⟩ := ih _ _ _ _ k4
      refine ⟨(T (p + 1)).line :: ls, t' ++ text, ⟨rfl, h2⟩, ?_, by rw [List.append_assoc], by simp only [List.length_cons]; omega⟩
      have hle : u32 (T (p + 1)).line.length ≤ (T (p + 1)).line.length := Nat.mod_le _ _
      have hc := Conts.cons (scan_some hs).2 (fun hst => by
        rw [Nat.sub_zero, List.length_take, Nat.min_eq_left (by omega)]; exact hi hst) hq h3
      rw [Nat.sub_zero, List.take_append_drop] at hc
      exact hc

theorem inv_stringC {kw : Str} {skip p q : Nat} {t : Str} (hk : hasPrefix kw (T p).line = true) (hs : kw.length = skip)
    (h : OkC st (getStringE ct fuel T b skip) p t q) :
    ∃ ls, At T p ls ∧ Field ct b st kw ls t ∧ q = p + ls.length ∧ 0 < ls.length := by
  have hl := hasPrefix_split hk
  rw [hs] at hl
  have hcut : ∀ i, skip ≤ i → (T p).line = kw ++ ((T p).line.drop skip).take (i - skip) ++ (T p).line.drop i := by
    intro i hi
    have : (T p).line.drop i = ((T p).line.drop skip).drop (i - skip) := by rw [List.drop_drop]; congr 1; omega
    rw [this, List.append_assoc, List.take_append_drop]
    exact hl
  unfold getStringE at h
  replace h := line_okC h
  split at h
  · exact (error_okC h).elim
  · obtain ⟨o, r, h1, h2⟩ := bind_okC h
    have hq : r = p ∧ ∃ sep qt, (T p).line = kw ++ sep ++ qt ∧ Blank ct sep ∧ (st = true → sep = [32]) ∧ Quoted ct b st qt o := by
      split at h1
      · rename_i h0
        obtain ⟨rfl, _, t', rfl, hq⟩ := inv_lineC h1
        obtain ⟨g1, _⟩ := h0
        have hlt : skip < (T r).line.length := by rw [List.getElem?_eq_some_iff] at g1; exact g1.1
        have hsep : ((T r).line.drop skip).take (skip + 1 - skip) = [32] := by
          rw [show skip + 1 - skip = 1 by omega, List.drop_eq_getElem_cons hlt]
          rw [List.getElem?_eq_some_iff] at g1
          rw [g1.2]; rfl
        refine ⟨rfl, _, _, hcut (skip + 1) (by omega), ?_, fun _ => hsep, by simpa using hq⟩
        rw [hsep]
        intro x hx
        simp only [List.mem_singleton] at hx
        subst hx
        rw [ct.isspace_ascii 32 (by decide)]; decide
      · obtain ⟨_, r', k1, k2⟩ := bind_okC h1
        obtain ⟨hst, rfl⟩ := warn_okC (.inl rfl) k1
        split at k2
        · exact (error_okC k2).elim
        · rename_i i hi
          obtain ⟨g1, g2⟩ := skip_some hi
          obtain ⟨rfl, hlt, t', rfl, hq⟩ := inv_lineC k2
          refine ⟨rfl, _, _, hcut i g1, ?_, fun hs => by (rw [hst] at hs; cases hs), by simpa using hq⟩
          intro x hx
          refine g2 x ?_
          rw [List.take_drop] at hx ⊢
          rw [List.take_take]
          have : min (skip + (i - skip)) (u32 (T r).line.length) = skip + (i - skip) := by omega
          rw [this]
          exact hx
    obtain ⟨rfl, sep, qt, g1, g2, g3, g4⟩ := hq
    obtain ⟨ls, text, k1, k2, rfl, rfl⟩ := inv_contC _ _ _ _ _ h2
    refine ⟨(kw ++ sep ++ qt) :: ls, ⟨g1, k1⟩, .mk g2 g3 g4 k2, by simp only [List.length_cons]; omega, by simp⟩

/-- What follows the comments is not a comment. -/
theorem comment_stop : ∀ (f : Nat) (fz fz' : Bool) (p q : Nat), (commentLoopE T f fz p).2 = .ok fz' q → ¬ Comment (T q).line := by
  intro f
  induction f with
  | zero => intro fz fz' p q h; cases h
  | succ f ih =>
    intro fz fz' p q h
    unfold commentLoopE at h
    replace h : ((if hasPrefix b!"#" (T p).line = true then nextE >>= fun _ => commentLoopE T f (if fuzzyFlag (T p).line then true else fz)
      else E.pure fz : E Bool) p).2 = .ok fz' q := h
    by_cases hh : hasPrefix b!"#" (T p).line = true
    · rw [if_pos hh] at h
      obtain ⟨_, r, h1, h⟩ := bind_ok h
      exact ih _ _ _ _ h
    · rw [if_neg hh] at h
      cases h
      exact fun hc => hh ((hash_iff _).2 hc)

theorem inv_pluralC : ∀ (f : Nat) (first saw a : Bool) (p q : Nat), OkC st (pluralLoopE ct fuel T b f first saw) p a q →
    ∃ ls strs, At T p ls ∧ q = p + ls.length ∧ emptyLine ct (T q).line = true ∧
      ((first = false ∧ ls = []) ∨ PluralLines ct b st ls strs) := by
  intro f
  induction f with
  | zero => intro first saw a p q h; cases h.ok
  | succ f ih =>
    intro first saw a p q h
    unfold pluralLoopE at h
    replace h := line_okC h
    split at h
    · rename_i he
      split at h
      · exact (error_okC h).elim
      · rename_i hf
        obtain ⟨rfl, rfl⟩ := pure_okC h
        exact ⟨[], [], trivial, rfl, he, .inl ⟨by simpa using hf, rfl⟩⟩
    · split at h
      · rename_i n hm
        obtain ⟨hn, hpre⟩ := msgstrIndex_split hm
        obtain ⟨t, r, h1, h2⟩ := bind_okC h
        obtain ⟨ls1, g1, g2, rfl, _⟩ := inv_stringC hpre (msgstrN_length n) h1
        obtain ⟨_, r, h3, h4⟩ := bind_okC h2
        cases h3.ok
        obtain ⟨ls, strs, i1, i2, i3, i4⟩ := ih _ _ _ _ _ h4
        refine ⟨ls1 ++ ls, if ls = [] then [(n, t)] else (n, t) :: strs, At_append.2 ⟨g1, i1⟩, by rw [List.length_append]; omega, i3, .inr ?_⟩
        · rcases i4 with ⟨_, rfl⟩ | i4
          · simp only [if_true, List.append_nil]; exact .one hn g2
          · have : ls ≠ [] := by
              rintro rfl
              obtain ⟨n', sep', q', ls'', _, h5, _⟩ := pluralLines_pos i4
              cases h5
            rw [if_neg this]
            exact .more hn g2 i4
      · exact (error_okC h).elim

/-- What is read without a message is an entry, or nothing. -/
theorem inv_entryC {p q : Nat} {a : Unit} (h : OkC st (entryE ct fuel T b) p a q) :
    (∃ cs, At T p cs ∧ (∀ l ∈ cs, Comment l) ∧ Blank ct (T (p + cs.length)).line ∧ q = p + cs.length + 1) ∨
    (∃ ls e, At T p ls ∧ EntryLines ct b st ls e ∧ emptyLine ct (T (p + ls.length)).line = true ∧ q = p + ls.length + 1) := by
  unfold entryE at h
  obtain ⟨fz, p1, h1, h⟩ := bind_okC h
  have hstop := comment_stop _ _ _ _ _ h1.ok
  obtain ⟨cs, c1, c2, c3, rfl⟩ := inv_commentLoop _ _ _ _ _ h1.ok
  replace h := line_okC h
  obtain ⟨_, p2, h2, h⟩ := bind_okC h
  -- the end
  have hend : emptyLine ct (T p2).line = true ∧ q = p2 + 1 := by
    unfold finishE at h
    replace h := line_okC h
    obtain ⟨_, r, k1, k2⟩ := bind_okC h
    split at k1
    · exact (error_okC k1).elim
    · rename_i he
      cases k1.ok
      exact ⟨by simpa using he, next_okC k2⟩
  obtain ⟨he, rfl⟩ := hend
  clear h
  split at h2
  · right
    unfold entryBodyE at h2
    obtain ⟨c, p3, h3, h2⟩ := bind_okC h2
    have hc : ∃ cls, At T (p + cs.length) cls ∧ CtxtLines ct b st cls c ∧ p3 = p + cs.length + cls.length := by
      unfold ctxtE at h3
      replace h3 := line_okC h3
      split at h3
      · rename_i hk
        obtain ⟨t, r, k1, k2⟩ := bind_okC h3
        obtain ⟨rfl, rfl⟩ := pure_okC k2
        obtain ⟨ls, k3, k4, k5, _⟩ := inv_stringC hk rfl k1
        exact ⟨ls, k3, .some k4, k5⟩
      · obtain ⟨rfl, rfl⟩ := pure_okC h3
        exact ⟨[], trivial, .none, rfl⟩
    obtain ⟨cls, d1, d2, rfl⟩ := hc
    obtain ⟨i, p4, h4, h2⟩ := bind_okC h2
    have hi : ∃ ils, At T (p + cs.length + cls.length) ils ∧ Field ct b st b!"msgid" ils i ∧ p4 = p + cs.length + cls.length + ils.length := by
      unfold msgidE at h4
      replace h4 := line_okC h4
      split at h4
      · rename_i hk
        obtain ⟨ls, k3, k4, k5, _⟩ := inv_stringC hk rfl h4
        exact ⟨ls, k3, k4, k5⟩
      · exact (error_okC h4).elim
    obtain ⟨ils, e1, e2, rfl⟩ := hi
    have hhead : At T p (cs ++ cls ++ ils) := At_append.2 ⟨At_append.2 ⟨c1, d1⟩, by
      rw [List.length_append, ← Nat.add_assoc]; exact e1⟩
    have hlen : p + cs.length + cls.length + ils.length = p + (cs ++ cls ++ ils).length := by
      rw [List.length_append, List.length_append]; omega
    rw [hlen] at h2
    have c3 : fz = true ↔ ∃ l ∈ cs, FuzzyFlag l := by simpa using c3
    replace h2 := line_okC h2
    split at h2
    · rename_i hk
      unfold pluralEntryE at h2
      obtain ⟨idp, p5, h5, h2⟩ := bind_okC h2
      obtain ⟨pls, g1, g2, rfl, _⟩ := inv_stringC hk rfl h5
      obtain ⟨_, r, h6, h2⟩ := bind_okC h2
      cases h6.ok
      obtain ⟨saw, r, h7, h2⟩ := bind_okC h2
      obtain ⟨sls, strs, i1, rfl, i3, i4⟩ := inv_pluralC _ _ _ _ _ _ h7
      have i4 : PluralLines ct b st sls strs := by
        rcases i4 with ⟨h, _⟩ | h
        · cases h
        · exact h
      have hp2 : p2 = p + (cs ++ cls ++ ils).length + pls.length + sls.length := by
        replace h2 := line_okC h2
        split at h2
        · exact (error_okC h2).elim
        · split at h2
          · cases h2.ok; rfl
          · cases h2.ok; rfl
      have hl2 : p2 = p + (cs ++ cls ++ ils ++ pls ++ sls).length := by
        rw [hp2]; simp only [List.length_append]; omega
      refine ⟨cs ++ cls ++ ils ++ pls ++ sls, _, ?_, .plural c2 c3 d2 e2 g2 i4, by rw [← hl2]; exact he, by rw [← hl2]⟩
      refine At_append.2 ⟨At_append.2 ⟨hhead, g1⟩, ?_⟩
      rw [List.length_append, ← Nat.add_assoc]; exact i1
    · replace h2 := line_okC h2
      split at h2
      · rename_i hk
        unfold singularEntryE at h2
        obtain ⟨t, p5, h5, h2⟩ := bind_okC h2
        obtain ⟨sls, g1, g2, rfl, _⟩ := inv_stringC hk rfl h5
        have hp2 : p2 = p + (cs ++ cls ++ ils).length + sls.length := by
          split at h2
          · cases h2.ok; rfl
          · split at h2
            · cases h2.ok; rfl
            · cases h2.ok; rfl
        have hl2 : p2 = p + (cs ++ cls ++ ils ++ sls).length := by
          rw [hp2]; simp only [List.length_append]; omega
        exact ⟨cs ++ cls ++ ils ++ sls, _, At_append.2 ⟨hhead, g1⟩, .single c2 c3 d2 e2 g2, by rw [← hl2]; exact he, by rw [← hl2]⟩
      · exact (error_okC h2).elim
  · left
    cases h2.ok
    refine ⟨cs, c1, c2, ?_, rfl⟩
    rcases (separator_iff _).2 he with h | h | ⟨x, t, h, _⟩
    · exact h
    · exact absurd (by rw [h]; rfl) hstop
    · exact absurd (by rw [h]; rfl) hstop

/-! ### Errors leave a message -/

/-- Code that ends by an error has said so. -/
def Loud {α : Type} (e : E α) : Prop := ∀ p q, (e p).2 = .err q → ∃ r m, .diag .error r m false ∈ (e p).1

theorem Loud.bind {α β : Type} {e : E α} {f : α → E β} (h : Loud e) (hf : ∀ a, Loud (f a)) : Loud (e >>= f) := by
  intro p q hq
  rw [e_bind] at hq ⊢
  unfold E.bind at hq ⊢
  have h := h p
  rcases hx : e p with ⟨v, r⟩
  rw [hx] at hq h
  cases r with
  | ok a r =>
    obtain ⟨r, m, h1⟩ := hf a r q hq
    exact ⟨r, m, List.mem_append.2 (.inr h1)⟩
  | err r => exact h r rfl
  | overflow => cases hq
  | diverge => cases hq

theorem Loud.of {α : Type} {e : E α} (h : ∀ p q, (e p).2 ≠ .err q) : Loud e := fun p q hq => absurd hq (h p q)
theorem Loud.pure {α : Type} (a : α) : Loud (E.pure a) := Loud.of (fun _ _ h => by cases h)
theorem Loud.emit (w : List Ev) : Loud (E.emit w) := Loud.of (fun _ _ h => by cases h)
theorem Loud.emitAt (w : Nat → List Ev) : Loud (E.emitAt w) := Loud.of (fun _ _ h => by cases h)
theorem Loud.warn (m : Str) (q : Bool) : Loud (warnE m q) := Loud.of (fun _ _ h => by cases h)
theorem Loud.line : Loud (lineE T) := Loud.of (fun _ _ h => by cases h)
theorem Loud.diverge {α : Type} : Loud (E.diverge : E α) := Loud.of (fun _ _ h => by cases h)
theorem Loud.next : Loud nextE := Loud.of (fun p q h => by unfold nextE at h; split at h <;> cases h)
theorem Loud.ite {α : Type} {c : Prop} [Decidable c] {e1 e2 : E α} (h1 : Loud e1) (h2 : Loud e2) : Loud (if c then e1 else e2) := by
  split
  · exact h1
  · exact h2

theorem Loud.error {α : Type} (m : Str) : Loud (errorE (α := α) ct fuel T m) := by
  intro p q _
  unfold errorE
  refine ⟨p, m, ?_⟩
  rw [e_bind]
  exact List.mem_append.2 (.inl List.mem_cons_self)

theorem Loud.getStringLine (out : Str) (skip : Nat) : Loud (getStringLineE ct fuel T b out skip) := by
  unfold getStringLineE
  refine Loud.bind Loud.line (fun l => Loud.ite (Loud.error _) (Loud.ite (Loud.error _) ?_))
  refine Loud.bind (Loud.emitAt _) (fun _ => ?_)
  split
  · exact Loud.error _
  · exact Loud.ite (Loud.bind (Loud.warn _ _) (fun _ => Loud.pure _)) (Loud.pure _)

theorem Loud.contLoop : ∀ (f : Nat) (out : Str), Loud (contLoopE ct fuel T b f out) := by
  intro f
  induction f with
  | zero => intro out; exact Loud.diverge
  | succ f ih =>
    intro out
    unfold contLoopE
    refine Loud.bind Loud.next (fun _ => Loud.bind Loud.line (fun l => ?_))
    split
    · exact Loud.bind (Loud.ite (Loud.warn _ _) (Loud.pure _)) (fun _ => Loud.bind (Loud.getStringLine _ _) (fun o => ih o))
    · exact Loud.pure _

theorem Loud.getString (skip : Nat) : Loud (getStringE ct fuel T b skip) := by
  unfold getStringE
  refine Loud.bind Loud.line (fun l => Loud.ite (Loud.error _) (Loud.bind (Loud.ite (Loud.getStringLine _ _) ?_) (fun o => Loud.contLoop _ _)))
  refine Loud.bind (Loud.warn _ _) (fun _ => ?_)
  split
  · exact Loud.error _
  · exact Loud.getStringLine _ _

theorem Loud.commentLoop : ∀ (f : Nat) (fz : Bool), Loud (commentLoopE T f fz) := by
  intro f
  induction f with
  | zero => intro fz; exact Loud.diverge
  | succ f ih =>
    intro fz
    unfold commentLoopE
    exact Loud.bind Loud.line (fun l => Loud.ite (Loud.bind Loud.next (fun _ => ih _)) (Loud.pure _))

theorem Loud.pluralLoop : ∀ (f : Nat) (first saw : Bool), Loud (pluralLoopE ct fuel T b f first saw) := by
  intro f
  induction f with
  | zero => intro _ _; exact Loud.diverge
  | succ f ih =>
    intro first saw
    unfold pluralLoopE
    refine Loud.bind Loud.line (fun l => Loud.ite (Loud.ite (Loud.error _) (Loud.pure _)) ?_)
    split
    · exact Loud.bind (Loud.getString _) (fun t => Loud.bind (Loud.emit _) (fun _ => ih _ _))
    · exact Loud.error _

theorem Loud.entry : Loud (entryE ct fuel T b) := by
  unfold entryE
  refine Loud.bind (Loud.commentLoop _ _) (fun fz => Loud.bind Loud.line (fun l => Loud.bind (Loud.ite ?_ (Loud.pure _)) (fun _ => ?_)))
  · unfold entryBodyE
    refine Loud.bind ?_ (fun c => Loud.bind ?_ (fun i => Loud.bind Loud.line (fun l => Loud.ite ?_ (Loud.bind Loud.line (fun l => Loud.ite ?_ (Loud.error _))))))
    · unfold ctxtE
      exact Loud.bind Loud.line (fun l => Loud.ite (Loud.bind (Loud.getString _) (fun _ => Loud.pure _)) (Loud.pure _))
    · unfold msgidE
      exact Loud.bind Loud.line (fun l => Loud.ite (Loud.getString _) (Loud.error _))
    · unfold pluralEntryE
      exact Loud.bind (Loud.getString _) (fun _ => Loud.bind (Loud.emit _) (fun _ => Loud.bind (Loud.pluralLoop _ _ _) (fun _ =>
        Loud.bind Loud.line (fun l => Loud.ite (Loud.error _) (Loud.ite (Loud.emitAt _) (Loud.pure _))))))
    · unfold singularEntryE
      exact Loud.bind (Loud.getString _) (fun _ => Loud.ite (Loud.emitAt _) (Loud.ite (Loud.emit _) (Loud.pure _)))
  · unfold finishE
    exact Loud.bind Loud.line (fun l => Loud.bind (Loud.ite (Loud.error _) (Loud.pure _)) (fun _ => Loud.next))

/-! ### The whole text -/

theorem at_drop {ls els : List Str} {p : Nat} (hne : ∀ l ∈ els, l ≠ []) (hline : ∀ q, (T q).line = ls.getD q []) (h : At T p els) (hp : p ≤ ls.length) :
    p + els.length ≤ ls.length ∧ ls.drop p = els ++ ls.drop (p + els.length) := by
  induction els generalizing p with
  | nil => exact ⟨hp, by simp⟩
  | cons l els ih =>
    obtain ⟨h1, h2⟩ := h
    rw [hline] at h1
    have hlt : p < ls.length := by
      refine Nat.lt_of_not_le (fun hle => ?_)
      rw [List.getD_eq_getElem?_getD, List.getElem?_eq_none hle] at h1
      exact hne l List.mem_cons_self h1.symm
    obtain ⟨g1, g2⟩ := ih (fun x hx => hne x (List.mem_cons_of_mem _ hx)) h2 (by omega)
    have e1 : p + (els.length + 1) = p + 1 + els.length := by omega
    rw [List.length_cons, e1]
    refine ⟨g1, ?_⟩
    rw [List.drop_eq_getElem_cons hlt, g2]
    rw [List.getD_eq_getElem?_getD, List.getElem?_eq_getElem hlt] at h1
    rw [show ls[p] = l from h1]
    rfl

theorem comment_ne {l : Str} (h : Comment l) : l ≠ [] := by rintro rfl; cases h

theorem conts_ne {ls : List Str} {t : Str} (h : Conts ct b st ls t) : ∀ l ∈ ls, l ≠ [] := by
  induction h with
  | nil => intro l hl; cases hl
  | cons _ _ hq _ ih =>
    intro l hl
    rcases List.mem_cons.1 hl with rfl | hl
    · cases hq; simp
    · exact ih l hl

theorem field_ne {kw : Str} {ls : List Str} {t : Str} (h : Field ct b st kw ls t) : ∀ l ∈ ls, l ≠ [] := by
  obtain ⟨_, _, hq, hc⟩ := h
  intro l hl
  rcases List.mem_cons.1 hl with rfl | hl
  · cases hq; simp
  · exact conts_ne hc l hl

theorem entryLines_ne {ls : List Str} {e : Entry} (h : EntryLines ct b st ls e) : ∀ l ∈ ls, l ≠ [] := by
  have hctx : ∀ {cls c}, CtxtLines ct b st cls c → ∀ l ∈ cls, l ≠ [] := by
    intro cls c h
    cases h with
    | none => intro l hl; cases hl
    | some h => exact field_ne h
  have hpl : ∀ {sls strs}, PluralLines ct b st sls strs → ∀ l ∈ sls, l ≠ [] := by
    intro sls strs h
    induction h with
    | one _ h => exact field_ne h
    | more _ h _ ih =>
      intro l hl
      rcases List.mem_append.1 hl with hl | hl
      · exact field_ne h l hl
      · exact ih l hl
  intro l hl
  cases h with
  | single hc _ h1 h2 h3 =>
    simp only [List.mem_append] at hl
    rcases hl with ((hl | hl) | hl) | hl
    · exact comment_ne (hc l hl)
    · exact hctx h1 l hl
    · exact field_ne h2 l hl
    · exact field_ne h3 l hl
  | plural hc _ h1 h2 h3 h4 =>
    simp only [List.mem_append] at hl
    rcases hl with (((hl | hl) | hl) | hl) | hl
    · exact comment_ne (hc l hl)
    · exact hctx h1 l hl
    · exact field_ne h2 l hl
    · exact field_ne h3 l hl
    · exact hpl h4 l hl

/-- A text read without a message is a well-formed file. -/
theorem file_of_clean (hs : Short T) {ls : List Str} (hline : ∀ q, (T q).line = ls.getD q []) (heof : ∀ q, (T q).eof = decide (ls.length ≤ q))
    (hfu : ls.length < fuel) (hm : ls.length + 1 < intMax) : ∀ (f : Nat) (b : Bool) (p q : Nat) (u : Unit),
    (mainLoopE ct fuel T f b p).2 = .ok u q → (∀ x ∈ (mainLoopE ct fuel T f b p).1, ¬ x.Bad st) →
    ∃ es, File ct st b (ls.drop p) es := by
  intro f
  induction f with
  | zero => intro b p q u h; cases h
  | succ f ih =>
    intro b p q u h hc
    unfold mainLoopE at h hc
    by_cases hp : ls.length ≤ p
    · rw [List.drop_eq_nil_of_le hp]
      exact ⟨[], .comments (fun l hl => by cases hl)⟩
    · have he : (T p).eof = false := by rw [heof]; exact decide_eq_false hp
      simp only [he, Bool.not_false, if_true] at h hc
      have hloud := Loud.entry (ct := ct) (fuel := fuel) (T := T) (b := b) p
      rcases hx : entryE ct fuel T b p with ⟨w, r⟩
      rw [hx] at h hc hloud
      cases r with
      | overflow => cases h
      | diverge => cases h
      | err q' =>
        obtain ⟨r, m, h1⟩ := hloud q' rfl
        exact absurd rfl (hc _ (List.mem_append.2 (.inl h1)))
      | ok a q' =>
        dsimp only at h hc
        have hok : OkC st (entryE ct fuel T b) p a q' := ⟨by rw [hx], fun x hx' => hc x (List.mem_append.2 (.inl (by rw [hx] at hx'; exact hx')))⟩
        obtain ⟨es, hes⟩ := ih _ _ _ _ h (fun x hx' => hc x (List.mem_append.2 (.inr hx')))
        have hcut : ∀ n, n < ls.length → ls.drop n = (T n).line :: ls.drop (n + 1) := by
          intro n hn
          rw [List.drop_eq_getElem_cons hn, hline, List.getD_eq_getElem?_getD, List.getElem?_eq_getElem hn]
          rfl
        rcases inv_entryC hok with ⟨cs, g1, g2, g3, rfl⟩ | ⟨els, e, g1, g2, g3, rfl⟩
        · obtain ⟨k1, k2⟩ := at_drop (fun l hl => comment_ne (g2 l hl)) hline g1 (by omega)
          have hy := y_blank (fuel := fuel) (big5 := b) (st := st) p g2 g1 (by omega) (by omega) g3
          obtain ⟨w', y1, y2, _⟩ := hy
          rw [hx] at y1
          cases y1
          have hb : big5After ct b w = b := by
            rw [big5After_essence, y2]; simp [big5After]
          rw [hb] at hes
          rw [k2]
          by_cases hend : p + cs.length = ls.length
          · rw [hend, List.drop_length, List.append_nil]
            exact ⟨[], .comments g2⟩
          · rw [hcut _ (by omega)]
            exact ⟨es, .blank g2 g3 hes⟩
        · obtain ⟨k1, k2⟩ := at_drop (entryLines_ne g2) hline g1 (by omega)
          have hy := y_entry (fuel := fuel) hs g2 p g1 (by omega) (by omega) g3
          obtain ⟨w', y1, y2, _⟩ := hy
          rw [hx] at y1
          cases y1
          rw [headerCharset_big5 b e w y2] at hes
          rw [k2]
          by_cases hend : p + els.length = ls.length
          · rw [hend, List.drop_length, List.append_nil]
            exact ⟨[e], .last g2⟩
          · rw [hcut _ (by omega)]
            refine ⟨e :: es, .entry g2 ((separator_iff _).2 g3) ?_⟩
            simp only [headerCharset_eq] at hes
            exact hes
end

/-! ### From events to messages -/

/-- A message about the form of the text; `st`: warnings, too. -/
def Form (st : Bool) (m : Diag) : Prop := if st = true then FormMessage m else FormError m

theorem form_unplaced (st : Bool) (m : Diag) : Form st (unplaced m) ↔ Form st m := by
  cases m with
  | po lv f n t cur => cases lv <;> cases st <;> exact Iff.rfl
  | _ => exact Iff.rfl

theorem form_not_po {st : Bool} {m : Diag} (h : ∀ lv f n t cur, m ≠ .po lv f n t cur) : ¬ Form st m := by
  cases m with
  | po lv f n t cur => exact absurd rfl (h lv f n t cur)
  | _ => cases st <;> exact fun h => h

theorem unhandled_length (m : Str) (h : FormWarning m) : m = b!"keyword and string must be seperated by a single space" ∨
    m = b!"leading whitespace before string" ∨ m = b!"unexpected garbage after string ignoren" ∨ m.length = 21 := by
  rcases h with h | h | h | ⟨e, h⟩
  · exact .inl h
  · exact .inr (.inl h)
  · exact .inr (.inr (.inl h))
  · exact .inr (.inr (.inr (by rw [h]; rfl)))

theorem not_form_header (ct : CType) (r : PluralForms) (t : Str) : ∀ m ∈ headerWarnings ct r t, ¬ FormWarning m := by
  have hl : ∀ (ls : List Str) (r : PluralForms), ∀ m ∈ headerMessages ct r ls, m = b!"malformed Content-Type header" ∨
      m = b!"unknown Plural-Forms given" ∨ m = b!"Plural-Forms missmatch between .po file and dictionary" := by
    intro ls
    induction ls with
    | nil => intro r m hm; cases hm
    | cons l ls ih =>
      intro r m hm
      unfold headerMessages at hm
      split at hm
      · split at hm
        · exact ih _ m hm
        · rcases List.mem_cons.1 hm with h | h
          · exact .inl h
          · exact ih _ m h
      · split at hm
        · split at hm
          · rcases List.mem_cons.1 hm with h | h
            · exact .inr (.inl h)
            · exact ih _ m h
          · split at hm
            · exact ih _ m hm
            · split at hm
              · rcases List.mem_cons.1 hm with h | h
                · exact .inr (.inr h)
                · exact ih _ m h
              · exact ih _ m hm
        · exact ih _ m hm
  intro m hm hf
  have hm' : m = b!"malformed Content-Type header" ∨ m = b!"unknown Plural-Forms given" ∨
      m = b!"Plural-Forms missmatch between .po file and dictionary" ∨ m = b!"charset not specified for .po, fallback to utf-8" := by
    unfold headerWarnings at hm
    rcases List.mem_append.1 hm with h | h
    · rcases hl _ _ m h with h | h | h
      · exact .inl h
      · exact .inr (.inl h)
      · exact .inr (.inr (.inl h))
    · split at h
      · exact .inr (.inr (.inr (by simpa using h)))
      · cases h
  have := unhandled_length m hf
  rcases hm' with rfl | rfl | rfl | rfl <;> exact absurd this (by decide)

theorem not_form_plural (r : PluralForms) (n : Nat) : ∀ m ∈ pluralWarnings r n, ¬ FormWarning m := by
  intro m hm hf
  have hm' : m = b!"msgstr[N] seen, but no Plural-Forms given" ∨ m = b!"msgstr[N] count doesn't match Plural-Forms.nplural" := by
    unfold pluralWarnings at hm
    split at hm
    · exact .inl (by simpa using hm)
    · split at hm
      · exact .inr (by simpa using hm)
      · cases hm
  have := unhandled_length m hf
  rcases hm' with rfl | rfl <;> exact absurd this (by decide)

theorem not_form_warnings {st : Bool} {ws : List Str} (h : ∀ m ∈ ws, ¬ FormWarning m) (file : Str) :
    ∀ x ∈ ws.map (Diag.po .warning file 0 · []), ¬ Form st x := by
  intro x hx
  obtain ⟨m, hm, rfl⟩ := List.mem_map.1 hx
  cases st with
  | false => exact fun h => h
  | true => exact h m hm

theorem not_form_convert {st : Bool} {lib : IconvLib} {cv cv' : IConv} {t r : Str} {l : List Diag} (h : cv.convert lib t = .ok r cv' l) :
    ∀ x ∈ l, ¬ Form st x := by
  intro x hx
  refine form_not_po (fun lv f n m cur he => ?_)
  unfold IConv.convert at h
  split at h
  · cases h; cases hx
  · cases h
  · dsimp only at h
    split at h <;> cases h
    all_goals
      first
      | (cases hx; done)
      | (simp only [List.mem_singleton] at hx
         rw [hx] at he; cases he)

theorem not_form_add {st : Bool} (d : Dictionary) (a : Add) : ∀ x ∈ (a.apply d).2, ¬ Form st x := by
  intro x hx
  refine form_not_po (fun lv f n m cur he => ?_)
  rcases apply_quotes d a x hx with ⟨_, _, _, _, _, rfl⟩ | ⟨_, _, _, _, rfl⟩ <;> cases he

/-- What an event adds to the messages. -/
theorem step_form (ct lib uf file) (ped st : Bool) (e : Ev) (k k' : LState)
    (h : lStep ct lib uf file ped e k = .ok () k' ∨ ∃ w, lStep ct lib uf file ped e k = .exn w k') :
    ∃ l, k'.log = k.log ++ l ∧ ((∃ m ∈ l, Form st m) → e.isErr = true ∨ (st = true ∧ e.isDiag = true)) ∧
      (e.Bad st → (st = true → ped = true) → ∃ m ∈ l, Form st m) := by
  have hno : ∀ {l : List Diag}, (∀ x ∈ l, ¬ Form st x) → (∃ m ∈ l, Form st m) → e.isErr = true ∨ (st = true ∧ e.isDiag = true) := by
    rintro l hl ⟨m, h1, h2⟩; exact absurd h2 (hl m h1)
  cases e with
  | diag lv p m q =>
    unfold lStep at h
    dsimp only at h
    split at h
    · rename_i hq
      rcases h with h | ⟨w, h⟩ <;> cases h
      refine ⟨[], by simp, fun ⟨m, hm, _⟩ => (by cases hm), fun hb hp => ?_⟩
      simp only [Bool.and_eq_true, Bool.not_eq_true'] at hq
      cases lv with
      | error => rw [show q = false from hb] at hq; cases hq.1
      | warning => rw [hp hb.1] at hq; cases hq.2
      | _ => cases hb
    · rcases h with h | ⟨w, h⟩ <;> cases h
      refine ⟨_, rfl, fun ⟨m', hm, hf⟩ => ?_, fun hb hp => ⟨_, List.mem_singleton.2 rfl, ?_⟩⟩
      · simp only [List.mem_singleton] at hm
        subst hm
        cases lv with
        | error => exact .inl rfl
        | _ =>
          cases st with
          | false => cases hf
          | true => exact .inr ⟨rfl, rfl⟩
      · cases lv with
        | error => cases st <;> trivial
        | warning =>
          rw [hb.1]
          exact hb.2
        | _ => cases hb
  | clear =>
    unfold lStep at h
    rcases h with h | ⟨w, h⟩ <;> cases h
    exact ⟨[], by simp, fun ⟨m, hm, _⟩ => (by cases hm), fun h => h.elim⟩
  | conv n t =>
    unfold lStep at h
    dsimp only at h
    split at h
    · rename_i hc
      rcases h with h | ⟨w, h⟩ <;> cases h
      exact ⟨_, rfl, hno (not_form_convert hc), fun h => h.elim⟩
    · rcases h with h | ⟨w, h⟩ <;> cases h
  | singular fz ctxt id t =>
    unfold lStep at h
    dsimp only at h
    split at h
    · split at h
      · rename_i hc
        rcases h with h | ⟨w, h⟩ <;> cases h
        refine ⟨_, List.append_assoc _ _ _, hno (fun x hx => ?_), fun h => h.elim⟩
        rcases List.mem_append.1 hx with hx | hx
        · exact not_form_convert hc x hx
        · exact not_form_add _ _ x hx
      · rcases h with h | ⟨w, h⟩ <;> cases h
    · rcases h with h | ⟨w, h⟩ <;> cases h
      exact ⟨[], by simp, fun ⟨m, hm, _⟩ => (by cases hm), fun h => h.elim⟩
  | plural p fz ctxt id idp =>
    unfold lStep at h
    dsimp only at h
    split at h
    · rcases h with h | ⟨w, h⟩ <;> cases h
      refine ⟨_, List.append_assoc _ _ _, hno (fun x hx => ?_), fun h => h.elim⟩
      rcases List.mem_append.1 hx with hx | hx
      · exact not_form_warnings (not_form_plural _ _) _ x hx
      · exact not_form_add _ _ x hx
    · rcases h with h | ⟨w, h⟩ <;> cases h
      exact ⟨[], by simp, fun ⟨m, hm, _⟩ => (by cases hm), fun h => h.elim⟩
  | header p t =>
    unfold lStep at h
    dsimp only at h
    split at h
    · rcases h with h | ⟨w, h⟩ <;> cases h
      exact ⟨_, rfl, hno (not_form_warnings (not_form_header _ _ _) _), fun h => h.elim⟩
    · rcases h with h | ⟨w, h⟩ <;> cases h
      exact ⟨_, rfl, hno (not_form_warnings (not_form_header _ _ _) _), fun h => h.elim⟩

theorem interp_form (ct lib uf file) (ped st : Bool) : ∀ (w : List Ev) (k k' : LState),
    (lInterp ct lib uf file ped w k = .ok () k' ∨ ∃ x, lInterp ct lib uf file ped w k = .exn x k') →
    ∃ l, k'.log = k.log ++ l ∧ ((∃ m ∈ l, Form st m) → ∃ e ∈ w, e.isErr = true ∨ (st = true ∧ e.isDiag = true)) ∧
      (lInterp ct lib uf file ped w k = .ok () k' → (∃ e ∈ w, e.Bad st) → (st = true → ped = true) → ∃ m ∈ l, Form st m) := by
  intro w
  induction w with
  | nil =>
    intro k k' h
    rcases h with h | ⟨w, h⟩ <;> cases h
    exact ⟨[], by simp, fun ⟨m, hm, _⟩ => (by cases hm), fun _ ⟨m, hm, _⟩ => (by cases hm)⟩
  | cons e w ih =>
    intro k k' h
    simp only [lInterp, bind_apply] at h ⊢
    cases hx : lStep ct lib uf file ped e k with
    | ok a k1 =>
      rw [hx] at h
      dsimp only
      obtain ⟨l1, a1, a2, a3⟩ := step_form ct lib uf file ped st e k k1 (.inl hx)
      obtain ⟨l2, b1, b2, b3⟩ := ih k1 k' h
      refine ⟨l1 ++ l2, by rw [b1, a1, List.append_assoc], fun ⟨m, hm, hf⟩ => ?_, fun h0 ⟨e', he', hb⟩ hp => ?_⟩
      · rcases List.mem_append.1 hm with hm | hm
        · exact ⟨e, List.mem_cons_self, a2 ⟨m, hm, hf⟩⟩
        · obtain ⟨e', h1, h2⟩ := b2 ⟨m, hm, hf⟩
          exact ⟨e', List.mem_cons_of_mem _ h1, h2⟩
      · rcases List.mem_cons.1 he' with rfl | he'
        · obtain ⟨m, h1, h2⟩ := a3 hb hp
          exact ⟨m, List.mem_append.2 (.inl h1), h2⟩
        · obtain ⟨m, h1, h2⟩ := b3 h0 ⟨e', he', hb⟩ hp
          exact ⟨m, List.mem_append.2 (.inr h1), h2⟩
    | exn x k1 =>
      rw [hx] at h
      dsimp only
      rcases h with h | ⟨y, h⟩
      · cases h
      · cases h
        obtain ⟨l1, a1, a2, a3⟩ := step_form ct lib uf file ped st e k k' (.inr ⟨x, hx⟩)
        refine ⟨l1, a1, fun hm => ⟨e, List.mem_cons_self, a2 hm⟩, fun h0 => by cases h0⟩
    | poError x => rw [hx] at h; rcases h with h | ⟨y, h⟩ <;> cases h
    | fault x => rw [hx] at h; rcases h with h | ⟨y, h⟩ <;> cases h
    | diverge => rw [hx] at h; rcases h with h | ⟨y, h⟩ <;> cases h

/-- Messages of a parse, in terms of its events. -/
theorem log_form (c : Cfg) (T : Tape) (r : List Ev × TRes Unit) (input : Stream) (d : Dictionary) (st : Bool) :
    ((∃ m ∈ (obsE c T r (initState input d)).log, Form st m) → ∃ e ∈ r.1, e.isErr = true ∨ (st = true ∧ e.isDiag = true)) ∧
    (∀ d' l, obsE c T r (initState input d) = .returned d' l → (∃ a q, r.2 = .ok a q) ∧
      ((∃ e ∈ r.1, e.Bad st) → (st = true → c.pedantic = true) → ∃ m ∈ l, Form st m)) := by
  have hl := lInterp_eq c T r.1 ([], initState input d)
  have hback : ∀ {l : List Diag}, (∃ m ∈ l.map unplaced, Form st m) ↔ ∃ m ∈ l, Form st m := by
    intro l
    constructor
    · rintro ⟨m, hm, hf⟩
      obtain ⟨m', h1, rfl⟩ := List.mem_map.1 hm
      exact ⟨m', h1, (form_unplaced st m').1 hf⟩
    · rintro ⟨m, hm, hf⟩
      exact ⟨_, List.mem_map.2 ⟨m, hm, rfl⟩, (form_unplaced st m).2 hf⟩
  have h0 : (lOf ([], initState input d)).log = [] := rfl
  unfold obsE
  cases hx : interp c T r.1 ([], initState input d) with
  | ok a x =>
    rw [hx] at hl
    obtain ⟨l, g1, g2, g3⟩ := interp_form c.ct c.lib c.useFuzzy c.filename c.pedantic st r.1 _ _ (.inl hl.symm)
    rw [h0, List.nil_append] at g1
    have g1 : x.2.log.map unplaced = l := g1
    dsimp only
    rw [← g1, hback] at g2 g3
    cases hr : r.2 with
    | ok a q =>
      refine ⟨g2, fun d' l' h => ?_⟩
      cases h
      exact ⟨⟨a, q, rfl⟩, g3 hl.symm⟩
    | err q => exact ⟨g2, fun d' l' h => by cases h⟩
    | overflow => exact ⟨fun ⟨m, hm, _⟩ => (by cases hm), fun d' l' h => by cases h⟩
    | diverge => exact ⟨fun ⟨m, hm, _⟩ => (by cases hm), fun d' l' h => by cases h⟩
  | exn y x =>
    rw [hx] at hl
    obtain ⟨l, g1, g2, _⟩ := interp_form c.ct c.lib c.useFuzzy c.filename c.pedantic st r.1 _ _ (.inr ⟨_, hl.symm⟩)
    rw [h0, List.nil_append] at g1
    have g1 : x.2.log.map unplaced = l := g1
    rw [← g1, hback] at g2
    exact ⟨g2, fun d' l' h => by cases h⟩
  | poError x => exact absurd hx (interp_no_poError c T r.1 _ x).1
  | fault f => exact ⟨fun ⟨m, hm, _⟩ => (by cases hm), fun d' l' h => by cases h⟩
  | diverge => exact ⟨fun ⟨m, hm, _⟩ => (by cases hm), fun d' l' h => by cases h⟩
end Tgt.POParser
