import Verif.Proofs.Grammar3
/-
Two parses whose lines look alike to the parser do the same.
-/
namespace Tgt.POParser
open Spec Spec.Po

/-- The text of a string literal at `skip`; `none` if it is malformed. -/
def rdLine (b : Bool) (l : Str) (skip : Nat) : Option Str :=
  if skip + 1 ≥ u32 l.length then none
  else if l[skip]? ≠ some 34 then none
  else match (lex b (l.drop (skip + 1))).res with
    | .error _ => none
    | .ok (t, _) => some t

/-- The text of a string literal after a keyword that ends at `skip`; `none` if it is malformed. -/
def rdKw (ct : CType) (b : Bool) (l : Str) (skip : Nat) : Option Str :=
  if skip + 1 ≥ u32 l.length then none
  else if l[skip]? = some 32 ∧ l[skip + 1]? = some 34 then rdLine b l (skip + 1)
  else match skipTo ct ((l.take (u32 l.length)).drop skip) skip with
    | .error _ => none
    | .ok i => rdLine b l i

/-- The text of a continuation line: `none` if it is none, `some none` if it is malformed. -/
def rdCont (ct : CType) (b : Bool) (l : Str) : Option (Option Str) :=
  (scanQuote ct l 0).map (fun i => rdLine b l i)

/-- Two lines look alike to parsers that classify bytes by `ct` and `ct'`. -/
structure LineSim (ct ct' : CType) (l l' : Str) : Prop where
  empty : emptyLine ct l = emptyLine ct' l'
  hash : hasPrefix b!"#" l = hasPrefix b!"#" l'
  msgid : hasPrefix b!"msgid" l = hasPrefix b!"msgid" l'
  plural : hasPrefix b!"msgid_plural" l = hasPrefix b!"msgid_plural" l'
  ctxt : hasPrefix b!"msgctxt" l = hasPrefix b!"msgctxt" l'
  msgstr : hasPrefix b!"msgstr" l = hasPrefix b!"msgstr" l'
  fuzzy : fuzzyFlag l = fuzzyFlag l'
  index : msgstrIndex l = msgstrIndex l'
  kw : ∀ b skip, rdKw ct b l skip = rdKw ct' b l' skip
  cont : ∀ b, rdCont ct b l = rdCont ct' b l'

/-- Line `p` of one tape looks like line `p + k` of the other. -/
structure TapeSim (ct ct' : CType) (k : Nat) (T T' : Tape) : Prop where
  line : ∀ p, LineSim ct ct' (T p).line (T' (p + k)).line
  eof : ∀ p, (T p).eof = (T' (p + k)).eof

/-- Out of fuel or line counter overflow. -/
def TRes.Bad {α : Type} : TRes α → Prop
  | .overflow | .diverge => True
  | _ => False

/-- The same result, `k` lines later. -/
def TRes.Same {α : Type} (k : Nat) : TRes α → TRes α → Prop
  | .ok a q, .ok a' q' => a = a' ∧ q' = q + k
  | .err q, .err q' => q' = q + k
  | _, _ => False

/-- The same, unless one of them did not come to an end. -/
def Sim {α : Type} (k : Nat) (x y : List Ev × TRes α) : Prop :=
  x.2.Bad ∨ y.2.Bad ∨ (essence x.1 = essence y.1 ∧ x.2.Same k y.2)

variable {α β : Type} {k : Nat}

theorem bind_bad {e : E α} {f : α → E β} {p : Nat} (h : (e p).2.Bad) : ((e >>= f) p).2.Bad := by
  rw [e_bind]; unfold E.bind
  rcases hx : e p with ⟨v, r⟩
  rw [hx] at h
  cases r with
  | ok a q => exact h.elim
  | err q => exact h.elim
  | overflow => trivial
  | diverge => trivial

theorem bind_bad_right {e : E α} {f : α → E β} {p q : Nat} {v : List Ev} {a : α} (he : e p = (v, .ok a q)) (h : (f a q).2.Bad) :
    ((e >>= f) p).2.Bad := by
  rw [e_bind]; unfold E.bind; rw [he]; exact h

theorem Sim.bind {e e' : E α} {f f' : α → E β} {p : Nat} (h : Sim k (e p) (e' (p + k)))
    (hf : ∀ a q, (e p).2 = .ok a q → Sim k (f a q) (f' a (q + k))) : Sim k ((e >>= f) p) ((e' >>= f') (p + k)) := by
  rcases h with h | h | ⟨h1, h2⟩
  · exact .inl (bind_bad h)
  · exact .inr (.inl (bind_bad h))
  · rcases hx : e p with ⟨v, r⟩
    rcases hy : e' (p + k) with ⟨v', r'⟩
    rw [hx] at h1 h2 hf
    rw [hy] at h1 h2
    dsimp only at h1 h2 hf
    cases r with
    | ok a q =>
      cases r' with
      | ok a' q' =>
        obtain ⟨rfl, rfl⟩ := h2
        have e1 : (e >>= f) p = (v ++ (f a q).1, (f a q).2) := by rw [e_bind]; unfold E.bind; rw [hx]
        have e2 : (e' >>= f') (p + k) = (v' ++ (f' a (q + k)).1, (f' a (q + k)).2) := by rw [e_bind]; unfold E.bind; rw [hy]
        rw [e1, e2]
        rcases hf a q rfl with h | h | ⟨h3, h4⟩
        · exact .inl h
        · exact .inr (.inl h)
        · exact .inr (.inr ⟨by rw [essence_append, essence_append, h1, h3], h4⟩)
      | _ => exact h2.elim
    | err q =>
      cases r' with
      | err q' =>
        have e1 : (e >>= f) p = (v, .err q) := by rw [e_bind]; unfold E.bind; rw [hx]
        have e2 : (e' >>= f') (p + k) = (v', .err q') := by rw [e_bind]; unfold E.bind; rw [hy]
        rw [e1, e2]
        exact .inr (.inr ⟨h1, h2⟩)
      | _ => exact h2.elim
    | overflow => exact .inl (by rw [e_bind]; unfold E.bind; rw [hx]; trivial)
    | diverge => exact .inl (by rw [e_bind]; unfold E.bind; rw [hx]; trivial)

theorem Sim.pure (a : α) (p : Nat) : Sim k (E.pure a p) (E.pure a (p + k)) := .inr (.inr ⟨rfl, rfl, rfl⟩)

theorem Sim.next (p : Nat) : Sim k (nextE p) (nextE (p + k)) := by
  unfold nextE
  by_cases h : p + 1 ≥ intMax
  · rw [if_pos h]; exact .inl trivial
  · by_cases h' : p + k + 1 ≥ intMax
    · rw [if_pos h']; exact .inr (.inl trivial)
    · rw [if_neg h, if_neg h']; exact .inr (.inr ⟨rfl, rfl, by omega⟩)

theorem Sim.diverge {y : List Ev × TRes α} {p : Nat} : Sim k (E.diverge p) y := .inl trivial
theorem Sim.diverge' {x : List Ev × TRes α} {p : Nat} : Sim k x (E.diverge p) := .inr (.inl trivial)

theorem Sim.emit (w : List Ev) (p : Nat) : Sim k (E.emit w p) (E.emit w (p + k)) := .inr (.inr ⟨rfl, rfl, rfl⟩)

theorem Sim.emitAt {g g' : Nat → List Ev} {p : Nat} (h : essence (g p) = essence (g' (p + k))) :
    Sim k (E.emitAt g p) (E.emitAt g' (p + k)) := .inr (.inr ⟨h, rfl, rfl⟩)

theorem Sim.ite {c c' : Prop} [Decidable c] [Decidable c'] (hc : c ↔ c') {e1 e2 e1' e2' : E α} {p : Nat}
    (h1 : c → Sim k (e1 p) (e1' (p + k))) (h2 : ¬ c → Sim k (e2 p) (e2' (p + k))) :
    Sim k ((if c then e1 else e2) p) ((if c' then e1' else e2') (p + k)) := by
  by_cases h : c
  · rw [if_pos h, if_pos (hc.1 h)]; exact h1 h
  · rw [if_neg h, if_neg (fun x => h (hc.2 x))]; exact h2 h

/-- The same up to diagnostics and positions in events. -/
def Eqv (x y : List Ev × TRes α) : Prop := essence x.1 = essence y.1 ∧ x.2 = y.2

theorem Eqv.rfl {x : List Ev × TRes α} : Eqv x x := ⟨Eq.refl _, Eq.refl _⟩
theorem Eqv.symm {x y : List Ev × TRes α} (h : Eqv x y) : Eqv y x := ⟨h.1.symm, h.2.symm⟩
theorem Eqv.trans {x y z : List Ev × TRes α} (h : Eqv x y) (h' : Eqv y z) : Eqv x z := ⟨h.1.trans h'.1, h.2.trans h'.2⟩

theorem Sim.eqv {x x' y y' : List Ev × TRes α} (h : Sim k x y) (hx : Eqv x' x) (hy : Eqv y' y) : Sim k x' y' := by
  unfold Sim; rw [hx.1, hx.2, hy.1, hy.2]; exact h

theorem Eqv.bind {e e' : E α} {f f' : α → E β} {p : Nat} (h : Eqv (e p) (e' p))
    (hf : ∀ a q, (e p).2 = .ok a q → Eqv (f a q) (f' a q)) : Eqv ((e >>= f) p) ((e' >>= f') p) := by
  obtain ⟨h1, h2⟩ := h
  rw [e_bind, e_bind]; unfold E.bind
  rcases hx : e p with ⟨v, r⟩
  rcases hy : e' p with ⟨v', r'⟩
  rw [hx] at h1 h2 hf
  rw [hy] at h1 h2
  dsimp only at h1 h2 hf
  subst h2
  cases r with
  | ok a q =>
    obtain ⟨h3, h4⟩ := hf a q (Eq.refl _)
    exact ⟨by rw [essence_append, essence_append, h1, h3], h4⟩
  | _ => exact ⟨h1, Eq.refl _⟩

theorem Eqv.emitAt {g g' : Nat → List Ev} {p : Nat} (h : essence (g p) = essence (g' p)) :
    Eqv (E.emitAt g p) (E.emitAt g' p) := ⟨h, Eq.refl _⟩

section
variable {ct ct' : CType} {fuel fuel' : Nat} {T T' : Tape} {b : Bool}

theorem Sim.line {f f' : Str → E β} {p : Nat} (hf : Sim k (f (T p).line p) (f' (T' (p + k)).line (p + k))) :
    Sim k ((lineE T >>= f) p) ((lineE T' >>= f') (p + k)) := hf

theorem Sim.recover (h : TapeSim ct ct' k T T') : ∀ (f f' p : Nat), Sim k (recoverE ct T f p) (recoverE ct' T' f' (p + k)) := by
  intro f
  induction f with
  | zero => intro f' p; exact Sim.diverge
  | succ f ih =>
    intro f' p
    cases f' with
    | zero => exact Sim.diverge'
    | succ f' =>
      unfold recoverE
      refine Sim.bind (Sim.next p) (fun _ q _ => ?_)
      show Sim k ((if (!(T q).eof && !emptyLine ct (T q).line) = true then recoverE ct T f else E.pure ()) q)
        ((if (!(T' (q + k)).eof && !emptyLine ct' (T' (q + k)).line) = true then recoverE ct' T' f' else E.pure ()) (q + k))
      exact Sim.ite (by rw [h.eof q, (h.line q).empty]) (fun _ => ih f' q) (fun _ => Sim.pure _ _)

theorem Sim.error (h : TapeSim ct ct' k T T') (m m' : Str) (p : Nat) :
    Sim k (errorE (α := α) ct fuel T m p) (errorE ct' fuel' T' m' (p + k)) := by
  unfold errorE
  refine Sim.bind (Sim.emitAt ?_) (fun _ q _ => Sim.bind (Sim.recover h _ _ q) (fun _ q _ => .inr (.inr ⟨rfl, rfl⟩)))
  simp [essence, Ev.isDiag]

theorem Eqv.error (m m' : Str) (p : Nat) : Eqv (errorE (α := α) ct fuel T m p) (errorE ct fuel T m' p) := by
  unfold errorE
  exact Eqv.bind (Eqv.emitAt (by simp [essence, Ev.isDiag])) (fun _ _ _ => Eqv.rfl)

/-- What reading a string amounts to. -/
def rdE (ct : CType) (fuel : Nat) (T : Tape) (out : Str) : Option Str → E Str
  | some t => E.pure (out ++ t)
  | none => errorE ct fuel T []

theorem diags_quiet (u : List Byte) (p : Nat) : essence (u.map (fun e => Ev.diag .warning p (unknownMsg e) false)) = [] := by
  induction u with
  | nil => rfl
  | cons a u ih => simp [essence, Ev.isDiag]

theorem quiet_bind {g : Nat → List Ev} {f : E α} {p : Nat} (h : essence (g p) = []) :
    Eqv ((E.emitAt g >>= fun _ => f) p) (f p) := by
  rw [e_bind]; unfold E.bind E.emitAt
  exact ⟨by rw [essence_append, h, List.nil_append], rfl⟩

theorem quiet_warn {m : Str} {q : Bool} {f : E α} {p : Nat} : Eqv ((warnE m q >>= fun _ => f) p) (f p) :=
  quiet_bind (g := fun p => [.diag .warning p m q]) (by simp [essence, Ev.isDiag])

theorem eqv_getStringLine (out : Str) (skip p : Nat) :
    Eqv (getStringLineE ct fuel T b out skip p) (rdE ct fuel T out (rdLine b (T p).line skip) p) := by
  show Eqv ((if skip + 1 ≥ u32 (T p).line.length then _ else _ : E Str) p) _
  unfold rdLine
  by_cases h1 : skip + 1 ≥ u32 (T p).line.length
  · rw [if_pos h1, if_pos h1]; exact Eqv.error _ _ _
  · rw [if_neg h1, if_neg h1]
    by_cases h2 : (T p).line[skip]? ≠ some 34
    · rw [if_pos h2, if_pos h2]; exact Eqv.error _ _ _
    · rw [if_neg h2, if_neg h2]
      refine Eqv.trans (quiet_bind (diags_quiet _ _)) ?_
      cases (lex b ((T p).line.drop (skip + 1))).res with
      | error m => exact Eqv.error _ _ _
      | ok x =>
        obtain ⟨t, rest⟩ := x
        show Eqv ((if rest.any (fun b => !ct.isspace b) then _ else _ : E Str) p) _
        split
        · exact quiet_warn
        · exact Eqv.rfl

theorem sim_rd (h : TapeSim ct ct' k T T') (out : Str) (o : Option Str) (p : Nat) :
    Sim k (rdE ct fuel T out o p) (rdE ct' fuel' T' out o (p + k)) := by
  cases o with
  | none => exact Sim.error h _ _ _
  | some t => exact Sim.pure _ _

theorem eqv_ite_warn {c : Prop} [Decidable c] {m : Str} {q : Bool} {f : E α} {p : Nat} :
    Eqv (((if c then warnE m q else E.pure ()) >>= fun _ => f) p) (f p) := by
  by_cases h : c
  · rw [if_pos h]; exact quiet_warn
  · rw [if_neg h]; exact ⟨rfl, rfl⟩

theorem sim_contLoop (h : TapeSim ct ct' k T T') : ∀ (f f' : Nat) (out : Str) (p : Nat),
    Sim k (contLoopE ct fuel T b f out p) (contLoopE ct' fuel' T' b f' out (p + k)) := by
  intro f
  induction f with
  | zero => intro f' out p; exact Sim.diverge
  | succ f ih =>
    intro f' out p
    cases f' with
    | zero => exact Sim.diverge'
    | succ f' =>
      unfold contLoopE
      refine Sim.bind (Sim.next p) (fun _ q _ => Sim.line ?_)
      have hc := (h.line q).cont b
      unfold rdCont at hc
      cases h1 : scanQuote ct (T q).line 0 with
      | none =>
        rw [h1] at hc
        cases h2 : scanQuote ct' (T' (q + k)).line 0 with
        | none => exact Sim.pure _ _
        | some i' => rw [h2] at hc; cases hc
      | some i =>
        rw [h1] at hc
        cases h2 : scanQuote ct' (T' (q + k)).line 0 with
        | none => rw [h2] at hc; cases hc
        | some i' =>
          rw [h2] at hc
          simp only [Option.map_some, Option.some.injEq] at hc
          refine Sim.eqv ?_ eqv_ite_warn eqv_ite_warn
          refine Sim.eqv (x := (rdE ct fuel T out (rdLine b (T q).line i) >>= fun o => contLoopE ct fuel T b f o) q)
            (y := (rdE ct' fuel' T' out (rdLine b (T' (q + k)).line i') >>= fun o => contLoopE ct' fuel' T' b f' o) (q + k)) ?_
            (Eqv.bind (eqv_getStringLine _ _ _) (fun _ _ _ => Eqv.rfl)) (Eqv.bind (eqv_getStringLine _ _ _) (fun _ _ _ => Eqv.rfl))
          rw [hc]
          exact Sim.bind (sim_rd h _ _ _) (fun _ q _ => ih _ _ _)

theorem eqv_getString (skip p : Nat) :
    Eqv (getStringE ct fuel T b skip p)
      ((rdE ct fuel T [] (rdKw ct b (T p).line skip) >>= fun o => contLoopE ct fuel T b fuel o) p) := by
  show Eqv ((if skip + 1 ≥ u32 (T p).line.length then _ else _ : E Str) p) _
  unfold rdKw
  by_cases h1 : skip + 1 ≥ u32 (T p).line.length
  · rw [if_pos h1, if_pos h1]
    have : ∀ (f : Str → E Str) (m : Str), (errorE ct fuel T m >>= f) p = errorE ct fuel T m p := by
      intro f m
      unfold errorE
      simp only [e_bind, E.bind, E.emitAt, E.throw]
      rcases recoverE ct T fuel p with ⟨v, r⟩
      cases r <;> simp
    show Eqv _ ((errorE ct fuel T [] >>= _) p)
    rw [this]
    exact Eqv.error _ _ _
  · rw [if_neg h1, if_neg h1]
    refine Eqv.bind ?_ (fun _ _ _ => Eqv.rfl)
    by_cases h2 : (T p).line[skip]? = some 32 ∧ (T p).line[skip + 1]? = some 34
    · rw [if_pos h2, if_pos h2]; exact eqv_getStringLine _ _ _
    · rw [if_neg h2, if_neg h2]
      refine Eqv.trans quiet_warn ?_
      cases skipTo ct (((T p).line.take (u32 (T p).line.length)).drop skip) skip with
      | error m => exact Eqv.error _ _ _
      | ok i => exact eqv_getStringLine _ _ _

theorem sim_getString (h : TapeSim ct ct' k T T') (skip p : Nat) :
    Sim k (getStringE ct fuel T b skip p) (getStringE ct' fuel' T' b skip (p + k)) := by
  refine Sim.eqv ?_ (eqv_getString skip p) (eqv_getString skip (p + k))
  rw [(h.line p).kw b skip]
  exact Sim.bind (sim_rd h _ _ _) (fun _ q _ => sim_contLoop h _ _ _ _)

theorem sim_commentLoop (h : TapeSim ct ct' k T T') : ∀ (f f' : Nat) (fz : Bool) (p : Nat),
    Sim k (commentLoopE T f fz p) (commentLoopE T' f' fz (p + k)) := by
  intro f
  induction f with
  | zero => intro f' fz p; exact Sim.diverge
  | succ f ih =>
    intro f' fz p
    cases f' with
    | zero => exact Sim.diverge'
    | succ f' =>
      unfold commentLoopE
      refine Sim.line (Sim.ite (by rw [(h.line p).hash]) (fun _ => ?_) (fun _ => Sim.pure _ _))
      rw [(h.line p).fuzzy]
      exact Sim.bind (Sim.next p) (fun _ q _ => ih _ _ _)

theorem sim_pluralLoop (h : TapeSim ct ct' k T T') : ∀ (f f' : Nat) (first saw : Bool) (p : Nat),
    Sim k (pluralLoopE ct fuel T b f first saw p) (pluralLoopE ct' fuel' T' b f' first saw (p + k)) := by
  intro f
  induction f with
  | zero => intro f' first saw p; exact Sim.diverge
  | succ f ih =>
    intro f' first saw p
    cases f' with
    | zero => exact Sim.diverge'
    | succ f' =>
      unfold pluralLoopE
      refine Sim.line (Sim.ite (by rw [(h.line p).empty]) (fun _ => ?_) (fun _ => ?_))
      · exact Sim.ite Iff.rfl (fun _ => Sim.error h _ _ _) (fun _ => Sim.pure _ _)
      · rw [(h.line p).index]
        cases msgstrIndex (T' (p + k)).line with
        | none => exact Sim.error h _ _ _
        | some n => exact Sim.bind (sim_getString h _ _) (fun _ q _ => Sim.bind (Sim.emit _ _) (fun _ q _ => ih _ _ _ _))

theorem sim_pluralEntry (h : TapeSim ct ct' k T T') (fz : Bool) (ctxt : Option Str) (id : Str) (p : Nat) :
    Sim k (pluralEntryE ct fuel T b fz ctxt id p) (pluralEntryE ct' fuel' T' b fz ctxt id (p + k)) := by
  unfold pluralEntryE
  refine Sim.bind (sim_getString h _ _) (fun _ q _ => Sim.bind (Sim.emit _ _) (fun _ q _ =>
    Sim.bind (sim_pluralLoop h _ _ _ _ _) (fun _ q _ => Sim.line ?_)))
  refine Sim.ite (by rw [(h.line q).empty]) (fun _ => Sim.error h _ _ _) (fun _ => Sim.ite Iff.rfl (fun _ => Sim.emitAt ?_) (fun _ => Sim.pure _ _))
  simp [essence, Ev.isDiag, Ev.norm]

theorem sim_singularEntry (h : TapeSim ct ct' k T T') (fz : Bool) (ctxt : Option Str) (id : Str) (p : Nat) :
    Sim k (singularEntryE ct fuel T b fz ctxt id p) (singularEntryE ct' fuel' T' b fz ctxt id (p + k)) := by
  unfold singularEntryE
  refine Sim.bind (sim_getString h _ _) (fun _ q _ => Sim.ite Iff.rfl (fun _ => Sim.emitAt ?_) (fun _ =>
    Sim.ite Iff.rfl (fun _ => Sim.emit _ _) (fun _ => Sim.pure _ _)))
  simp [essence, Ev.isDiag, Ev.norm]

theorem sim_entryBody (h : TapeSim ct ct' k T T') (fz : Bool) (p : Nat) :
    Sim k (entryBodyE ct fuel T b fz p) (entryBodyE ct' fuel' T' b fz (p + k)) := by
  unfold entryBodyE
  refine Sim.bind ?_ (fun ctxt q _ => Sim.bind ?_ (fun id q _ => Sim.line (Sim.ite (by rw [(h.line q).plural])
    (fun _ => sim_pluralEntry h _ _ _ _) (fun _ => Sim.line (Sim.ite (by rw [(h.line q).msgstr])
      (fun _ => sim_singularEntry h _ _ _ _) (fun _ => Sim.error h _ _ _))))))
  · unfold ctxtE
    exact Sim.line (Sim.ite (by rw [(h.line p).ctxt]) (fun _ => Sim.bind (sim_getString h _ _) (fun _ q _ => Sim.pure _ _)) (fun _ => Sim.pure _ _))
  · unfold msgidE
    exact Sim.line (Sim.ite (by rw [(h.line q).msgid]) (fun _ => sim_getString h _ _) (fun _ => Sim.error h _ _ _))

theorem sim_entry (h : TapeSim ct ct' k T T') (p : Nat) :
    Sim k (entryE ct fuel T b p) (entryE ct' fuel' T' b (p + k)) := by
  unfold entryE
  refine Sim.bind (sim_commentLoop h _ _ _ _) (fun fz q _ => Sim.line (Sim.bind (Sim.ite (by rw [(h.line q).empty])
    (fun _ => sim_entryBody h _ _) (fun _ => Sim.pure _ _)) (fun _ q _ => ?_)))
  unfold finishE
  exact Sim.line (Sim.bind (Sim.ite (by rw [(h.line q).empty]) (fun _ => Sim.error h _ _ _) (fun _ => Sim.pure _ _)) (fun _ q _ => Sim.next _))

/-- The whole loop; `hb`: the announced charsets are understood alike. -/
theorem sim_mainLoop (h : TapeSim ct ct' k T T') (hb : ∀ b w, big5After ct b w = big5After ct' b w) : ∀ (f f' : Nat) (b : Bool) (p : Nat),
    Sim k (mainLoopE ct fuel T f b p) (mainLoopE ct' fuel' T' f' b (p + k)) := by
  intro f
  induction f with
  | zero => intro f' b p; exact Sim.diverge
  | succ f ih =>
    intro f' b p
    cases f' with
    | zero => exact Sim.diverge'
    | succ f' =>
      unfold mainLoopE
      rw [← h.eof p]
      by_cases he : (T p).eof = true
      · rw [he]; exact Sim.pure () p
      · have he' : (T p).eof = false := by simpa using he
        rw [he']
        simp only [Bool.not_false, if_true]
        have hs := sim_entry (fuel := fuel) (fuel' := fuel') (b := b) h p
        rcases hx : entryE ct fuel T b p with ⟨v, r⟩
        rcases hy : entryE ct' fuel' T' b (p + k) with ⟨v', r'⟩
        rw [hx, hy] at hs
        have key : ∀ q, essence v = essence v' →
            Sim k (v ++ (mainLoopE ct fuel T f (big5After ct b v) q).1, (mainLoopE ct fuel T f (big5After ct b v) q).2)
              (v' ++ (mainLoopE ct' fuel' T' f' (big5After ct' b v') (q + k)).1, (mainLoopE ct' fuel' T' f' (big5After ct' b v') (q + k)).2) := by
          intro q hv
          have : big5After ct' b v' = big5After ct b v := by
            rw [← hb, big5After_essence (ct := ct) b v', ← hv, ← big5After_essence (ct := ct) b v]
          rw [this]
          rcases ih f' (big5After ct b v) q with h1 | h1 | ⟨h1, h2⟩
          · exact .inl h1
          · exact .inr (.inl h1)
          · exact .inr (.inr ⟨by rw [essence_append, essence_append, hv, h1], h2⟩)
        cases r with
        | ok a q =>
          cases r' with
          | ok a' q' =>
            rcases hs with h1 | h1 | ⟨h1, h2⟩
            · exact h1.elim
            · exact h1.elim
            · obtain ⟨_, rfl⟩ := h2
              exact key q h1
          | err q' => rcases hs with h1 | h1 | ⟨h1, h2⟩ <;> (first | exact h1.elim | exact h2.elim)
          | overflow => exact .inr (.inl trivial)
          | diverge => exact .inr (.inl trivial)
        | err q =>
          cases r' with
          | err q' =>
            rcases hs with h1 | h1 | ⟨h1, h2⟩
            · exact h1.elim
            · exact h1.elim
            · have : q' = q + k := h2
              subst this
              exact key q h1
          | ok a' q' => rcases hs with h1 | h1 | ⟨h1, h2⟩ <;> (first | exact h1.elim | exact h2.elim)
          | overflow => exact .inr (.inl trivial)
          | diverge => exact .inr (.inl trivial)
        | overflow => exact .inl trivial
        | diverge => exact .inl trivial

end
end Tgt.POParser
