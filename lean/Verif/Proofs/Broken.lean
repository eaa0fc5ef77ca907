import Verif.Proofs.LastLine
/-
A stream that fails in the middle of a text.
-/
namespace Tgt.POParser
open Spec Spec.Po

/-! ### The tape of a stream that fails -/

/-- The cells of a failing stream and of an ordinary one over the same bytes. -/
structure Pair (x y : Cell) : Prop where
  line : x.line = y.line
  good : x.input.good = y.input.good
  eof : x.eof = !x.input.good
  rest : x.input.good = true → x.input.rest = y.input.rest ∧ x.input.broken = true ∧ y.input.broken = false

theorem Pair.next {x y : Cell} (h : Pair x y) : Pair x.next y.next := by
  obtain ⟨⟨xr, xg, xb⟩, xl, xe⟩ := x
  obtain ⟨⟨yr, yg, yb⟩, yl, ye⟩ := y
  obtain ⟨h1, h2, h3, h4⟩ := h
  dsimp only at h1 h2 h3 h4
  subst h1; subst h2; subst h3
  cases xg with
  | false => exact ⟨rfl, rfl, rfl, fun h => by cases h⟩
  | true =>
    obtain ⟨e1, e2, e3⟩ := h4 rfl
    subst e1; subst e2; subst e3
    cases hs : splitLine xr with
    | some lr =>
      obtain ⟨l, r⟩ := lr
      have a : ∀ b e, (Cell.mk ⟨xr, true, b⟩ xl e).next = ⟨⟨r, true, b⟩, l, e⟩ := by
        intro b e; simp [Cell.next, Stream.getline, hs]
      rw [a, a]
      exact ⟨rfl, rfl, rfl, fun _ => ⟨rfl, rfl, rfl⟩⟩
    | none =>
      have a : (Cell.mk ⟨xr, true, true⟩ xl (!true)).next = ⟨⟨[], false, true⟩, xr, true⟩ := by
        simp [Cell.next, Stream.getline, hs]
      rw [a]
      cases xr with
      | nil => exact ⟨rfl, rfl, rfl, fun h => by cases h⟩
      | cons b t =>
        have a' : (Cell.mk ⟨b :: t, true, false⟩ xl ye).next = ⟨⟨[], false, false⟩, b :: t, ye⟩ := by
          simp [Cell.next, Stream.getline, hs]
        rw [a']
        exact ⟨rfl, rfl, rfl, fun h => by cases h⟩

theorem Pair.tape {x y : Cell} (h : Pair x y) (p : Nat) : Pair (tape x p) (tape y p) := by
  induction p with
  | zero => exact h
  | succ p ih => exact ih.next

theorem pair_start (s : Str) (p : Nat) : Pair (startTape (.brokenAfter s) p) (startTape (.ofBytes s) p) := by
  have h0 : Pair (Cell.mk (.brokenAfter s) [] false) (Cell.mk (.ofBytes s) [] false) := ⟨rfl, rfl, rfl, fun _ => ⟨rfl, rfl, rfl⟩⟩
  have h1 := h0.next
  unfold startTape
  refine Pair.tape ?_ p
  exact ⟨by dsimp only; rw [h1.line], h1.good, h1.eof, h1.rest⟩

theorem good_tape (n : Nat) : ∀ (r l0 : Str) (b e : Bool) (p : Nat), r.length ≤ n →
    (tape ⟨⟨r, true, b⟩, l0, e⟩ p).input.good = decide (p ≤ (splitLines r).1.length) := by
  induction n with
  | zero =>
    intro r l0 b e p hr
    have : r = [] := List.length_eq_zero_iff.1 (by omega)
    subst this
    cases p with
    | zero => rfl
    | succ p =>
      rw [tape_succ]
      have hx : (Cell.mk ⟨[], true, b⟩ l0 e).next.input.good = false := by cases b <;> rfl
      have hp : ∀ q, (tape (Cell.mk ⟨[], true, b⟩ l0 e).next q).input.good = false := by
        intro q
        cases q with
        | zero => exact hx
        | succ q => rw [(tape_stuck _ hx q).2.2]; exact hx
      rw [hp]; simp [splitLines]
  | succ n ih =>
    intro r l0 b e p hr
    cases p with
    | zero => simp [tape]
    | succ p =>
    rw [tape_succ]
    cases hs : splitLine r with
    | some x =>
      obtain ⟨l, r'⟩ := x
      obtain ⟨h1, h2⟩ := splitLine_some r l r' hs
      have hx : (Cell.mk ⟨r, true, b⟩ l0 e).next = ⟨⟨r', true, b⟩, l, e⟩ := by
        simp [Cell.next, Stream.getline, hs]
      rw [hx, ih r' l b e p (by have := splitLine_length _ _ _ hs; omega)]
      have hl : splitLines r = (l :: (splitLines r').1, (splitLines r').2) := by
        rw [h1]; exact splitLines_append l r' h2
      rw [hl]
      simp
    | none =>
      have hl := splitLines_single r (splitLine_none r hs)
      have hx : (Cell.mk ⟨r, true, b⟩ l0 e).next.input.good = false := by
        cases b <;> simp [Cell.next, Stream.getline, hs]
        split <;> rfl
      have hp : ∀ q, (tape (Cell.mk ⟨r, true, b⟩ l0 e).next q).input.good = false := by
        intro q
        cases q with
        | zero => exact hx
        | succ q => rw [(tape_stuck _ hx q).2.2]; exact hx
      rw [hp, hl]; simp

/-- The line does not matter to the rest of the stream. -/
theorem tape_input_congr {x y : Cell} (h : x.input = y.input) (p : Nat) : (tape x p).input = (tape y p).input := by
  induction p with
  | zero => exact h
  | succ p ih =>
    have : ∀ z : Cell, z.next.input = (z.input.getline []).2.2 := by
      intro z
      show (z.input.getline z.line).2.2 = _
      unfold Stream.getline
      split
      · rfl
      · rfl
    rw [tape_step, tape_step, this, this, ih]

theorem startTape_broken (s : Str) (p : Nat) :
    (startTape (.brokenAfter s) p).line = lineAt (withoutBom s) p ∧
    (startTape (.brokenAfter s) p).eof = decide ((splitLines s).1.length ≤ p) := by
  have h := pair_start s p
  refine ⟨by rw [h.line, (startTape_lines s p).1], ?_⟩
  rw [h.eof]
  have h1 := good_tape s.length s [] true false (p + 1) (Nat.le_refl _)
  rw [tape_succ] at h1
  have h2 : (startTape (.brokenAfter s) p).input.good = (tape (Cell.mk ⟨s, true, true⟩ [] false).next p).input.good := by
    unfold startTape
    exact congrArg Stream.good (tape_input_congr (x := { (Cell.mk (.brokenAfter s) [] false).next with
      line := stripBom (Cell.mk (.brokenAfter s) [] false).next.line }) (y := (Cell.mk ⟨s, true, true⟩ [] false).next) rfl p)
  rw [h2, h1]
  by_cases hp : (splitLines s).1.length ≤ p
  · simp [hp]; omega
  · simp [hp]; omega

/-! ### Parser code looks only at lines and ends -/

section
variable {ct : CType} {fuel : Nat} {T T' : Tape} {b : Bool}

/-- The same lines and ends. -/
def SameTape (T T' : Tape) : Prop := ∀ p, (T p).line = (T' p).line ∧ (T p).eof = (T' p).eof

theorem SameTape.lineE (h : SameTape T T') : lineE T = lineE T' := by funext p; simp only [POParser.lineE, (h p).1]
theorem SameTape.eofE (h : SameTape T T') : eofE T = eofE T' := by funext p; simp only [POParser.eofE, (h p).2]

theorem same_recover (h : SameTape T T') (f : Nat) : recoverE ct T f = recoverE ct T' f := by
  induction f with
  | zero => rfl
  | succ f ih => unfold recoverE; rw [h.lineE, h.eofE, ih]

theorem same_error {α : Type} (h : SameTape T T') (m : Str) : errorE (α := α) ct fuel T m = errorE ct fuel T' m := by
  unfold errorE; rw [same_recover h]

theorem same_getStringLine (h : SameTape T T') (out : Str) (skip : Nat) :
    getStringLineE ct fuel T b out skip = getStringLineE ct fuel T' b out skip := by
  unfold getStringLineE; rw [h.lineE]; simp only [same_error h]

theorem same_contLoop (h : SameTape T T') (f : Nat) : ∀ out, contLoopE ct fuel T b f out = contLoopE ct fuel T' b f out := by
  induction f with
  | zero => intro out; rfl
  | succ f ih => intro out; unfold contLoopE; simp only [h.lineE, same_getStringLine h, ih]

theorem same_getString (h : SameTape T T') (skip : Nat) : getStringE ct fuel T b skip = getStringE ct fuel T' b skip := by
  unfold getStringE; simp only [h.lineE, same_error h, same_getStringLine h, same_contLoop h]

theorem same_commentLoop (h : SameTape T T') (f : Nat) : ∀ z, commentLoopE T f z = commentLoopE T' f z := by
  induction f with
  | zero => intro z; rfl
  | succ f ih => intro z; unfold commentLoopE; simp only [h.lineE, ih]

theorem same_pluralLoop (h : SameTape T T') (f : Nat) : ∀ x y, pluralLoopE ct fuel T b f x y = pluralLoopE ct fuel T' b f x y := by
  induction f with
  | zero => intro x y; rfl
  | succ f ih => intro x y; unfold pluralLoopE; simp only [h.lineE, same_error h, same_getString h, ih]

theorem same_entry (h : SameTape T T') : entryE ct fuel T b = entryE ct fuel T' b := by
  unfold entryE entryBodyE finishE ctxtE msgidE pluralEntryE singularEntryE
  simp only [h.lineE, same_error h, same_getString h, same_commentLoop h, same_pluralLoop h]

theorem same_mainLoop (h : SameTape T T') (f : Nat) : ∀ (b : Bool) (p : Nat), mainLoopE ct fuel T f b p = mainLoopE ct fuel T' f b p := by
  induction f with
  | zero => intro b p; rfl
  | succ f ih => intro b p; unfold mainLoopE; simp only [(h p).2, same_entry h, ih]

end

theorem evStep_same (c : Cfg) {T T' : Tape} (ht : SameTape T T') (e : Ev) (x y : List Str × PState) (h : VisEq x y) :
    VisR (evStep c T e x) (evStep c T' e y) := by
  obtain ⟨v, s⟩ := x
  obtain ⟨v', s'⟩ := y
  obtain ⟨h1, h2, h3, h4, h5⟩ := h
  dsimp only at h1 h2 h3 h4 h5
  subst h1
  cases e with
  | diag lv p m ped =>
    simp only [evStep, (ht p).1]
    split
    · exact ⟨rfl, h2, h3, h4, h5⟩
    · exact ⟨rfl, h2, h3, h4, by dsimp only; rw [h5]⟩
  | clear => exact evStep_vis c T .clear (v, s) (v, s') ⟨rfl, h2, h3, h4, h5⟩
  | conv n t => exact evStep_vis c T (.conv n t) (v, s) (v, s') ⟨rfl, h2, h3, h4, h5⟩
  | singular fz ctxt id t => exact evStep_vis c T (.singular fz ctxt id t) (v, s) (v, s') ⟨rfl, h2, h3, h4, h5⟩
  | plural p fz ctxt id idp =>
    simp only [evStep, (ht p).1]
    by_cases hf : (c.useFuzzy || !fz) = true
    · rw [if_pos hf, if_pos hf]
      exact ⟨rfl, by dsimp only; rw [h2], h3, h4, by dsimp only; rw [h5, h2]⟩
    · rw [if_neg hf, if_neg hf]; exact ⟨rfl, h2, h3, h4, h5⟩
  | header p t =>
    simp only [evStep]
    rw [parseHeader_eq, parseHeader_eq]
    simp only [setCharsets, afterHeader, mv, h2, h3, h4, h5, (ht p).1]
    generalize (s'.conv.setCharsets _ _ _ _) = r
    cases h : r.2 with
    | none => exact ⟨rfl, rfl, rfl, rfl, rfl⟩
    | some w => exact ⟨rfl, rfl, rfl, rfl, rfl, rfl⟩

theorem interp_same (c : Cfg) {T T' : Tape} (ht : SameTape T T') (w : List Ev) (x y : List Str × PState) (h : VisEq x y) :
    VisR (interp c T w x) (interp c T' w y) := by
  induction w generalizing x y with
  | nil => exact h
  | cons e w ih =>
    simp only [interp, bind_apply]
    have := evStep_same c ht e x y h
    cases h1 : evStep c T e x <;> cases h2 : evStep c T' e y <;>
      rw [h1, h2] at this <;> try exact this.elim
    · exact ih _ _ this
    · exact this
    · exact this
    · exact this
    · exact this

theorem obsE_same (c : Cfg) {T T' : Tape} (ht : SameTape T T') (r : List Ev × TRes Unit) (i1 i2 : Stream) (d : Dictionary) :
    obsE c T r (initState i1 d) = obsE c T' r (initState i2 d) := by
  have := interp_same c ht r.1 ([], initState i1 d) ([], initState i2 d) ⟨rfl, rfl, rfl, rfl, rfl⟩
  unfold obsE
  cases h1 : interp c T r.1 ([], initState i1 d) <;> cases h2 : interp c T' r.1 ([], initState i2 d) <;>
    rw [h1, h2] at this <;> try exact this.elim
  · dsimp only
    cases r.2 <;> simp only [this.dict, this.log]
  · simp only [this.dict, VisEq.log this]
  · simp only [this.1, this.2.dict, this.2.log]
  · rw [show _ = _ from this]

/-- What can be observed of a parse depends only on the lines the stream delivers. -/
theorem run_same (c : Cfg) (i i' : Stream) (ht : SameTape (startTape i) (startTape i')) (d : Dictionary)
    (h : i.rest.length < c.fuel) (h' : i'.rest.length < c.fuel) : observe (run c i d) = observe (run c i' d) := by
  rw [run_obs c i d h, run_obs c i' d h']
  have : events c.ct c.fuel i = events c.ct c.fuel i' := same_mainLoop ht _ _ _
  rw [this]
  exact obsE_same c ht _ _ _ _

/-! ### A stream that fails in the middle of a line -/

/-- The same lines; the first tape ends at `n`, the second at `n` or one later. -/
structure Cut (T T' : Tape) (n : Nat) : Prop where
  line : ∀ p, (T p).line = (T' p).line
  eof : ∀ p, (T p).eof = decide (n ≤ p)
  eof' : (∀ p, (T' p).eof = decide (n ≤ p)) ∨ ∀ p, (T' p).eof = decide (n + 1 ≤ p)
  stuck : ∀ p, n ≤ p → (T p).line = (T n).line

/-- The same events up to diagnostics, and the same end up to an error at the end of the tape. -/
structure Cb {α : Type} (n : Nat) (e e' : E α) (p : Nat) : Prop where
  ev : essence (e p).1 = essence (e' p).1
  res : (e p).2 = (e' p).2 ∨ ((e p).2 = .err n ∧ (e' p).2 = .err (n + 1))

section
variable {α β : Type} {p n : Nat}

theorem Cb.bind {e e' : E α} {f f' : α → E β} (h : Cb n e e' p)
    (hf : ∀ a q, Cb n (f a) (f' a) q) : Cb n (e >>= f) (e' >>= f') p := by
  obtain ⟨h1, h2⟩ := h
  have hr : (e >>= f) p = E.bind e f p := rfl
  have hr' : (e' >>= f') p = E.bind e' f' p := rfl
  rcases hx : e p with ⟨v, r⟩
  rcases hy : e' p with ⟨v', r'⟩
  rw [hx, hy] at h1 h2
  dsimp only at h1 h2
  constructor
  · rw [hr, hr']; unfold E.bind; rw [hx, hy]
    rcases h2 with rfl | ⟨rfl, rfl⟩
    · cases r with
      | ok a q => dsimp only; rw [essence_append, essence_append, h1, (hf a q).ev]
      | _ => exact h1
    · exact h1
  · rw [hr, hr']; unfold E.bind; rw [hx, hy]
    rcases h2 with rfl | ⟨rfl, rfl⟩
    · cases r with
      | ok a q => exact (hf a q).res
      | _ => exact .inl rfl
    · exact .inr ⟨rfl, rfl⟩

theorem Cb.refl {e : E α} : Cb n e e p := ⟨rfl, .inl rfl⟩

theorem Cb.ite {e1 e2 e1' e2' : E α} (c : Prop) [Decidable c] (h1 : Cb n e1 e1' p) (h2 : Cb n e2 e2' p) :
    Cb n (if c then e1 else e2) (if c then e1' else e2') p := by
  split
  · exact h1
  · exact h2
end

section
variable {α : Type} {ct : CType} {fuel : Nat} {T T' : Tape} {b : Bool} {n : Nat}

theorem Cut.lineE (h : Cut T T' n) : POParser.lineE T' = POParser.lineE T := by
  funext p; simp only [POParser.lineE, h.line p]

theorem recover_succ (U : Tape) (f p : Nat) (ho : p + 1 < intMax) : recoverE ct U (f + 1) p
      = if !(U (p + 1)).eof && !emptyLine ct (U (p + 1)).line then recoverE ct U f (p + 1) else ([], .ok () (p + 1)) := by
  show (nextE >>= fun _ => _) p = _
  rw [e_bind]; unfold E.bind nextE; rw [if_neg (by omega)]
  dsimp only
  rw [List.nil_append]
  show (if (!(U (p + 1)).eof && !emptyLine ct (U (p + 1)).line) = true then recoverE ct U f else E.pure ()) (p + 1) = _
  split <;> rfl

theorem recover_over (U : Tape) (f p : Nat) (ho : intMax ≤ p + 1) : recoverE ct U (f + 1) p = ([], .overflow) := by
  show (nextE >>= fun _ => _) p = _
  rw [e_bind]; unfold E.bind nextE; rw [if_pos (by omega)]

theorem cb_recover (h : Cut T T' n) (hn : n + 1 < intMax) : ∀ (f p : Nat), 0 < f → n + 1 ≤ f + p →
    recoverE ct T f p = recoverE ct T' f p ∨
    (recoverE ct T f p = ([], .ok () n) ∧ recoverE ct T' f p = ([], .ok () (n + 1))) := by
  intro f
  induction f with
  | zero => intro p h0; cases h0
  | succ f ih =>
    intro p _ hf
    rcases Nat.lt_or_ge (p + 1) intMax with ho | ho
    · rw [recover_succ T f p ho, recover_succ T' f p ho, h.eof (p + 1), ← h.line (p + 1)]
      rcases Nat.lt_trichotomy (p + 1) n with hp | hp | hp
      · have e' : (T' (p + 1)).eof = false := by rcases h.eof' with e | e <;> rw [e] <;> simp <;> omega
        rw [e', decide_eq_false (by omega)]
        split
        · exact ih (p + 1) (by omega) (by omega)
        · exact .inl rfl
      · subst hp
        rw [decide_eq_true (Nat.le_refl _)]
        rcases h.eof' with e | e
        · rw [e, decide_eq_true (Nat.le_refl _)]; exact .inl rfl
        · rw [e, decide_eq_false (by omega)]
          by_cases hb : emptyLine ct (T (p + 1)).line = true
          · rw [hb]; exact .inl rfl
          · have hb : emptyLine ct (T (p + 1)).line = false := by simpa using hb
            rw [hb]
            refine .inr ⟨rfl, ?_⟩
            show recoverE ct T' f (p + 1) = _
            obtain ⟨g, rfl⟩ : ∃ g, f = g + 1 := ⟨f - 1, by omega⟩
            rw [recover_succ T' g (p + 1) (by omega), e, decide_eq_true (by omega)]
            rfl
      · have e' : (T' (p + 1)).eof = true := by rcases h.eof' with e | e <;> rw [e] <;> simp <;> omega
        rw [e', decide_eq_true (by omega)]; exact .inl rfl
    · rw [recover_over T f p ho, recover_over T' f p ho]; exact .inl rfl

theorem Cb.error (h : Cut T T' n) (hn : n + 1 < intMax) (hF : n + 1 ≤ fuel) {p : Nat} (m : Str) :
    Cb n (errorE (α := α) ct fuel T m) (errorE ct fuel T' m) p := by
  constructor <;> rw [errorE_eq, errorE_eq]
  · have : ∀ m w, essence (Ev.diag .error p m false :: w) = essence w := fun m w => by simp [essence, Ev.isDiag]
    rw [this, this]
    rcases cb_recover (ct := ct) h hn fuel p (by omega) (by omega) with e | ⟨e, e'⟩
    · rw [e]
    · rw [e, e']
  · rcases cb_recover (ct := ct) h hn fuel p (by omega) (by omega) with e | ⟨e, e'⟩
    · rw [e]; exact .inl rfl
    · rw [e, e']; exact .inr ⟨rfl, rfl⟩

theorem Cb.line {f f' : Str → E α} {p : Nat} (h : Cut T T' n) (hf : Cb n (f (T p).line) (f' (T p).line) p) :
    Cb n (POParser.lineE T >>= f) (POParser.lineE T' >>= f') p := by
  rw [h.lineE]
  have e1 : (POParser.lineE T >>= f) p = f (T p).line p := rfl
  have e2 : (POParser.lineE T >>= f') p = f' (T p).line p := rfl
  exact ⟨by rw [e1, e2]; exact hf.ev, by rw [e1, e2]; exact hf.res⟩

section
variable (h : Cut T T' n) (hn : n + 1 < intMax) (hF : n + 1 ≤ fuel)
include h hn hF

theorem cb_getStringLine (out : Str) (skip : Nat) {p : Nat} :
    Cb n (getStringLineE ct fuel T b out skip) (getStringLineE ct fuel T' b out skip) p := by
  unfold getStringLineE
  refine Cb.line h (Cb.ite _ (Cb.error h hn hF _) (Cb.ite _ (Cb.error h hn hF _) ?_))
  refine Cb.bind Cb.refl (fun _ q => ?_)
  split
  · exact Cb.error h hn hF _
  · exact Cb.refl

theorem cb_contLoop : ∀ (f : Nat) (out : Str) (p : Nat),
    Cb n (contLoopE ct fuel T b f out) (contLoopE ct fuel T' b f out) p := by
  intro f
  induction f with
  | zero => intro out p; exact Cb.refl
  | succ f ih =>
    intro out p
    unfold contLoopE
    refine Cb.bind Cb.refl (fun _ q => Cb.line h ?_)
    split
    · exact Cb.bind Cb.refl (fun _ q => Cb.bind (cb_getStringLine h hn hF _ _) (fun s q => ih _ _))
    · exact Cb.refl

theorem cb_getString (skip : Nat) {p : Nat} : Cb n (getStringE ct fuel T b skip) (getStringE ct fuel T' b skip) p := by
  unfold getStringE
  refine Cb.line h (Cb.ite _ (Cb.error h hn hF _) ?_)
  refine Cb.bind (Cb.ite _ (cb_getStringLine h hn hF _ _) ?_) (fun s q => cb_contLoop h hn hF _ _ _)
  refine Cb.bind Cb.refl (fun _ q => ?_)
  split
  · exact Cb.error h hn hF _
  · exact cb_getStringLine h hn hF _ _

omit hn hF in
theorem cb_commentLoop : ∀ (f : Nat) (fz : Bool) (p : Nat), Cb n (commentLoopE T f fz) (commentLoopE T' f fz) p := by
  intro f
  induction f with
  | zero => intro fz p; exact Cb.refl
  | succ f ih =>
    intro fz p
    unfold commentLoopE
    exact Cb.line h (Cb.ite _ (Cb.bind Cb.refl (fun _ q => ih _ _)) Cb.refl)

theorem cb_pluralLoop : ∀ (f : Nat) (first saw : Bool) (p : Nat),
    Cb n (pluralLoopE ct fuel T b f first saw) (pluralLoopE ct fuel T' b f first saw) p := by
  intro f
  induction f with
  | zero => intro first saw p; exact Cb.refl
  | succ f ih =>
    intro first saw p
    unfold pluralLoopE
    refine Cb.line h (Cb.ite _ (Cb.ite _ (Cb.error h hn hF _) Cb.refl) ?_)
    split
    · exact Cb.bind (cb_getString h hn hF _) (fun s q => Cb.bind Cb.refl (fun _ q' => ih _ _ _))
    · exact Cb.error h hn hF _

theorem cb_entry (p : Nat) : Cb n (entryE ct fuel T b) (entryE ct fuel T' b) p := by
  unfold entryE
  refine Cb.bind (cb_commentLoop h _ _ _) (fun fz q => Cb.line h (Cb.bind (Cb.ite _ ?_ Cb.refl) (fun _ q => ?_)))
  · unfold entryBodyE ctxtE msgidE
    refine Cb.bind (Cb.line h (Cb.ite _ (Cb.bind (cb_getString h hn hF _) (fun _ _ => Cb.refl)) Cb.refl)) (fun c q => ?_)
    refine Cb.bind (Cb.line h (Cb.ite _ (cb_getString h hn hF _) (Cb.error h hn hF _))) (fun i q => ?_)
    refine Cb.line h (Cb.ite _ ?_ (Cb.line h (Cb.ite _ ?_ (Cb.error h hn hF _))))
    · unfold pluralEntryE
      refine Cb.bind (cb_getString h hn hF _) (fun _ q => Cb.bind Cb.refl (fun _ q => Cb.bind (cb_pluralLoop h hn hF _ _ _ _) (fun _ q => ?_)))
      exact Cb.line h (Cb.ite _ (Cb.error h hn hF _) Cb.refl)
    · unfold singularEntryE
      exact Cb.bind (cb_getString h hn hF _) (fun _ q => Cb.refl)
  · unfold finishE
    exact Cb.line h (Cb.bind (Cb.ite _ (Cb.error h hn hF _) Cb.refl) (fun _ q => Cb.refl))

end

/-- Code that does not go back before `n`, and moves on when it throws. -/
structure Late {α : Type} (n : Nat) (e : E α) (p : Nat) : Prop where
  ok : ∀ a q, (e p).2 = .ok a q → n ≤ q
  err : ∀ q, (e p).2 = .err q → n < q

theorem Late.bind {β : Type} {e : E α} {f : α → E β} {p : Nat} (h : Late n e p) (hf : ∀ a q, n ≤ q → Late n (f a) q) : Late n (e >>= f) p := by
  have hr : (e >>= f) p = E.bind e f p := rfl
  rcases hx : e p with ⟨v, r⟩
  obtain ⟨h1, h2⟩ := h
  rw [hx] at h1 h2
  constructor <;> rw [hr] <;> unfold E.bind <;> rw [hx]
  · intro a q hq
    cases r with
    | ok b q' => exact (hf b q' (h1 b q' rfl)).ok a q hq
    | _ => cases hq
  · intro q hq
    cases r with
    | ok b q' => exact (hf b q' (h1 b q' rfl)).err q hq
    | err q' => cases hq; exact h2 _ rfl
    | _ => cases hq

theorem Late.pure {a : α} {p : Nat} (hp : n ≤ p) : Late n (E.pure a) p := ⟨fun _ _ h => by cases h; exact hp, fun _ h => by cases h⟩
theorem Late.emitAt {w : Nat → List Ev} {p : Nat} (hp : n ≤ p) : Late n (E.emitAt w) p := ⟨fun _ _ h => by cases h; exact hp, fun _ h => by cases h⟩
theorem Late.warn {m : Str} {q : Bool} {p : Nat} (hp : n ≤ p) : Late n (warnE m q) p := ⟨fun _ _ h => by cases h; exact hp, fun _ h => by cases h⟩
theorem Late.diverge {p : Nat} : Late n (E.diverge : E α) p := ⟨fun _ _ h => (by cases h), fun _ h => (by cases h)⟩
theorem Late.next {p : Nat} (hp : n ≤ p) : Late n nextE p := by
  constructor
  · intro a q h; rw [next_ok h]; omega
  · intro q h; unfold nextE at h; split at h <;> cases h
theorem Late.line {f : Str → E α} {p : Nat} (h : Late n (f (T p).line) p) : Late n (POParser.lineE T >>= f) p := h.1 |> fun h1 => ⟨h1, h.2⟩
theorem Late.ite {e1 e2 : E α} (c : Prop) [Decidable c] {p : Nat} (h1 : c → Late n e1 p) (h2 : ¬ c → Late n e2 p) :
    Late n (if c then e1 else e2) p := by
  split
  · exact h1 (by assumption)
  · exact h2 (by assumption)

theorem recover_up : ∀ (f p q : Nat), (recoverE ct T f p).2 = .ok () q → p < q := by
  intro f
  induction f with
  | zero => intro p q h; cases h
  | succ f ih =>
    intro p q h
    rcases Nat.lt_or_ge (p + 1) intMax with ho | ho
    · rw [recover_succ T f p ho] at h
      split at h
      · have := ih _ _ h; omega
      · cases h; omega
    · rw [recover_over T f p ho] at h; cases h

theorem Late.error (m : Str) {p : Nat} (hp : n ≤ p) : Late n (errorE (α := α) ct fuel T m) p := by
  constructor <;> rw [errorE_eq]
  · intro a q h; dsimp only at h; split at h <;> cases h
  · intro q h
    dsimp only at h
    split at h
    · rename_i hr; cases h; have := recover_up _ _ _ hr; omega
    · rename_i hr; cases h
      have := (up_recover (ct := ct) (T := T) fuel p)
      exfalso
      revert hr
      have nr : ∀ (f p q : Nat), (recoverE ct T f p).2 ≠ .err q := by
        intro f
        induction f with
        | zero => intro p q h; cases h
        | succ f ih =>
          intro p q h
          rcases Nat.lt_or_ge (p + 1) intMax with ho | ho
          · rw [recover_succ T f p ho] at h
            split at h
            · exact ih _ _ h
            · cases h
          · rw [recover_over T f p ho] at h; cases h
      exact nr _ _ _
    · cases h
    · cases h

theorem late_getStringLine (out : Str) (skip : Nat) {p : Nat} (hp : n ≤ p) : Late n (getStringLineE ct fuel T b out skip) p := by
  unfold getStringLineE
  refine Late.line (Late.ite _ (fun _ => Late.error _ hp) (fun _ => Late.ite _ (fun _ => Late.error _ hp) (fun _ => ?_)))
  refine Late.bind (Late.emitAt hp) (fun _ q hq => ?_)
  split
  · exact Late.error _ hq
  · exact Late.ite _ (fun _ => Late.bind (Late.warn hq) (fun _ q hq => Late.pure hq)) (fun _ => Late.pure hq)

theorem late_contLoop : ∀ (f : Nat) (out : Str) (p : Nat), n ≤ p → Late n (contLoopE ct fuel T b f out) p := by
  intro f
  induction f with
  | zero => intro out p _; exact Late.diverge
  | succ f ih =>
    intro out p hp
    unfold contLoopE
    refine Late.bind (Late.next hp) (fun _ q hq => Late.line ?_)
    split
    · exact Late.bind (Late.ite _ (fun _ => Late.warn hq) (fun _ => Late.pure hq)) (fun _ q hq => Late.bind (late_getStringLine _ _ hq) (fun s q hq => ih _ _ hq))
    · exact Late.pure hq

theorem late_getString (skip : Nat) {p : Nat} (hp : n ≤ p) : Late n (getStringE ct fuel T b skip) p := by
  unfold getStringE
  refine Late.line (Late.ite _ (fun _ => Late.error _ hp) (fun _ => ?_))
  refine Late.bind (Late.ite _ (fun _ => late_getStringLine _ _ hp) (fun _ => ?_)) (fun s q hq => late_contLoop _ _ _ hq)
  refine Late.bind (Late.warn hp) (fun _ q hq => ?_)
  split
  · exact Late.error _ hq
  · exact late_getStringLine _ _ hq

/-- Code without events that matter, which ends normally only as `P` says and by an error only after line `n`. -/
structure Idle {α : Type} (n : Nat) (P : Nat → Prop) (e : E α) (p : Nat) : Prop where
  ev : essence (e p).1 = []
  ok : ∀ a q, (e p).2 = .ok a q → P q
  err : ∀ q, (e p).2 = .err q → n < q

variable {P : Nat → Prop}

theorem Idle.bind {β : Type} {e : E α} {f : α → E β} {p : Nat} (hq : essence (e p).1 = []) (h : Late n e p)
    (hf : ∀ a q, (e p).2 = .ok a q → n ≤ q → Idle n P (f a) q) : Idle n P (e >>= f) p := by
  have hr : (e >>= f) p = E.bind e f p := rfl
  rcases hx : e p with ⟨v, r⟩
  obtain ⟨h1, h2⟩ := h
  rw [hx] at h1 h2 hq hf
  dsimp only at hq
  refine ⟨?_, ?_, ?_⟩ <;> rw [hr] <;> unfold E.bind <;> rw [hx]
  · cases r with
    | ok b q' => dsimp only; rw [essence_append, hq, (hf b q' rfl (h1 b q' rfl)).ev]; rfl
    | _ => exact hq
  · intro a q hq
    cases r with
    | ok b q' => exact (hf b q' rfl (h1 b q' rfl)).ok a q hq
    | _ => cases hq
  · intro q hq
    cases r with
    | ok b q' => exact (hf b q' rfl (h1 b q' rfl)).err q hq
    | err q' => cases hq; exact h2 _ rfl
    | _ => cases hq

/-- Code that never ends normally, followed by anything. -/
theorem Idle.dead {β : Type} {e : E α} {f : α → E β} {p : Nat} (h : Idle n (fun _ => False) e p) : Idle n P (e >>= f) p :=
  Idle.bind h.ev ⟨fun a q hq => (h.ok a q hq).elim, h.err⟩ (fun a q hq _ => (h.ok a q hq).elim)

theorem Idle.error (m : Str) {p : Nat} (hp : n ≤ p) : Idle n P (errorE (α := α) ct fuel T m) p := by
  refine ⟨?_, ?_, (Late.error m hp).err⟩
  · exact quiet_of (nh_error ct fuel T m) p
  · intro a q h; rw [errorE_eq] at h; dsimp only at h; split at h <;> cases h

theorem Idle.line {f : Str → E α} {p : Nat} (h : Idle n P (f (T p).line) p) : Idle n P (POParser.lineE T >>= f) p := ⟨h.1, h.2, h.3⟩

theorem Idle.ite {e1 e2 : E α} (c : Prop) [Decidable c] {p : Nat} (h1 : c → Idle n P e1 p) (h2 : ¬ c → Idle n P e2 p) :
    Idle n P (if c then e1 else e2) p := by
  split
  · exact h1 (by assumption)
  · exact h2 (by assumption)

/-- Comments that go on for ever. -/
theorem comment_forever (hc : ∀ q, n ≤ q → hasPrefix b!"#" (T q).line = true) : ∀ (f : Nat) (fz : Bool) (p : Nat), n ≤ p →
    Idle n (fun _ => False) (commentLoopE T f fz) p := by
  intro f
  induction f with
  | zero => intro fz p _; exact ⟨rfl, fun _ _ h => (by cases h), fun _ h => (by cases h)⟩
  | succ f ih =>
    intro fz p hp
    unfold commentLoopE
    refine Idle.line (Idle.ite _ (fun _ => ?_) (fun h => absurd (hc p hp) h))
    exact Idle.bind (quiet_of nh_next p) (Late.next hp) (fun _ q _ hq => ih _ q hq)

/-- The body of an entry on a line that is repeated for ever. -/
theorem idle_body (hs : ∀ p, n ≤ p → (T p).line = (T n).line) (fz : Bool) : Idle n (fun _ => False) (entryBodyE ct fuel T b fz) n := by
  unfold entryBodyE
  have q1 : essence (ctxtE ct fuel T b n).1 = [] :=
    quiet_of (nh_bind nh_line (fun _ => nh_ite _ (nh_bind (nh_getString _ _ _ _ _) (fun _ => nh_pure _)) (nh_pure _))) n
  have l1 : Late n (ctxtE ct fuel T b) n :=
    Late.line (Late.ite _ (fun _ => Late.bind (late_getString _ (Nat.le_refl _)) (fun _ _ hq => Late.pure hq)) (fun _ => Late.pure (Nat.le_refl _)))
  refine Idle.bind q1 l1 (fun c q _ hq => ?_)
  have q2 : ∀ q, essence (msgidE ct fuel T b q).1 = [] :=
    quiet_of (nh_bind nh_line (fun _ => nh_ite _ (nh_getString _ _ _ _ _) (nh_error _ _ _ _)))
  have l2 : Late n (msgidE ct fuel T b) q :=
    Late.line (Late.ite _ (fun _ => late_getString _ hq) (fun _ => Late.error _ hq))
  refine Idle.bind (q2 q) l2 (fun i q' hi hq' => ?_)
  have hi' : ((if hasPrefix b!"msgid" (T q).line = true then getStringE ct fuel T b 5 else errorE ct fuel T b!"expected 'msgid'") q).2 = .ok i q' := hi
  by_cases hk : hasPrefix b!"msgid" (T q).line = true
  · rw [if_pos hk] at hi'
    refine Idle.line (Idle.ite _ (fun h => ?_) (fun _ => Idle.line (Idle.ite _ (fun h => ?_) (fun _ => Idle.error _ hq'))))
    · rw [hs q' hq', ← hs q hq] at h
      exact (getString_plural h hi').elim
    · rw [hs q' hq', ← hs q hq] at h
      rcases prefix_excl hk h with h2 | h2 <;> exact absurd h2 (by decide)
  · rw [if_neg hk, errorE_eq] at hi'
    dsimp only at hi'
    split at hi' <;> cases hi'

/-- An entry that begins on the last line, which is repeated for ever: nothing comes of it. -/
theorem idle_entry (hs : ∀ p, n ≤ p → (T p).line = (T n).line) (hF : 0 < fuel) : Idle n (fun q => n < q) (entryE ct fuel T b) n := by
  rw [entryE_eq]
  by_cases hc : hasPrefix b!"#" (T n).line = true
  · exact Idle.dead (comment_forever (T := T) (n := n) (fun q hq => by rw [hs q hq]; exact hc) fuel false n (Nat.le_refl _))
  · obtain ⟨g, rfl⟩ : ∃ g, fuel = g + 1 := ⟨fuel - 1, by omega⟩
    have hcm : commentLoopE T (g + 1) false n = ([], .ok false n) := by
      unfold commentLoopE
      show (if hasPrefix b!"#" (T n).line = true then _ else E.pure false) n = _
      rw [if_neg hc]; rfl
    refine Idle.bind (by rw [hcm]; rfl) ⟨fun a q h => (by rw [hcm] at h; cases h; exact Nat.le_refl _), fun q h => (by rw [hcm] at h; cases h)⟩ ?_
    intro fz q h _
    rw [hcm] at h
    cases h
    refine Idle.line ?_
    by_cases he : emptyLine ct (T n).line = true
    · rw [he]
      refine Idle.bind rfl (Late.pure (Nat.le_refl _)) (fun _ q h _ => ?_)
      cases h
      unfold finishE
      refine Idle.line ?_
      rw [he]
      refine Idle.bind rfl (Late.pure (Nat.le_refl _)) (fun _ q h _ => ?_)
      cases h
      exact ⟨quiet_of nh_next _, fun a q h => by rw [next_ok h]; omega, (Late.next (Nat.le_refl _)).err⟩
    · have he : emptyLine ct (T n).line = false := by simpa using he
      rw [he]
      exact Idle.dead (idle_body hs false)

/-- Past the end. -/
theorem main_past (f : Nat) {p : Nat} (b : Bool) (he : (T p).eof = true) :
    mainLoopE ct fuel T f b p = ([], .ok () p) ∨ mainLoopE ct fuel T f b p = ([], .diverge) := by
  cases f with
  | zero => exact .inr rfl
  | succ f => exact .inl (main_eof f he)

/-- The same events; the second ends only if the first does. -/
def Behind (x y : List Ev × TRes Unit) : Prop :=
  essence x.1 = essence y.1 ∧ ((∃ p q, x.2 = .ok () p ∧ y.2 = .ok () q) ∨ x.2 = y.2 ∨ y.2 = .diverge ∨ y.2 = .overflow)

theorem cut_mainLoop (h : Cut T T' n) (hn : n + 1 < intMax) (hF : n + 1 ≤ fuel) : ∀ (f : Nat) (b : Bool) (p : Nat),
    Behind (mainLoopE ct fuel T f b p) (mainLoopE ct fuel T' f b p) := by
  intro f
  induction f with
  | zero =>
    intro b p
    have e : ∀ U : Tape, mainLoopE ct fuel U 0 b p = E.diverge p := fun _ => rfl
    rw [e, e]; exact ⟨rfl, .inr (.inl rfl)⟩
  | succ f ih =>
    intro b p
    rcases Nat.lt_or_ge p n with hp | hp
    · -- before the end
      have he : (T p).eof = false := by rw [h.eof]; simp; omega
      have he' : (T' p).eof = false := by rcases h.eof' with e | e <;> rw [e] <;> simp <;> omega
      obtain ⟨h1, h2⟩ := cb_entry (ct := ct) (b := b) h hn hF p
      rcases hx : entryE ct fuel T b p with ⟨v, r⟩
      rcases hy : entryE ct fuel T' b p with ⟨v', r'⟩
      rw [main_stop f he hx, main_stop f he' hy]
      rw [hx, hy] at h1 h2
      dsimp only at h1 h2
      have hb : big5After ct b v' = big5After ct b v := by
        rw [big5After_essence (ct := ct) b v', ← h1, ← big5After_essence (ct := ct) b v]
      rcases h2 with rfl | ⟨rfl, rfl⟩
      · cases r with
        | ok a q =>
          obtain ⟨k1, k2⟩ := ih (big5After ct b v) q
          rw [← hb] at k1 k2
          exact ⟨by dsimp only; rw [essence_append, essence_append, h1, ← k1, hb], by dsimp only; rw [← hb]; exact k2⟩
        | err q =>
          obtain ⟨k1, k2⟩ := ih (big5After ct b v) q
          rw [← hb] at k1 k2
          exact ⟨by dsimp only; rw [essence_append, essence_append, h1, ← k1, hb], by dsimp only; rw [← hb]; exact k2⟩
        | overflow => exact ⟨h1, .inr (.inl rfl)⟩
        | diverge => exact ⟨h1, .inr (.inl rfl)⟩
      · have e1 : (T n).eof = true := by rw [h.eof]; simp
        have e2 : (T' (n + 1)).eof = true := by rcases h.eof' with e | e <;> rw [e] <;> simp
        dsimp only
        cases f with
        | zero => exact ⟨by show essence (v ++ []) = essence (v' ++ []); simpa using h1, .inr (.inl rfl)⟩
        | succ f =>
          rw [main_eof f e1, main_eof f e2]
          exact ⟨by dsimp only; rw [List.append_nil, List.append_nil]; exact h1, .inl ⟨_, _, rfl, rfl⟩⟩
    · have he : (T p).eof = true := by rw [h.eof]; simp; omega
      rw [main_eof f he]
      by_cases he' : (T' p).eof = true
      · rw [main_eof f he']; exact ⟨rfl, .inl ⟨_, _, rfl, rfl⟩⟩
      · have he' : (T' p).eof = false := by simpa using he'
        have hpn : p = n ∧ ∀ p, (T' p).eof = decide (n + 1 ≤ p) := by
          rcases h.eof' with e | e
          · rw [e] at he'; simp at he'; omega
          · refine ⟨?_, e⟩
            rw [e] at he'; simp at he'; omega
        obtain ⟨rfl, hpn⟩ := hpn
        have hs : ∀ q, p ≤ q → (T' q).line = (T' p).line := by
          intro q hq; rw [← h.line, ← h.line, h.stuck q hq]
        obtain ⟨h1, h2, h3⟩ := idle_entry (ct := ct) (b := b) hs (fuel := fuel) (by omega)
        rcases hy : entryE ct fuel T' b p with ⟨v', r'⟩
        rw [hy] at h1 h2 h3
        dsimp only at h1 h2 h3
        rw [main_stop f he' hy]
        have past : ∀ q, p < q → Behind ([], .ok () p) (v' ++ (mainLoopE ct fuel T' f (big5After ct b v') q).1, (mainLoopE ct fuel T' f (big5After ct b v') q).2) := by
          intro q hq
          rcases main_past (ct := ct) (fuel := fuel) (T := T') f (big5After ct b v') (p := q) (by rw [hpn]; simp; omega) with e | e
          · rw [e]; exact ⟨by dsimp only; rw [List.append_nil, h1]; rfl, .inl ⟨_, _, rfl, rfl⟩⟩
          · rw [e]; exact ⟨by dsimp only; rw [List.append_nil, h1]; rfl, .inr (.inr (.inl rfl))⟩
        cases r' with
        | ok a q => exact past q (h2 a q rfl)
        | err q => exact past q (h3 q rfl)
        | overflow => exact ⟨by dsimp only; rw [h1]; rfl, .inr (.inr (.inr rfl))⟩
        | diverge => exact ⟨by dsimp only; rw [h1]; rfl, .inr (.inr (.inl rfl))⟩

end

end Tgt.POParser
