import Verif.Proofs.Refine
/-
The parser computes what its tape description says: multi-line strings, entries, the main loop.
-/
namespace Tgt.POParser
variable {α β : Type} {c : Cfg} {T : Tape} {b : Bool}

theorem u32_le (n : Nat) : u32 n ≤ n := Nat.mod_le _ _
theorem u32_lt (n : Nat) : u32 n < 4294967296 := Nat.mod_lt _ (by decide)

/-- After reading the current line, code may depend on it. -/
theorem Ref.withLine {f : Str → P α} {g : Str → E α} (h : ∀ p, Ref c T b (f (T p).line) (g (T p).line)) :
    Ref c T b (POParser.line >>= f) (lineE T >>= g) := by
  intro s p v hb
  have := h p s p v hb
  exact this

/-- Pointwise version of `Ref`. -/
def RefAt {α : Type} (c : Cfg) (T : Tape) (b : Bool) (p : Nat) (m : P α) (e : E α) : Prop :=
  ∀ (s : PState) (v : List Str), s.big5 = b → m (mv T s p) = forget (runE c T (e p) v s)

theorem Ref.at {m : P α} {e : E α} (h : Ref c T b m e) (p : Nat) : RefAt c T b p m e :=
  fun s v hb => h s p v hb

theorem Ref.ofAt {m : P α} {e : E α} (h : ∀ p, RefAt c T b p m e) : Ref c T b m e :=
  fun s p v hb => h p s v hb

theorem RefAt.line {f : Str → P α} {g : Str → E α} (p : Nat)
    (h : RefAt c T b p (f (T p).line) (g (T p).line)) :
    RefAt c T b p (POParser.line >>= f) (lineE T >>= g) := h

theorem RefAt.ite {m1 m2 : P α} {e1 e2 : E α} {p : Nat} (q : Prop) [Decidable q]
    (h1 : q → RefAt c T b p m1 e1) (h2 : ¬ q → RefAt c T b p m2 e2) :
    RefAt c T b p (if q then m1 else m2) (if q then e1 else e2) := by
  by_cases h : q
  · simpa [h] using h1 h
  · simpa [h] using h2 h

theorem RefAt.rd {f : Byte → P α} {e : E α} {p i : Nat} (x : Byte) (hx : (T p).line[i]? = some x)
    (h : RefAt c T b p (f x) e) : RefAt c T b p (POParser.rd i >>= f) e := by
  intro s v hb
  rw [prog_bind, bind_apply, rd_lt _ i x hx]
  exact h s v hb

/-- Emitting the warnings about unknown escapes. -/
theorem interp_unknown (c : Cfg) (T : Tape) (p : Nat) (u : List Byte) (v : List Str) (s : PState) :
    interp c T (u.map (fun e => .diag .warning p (unknownMsg e) false)) (v, s)
      = .ok () (v, { s with log := s.log ++ unkDiags c (mv T s p) u }) := by
  induction u generalizing s with
  | nil => simp [interp, Prog.pure, unkDiags]
  | cons e u ih =>
    simp only [List.map_cons, interp, bind_apply, evStep, Bool.false_and, Bool.false_eq_true, if_false, ih]
    simp [unkDiags, mv]

/-- `error` never returns. -/
theorem error_bind (c : Cfg) (m : Str) (f : α → P β) (s : PState) :
    Prog.bind (error c m) f s = error (α := β) c m s := by
  simp only [error, prog_bind, bind_apply, logError, emit, Prog.throwPo]
  cases recover c c.fuel { s with log := s.log ++ [.po .error c.filename s.lineNumber m s.currentLine] } <;> rfl

theorem Ref.getStringLine (hT : ∀ p, T (p + 1) = (T p).next) (hF : ∀ p, (T p).line.length < c.fuel)
    (out : Str) (skip : Nat) :
    Ref c T b (POParser.getStringLine c out skip) (getStringLineE c.ct c.fuel T b out skip) := by
  apply Ref.ofAt
  intro p
  apply RefAt.line
  apply RefAt.ite
  · intro _; exact (Ref.error hT _).at p
  intro hlen
  have hlt : skip + 1 < (T p).line.length := by have := u32_le (T p).line.length; omega
  have hsk : (T p).line[skip]? = some (T p).line[skip] := List.getElem?_eq_getElem (by omega)
  refine RefAt.rd _ hsk ?_
  rw [hsk]
  simp only [ne_eq, Option.some.injEq]
  apply RefAt.ite
  · intro _; exact (Ref.error hT _).at p
  intro hq
  intro s v hb
  subst hb
  rw [prog_bind, bind_apply]
  have key := stringLoop_eq c (T p).line c.fuel out (skip + 1) (mv T s p) rfl (by omega)
    (by have := hF p; omega)
  have hb' : (mv T s p).big5 = s.big5 := rfl
  rw [hb'] at key
  rw [e_bind]
  unfold E.bind
  simp only
  rcases hl : lex s.big5 ((T p).line.drop (skip + 1)) with ⟨u, r⟩
  rw [hl] at key
  unfold runE
  simp only [E.emitAt]
  rw [interp_append, bind_apply, interp_unknown]
  simp only
  rcases r with m | ⟨t, rest⟩
  · simp only at key ⊢
    rw [key]
    have := Ref.error (α := Str) (c := c) (b := s.big5) hT m { s with log := s.log ++ unkDiags c (mv T s p) u } p v rfl
    unfold runE at this
    exact ((bind_apply _ _ _).symm.trans (error_bind c m _ _)).trans this
  · obtain ⟨j, hj, hk⟩ := key
    simp only
    rw [hk]
    simp only [prog_bind, bind_apply, POParser.line, mv, hj]
    split
    · simp [POParser.warning, emit, Prog.pure, warnE, e_bind, E.bind, E.pure, interp, bind_apply, evStep, forget, mv]
    · simp [Prog.pure, E.pure, interp, bind_apply, evStep, forget, mv]

theorem nh_getStringLine {Q : Ev → Bool} [DiagOK Q] (ct : CType) (fuel : Nat) (T : Tape) (b : Bool) (out : Str) (skip : Nat) :
    Evs Q (getStringLineE ct fuel T b out skip) := by
  unfold getStringLineE
  refine nh_bind nh_line (fun l => nh_ite _ (nh_error _ _ _ _) (nh_ite _ (nh_error _ _ _ _) ?_))
  refine nh_bind (nh_emitAt _ ?_) (fun _ => ?_)
  · intro p x hx
    obtain ⟨e, _, rfl⟩ := List.mem_map.1 hx
    exact DiagOK.ok ..
  · split
    · exact nh_error _ _ _ _
    · exact nh_ite _ (nh_bind (nh_warn _ _) (fun _ => nh_pure _)) (nh_pure _)

theorem nh_contLoop {Q : Ev → Bool} [DiagOK Q] (ct : CType) (fuel : Nat) (T : Tape) (b : Bool) (f : Nat) (out : Str) :
    Evs Q (contLoopE ct fuel T b f out) := by
  induction f generalizing out with
  | zero => exact nh_diverge
  | succ f ih =>
    refine nh_bind nh_next (fun _ => nh_bind nh_line (fun l => ?_))
    split
    · refine nh_bind ?_ (fun _ => nh_bind (nh_getStringLine _ _ _ _ _ _) (fun _ => ih _))
      exact nh_ite _ (nh_warn _ _) (nh_pure _)
    · exact nh_pure _

theorem nh_getString {Q : Ev → Bool} [DiagOK Q] (ct : CType) (fuel : Nat) (T : Tape) (b : Bool) (skip : Nat) :
    Evs Q (getStringE ct fuel T b skip) := by
  unfold getStringE
  refine nh_bind nh_line (fun l => nh_ite _ (nh_error _ _ _ _) (nh_bind (nh_ite _
    (nh_getStringLine _ _ _ _ _ _) (nh_bind (nh_warn _ _) (fun _ => ?_))) (fun _ => nh_contLoop _ _ _ _ _ _)))
  split
  · exact nh_error _ _ _ _
  · exact nh_getStringLine _ _ _ _ _ _

theorem skipLoop_ref (hT : ∀ p, T (p + 1) = (T p).next) (hF : ∀ p, (T p).line.length < c.fuel)
    (out : Str) (p : Nat) : ∀ (f skip : Nat), skip ≤ u32 (T p).line.length →
    u32 (T p).line.length - skip < f →
    RefAt c T b p (skipLoop c f out skip)
      (match skipTo c.ct (((T p).line.take (u32 (T p).line.length)).drop skip) skip with
       | .error m => errorE c.ct c.fuel T m
       | .ok i => getStringLineE c.ct c.fuel T b out i) := by
  intro f
  induction f with
  | zero => intro skip _ h; omega
  | succ f ih =>
    intro skip hs hf
    unfold skipLoop
    have hle := u32_le (T p).line.length
    have hlt32 := u32_lt (T p).line.length
    have htl : ((T p).line.take (u32 (T p).line.length)).length = u32 (T p).line.length := by
      rw [List.length_take]; omega
    intro s v hb
    rw [prog_bind, bind_apply]
    simp only [POParser.line]
    have hcl : (mv T s p).currentLine = (T p).line := rfl
    rw [hcl]
    by_cases hend : skip ≥ u32 (T p).line.length
    · rw [if_pos hend]
      have : ((T p).line.take (u32 (T p).line.length)).drop skip = [] :=
        List.drop_eq_nil_of_le (by omega)
      rw [this]
      exact Ref.error hT _ s p v hb
    · rw [if_neg hend]
      have hsk : (T p).line[skip]? = some ((T p).line[skip]'(by omega)) :=
        List.getElem?_eq_getElem (by omega)
      rw [prog_bind, bind_apply, rd_lt _ skip _ hsk]
      have hd : ((T p).line.take (u32 (T p).line.length)).drop skip
          = (T p).line[skip]'(by omega) :: ((T p).line.take (u32 (T p).line.length)).drop (skip + 1) := by
        rw [List.drop_eq_getElem_cons (by omega)]
        simp
      rw [hd]
      simp only [skipTo]
      by_cases hq : (T p).line[skip]'(by omega) = 34
      · simp only [hq, if_true]
        exact Ref.getStringLine hT hF out skip s p v hb
      · simp only [hq, if_false]
        by_cases hsp : c.ct.isspace ((T p).line[skip]'(by omega))
        · simp only [hsp, Bool.not_true, Bool.false_eq_true, if_false]
          have e : u32 (skip + 1) = skip + 1 := Nat.mod_eq_of_lt (by omega)
          rw [e]
          exact ih (skip + 1) (by omega) (by omega) s v hb
        · simp only [hsp, Bool.not_false, if_true]
          exact Ref.error hT _ s p v hb

theorem Ref.contLoop (hT : ∀ p, T (p + 1) = (T p).next) (hF : ∀ p, (T p).line.length < c.fuel)
    (f : Nat) (out : Str) :
    Ref c T b (POParser.contLoop c f out) (contLoopE c.ct c.fuel T b f out) := by
  induction f generalizing out with
  | zero => exact Ref.diverge
  | succ f ih =>
    refine Ref.bind (Ref.next hT) nh_next (fun _ => Ref.withLine (fun p => ?_))
    cases scanQuote c.ct (T p).line 0 with
    | some i =>
      refine Ref.bind ?_ ?_ (fun _ => ?_)
      rotate_left
      · exact nh_ite _ (nh_warn _ _) (nh_pure _)
      rotate_left
      · exact Ref.ite _ (fun _ => Ref.pedanticWarn _) (fun _ => Ref.pure _)
      exact Ref.bind (Ref.getStringLine hT hF _ _) (nh_getStringLine _ _ _ _ _ _) (fun _ => ih _)
    | none => exact Ref.pure _

/-- Sequencing where the first part is known only at the current position. -/
theorem RefAt.bind {m : P α} {e : E α} {f : α → P β} {g : α → E β} {p : Nat}
    (h1 : RefAt c T b p m e) (hn : NoHdr e) (h2 : ∀ a, Ref c T b (f a) (g a)) :
    RefAt c T b p (m >>= f) (e >>= g) := by
  intro s v hb
  rw [prog_bind, e_bind, bind_apply, h1 s v hb]
  unfold E.bind runE
  rcases he : e p with ⟨w, r⟩
  simp only
  cases hi : interp c T w (v, s) with
  | ok u x =>
    obtain ⟨v', s'⟩ := x
    cases r with
    | ok a p' =>
      simp only [forget]
      rw [interp_append, bind_apply, hi]
      refine h2 a s' p' v' ?_
      have := interp_big5 c T w (by have := hn p; rwa [he] at this) _ _ hi
      simpa [hb] using this
    | _ => simp only [hi, forget]
  | _ => cases r <;> simp only [interp_append, bind_apply, hi, forget]

theorem Ref.getString (hT : ∀ p, T (p + 1) = (T p).next) (hF : ∀ p, (T p).line.length < c.fuel)
    (skip : Nat) : Ref c T b (POParser.getString c skip) (getStringE c.ct c.fuel T b skip) := by
  apply Ref.ofAt
  intro p
  apply RefAt.line
  apply RefAt.ite
  · intro _; exact (Ref.error hT _).at p
  intro hlen
  have hle := u32_le (T p).line.length
  have hlt32 := u32_lt (T p).line.length
  have h0 : (T p).line[skip]? = some ((T p).line[skip]'(by omega)) := List.getElem?_eq_getElem (by omega)
  have h1 : (T p).line[skip + 1]? = some ((T p).line[skip + 1]'(by omega)) :=
    List.getElem?_eq_getElem (by omega)
  refine RefAt.rd _ h0 ?_
  have hno : NoHdr (if (T p).line[skip]? = some 32 ∧ (T p).line[skip + 1]? = some 34 then
        getStringLineE c.ct c.fuel T b [] (skip + 1)
      else do
        warnE b!"keyword and string must be seperated by a single space" true
        match skipTo c.ct (((T p).line.take (u32 (T p).line.length)).drop skip) skip with
        | .error m => errorE c.ct c.fuel T m
        | .ok i => getStringLineE c.ct c.fuel T b [] i) := by
    refine nh_ite _ (nh_getStringLine _ _ _ _ _ _) (nh_bind (nh_warn _ _) (fun _ => ?_))
    split
    · exact nh_error _ _ _ _
    · exact nh_getStringLine _ _ _ _ _ _
  have hskip : RefAt c T b p
      (POParser.pedanticWarning c b!"keyword and string must be seperated by a single space" >>=
        fun _ => skipLoop c c.fuel [] skip)
      (warnE b!"keyword and string must be seperated by a single space" true >>= fun _ =>
        match skipTo c.ct (((T p).line.take (u32 (T p).line.length)).drop skip) skip with
        | .error m => errorE c.ct c.fuel T m
        | .ok i => getStringLineE c.ct c.fuel T b [] i) := by
    intro s v hb
    have := skipLoop_ref (b := b) hT hF [] p c.fuel skip (by omega) (by have := hF p; omega)
    have hw := Ref.pedanticWarn (b := b) (c := c) (T := T)
      b!"keyword and string must be seperated by a single space" s p v hb
    rw [prog_bind, e_bind, bind_apply, hw]
    unfold E.bind
    simp only [warnE, runE, interp_append, bind_apply]
    cases hi : interp c T [Ev.diag .warning p b!"keyword and string must be seperated by a single space" true] (v, s) with
    | ok u x =>
      obtain ⟨v', s'⟩ := x
      simp only [forget]
      refine this s' v' ?_
      have := interp_big5 c T _ (by simp [Ev.noHdr, Ev.isHeader]) _ _ hi
      simpa [hb] using this
    | _ => simp only [forget]
  have body : RefAt c T b p
      ((if ((T p).line[skip]'(by omega)) = 32 ∧ ((T p).line[skip + 1]'(by omega)) = 34 then
          POParser.getStringLine c [] (skip + 1)
        else POParser.pedanticWarning c b!"keyword and string must be seperated by a single space" >>=
          fun _ => skipLoop c c.fuel [] skip) >>= fun out => POParser.contLoop c c.fuel out)
      ((if (T p).line[skip]? = some 32 ∧ (T p).line[skip + 1]? = some 34 then
        getStringLineE c.ct c.fuel T b [] (skip + 1)
      else do
        warnE b!"keyword and string must be seperated by a single space" true
        match skipTo c.ct (((T p).line.take (u32 (T p).line.length)).drop skip) skip with
        | .error m => errorE c.ct c.fuel T m
        | .ok i => getStringLineE c.ct c.fuel T b [] i) >>= fun out =>
        contLoopE c.ct c.fuel T b c.fuel out) := by
    refine RefAt.bind ?_ hno (fun out => Ref.contLoop hT hF _ _)
    rw [h0, h1]
    simp only [Option.some.injEq]
    exact RefAt.ite _ (fun _ => (Ref.getStringLine hT hF _ _).at p) (fun _ => hskip)
  intro s v hb
  refine Eq.trans ?_ (body s v hb)
  by_cases ha : ((T p).line[skip]'(by omega)) = 32
  · simp only [ha, if_true, true_and, prog_bind, bind_apply]
    rw [rd_lt _ (skip + 1) _ h1]
    simp only [Prog.pure]
    by_cases hq : ((T p).line[skip + 1]'(by omega)) = 34
    · simp [hq]
    · simp [hq, bind_apply]
  · simp [ha, prog_bind, bind_apply, Prog.pure]

theorem nh_commentLoop {Q : Ev → Bool} (T : Tape) (f : Nat) (fz : Bool) : Evs Q (commentLoopE T f fz) := by
  induction f generalizing fz with
  | zero => exact nh_diverge
  | succ f ih =>
    exact nh_bind nh_line (fun l => nh_ite _ (nh_bind nh_next (fun _ => ih _)) (nh_pure _))

theorem Ref.commentLoop (hT : ∀ p, T (p + 1) = (T p).next) (f : Nat) (fz : Bool) :
    Ref c T b (POParser.commentLoop c f fz) (commentLoopE T f fz) := by
  induction f generalizing fz with
  | zero => exact Ref.diverge
  | succ f ih =>
    refine Ref.withLine (fun p => Ref.ite _ (fun _ => ?_) (fun _ => Ref.pure _))
    exact Ref.bind (Ref.next hT) nh_next (fun _ => ih _)

theorem setAt_ne (v : List Str) (n : Nat) (r : Str) : (setAt v n r).isEmpty = false := by
  unfold setAt
  split
  · cases v with
    | nil => simp [List.replicate_succ]
    | cons => simp
  · cases v with
    | nil => rename_i h; simp at h
    | cons => simp

theorem interp_diag (c : Cfg) (T : Tape) (w : List Ev) (hw : ∀ x ∈ w, x.isDiag = true) (v : List Str)
    (s : PState) : ∃ s', interp c T w (v, s) = .ok () (v, s') ∧ ∃ l, s' = { s with log := l } := by
  induction w generalizing s with
  | nil => exact ⟨s, rfl, s.log, rfl⟩
  | cons e w ih =>
    have he := hw e List.mem_cons_self
    cases e with
    | diag lv p m ped =>
      simp only [interp, bind_apply, evStep]
      by_cases h : (ped && !c.pedantic) = true
      · simp only [h, if_true]
        exact ih (fun x hx => hw x (List.mem_cons_of_mem _ hx)) s
      · rw [if_neg h]
        obtain ⟨s', h1, l, h2⟩ := ih (fun x hx => hw x (List.mem_cons_of_mem _ hx))
          { s with log := s.log ++ [.po lv c.filename (p + 1) m (T p).line] }
        exact ⟨s', h1, l, by rw [h2]⟩
    | _ => simp [Ev.isDiag] at he

/-- The result of the `msgstr[N]` loop in terms of tape code. -/
def pack : Res (List Str × PState) Bool → Res PState (List Str × Bool)
  | .ok saw x => .ok (x.1, saw) x.2
  | .poError x => .poError x.2
  | .exn w x => .exn w x.2
  | .fault f => .fault f
  | .diverge => .diverge

theorem convert_mv (c : Cfg) (T : Tape) (t : Str) (s : PState) (p : Nat) :
    convert c t (mv T s p) = match convert c t s with
      | .ok r s' => .ok r (mv T s' p)
      | .poError s' => .poError s'
      | .exn w s' => .exn w s'
      | .fault f => .fault f
      | .diverge => .diverge := by
  unfold convert
  have : (mv T s p).conv = s.conv := rfl
  rw [this]
  cases s.conv.convert c.lib t <;> rfl

theorem errorE_not_ok (ct : CType) (fuel : Nat) (T : Tape) (m : Str) (p : Nat) (a : α) (q : Nat) :
    (errorE (α := α) ct fuel T m p).2 ≠ .ok a q := by
  unfold errorE
  simp only [e_bind, E.bind, E.emitAt]
  rcases recoverE ct T fuel p with ⟨w, r⟩
  cases r <;> simp [E.throw]

theorem error_pack (hT : ∀ p, T (p + 1) = (T p).next) (m : Str) (s : PState) (p : Nat) (v : List Str)
    (hb : s.big5 = b) :
    POParser.error (α := List Str × Bool) c m (mv T s p)
      = pack (runE c T (errorE (α := Bool) c.ct c.fuel T m p) v s) := by
  rw [← error_bind (α := Bool) c m (fun _ => Prog.diverge), bind_apply, Ref.error (b := b) hT m s p v hb]
  have h := errorE_not_ok (α := Bool) c.ct c.fuel T m p
  unfold runE
  rcases he : errorE (α := Bool) c.ct c.fuel T m p with ⟨w, r⟩
  rw [he] at h
  simp only
  cases interp c T w (v, s) with
  | ok u x =>
    cases r with
    | ok a q => exact absurd rfl (h a q)
    | _ => rfl
  | _ => rfl

theorem pluralLoop_ref (hT : ∀ p, T (p + 1) = (T p).next) (hF : ∀ p, (T p).line.length < c.fuel) :
    ∀ (f : Nat) (v : List Str) (saw : Bool) (s : PState) (p : Nat), s.big5 = b →
    pluralLoop c f v saw (mv T s p)
      = pack (runE c T (pluralLoopE c.ct c.fuel T b f v.isEmpty saw p) v s) := by
  intro f
  induction f with
  | zero => intro v saw s p _; rfl
  | succ f ih =>
    intro v saw s p hb
    unfold pluralLoop
    rw [prog_bind, bind_apply]
    simp only [isEmptyLine]
    have hE : pluralLoopE c.ct c.fuel T b (f + 1) v.isEmpty saw p =
        (if emptyLine c.ct (T p).line then
          (if v.isEmpty then errorE c.ct c.fuel T b!"expected 'msgstr[N] (0 <= N <= 9)'" else E.pure saw)
        else match msgstrIndex (T p).line with
          | some n => getStringE c.ct c.fuel T b 9 >>= fun msgstr => E.emit [.conv n msgstr] >>= fun _ =>
              pluralLoopE c.ct c.fuel T b f false (if !msgstr.isEmpty then true else saw)
          | none => errorE c.ct c.fuel T b!"expected 'msgstr[N]'") p := rfl
    rw [hE]
    have hcl : (mv T s p).currentLine = (T p).line := rfl
    rw [hcl]
    by_cases he : emptyLine c.ct (T p).line
    · simp only [he, if_true]
      by_cases hv : v.isEmpty
      · simp only [hv, if_true]
        exact error_pack hT _ s p v hb
      · simp only [hv, Bool.false_eq_true, if_false]
        simp [E.pure, runE, interp, Prog.pure, pack]
    · simp only [he, Bool.false_eq_true, if_false]
      rw [prog_bind, bind_apply]
      simp only [POParser.line, hcl]
      cases hm : msgstrIndex (T p).line with
      | none => exact error_pack hT _ s p v hb
      | some n =>
        simp only
        rw [prog_bind, bind_apply, Ref.getString hT hF 9 s p v hb, e_bind]
        unfold E.bind
        have hd : Evs Ev.isDiag (getStringE c.ct c.fuel T b 9) := nh_getString _ _ _ _ _
        have hd' := hd p
        rcases hg : getStringE c.ct c.fuel T b 9 p with ⟨w, r⟩
        rw [hg] at hd'
        obtain ⟨s', hi, l, hl⟩ := interp_diag c T w hd' v s
        have hb' : s'.big5 = b := by rw [hl]; exact hb
        cases r with
        | ok msgstr q =>
          simp only
          have e1 : forget (runE c T (w, TRes.ok msgstr q) v s) = .ok msgstr (mv T s' q) := by
            unfold runE; rw [hi]; rfl
          rw [e1]
          simp only
          rw [prog_bind, bind_apply, convert_mv]
          unfold runE
          simp only
          rw [interp_append, bind_apply, hi]
          simp only [e_bind, E.bind, E.emit, List.singleton_append, interp, bind_apply, evStep]
          cases hc : convert c msgstr s' with
          | ok r2 s2 =>
            simp only
            have := ih (setAt v n r2) (if !msgstr.isEmpty then true else saw) s2 q
              (by rw [convert_big5 c msgstr s' s2 r2 hc]; exact hb')
            rw [setAt_ne] at this
            rw [this]
            rfl
          | poError s2 => exfalso; unfold convert at hc; split at hc <;> cases hc
          | exn w2 s2 => exfalso; unfold convert at hc; split at hc <;> cases hc
          | fault f => simp only [pack]
          | diverge => exfalso; unfold convert at hc; split at hc <;> cases hc
        | err q => simp only [runE, hi, forget, pack]
        | overflow => simp only [runE, hi, forget, pack]
        | diverge => simp only [runE, hi, forget, pack]

/-- Warnings and addition at the end of a plural entry. -/
theorem pluralEntry_ref (hT : ∀ p, T (p + 1) = (T p).next) (hF : ∀ p, (T p).line.length < c.fuel)
    (fz : Bool) (ctxt : Option Str) (id : Str) :
    Ref c T b (pluralEntry c fz ctxt id) (pluralEntryE c.ct c.fuel T b fz ctxt id) := by
  unfold pluralEntry pluralEntryE
  refine Ref.bind (Ref.getString hT hF 12) (nh_getString _ _ _ _ _) (fun idp => ?_)
  intro s p v hb
  rw [prog_bind, bind_apply, pluralLoop_ref hT hF c.fuel [] false s p hb]
  rw [e_bind]
  unfold E.bind
  simp only [E.emit]
  rw [e_bind]
  unfold E.bind
  have hem : ([] : List Str).isEmpty = true := rfl
  rw [hem]
  rcases hp : pluralLoopE c.ct c.fuel T b c.fuel true false p with ⟨w, r⟩
  have hclear : interp c T [Ev.clear] (v, s) = .ok () ([], s) := rfl
  have hi : ∀ w', interp c T ([Ev.clear] ++ w') (v, s) = interp c T w' ([], s) := by
    intro w'; rw [interp_append, bind_apply, hclear]
  cases r with
  | ok saw q =>
    simp only
    unfold runE
    simp only
    rw [hi, interp_append, bind_apply]
    cases hw : interp c T w ([], s) with
    | ok u x =>
      obtain ⟨v1, s1⟩ := x
      simp only [pack]
      rw [prog_bind, bind_apply]
      simp only [isEmptyLine]
      have hcl : (mv T s1 q).currentLine = (T q).line := rfl
      rw [hcl]
      have hrest : ∀ e : E Unit, ∀ (m : P Unit), Ref c T s1.big5 m e →
          m (mv T s1 q) = forget (runE c T (e q) v1 s1) := fun e m h => h s1 q v1 rfl
      have hE : ((lineE T >>= fun l => if !emptyLine c.ct l then
            errorE c.ct c.fuel T b!"expected 'msgstr[N]' or empty line"
          else if saw then E.emitAt (fun p => [.plural p fz ctxt id idp]) else E.pure ()) : E Unit) q
          = (if !emptyLine c.ct (T q).line then
            errorE c.ct c.fuel T b!"expected 'msgstr[N]' or empty line"
          else if saw then E.emitAt (fun p => [.plural p fz ctxt id idp]) else E.pure () : E Unit) q := rfl
      rw [hE]
      by_cases he : emptyLine c.ct (T q).line
      · simp only [he, Bool.not_true, Bool.false_eq_true, if_false]
        by_cases hs : saw
        · simp only [hs, if_true, E.emitAt, interp, bind_apply, evStep]
          by_cases hf : (c.useFuzzy || !fz) = true
          · simp only [hf, if_true]
            have hpf : (mv T s1 q).dict = s1.dict := rfl
            simp only [prog_bind, bind_apply, Prog.get, hpf]
            by_cases h1 : s1.dict.pluralForms.isDefined
            · simp only [h1, Bool.not_true, Bool.false_eq_true, if_false]
              by_cases h2 : v1.length = s1.dict.pluralForms.getNplural
              · simp [h2, addTranslation, forget, Prog.pure, mv]
              · simp [h2, addTranslation, forget, Prog.pure, warning, emit, mv]
            · simp [h1, addTranslation, forget, Prog.pure, warning, emit, mv]
          · simp [hf, Prog.pure, forget]
        · simp [hs, Prog.pure, E.pure, interp, forget]
      · simp only [he, Bool.not_false, if_true]
        exact hrest _ _ (Ref.error hT _)
    | _ => rfl
  | err q => simp only [runE, hi]; cases interp c T w ([], s) <;> rfl
  | overflow => simp only [runE, hi]; cases interp c T w ([], s) <;> rfl
  | diverge => simp only [runE, hi]; cases interp c T w ([], s) <;> rfl

/-! ### The header -/

/-- The complete lines of a header (text after the last newline is dropped). -/
def headerLines : Str → Str → List Str
  | [], _ => []
  | b :: t, acc => if b = 10 then acc :: headerLines t [] else headerLines t (acc ++ [b])

/-- Effect of one header line on dictionary and log; `n`, `cur`: line number and text for warnings. -/
def hdrEffect (c : Cfg) (n : Nat) (cur : Str) (x : Dictionary × List Diag) (l : Str) :
    Dictionary × List Diag :=
  if hasPrefix b!"Content-Type:" l then
    if hasPrefix b!"Content-Type: text/plain; charset=" l then x
    else (x.1, x.2 ++ [.po .warning c.filename n b!"malformed Content-Type header" cur])
  else if hasPrefix b!"Plural-Forms:" l then
    if !(PluralForms.fromString c.ct l).isDefined then
      (x.1, x.2 ++ [.po .warning c.filename n b!"unknown Plural-Forms given" cur])
    else if !x.1.pluralForms.isDefined then (x.1.setPluralForms (PluralForms.fromString c.ct l), x.2)
    else if x.1.pluralForms ≠ PluralForms.fromString c.ct l then
      (x.1, x.2 ++ [.po .warning c.filename n b!"Plural-Forms missmatch between .po file and dictionary" cur])
    else x
  else x

theorem contentType_prefix (l : Str) (h : hasPrefix b!"Content-Type: text/plain; charset=" l = true) :
    hasPrefix b!"Content-Type:" l = true := by
  unfold hasPrefix at *
  rw [List.isPrefixOf_iff_prefix] at *
  exact List.IsPrefix.trans (by decide) h

theorem headerLine_eq (c : Cfg) (l fr : Str) (s : PState) :
    headerLine c l fr s = .ok
      (if hasPrefix b!"Content-Type: text/plain; charset=" l then (l.drop 34).map c.ct.toupper else fr)
      { s with dict := (hdrEffect c s.lineNumber s.currentLine (s.dict, s.log) l).1,
               log := (hdrEffect c s.lineNumber s.currentLine (s.dict, s.log) l).2 } := by
  unfold headerLine hdrEffect
  by_cases h1 : hasPrefix b!"Content-Type:" l = true
  · by_cases h2 : hasPrefix b!"Content-Type: text/plain; charset=" l = true
    · simp only [h1, h2, if_true]; rfl
    · simp only [h1, h2, if_true]; rfl
  · have h2 : ¬ hasPrefix b!"Content-Type: text/plain; charset=" l = true :=
      fun h => h1 (contentType_prefix l h)
    simp only [h1, h2, if_false, Bool.false_eq_true]
    by_cases h3 : hasPrefix b!"Plural-Forms:" l = true
    · simp only [h3, if_true]
      by_cases h4 : (PluralForms.fromString c.ct l).isDefined
      · simp only [h4, Bool.not_true, Bool.false_eq_true, if_false]
        rw [prog_bind, bind_apply]
        simp only [Prog.get]
        by_cases h5 : s.dict.pluralForms.isDefined
        · simp only [h5, Bool.not_true, Bool.false_eq_true, if_false]
          by_cases h6 : s.dict.pluralForms = PluralForms.fromString c.ct l
          · simp [h6, Prog.pure]
          · simp [h6, Prog.pure, prog_bind, bind_apply, warning, emit]
        · simp [h5, Prog.pure, prog_bind, bind_apply, Prog.modify]
      · simp [h4, Prog.pure, prog_bind, bind_apply, warning, emit]
    · simp [h3, Prog.pure]

/-- Effect of a whole header on dictionary and log. -/
def hdrEffects (c : Cfg) (n : Nat) (cur : Str) (ls : List Str) (x : Dictionary × List Diag) :
    Dictionary × List Diag := ls.foldl (hdrEffect c n cur) x

theorem headerLoop_eq (c : Cfg) (t acc fr : Str) (s : PState) :
    headerLoop c t acc fr s = .ok (headerCharset.go c.ct t acc fr)
      { s with dict := (hdrEffects c s.lineNumber s.currentLine (headerLines t acc) (s.dict, s.log)).1,
               log := (hdrEffects c s.lineNumber s.currentLine (headerLines t acc) (s.dict, s.log)).2 } := by
  induction t generalizing acc fr s with
  | nil => rfl
  | cons b t ih =>
    unfold headerLoop headerLines headerCharset.go
    by_cases h : b = 10
    · simp only [h, if_true]
      rw [prog_bind, bind_apply, headerLine_eq]
      simp only
      rw [ih]
      rfl
    · simp only [h, if_false]
      rw [ih]

/-- The source charset a header selects. -/
def sourceCharset (fr : Str) : Str := if fr.isEmpty || fr = b!"CHARSET" then b!"UTF-8" else fr

/-- The state in which `parse_header` calls `set_charsets`. -/
def afterHeader (c : Cfg) (t : Str) (s : PState) : PState :=
  { s with
    dict := (hdrEffects c s.lineNumber s.currentLine (headerLines t []) (s.dict, s.log)).1
    log := (hdrEffects c s.lineNumber s.currentLine (headerLines t []) (s.dict, s.log)).2 ++
      (if (headerCharset c.ct t).isEmpty || headerCharset c.ct t = b!"CHARSET" then
        [.po .warning c.filename s.lineNumber b!"charset not specified for .po, fallback to utf-8" s.currentLine]
      else [])
    big5 := s.big5 || (headerCharset c.ct t == b!"BIG5") }

theorem parseHeader_eq (c : Cfg) (t : Str) (s : PState) :
    parseHeader c t s
      = setCharsets c (sourceCharset (headerCharset c.ct t)) (afterHeader c t s).dict.charset (afterHeader c t s) := by
  unfold parseHeader
  rw [prog_bind, bind_apply, headerLoop_eq]
  have hc : headerCharset.go c.ct t [] [] = headerCharset c.ct t := rfl
  rw [hc]
  simp only [afterHeader, sourceCharset]
  by_cases h1 : ((headerCharset c.ct t).isEmpty || decide (headerCharset c.ct t = b!"CHARSET")) = true
  · have h2 : (headerCharset c.ct t == b!"BIG5") = false := by
      simp only [Bool.or_eq_true, List.isEmpty_iff, decide_eq_true_eq] at h1
      rcases h1 with h | h <;> rw [h] <;> decide
    simp only [h1, if_true, prog_bind, bind_apply, warning, emit, Prog.pure, Prog.get, h2, Bool.or_false]
  · rw [if_neg h1, if_neg h1, if_neg h1]
    by_cases h2 : headerCharset c.ct t = b!"BIG5"
    · simp [h2, prog_bind, bind_apply, Prog.modify, Prog.pure, Prog.get]
    · have h3 : (headerCharset c.ct t == b!"BIG5") = false := by simpa using h2
      rw [h3]
      simp [h2, prog_bind, bind_apply, Prog.pure, Prog.get]

theorem setCharsets_fields (c : Cfg) (f t : Str) (s s' : PState)
    (h : setCharsets c f t s = .ok () s') : ∃ cv, s' = { s with conv := cv } := by
  unfold setCharsets at h
  dsimp only at h
  split at h <;> cases h
  exact ⟨_, rfl⟩

theorem parseHeader_mv (c : Cfg) (T : Tape) (t : Str) (s s' : PState) (p : Nat)
    (h : parseHeader c t (mv T s p) = .ok () s') :
    mv T s' p = s' ∧ s'.big5 = (s.big5 || (headerCharset c.ct t == b!"BIG5")) := by
  rw [parseHeader_eq] at h
  obtain ⟨cv, rfl⟩ := setCharsets_fields c _ _ _ _ h
  exact ⟨rfl, rfl⟩

theorem parseHeader_kind (c : Cfg) (t : Str) (s : PState) :
    (∃ s', parseHeader c t s = .ok () s') ∨ (∃ w s', parseHeader c t s = .exn w s') := by
  rw [parseHeader_eq]
  unfold setCharsets
  dsimp only
  split
  · exact .inl ⟨_, rfl⟩
  · exact .inr ⟨_, _, rfl⟩

theorem header_ref (t : Str) :
    Ref c T b (parseHeader c t) (E.emitAt (fun p => [.header p t])) := by
  intro s p v hb
  simp only [E.emitAt, runE, interp, bind_apply, evStep]
  rcases parseHeader_kind c t (mv T s p) with ⟨s', h⟩ | ⟨w, s', h⟩
  · rw [h]
    simp only [Prog.pure, forget]
    rw [(parseHeader_mv c T t s s' p h).1]
  · rw [h]; rfl

theorem singularEntry_ref (hT : ∀ p, T (p + 1) = (T p).next) (hF : ∀ p, (T p).line.length < c.fuel)
    (fz : Bool) (ctxt : Option Str) (id : Str) :
    Ref c T b (singularEntry c fz ctxt id) (singularEntryE c.ct c.fuel T b fz ctxt id) := by
  refine Ref.bind (Ref.getString hT hF 6) (nh_getString _ _ _ _ _) (fun t => ?_)
  refine Ref.ite _ (fun _ => header_ref t) (fun _ => Ref.ite _ (fun _ => ?_) (fun _ => Ref.pure _))
  intro s p v hb
  simp only [E.emit, runE, interp, bind_apply, evStep]
  by_cases hf : (c.useFuzzy || !fz) = true
  · simp only [hf, if_true]
    rw [prog_bind, bind_apply, convert_mv]
    cases hc : convert c t s with
    | ok r s' => rfl
    | poError s2 => rfl
    | exn w2 s2 => rfl
    | fault f => rfl
    | diverge => rfl
  · simp [hf, Prog.pure, forget]

theorem finish_ref (hT : ∀ p, T (p + 1) = (T p).next) :
    Ref c T b
      (isEmptyLine c >>= fun e => (if !e then error c b!"expected empty line" else Prog.pure ()) >>=
        fun _ => nextLine)
      (finishE c.ct c.fuel T) := by
  have : Ref c T b (POParser.line >>= fun l =>
      (if !emptyLine c.ct l then error c b!"expected empty line" else Prog.pure ()) >>= fun _ => nextLine)
      (finishE c.ct c.fuel T) := by
    refine Ref.withLine (fun p => ?_)
    exact Ref.bind (Ref.ite _ (fun _ => Ref.error hT _) (fun _ => Ref.pure _))
      (nh_ite _ (nh_error _ _ _ _) (nh_pure _)) (fun _ => Ref.next hT)
  exact this

theorem entryBody_ref (hT : ∀ p, T (p + 1) = (T p).next) (hF : ∀ p, (T p).line.length < c.fuel)
    (fz : Bool) : Ref c T b (entryBody c fz) (entryBodyE c.ct c.fuel T b fz) := by
  have key : Ref c T b
      ((POParser.line >>= fun l => if hasPrefix b!"msgctxt" l then
          (getString c 7 >>= fun t => Prog.pure (some t)) else Prog.pure none) >>= fun ctxt =>
        (POParser.line >>= fun l => if hasPrefix b!"msgid" l then getString c 5
          else error c b!"expected 'msgid'") >>= fun msgid =>
        POParser.line >>= fun l => if hasPrefix b!"msgid_plural" l then pluralEntry c fz ctxt msgid
          else POParser.line >>= fun l => if hasPrefix b!"msgstr" l then singularEntry c fz ctxt msgid
          else error c b!"expected 'msgstr' or 'msgid_plural'")
      (entryBodyE c.ct c.fuel T b fz) := by
    unfold entryBodyE ctxtE msgidE
    refine Ref.bind (Ref.withLine (fun p => ?_)) (nh_bind nh_line (fun l => ?_)) (fun ctxt => ?_)
    · exact Ref.ite _ (fun _ => Ref.bind (Ref.getString hT hF 7) (nh_getString _ _ _ _ _) (fun _ => Ref.pure _))
        (fun _ => Ref.pure _)
    · exact nh_ite _ (nh_bind (nh_getString _ _ _ _ _) (fun _ => nh_pure _)) (nh_pure _)
    · refine Ref.bind (Ref.withLine (fun p => ?_)) (nh_bind nh_line (fun l => ?_)) (fun msgid => ?_)
      · exact Ref.ite _ (fun _ => Ref.getString hT hF 5) (fun _ => Ref.error hT _)
      · exact nh_ite _ (nh_getString _ _ _ _ _) (nh_error _ _ _ _)
      · refine Ref.withLine (fun p => ?_)
        exact Ref.ite _ (fun _ => pluralEntry_ref hT hF fz ctxt msgid)
          (fun _ => Ref.withLine (fun p => Ref.ite _ (fun _ => singularEntry_ref hT hF fz ctxt msgid)
            (fun _ => Ref.error hT _)))
  intro s p v hb
  rw [← key s p v hb]
  rfl

theorem entry_ref (hT : ∀ p, T (p + 1) = (T p).next) (hF : ∀ p, (T p).line.length < c.fuel) :
    Ref c T b (entry c) (entryE c.ct c.fuel T b) := by
  have key : Ref c T b (commentLoop c c.fuel false >>= fun fuzzy =>
      POParser.line >>= fun l => (if !emptyLine c.ct l then entryBody c fuzzy else Prog.pure ()) >>= fun _ =>
        (isEmptyLine c >>= fun e => (if !e then error c b!"expected empty line" else Prog.pure ()) >>=
        fun _ => nextLine)) (entryE c.ct c.fuel T b) := by
    refine Ref.bind (Ref.commentLoop hT _ _) (nh_commentLoop _ _ _) (fun fz => Ref.withLine (fun p => ?_))
    exact Ref.bindAll (Ref.ite _ (fun _ => entryBody_ref hT hF fz) (fun _ => Ref.pure _))
      (fun _ _ => finish_ref hT)
  intro s p v hb
  rw [← key s p v hb]
  rfl

end Tgt.POParser
