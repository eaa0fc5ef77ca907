import Verif.Proofs.Tape
/-
The parser computes what its tape description says.
-/
namespace Tgt.POParser

/-- Forget the collected plural strings. -/
def forget {α : Type} : Res (List Str × PState) α → Res PState α
  | .ok a x => .ok a x.2
  | .poError x => .poError x.2
  | .exn w x => .exn w x.2
  | .fault f => .fault f
  | .diverge => .diverge

theorem prog_bind {σ α β : Type} (m : Prog σ α) (f : α → Prog σ β) : (m >>= f) = Prog.bind m f := rfl
theorem e_bind {α β : Type} (m : E α) (f : α → E β) : (m >>= f) = E.bind m f := rfl

theorem bind_apply {σ α β : Type} (m : Prog σ α) (f : α → Prog σ β) (s : σ) :
    (Prog.bind m f) s = match m s with
      | .ok a s' => f a s'
      | .poError s' => .poError s'
      | .exn w s' => .exn w s'
      | .fault e => .fault e
      | .diverge => .diverge := rfl

theorem interp_append (c : Cfg) (T : Tape) (w1 w2 : List Ev) (x : List Str × PState) :
    interp c T (w1 ++ w2) x = Prog.bind (interp c T w1) (fun _ => interp c T w2) x := by
  induction w1 generalizing x with
  | nil => rfl
  | cons e w ih =>
    simp only [List.cons_append, interp, bind_apply]
    cases evStep c T e x with
    | ok a s => simp only [ih, bind_apply]
    | _ => rfl

theorem mv_mv (T : Tape) (s : PState) (p q : Nat) : mv T (mv T s p) q = mv T s q := rfl

/-- Events other than headers. -/
def Ev.isHeader : Ev → Bool
  | .header _ _ => true
  | _ => false

/-- All events of some tape code satisfy `Q`. -/
def Evs {α : Type} (Q : Ev → Bool) (e : E α) : Prop := ∀ p, ∀ x ∈ (e p).1, Q x = true

/-- Diagnostics satisfy `Q`. -/
class DiagOK (Q : Ev → Bool) : Prop where
  ok : ∀ lv p m ped, Q (.diag lv p m ped) = true

/-- Not a header event. -/
def Ev.noHdr (e : Ev) : Bool := !e.isHeader

instance : DiagOK Ev.noHdr := ⟨fun _ _ _ _ => rfl⟩

/-- Diagnostics only. -/
def Ev.isDiag : Ev → Bool
  | .diag _ _ _ _ => true
  | _ => false

instance : DiagOK Ev.isDiag := ⟨fun _ _ _ _ => rfl⟩

/-- Tape code that processes no header. -/
abbrev NoHdr {α : Type} (e : E α) : Prop := Evs Ev.noHdr e

/-- Parser code computes what tape code says. -/
def Ref {α : Type} (c : Cfg) (T : Tape) (b : Bool) (m : P α) (e : E α) : Prop :=
  ∀ (s : PState) (p : Nat) (v : List Str), s.big5 = b →
    m (mv T s p) = forget (runE c T (e p) v s)

theorem convert_big5 (c : Cfg) (t : Str) (s s' : PState) (r : Str)
    (h : convert c t s = .ok r s') : s'.big5 = s.big5 := by
  unfold convert at h
  split at h <;> cases h
  rfl

theorem evStep_big5 (c : Cfg) (T : Tape) (e : Ev) (he : e.noHdr = true)
    (x y : List Str × PState) (h : evStep c T e x = .ok () y) : y.2.big5 = x.2.big5 := by
  cases e with
  | diag lv p m ped =>
    simp only [evStep] at h
    split at h <;> cases h <;> rfl
  | clear => cases h; rfl
  | conv n t =>
    simp only [evStep] at h
    split at h <;> cases h
    rename_i hc
    exact convert_big5 c t _ _ _ hc
  | singular fz ctxt id t =>
    simp only [evStep] at h
    split at h
    · split at h <;> cases h
      rename_i s' hc
      have := convert_big5 c t _ _ _ hc
      exact this
    · cases h; rfl
  | plural p fz ctxt id idp =>
    simp only [evStep] at h
    split at h <;> cases h <;> rfl
  | header => cases he

theorem interp_big5 (c : Cfg) (T : Tape) (w : List Ev) (hw : ∀ x ∈ w, x.noHdr = true)
    (x y : List Str × PState) (h : interp c T w x = .ok () y) : y.2.big5 = x.2.big5 := by
  induction w generalizing x with
  | nil => cases h; rfl
  | cons e w ih =>
    simp only [interp, bind_apply] at h
    split at h <;> try cases h
    rename_i a x' he
    rw [ih (fun z hz => hw z (List.mem_cons_of_mem _ hz)) x' h,
      evStep_big5 c T e (hw e List.mem_cons_self) x x' he]

variable {α β : Type} {c : Cfg} {T : Tape} {b : Bool}

theorem Ref.bind' {m : P α} {e : E α} {f : α → P β} {g : α → E β}
    (h1 : Ref c T b m e) (h2 : ∀ a b', (NoHdr e → b' = b) → Ref c T b' (f a) (g a)) :
    Ref c T b (m >>= f) (e >>= g) := by
  intro s p v hb
  rw [prog_bind, e_bind, bind_apply, h1 s p v hb]
  unfold E.bind runE
  rcases he : e p with ⟨w, r⟩
  simp only
  cases hi : interp c T w (v, s) with
  | ok u x =>
    obtain ⟨v', s'⟩ := x
    cases r with
    | ok a p' =>
      simp only [forget]
      rw [interp_append, bind_apply, hi]
      refine h2 a s'.big5 ?_ s' p' v' rfl
      intro hn
      have := interp_big5 c T w (by have := hn p; rwa [he] at this) _ _ hi
      simpa [hb] using this
    | _ => simp only [hi, forget]
  | _ => cases r <;> simp only [interp_append, bind_apply, hi, forget]

/-- Sequencing after code that processes no header. -/
theorem Ref.bind {m : P α} {e : E α} {f : α → P β} {g : α → E β}
    (h1 : Ref c T b m e) (hn : NoHdr e) (h2 : ∀ a, Ref c T b (f a) (g a)) :
    Ref c T b (m >>= f) (e >>= g) :=
  Ref.bind' h1 (fun a b' hb' => by rw [hb' hn]; exact h2 a)

/-- Sequencing before code that does not depend on the Big5 flag. -/
theorem Ref.bindAll {m : P α} {e : E α} {f : α → P β} {g : α → E β}
    (h1 : Ref c T b m e) (h2 : ∀ a b', Ref c T b' (f a) (g a)) :
    Ref c T b (m >>= f) (e >>= g) :=
  Ref.bind' h1 (fun a b' _ => h2 a b')

theorem Ref.pure (a : α) : Ref c T b (Prog.pure a) (E.pure a) := fun _ _ _ _ => rfl

theorem Ref.line : Ref c T b POParser.line (lineE T) := fun _ _ _ _ => rfl

theorem Ref.isPrefix (w : Str) :
    Ref c T b (isPrefix w) (do let l ← lineE T; E.pure (hasPrefix w l)) := fun _ _ _ _ => rfl

theorem Ref.isEmptyLine :
    Ref c T b (isEmptyLine c) (do let l ← lineE T; E.pure (emptyLine c.ct l)) := fun _ _ _ _ => rfl

theorem Ref.diverge : Ref (α := α) c T b Prog.diverge E.diverge := fun _ _ _ _ => rfl
theorem Ref.throw : Ref (α := α) c T b Prog.throwPo E.throw := fun _ _ _ _ => rfl

theorem Ref.warn (msg : Str) : Ref c T b (warning c msg) (warnE msg) := by
  intro s p v hb
  simp [warning, emit, warnE, runE, interp, bind_apply, evStep, forget, mv, Prog.pure]

theorem Ref.pedanticWarn (msg : Str) : Ref c T b (pedanticWarning c msg) (warnE msg true) := by
  intro s p v hb
  unfold pedanticWarning
  by_cases h : c.pedantic
  · simp [h, warning, emit, warnE, runE, interp, bind_apply, evStep, forget, mv, Prog.pure]
  · simp [h, warnE, runE, interp, bind_apply, evStep, forget, mv, Prog.pure]

theorem Ref.next (hT : ∀ p, T (p + 1) = (T p).next) : Ref c T b nextLine nextE := by
  intro s p v hb
  unfold nextLine nextE runE
  by_cases h : p + 1 ≥ intMax
  · simp [h, mv, interp, Prog.pure, forget]
  · have h' : ¬ (mv T s p).lineNumber ≥ intMax := h
    rw [if_neg h', if_neg h]
    simp only [mv, interp, Prog.pure, forget, hT, Cell.next]
    rfl

theorem Ref.ite {m1 m2 : P α} {e1 e2 : E α} (q : Prop) [Decidable q]
    (h1 : q → Ref c T b m1 e1) (h2 : ¬ q → Ref c T b m2 e2) :
    Ref c T b (if q then m1 else m2) (if q then e1 else e2) := by
  by_cases h : q
  · simpa [h] using h1 h
  · simpa [h] using h2 h

theorem nh_pure {Q : Ev → Bool} (a : α) : Evs Q (E.pure a) := by intro p x hx; cases hx
theorem nh_line {Q : Ev → Bool} : Evs Q (lineE T) := by intro p x hx; cases hx
theorem nh_eof {Q : Ev → Bool} : Evs Q (eofE T) := by intro p x hx; cases hx
theorem nh_diverge {Q : Ev → Bool} : Evs Q (E.diverge : E α) := by intro p x hx; cases hx
theorem nh_throw {Q : Ev → Bool} : Evs Q (E.throw : E α) := by intro p x hx; cases hx
theorem nh_warn {Q : Ev → Bool} [DiagOK Q] (m : Str) (q : Bool) : Evs Q (warnE m q) := by
  intro p x hx; simp [warnE] at hx; subst hx; exact DiagOK.ok ..
theorem nh_next {Q : Ev → Bool} : Evs Q nextE := by
  intro p x hx; unfold nextE at hx; split at hx <;> cases hx
theorem nh_emit {Q : Ev → Bool} (l : List Ev) (h : ∀ x ∈ l, Q x = true) : Evs Q (E.emit l) := fun _ => h
theorem nh_emitAt {Q : Ev → Bool} (f : Nat → List Ev) (h : ∀ p, ∀ x ∈ f p, Q x = true) :
    Evs Q (E.emitAt f) := h
theorem nh_bind {Q : Ev → Bool} {e : E α} {g : α → E β} (h1 : Evs Q e) (h2 : ∀ a, Evs Q (g a)) :
    Evs Q (e >>= g) := by
  intro p x hx
  rw [e_bind] at hx
  unfold E.bind at hx
  rcases he : e p with ⟨w, r⟩
  have h1' := h1 p
  rw [he] at hx h1'
  cases r <;> simp only at hx
  · rcases List.mem_append.1 hx with hx | hx
    · exact h1' x hx
    · exact h2 _ _ x hx
  all_goals exact h1' x hx
theorem nh_ite {Q : Ev → Bool} {e1 e2 : E α} (q : Prop) [Decidable q] (h1 : Evs Q e1) (h2 : Evs Q e2) :
    Evs Q (if q then e1 else e2) := by split <;> assumption

theorem nh_recover {Q : Ev → Bool} (ct : CType) (T : Tape) (f : Nat) : Evs Q (recoverE ct T f) := by
  induction f with
  | zero => exact nh_diverge
  | succ f ih =>
    exact nh_bind nh_next (fun _ => nh_bind nh_line (fun _ => nh_bind nh_eof (fun _ =>
      nh_ite _ ih (nh_pure _))))

theorem nh_error {Q : Ev → Bool} [DiagOK Q] (ct : CType) (fuel : Nat) (T : Tape) (m : Str) :
    Evs Q (errorE (α := α) ct fuel T m) := by
  refine nh_bind ?_ (fun _ => nh_bind (nh_recover ct T fuel) (fun _ => nh_throw))
  intro p x hx; simp [E.emitAt] at hx; subst hx; exact DiagOK.ok ..

theorem Ref.recover (hT : ∀ p, T (p + 1) = (T p).next) (f : Nat) :
    Ref c T b (recover c f) (recoverE c.ct T f) := by
  induction f with
  | zero => exact Ref.diverge
  | succ f ih =>
    refine Ref.bind (Ref.next hT) nh_next (fun _ => ?_)
    intro s p v hb
    have : (if !(T p).eof && !emptyLine c.ct (T p).line then POParser.recover c f else Prog.pure ()) (mv T s p)
      = forget (runE c T ((if !(T p).eof && !emptyLine c.ct (T p).line then recoverE c.ct T f else E.pure ()) p) v s) :=
      (Ref.ite _ (fun _ => ih) (fun _ => Ref.pure ())) s p v hb
    exact this

theorem Ref.error (hT : ∀ p, T (p + 1) = (T p).next) (msg : Str) :
    Ref (α := α) c T b (error c msg) (errorE c.ct c.fuel T msg) := by
  refine Ref.bind ?_ ?_ (fun _ => Ref.bind (Ref.recover hT _) (nh_recover _ _ _) (fun _ => Ref.throw))
  · intro s p v hb
    simp [logError, emit, E.emitAt, runE, interp, bind_apply, evStep, forget, mv, Prog.pure]
  · intro p x hx; simp [E.emitAt] at hx; subst hx; rfl

/-! ### String literals -/

/-- The warnings for unknown escapes. -/
def unkDiags (c : Cfg) (s : PState) (u : List Byte) : List Diag :=
  u.map (fun e => .po .warning c.filename s.lineNumber (unknownMsg e) s.currentLine)

theorem rd_lt (s : PState) (i : Nat) (b : Byte) (h : s.currentLine[i]? = some b) : rd i s = .ok b s := by
  unfold rd; rw [h]

theorem rd_end (s : PState) : rd s.currentLine.length s = .ok 0 s := by
  unfold rd
  rw [List.getElem?_eq_none (Nat.le_refl _)]
  simp

theorem stringLoop_eq (c : Cfg) (l : Str) : ∀ (f : Nat) (out : Str) (i : Nat) (s : PState),
    s.currentLine = l → i ≤ l.length → l.length - i < f →
    match (lex s.big5 (l.drop i)).res with
    | .ok (t, rest) => ∃ j, l.drop (j + 1) = rest ∧
        stringLoop c f out i s
          = .ok (out ++ t, j) { s with log := s.log ++ unkDiags c s (lex s.big5 (l.drop i)).unknown }
    | .error m => stringLoop c f out i s
          = error c m { s with log := s.log ++ unkDiags c s (lex s.big5 (l.drop i)).unknown } := by
  intro f
  induction f with
  | zero => intro out i s _ _ h; omega
  | succ f ih =>
    intro out i s hs hi hf
    by_cases hend : i = l.length
    · -- at the end of the line
      have hd : l.drop i = [] := List.drop_eq_nil_of_le (by omega)
      rw [hd]
      simp only [lex, unkDiags, List.map_nil, List.append_nil]
      unfold stringLoop
      rw [prog_bind, bind_apply, hend, ← hs, rd_end]
      simp [prog_bind, bind_apply, Prog.get]
    · have hlt : i < l.length := by omega
      obtain ⟨ch, hch⟩ : ∃ ch, l[i]? = some ch := ⟨l[i], List.getElem?_eq_getElem hlt⟩
      have hd : l.drop i = ch :: l.drop (i + 1) := by
        rw [List.drop_eq_getElem_cons hlt]
        congr 1
        have := List.getElem?_eq_getElem hlt
        rw [this] at hch; exact Option.some.inj hch
      have hrd : rd i s = .ok ch s := rd_lt s i ch (by rw [hs]; exact hch)
      by_cases hq : ch = 34
      · subst hq
        rw [hd]
        simp only [lex, unkDiags, List.map_nil, List.append_nil]
        refine ⟨i, rfl, ?_⟩
        unfold stringLoop
        rw [prog_bind, bind_apply, hrd]
        simp [Prog.pure]
      · have hstep : stringLoop c (f + 1) out i s =
            (if s.big5 && 0x81 ≤ ch && ch ≤ 0xfe then
              if i + 1 ≥ l.length then error c b!"invalid big5 encoding" s
              else Prog.bind (rd (i + 1)) (fun ch2 => stringLoop c f (out ++ [ch, ch2]) (i + 2)) s
            else if ch = 92 then
              if i + 1 ≥ l.length then error c b!"unexpected end of string in handling '\\'" s
              else Prog.bind (rd (i + 1)) (fun e => match unescape e with
                | some r => stringLoop c f (out ++ [r]) (i + 2)
                | none => Prog.bind (warning c (unknownMsg e)) (fun _ =>
                    Prog.bind (rd i) (fun prev => stringLoop c f (out ++ [prev, e]) (i + 2)))) s
            else stringLoop c f (out ++ [ch]) (i + 1) s) := by
          rw [stringLoop, prog_bind, bind_apply, hrd]
          simp only [hq, if_false, prog_bind, bind_apply, Prog.get, hs]
          split
          · split <;> rfl
          · rw [if_neg (by omega)]
            split
            · split
              · rfl
              · rfl
            · rfl
        rw [hstep, hd]
        by_cases hend2 : i + 1 = l.length
        · have hd2 : l.drop (i + 1) = [] := List.drop_eq_nil_of_le (by omega)
          rw [hd2]
          have hlex : lex s.big5 [ch] = 
            if s.big5 && 0x81 ≤ ch && ch ≤ 0xfe then ⟨[], .error b!"invalid big5 encoding"⟩
            else if ch = 92 then ⟨[], .error b!"unexpected end of string in handling '\\'"⟩
            else ⟨[], .error b!"unexpected end of string"⟩ := by
            rw [lex]
            intro h; exact hq h
          rw [hlex]
          by_cases h1 : (s.big5 && 0x81 ≤ ch && ch ≤ 0xfe) = true
          · simp only [h1, if_true]
            rw [if_pos (by omega)]
            simp [unkDiags]
          · rw [if_neg h1, if_neg h1]
            by_cases h2 : ch = 92
            · simp only [h2, if_true]
              rw [if_pos (by omega)]
              simp [unkDiags]
            · simp only [h2, if_false]
              have := ih (out ++ [ch]) (i + 1) s hs (by omega) (by omega)
              rw [hd2] at this
              simpa [lex] using this
        · have hlt2 : i + 1 < l.length := by omega
          obtain ⟨e, hech⟩ : ∃ e, l[i + 1]? = some e := ⟨l[i + 1], List.getElem?_eq_getElem hlt2⟩
          have hd2 : l.drop (i + 1) = e :: l.drop (i + 2) := by
            rw [List.drop_eq_getElem_cons hlt2]
            congr 1
            have := List.getElem?_eq_getElem hlt2
            rw [this] at hech; exact Option.some.inj hech
          have hrd2 : ∀ s' : PState, s'.currentLine = l → rd (i + 1) s' = .ok e s' :=
            fun s' hs' => rd_lt s' (i + 1) e (by rw [hs']; exact hech)
          rw [hd2]
          have hlex : lex s.big5 (ch :: e :: l.drop (i + 2)) = 
            if s.big5 && 0x81 ≤ ch && ch ≤ 0xfe then (lex s.big5 (l.drop (i + 2))).push [ch, e]
            else if ch = 92 then
              match unescape e with
              | some r => (lex s.big5 (l.drop (i + 2))).push [r]
              | none => ⟨e :: (lex s.big5 (l.drop (i + 2))).unknown,
                  ((lex s.big5 (l.drop (i + 2))).push [92, e]).res⟩
            else (lex s.big5 (e :: l.drop (i + 2))).push [ch] := by
            rw [lex]
            · rfl
            · exact hq
          rw [hlex]
          by_cases h1 : (s.big5 && 0x81 ≤ ch && ch ≤ 0xfe) = true
          · simp only [h1, if_true]
            rw [if_neg (by omega), bind_apply, hrd2 s hs]
            have := ih (out ++ [ch, e]) (i + 2) s hs (by omega) (by omega)
            revert this
            rcases lex s.big5 (l.drop (i + 2)) with ⟨u, r⟩
            rcases r with m | ⟨t, rest⟩
            · simp [Lex.push]
            · simp [Lex.push]
          · rw [if_neg h1, if_neg h1]
            by_cases h2 : ch = 92
            · simp only [h2, if_true]
              rw [if_neg (by omega), bind_apply, hrd2 s hs]
              simp only
              cases he : unescape e with
              | some r =>
                simp only
                have := ih (out ++ [r]) (i + 2) s hs (by omega) (by omega)
                revert this
                rcases lex s.big5 (l.drop (i + 2)) with ⟨u, r⟩
                rcases r with m | ⟨t, rest⟩
                · simp [Lex.push]
                · simp [Lex.push]
              | none =>
                simp only
                rw [bind_apply]
                simp only [warning, emit]
                rw [bind_apply, rd_lt _ i ch (by simpa [hs] using hch)]
                simp only
                have := ih (out ++ [ch, e]) (i + 2)
                  { s with log := s.log ++ [.po .warning c.filename s.lineNumber (unknownMsg e) s.currentLine] }
                  hs (by omega) (by omega)
                revert this
                simp only
                rcases lex s.big5 (l.drop (i + 2)) with ⟨u, r⟩
                rcases r with m | ⟨t, rest⟩
                · simp [Lex.push, unkDiags, h2]
                · simp [Lex.push, unkDiags, h2]
            · simp only [h2, if_false]
              have := ih (out ++ [ch]) (i + 1) s hs (by omega) (by omega)
              rw [hd2] at this
              revert this
              rcases lex s.big5 (e :: l.drop (i + 2)) with ⟨u, r⟩
              rcases r with m | ⟨t, rest⟩
              · simp [Lex.push]
              · simp [Lex.push]

end Tgt.POParser
