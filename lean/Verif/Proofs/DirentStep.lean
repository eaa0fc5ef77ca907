import Verif.Proofs.Dirent
/-
Directory streams for Windows: one call.
-/
namespace Tgt.Dirent
open Spec.Dirent

variable {win : Win}

theorem bind_bad {α β : Type} {p : D α} {f : α → D β} {w : World} {b : Bad} (h : p w = .bad b) : bind p f w = .bad b := by
  unfold bind; rw [h]

theorem opens_mono {now now' : Nat → Prop} {wide : Bool} {s s' : Streams} {n : Option Wide} {r : Option Ptr} {err : Option Errno} (hn : ∀ t, now t → now' t)
    (h : Opens win now wide s n r s' err) : Opens win now' wide s n r s' err := by
  cases h with
  | unnamed h => exact .unnamed h
  | noMemory h1 h2 => exact .noMemory (hn _ h1) h2
  | noPath h1 h2 h3 => exact .noPath h1 (hn _ h2) h3
  | notFound h1 h2 h3 h4 h5 => exact .notFound h1 (hn _ h2) (hn _ h3) h4 h5
  | opened h1 h2 h3 h4 h5 h6 => exact .opened h1 (hn _ h2) (hn _ h3) h4 h5 h6

/-- The three outcomes of a conversion. -/
theorem fit_cases (c : Option Str) (w : World) :
    (∃ a, c = some a ∧ a.length + 1 ≤ PATH_MAX ∧ fit win List.length c w = .ok (some a) w) ∨
    ((∀ a, ¬ (c = some a ∧ a.length + 1 ≤ PATH_MAX)) ∧ fit win List.length c w = .ok none w) ∨
    (∃ a, c = some a ∧ PATH_MAX < a.length + 1 ∧ win.msvc = true ∧ fit win List.length c w = .bad .invalidParameter) := by
  cases c with
  | none => exact .inr (.inl ⟨fun a h => (by cases h.1), rfl⟩)
  | some a =>
    unfold fit
    dsimp only
    by_cases h : a.length < PATH_MAX
    · rw [if_pos h]; exact .inl ⟨a, rfl, h, rfl⟩
    · rw [if_neg h]
      by_cases hm : win.msvc = true
      · rw [if_pos hm]; exact .inr (.inr ⟨a, rfl, Nat.lt_succ_of_le (Nat.le_of_not_lt h), hm, rfl⟩)
      · rw [if_neg hm]
        refine .inr (.inl ⟨fun b hb => ?_, rfl⟩)
        obtain ⟨h1, h2⟩ := hb
        cases h1; exact h h2

/-- The same for wide characters. -/
theorem fit_wide (c : Option Wide) (w : World) :
    (∃ a, c = some a ∧ a.length + 1 ≤ PATH_MAX ∧ fit win List.length c w = .ok (some a) w) ∨
    ((∀ a, ¬ (c = some a ∧ a.length + 1 ≤ PATH_MAX)) ∧ fit win List.length c w = .ok none w) ∨
    (∃ a, c = some a ∧ PATH_MAX < a.length + 1 ∧ win.msvc = true ∧ fit win List.length c w = .bad .invalidParameter) := by
  cases c with
  | none => exact .inr (.inl ⟨fun a h => (by cases h.1), rfl⟩)
  | some a =>
    unfold fit
    dsimp only
    by_cases h : a.length < PATH_MAX
    · rw [if_pos h]; exact .inl ⟨a, rfl, h, rfl⟩
    · rw [if_neg h]
      by_cases hm : win.msvc = true
      · rw [if_pos hm]; exact .inr (.inr ⟨a, rfl, Nat.lt_succ_of_le (Nat.le_of_not_lt h), hm, rfl⟩)
      · rw [if_neg hm]
        refine .inr (.inl ⟨fun b hb => ?_, rfl⟩)
        obtain ⟨h1, h2⟩ := hb
        cases h1; exact h h2

theorem copyName_eq (cs : Wide) (n : Nat) (out : Wide) (h : n + 1 ≤ PATH_MAX) :
    copyName cs n out = (out ++ cs.take (PATH_MAX - 1 - n), n + (cs.take (PATH_MAX - 1 - n)).length) := by
  induction cs generalizing n out with
  | nil => simp [copyName]
  | cons c cs ih =>
    unfold copyName
    by_cases hn : n + 1 < PATH_MAX
    · rw [if_pos hn, ih (n + 1) _ hn]
      have : PATH_MAX - 1 - n = (PATH_MAX - 1 - (n + 1)) + 1 := by omega
      rw [this, List.take_succ_cons]
      simp; omega
    · rw [if_neg hn]
      have : PATH_MAX - 1 - n = 0 := by omega
      rw [this]; simp

/-- What a call comes to. -/
inductive Outcome (win : Win) (w : World) (s : Streams) (c : Call) : R Answer → Prop where
  | ok {a : Answer} {w' : World} {s' : Streams} {g' : Ghost} {err : Option Errno} : w.time ≤ w'.time →
    Step win (fun t => w.time ≤ t ∧ t < w'.time) s c a s' err → w'.errno = err.or w.errno → Inv w' s' g' → Outcome win w s c (.ok a w')
  | bad {b : Bad} : Dies win w.time s c b → Outcome win w s c (.bad b)

theorem Outcome.bindOk {β : Type} {w : World} {s : Streams} {c : Call} {q : D β} {k : β → D Answer} {b : β} {w' : World} (hq : q w = .ok b w')
    (h : Outcome win w s c (k b w')) : Outcome win w s c (bind q k w) := by rw [bind_ok hq]; exact h

theorem Outcome.bindBad {β : Type} {w : World} {s : Streams} {c : Call} {q : D β} {k : β → D Answer} {b : Bad} (hq : q w = .bad b)
    (h : Outcome win w s c (.bad b)) : Outcome win w s c (bind q k w) := by rw [bind_bad hq]; exact h

theorem or_ne {e x : Option Errno} (h : e ≠ none) : e = e.or x := by
  cases e with
  | none => exact absurd rfl h
  | some e => rfl

theorem wopen_step {w : World} {s : Streams} {g : Ghost} (h : Inv w s g) (n : Option Wide) : Outcome win w s (.wopendir n) ((Call.wopendir n).run win w) := by
  have ho := wopendir_outcome (win := win) n (h.fresh (Nat.le_refl _)) (h.fresh (Nat.le_succ _))
  show Outcome win w s _ (bind _ _ w)
  generalize hr : wopendir win n w = r at ho
  cases ho with
  | no h1 h2 h3 h4 h5 h6 h7 =>
    rw [bind_ok hr]
    exact .ok h1 (.wopen (h6 true s)) (or_ne h7) (h.idle h2 h3 h4 (Nat.le_of_eq h5.symm))
  | @yes w' n path t t' size e r h1 h2 h3 h4 h5 h6 h7 h8 h9 h10 h11 =>
    rw [bind_ok hr]
    subst h2
    refine .ok h1 (.wopen (.opened rfl h3 h4 h5 (by rw [h6]; simp) (h.closed_stream (Nat.le_refl _)))) h11 (g' := g.add w.nextPtr w.nextPtr (w.nextPtr + 1) w.nextFind) ?_
    rw [h6]
    have hne : w.nextPtr ≠ w.nextPtr + 1 := (Nat.succ_ne_self _).symm
    refine h.open (size := size) (Nat.le_refl _) (Nat.le_refl _) (Nat.le_succ _) (by rw [h9]; exact Nat.lt_add_of_pos_right (by decide)) (by rw [h9]; exact Nat.lt_add_of_pos_right (by decide))
      (by rw [h9]; exact Nat.lt_succ_self _) (by rw [h9]; exact Nat.le_add_right _ _) (fun _ => rfl) (fun hh => (by cases hh)) ?_ ?_ ?_ h8 h10
    · rw [h7, upd_ne _ _ hne, upd_self]
    · rw [h7, upd_self]
    · intro y c1 _ c3
      rw [h7, upd_ne _ _ c3, upd_ne _ _ c1]
  | moved h1 h2 h3 =>
    rw [bind_bad hr]
    subst h1
    exact .bad (.wopen ⟨_, _, Nat.le_succ _, Nat.lt_of_lt_of_le (Nat.lt_succ_self _) (by omega), by omega, h2⟩ h3)

theorem open_step {w : World} {s : Streams} {g : Ghost} (h : Inv w s g) (n : Option Str) : Outcome win w s (.opendir n) ((Call.opendir n).run win w) := by
  show Outcome win w s _ (bind (opendir win n) _ w)
  cases n with
  | none => exact .ok (Nat.le_refl _) (.openUnnamed (.inl rfl)) rfl (h.idle rfl rfl (Nat.le_refl _) (Nat.le_refl _))
  | some n =>
    cases n with
    | nil => exact .ok (Nat.le_refl _) (.openUnnamed (.inr rfl)) rfl (h.idle rfl rfl (Nat.le_refl _) (Nat.le_refl _))
    | cons c cs =>
      generalize hn : (c :: cs : Str) = n
      have hne : n ≠ [] := by rw [← hn]; simp
      have e1 : opendir win (some n) = bind (malloc win (.dir none)) fun r =>
          match r with
          | none => pure none
          | some p =>
            bind (fit win List.length (win.widen n)) fun wname =>
            match wname with
            | some wname =>
              bind (wopendir win (some wname)) fun r =>
              match r with
              | some q => bind (write p (.dir (some q))) fun _ => pure (some p)
              | none => bind (free p) fun _ => pure none
            | none => bind (free p) fun _ => pure none := by rw [← hn]; rfl
      rw [e1]
      clear e1
      by_cases m1 : win.noMemory w.time = true
      · refine .bindOk ((bind_ok (malloc_no _ m1)).trans rfl) ?_
        exact .ok (Nat.le_succ _) (.openNoMemory ⟨Nat.le_refl _, Nat.lt_succ_self _⟩ m1) rfl (h.idle rfl rfl (Nat.le_refl _) (Nat.le_refl _))
      · have e2 := bind_ok (f := fun r =>
          match r with
          | none => pure none
          | some p =>
            bind (fit win List.length (win.widen n)) fun wname =>
            match wname with
            | some wname =>
              bind (wopendir win (some wname)) fun r =>
              match r with
              | some q => bind (write p (.dir (some q))) fun _ => pure (some p)
              | none => bind (free p) fun _ => pure none
            | none => bind (free p) fun _ => pure none) (malloc_yes (.dir none) m1)
        dsimp only at e2
        generalize hw1 : ({ time := w.time + 1, finds := w.finds, nextFind := w.nextFind, mem := upd w.mem w.nextPtr (some (.dir none)), nextPtr := w.nextPtr + 1, errno := w.errno } : World) = w1 at e2
        have t1 : w1.time = w.time + 1 := by rw [← hw1]
        have q1 : w1.nextPtr = w.nextPtr + 1 := by rw [← hw1]
        have g1 : w1.finds = w.finds := by rw [← hw1]
        have r1 : w1.errno = w.errno := by rw [← hw1]
        have k1 : w1.nextFind = w.nextFind := by rw [← hw1]
        have mem1 : w1.mem = upd w.mem w.nextPtr (some (.dir none)) := by rw [← hw1]
        have f0 : w.mem w.nextPtr = none := h.fresh (Nat.le_refl _)
        -- giving up
        have give : ∀ w2 : World, w.time ≤ w2.time → w2.mem = w1.mem → w2.finds = w1.finds → w1.nextPtr ≤ w2.nextPtr → w2.nextFind = w1.nextFind →
            ∀ err, Step win (fun t => w.time ≤ t ∧ t < w2.time) s (.opendir (some n)) (.stream none) s err → w2.errno = err.or w.errno →
            ∃ w3, bind (free w.nextPtr) (fun _ => (pure none : D (Option Ptr))) w2 = .ok none w3 ∧ Outcome win w s (.opendir (some n)) (.ok (.stream none) w3) := by
          intro w2 a1 a2 a3 a4 a5 err a6 a7
          refine ⟨{ w2 with mem := upd w2.mem w.nextPtr none }, ?_, .ok a1 a6 a7 (h.idle (g := g) ?_ (a3.trans g1) ?_ ?_)⟩
          · refine (bind_ok (show free w.nextPtr w2 = .ok () { w2 with mem := upd w2.mem w.nextPtr none } by unfold free; rw [a2, mem1, upd_self])).trans rfl
          · show upd w2.mem _ none = _
            rw [a2, mem1, upd_fresh f0]
          · exact Nat.le_trans (by rw [q1]; exact Nat.le_succ _) a4
          · exact Nat.le_of_eq (by rw [← k1]; exact a5.symm)
        rcases fit_wide (win := win) (win.widen n) w1 with ⟨wn, c1, c2, c3⟩ | ⟨c1, c2⟩ | ⟨wn, c1, c2, c3, c4⟩
        · rw [bind_ok c3] at e2
          dsimp only at e2
          have ho := wopendir_outcome (win := win) (w := w1) (some wn) (by rw [mem1, q1, upd_ne _ _ (Nat.succ_ne_self _)]; exact h.fresh (Nat.le_succ _))
            (by rw [mem1, q1, upd_ne _ _ (fun e => by have := congrArg (· - w.nextPtr) e; simp [Nat.add_assoc] at this)]; exact h.fresh (Nat.le_add_right _ 2))
          generalize hr : wopendir win (some wn) w1 = r at ho
          cases ho with
          | @no w2 h1 h2 h3 h4 h5 h6 h7 =>
            rw [bind_ok hr] at e2
            dsimp only at e2
            obtain ⟨w3, d1, d2⟩ := give w2 (by omega) h2 h3 h4 h5 _ (.open hne c1 c2 (opens_mono (h := h6 false s) (fun t ht => ⟨by omega, ht.2⟩))) (or_ne h7)
            rw [bind_ok (e2.trans d1)]
            exact d2
          | @yes w2 n' path t t' size e r h1 h2 h3 h4 h5 h6 h7 h8 h9 h10 h11 =>
            rw [bind_ok hr] at e2
            dsimp only at e2
            cases h2
            have hd : w2.mem w.nextPtr = some (.dir none) := by
              rw [h7, q1, upd_ne _ _ (fun e => by have := congrArg (· - w.nextPtr) e; simp [Nat.add_assoc] at this), upd_ne _ _ (Nat.succ_ne_self _).symm, mem1, upd_self]
            rw [bind_ok (write_ok hd)] at e2
            rw [bind_ok e2]
            have np : w2.nextPtr = w.nextPtr + 3 := by rw [h9, q1]
            refine .ok (by show _ ≤ w2.time; omega) (.open hne c1 c2 (.opened rfl (t := t) (t' := t') ⟨by omega, h3.2⟩ ⟨by omega, h4.2⟩ h5 (by rw [h6]; simp) (h.closed_stream (Nat.le_refl _)))) (h11.trans r1)
              (g' := g.add w.nextPtr (w.nextPtr + 1) (w.nextPtr + 2) w.nextFind) ?_
            rw [h6]
            have n01 : w.nextPtr + 1 ≠ w.nextPtr := Nat.succ_ne_self _
            have n02 : w.nextPtr + 2 ≠ w.nextPtr := fun e => by have := congrArg (· - w.nextPtr) e; simp at this
            have n12 : w.nextPtr + 1 ≠ w.nextPtr + 2 := (Nat.succ_ne_self _).symm
            refine h.open (size := size) (Nat.le_refl _) (Nat.le_succ _) (Nat.le_add_right _ _) ?_ ?_ ?_ ?_ (fun hh => (by cases hh)) (fun _ => ⟨?_, n01⟩) ?_ ?_ ?_ ?_ ?_
            · show _ < w2.nextPtr; rw [np]; exact Nat.lt_add_of_pos_right (by decide)
            · show _ < w2.nextPtr; rw [np]; exact Nat.add_lt_add_left (by decide) _
            · show _ < w2.nextPtr; rw [np]; exact Nat.add_lt_add_left (by decide) _
            · show _ ≤ w2.nextPtr; rw [np]; exact Nat.le_add_right _ _
            · show upd w2.mem _ _ _ = _
              rw [upd_self, q1]
            · show upd w2.mem _ _ _ = _
              rw [upd_ne _ _ n01, h7, q1, upd_ne _ _ n12, upd_self, k1]
            · show upd w2.mem _ _ _ = _
              rw [upd_ne _ _ n02, h7, q1]; exact upd_self _ _ _
            · intro y y1 y2 y3
              show upd w2.mem _ _ y = _
              rw [upd_ne _ _ y1, h7, q1, upd_ne _ _ y3, upd_ne _ _ y2, mem1, upd_ne _ _ y1]
            · show w2.finds = _
              rw [h8, g1, k1]
            · show w2.nextFind = _
              rw [h10, k1]
          | moved h1 h2 h3 =>
            rw [bind_bad hr] at e2
            rw [bind_bad e2]
            cases h1
            rw [t1] at h2
            exact .bad (.open c1 ⟨_, _, by omega, by omega, by omega, h2⟩ h3)
        · rw [bind_ok c2] at e2
          dsimp only at e2
          obtain ⟨w3, d1, d2⟩ := give w1 (by omega) rfl rfl (Nat.le_refl _) rfl _ (.openBadName fun wn hwn => Nat.le_of_not_lt fun hl => c1 wn ⟨hwn, hl⟩) r1
          rw [bind_ok (e2.trans d1)]
          exact d2
        · rw [bind_bad c4] at e2
          rw [bind_bad e2]
          exact .bad (.openLong c3 c1 c2)

/-- The `_WDIR` of a stream of the wide interface. -/
theorem wide_q {w : World} {s : Streams} {g : Ghost} (h : Inv w s g) {p : Ptr} {x : Stream} (hp : s p = some x) (hw : x.wide = true) : g.q p = p :=
  (h.good p x hp).wide hw

theorem narrow_q {w : World} {s : Streams} {g : Ghost} (h : Inv w s g) {p : Ptr} {x : Stream} (hp : s p = some x) (hw : x.wide = false) :
    w.mem p = some (.dir (some (g.q p))) := ((h.good p x hp).narrow hw).1

theorem dirAt_eq {α : Type} {w : World} {p q : Ptr} (h : w.mem p = some (.dir (some q))) (f : Ptr → D α) : dirAt p f w = f q w := by
  unfold dirAt; rw [h]

theorem wread_step {w : World} {s : Streams} {g : Ghost} (h : Inv w s g) {p : Ptr} {x : Stream} (hp : s p = some x) (hw : x.wide = true) :
    Outcome win w s (.wreaddir p) ((Call.wreaddir p).run win w) := by
  obtain ⟨r, w', x', h1, h2, h3, h4, _, h5⟩ := next_ok (win := win) h hp
  rw [wide_q h hp hw] at h1
  show Outcome win w s _ (bind (bind (next win p) _) _ w)
  cases r with
  | none => refine .bindOk ((bind_ok h1).trans rfl) ?_; exact .ok h2 (.wend hp hw h3) h5 h4
  | some e =>
    have e1 := bind_ok (f := fun r => match r with
      | some e => let (name, n) := copyName e.name 0 []
                  if n < PATH_MAX then (pure (some ⟨name, n, typeOf e⟩) : D (Option (Ent Wide))) else fail .outOfBounds
      | none => pure none) h1
    dsimp only at e1
    rw [copyName_eq _ _ _ (by decide)] at e1
    dsimp only at e1
    have hlen : ((e.name.take (PATH_MAX - 1 - 0)).length) ≤ PATH_MAX - 1 := by rw [List.length_take]; exact Nat.min_le_left _ _
    have hpm : PATH_MAX - 1 + 1 = PATH_MAX := rfl
    rw [if_pos (by omega)] at e1
    refine .bindOk e1 ?_
    refine .ok h2 (.wread hp hw h3 ⟨by simp, ?_, ?_, rfl⟩) h5 h4
    · simp
    · show 0 + (e.name.take (PATH_MAX - 1 - 0)).length + 1 ≤ _
      omega

theorem read_step {w : World} {s : Streams} {g : Ghost} (h : Inv w s g) {p : Ptr} {x : Stream} (hp : s p = some x) (hw : x.wide = false) :
    Outcome win w s (.readdir p) ((Call.readdir p).run win w) := by
  obtain ⟨r, w', x', h1, h2, h3, h4, _, h5⟩ := next_ok (win := win) h hp
  have e0 : (Call.readdir p).run win w = bind (bind (next win (g.q p)) fun r =>
    match r with
    | some e =>
      bind (fit win List.length (win.narrow e.name)) fun s1 =>
      bind (match s1 with
        | some s => pure (some s)
        | none => if e.short ≠ [] then fit win List.length (win.narrow e.short) else pure none) fun s2 =>
      match s2 with
      | some s => pure (some ⟨s, (s.length + 1) - 1, typeOf e⟩)
      | none => pure (some ⟨b!"?", 1, .unknown⟩)
    | none => pure none) (fun r => pure (Answer.entry r)) w := by
    show bind (readdir win p) _ w = _
    unfold bind
    rw [show readdir win p w = _ from dirAt_eq (narrow_q h hp hw) _]
    rfl
  rw [e0]
  clear e0
  cases r with
  | none => refine .bindOk ((bind_ok h1).trans rfl) ?_; exact .ok h2 (.end hp hw h3) h5 h4
  | some e =>
    have hrest : ∃ r, x.rest = e :: r := by
      cases h3 with
      | entry hh => exact ⟨_, hh⟩
    obtain ⟨rr, hrest⟩ := hrest
    rcases fit_cases (win := win) (win.narrow e.name) w' with ⟨a, c1, c2, c3⟩ | ⟨c1, c2⟩ | ⟨a, c1, c2, c3, c4⟩
    · refine .bindOk ((bind_ok h1).trans ((bind_ok c3).trans ((bind_ok rfl).trans rfl))) ?_
      exact .ok h2 (.read hp hw h3 (.long ⟨c1, c2⟩)) h5 h4
    · by_cases hs : e.short ≠ []
      · rcases fit_cases (win := win) (win.narrow e.short) w' with ⟨a, d1, d2, d3⟩ | ⟨d1, d2⟩ | ⟨a, d1, d2, d3, d4⟩
        · refine .bindOk ((bind_ok h1).trans ((bind_ok c2).trans ((bind_ok (by dsimp only; rw [if_pos hs]; exact d3)).trans rfl))) ?_
          exact .ok h2 (.read hp hw h3 (.short c1 hs ⟨d1, d2⟩)) h5 h4
        · refine .bindOk ((bind_ok h1).trans ((bind_ok c2).trans ((bind_ok (by dsimp only; rw [if_pos hs]; exact d2)).trans rfl))) ?_
          exact .ok h2 (.read hp hw h3 (.neither c1 (.inr d1))) h5 h4
        · refine .bindBad ((bind_ok h1).trans ((bind_ok c2).trans (bind_bad (by dsimp only; rw [if_pos hs]; exact d4)))) ?_
          exact .bad (.readLong d3 hp hrest (.inr d1) d2)
      · refine .bindOk ((bind_ok h1).trans ((bind_ok c2).trans ((bind_ok (by dsimp only; rw [if_neg hs]; rfl)).trans rfl))) ?_
        exact .ok h2 (.read hp hw h3 (.neither c1 (.inl (Decidable.not_not.mp hs)))) h5 h4
    · refine .bindBad ((bind_ok h1).trans (bind_bad c4)) ?_
      exact .bad (.readLong c3 hp hrest (.inl c1) c2)

theorem step_ok {w : World} {s : Streams} {g : Ghost} (h : Inv w s g) (c : Call) (hl : Legal (fun p => (s p).map (·.wide)) c) : Outcome win w s c (c.run win w) := by
  have get : ∀ {p : Ptr} {b : Bool}, (s p).map (·.wide) = some b → ∃ x, s p = some x ∧ x.wide = b := by
    intro p b hb
    cases hs : s p with
    | none => rw [hs] at hb; cases hb
    | some x => rw [hs] at hb; cases hb; exact ⟨x, rfl, rfl⟩
  cases c with
  | wopendir n => exact wopen_step h n
  | opendir n => exact open_step h n
  | wreaddir p => obtain ⟨x, a1, a2⟩ := get hl; exact wread_step h a1 a2
  | readdir p => obtain ⟨x, a1, a2⟩ := get hl; exact read_step h a1 a2
  | wrewinddir p =>
    cases p with
    | none => exact .ok (Nat.le_refl _) .wrewindNull rfl h
    | some p =>
      obtain ⟨x, a1, a2⟩ := get (hl p rfl)
      obtain ⟨w', x', g', h1, h2, h3, h4, h5⟩ := rewind_ok (win := win) h a1
      rw [wide_q h a1 a2] at h1
      show Outcome win w s _ (bind _ _ w)
      rw [bind_ok h1]
      exact .ok h2 (.wrewind a1 a2 h3) h5 h4
  | rewinddir p =>
    obtain ⟨x, a1, a2⟩ := get hl
    obtain ⟨w', x', g', h1, h2, h3, h4, h5⟩ := rewind_ok (win := win) h a1
    show Outcome win w s _ (bind _ _ w)
    rw [bind_ok (show rewinddir win p w = _ from (dirAt_eq (narrow_q h a1 a2) _).trans h1)]
    exact .ok h2 (.rewind a1 a2 h3) h5 h4
  | wclosedir p =>
    cases p with
    | none => exact .ok (Nat.le_refl _) .wcloseNull rfl (h.idle rfl rfl (Nat.le_refl _) (Nat.le_refl _))
    | some p =>
      obtain ⟨x, a1, a2⟩ := get (hl p rfl)
      obtain ⟨w', h1, h2, h7, h3, h4, h5, h6⟩ := wclose_ok h a1
      have hq := wide_q h a1 a2
      rw [hq] at h1
      show Outcome win w s _ (bind _ _ w)
      rw [bind_ok h1]
      refine .ok (Nat.le_of_eq h2.symm) (.wclose a1 a2) h7 (h.drop a1 h5 ?_ h3 h4)
      intro y
      rw [h6, hq]
      by_cases c : y = p
      · rw [if_pos (.inl c), if_pos (.inl c)]
      · by_cases c' : y = g.pp p
        · rw [if_pos (.inr c'), if_pos (.inr (.inr c'))]
        · rw [if_neg (by rintro (a | a); exact c a; exact c' a), if_neg (by rintro (a | a | a); exact c a; exact c a; exact c' a)]
  | closedir p =>
    cases p with
    | none => exact .ok (Nat.le_refl _) .closeNull rfl (h.idle rfl rfl (Nat.le_refl _) (Nat.le_refl _))
    | some p =>
      obtain ⟨x, a1, a2⟩ := get (hl p rfl)
      obtain ⟨w', h1, h2, h7, h3, h4, h5, h6⟩ := wclose_ok h a1
      obtain ⟨b1, b2⟩ := (h.good p x a1).narrow a2
      obtain ⟨d, size, d1, d2, d3, d4⟩ := (h.good p x a1).repr
      have hpp : p ≠ g.pp p := by
        intro e; rw [← e, b1] at d3; cases d3
      have hm : w'.mem p = some (.dir (some (g.q p))) := by
        rw [h6, if_neg (by rintro (a | a); exact b2 a.symm; exact hpp a)]; exact b1
      show Outcome win w s _ (bind _ _ w)
      rw [bind_ok (show closedir (some p) w = .ok 0 { w' with mem := upd w'.mem p none } by
        refine (dirAt_eq b1 _).trans ((bind_ok h1).trans ((bind_ok (show free p w' = .ok () { w' with mem := upd w'.mem p none } by unfold free; rw [hm])).trans rfl)))]
      refine .ok (Nat.le_of_eq h2.symm) (.close a1 a2) h7 (h.drop a1 h5 ?_ h3 h4)
      intro y
      show upd w'.mem p none y = _
      by_cases c : y = p
      · rw [c, upd_self, if_pos (.inl rfl)]
      · rw [upd_ne _ _ c, h6]
        by_cases c' : y = g.q p ∨ y = g.pp p
        · rw [if_pos c', if_pos (.inr c')]
        · rw [if_neg c', if_neg (by rintro (a | a); exact c a; exact c' a)]

/-! ### Histories -/

theorem reads_wide {now : Nat → Prop} {x x' : Stream} {r : Option Entry} (h : Reads win now x r x') : x'.wide = x.wide := by
  cases h <;> rfl

theorem rewinds_wide {now : Nat → Prop} {x x' : Stream} (h : Rewinds win now x x') : x'.wide = x.wide := by
  cases h; rfl

theorem map_upd (s : Streams) (p : Ptr) (v : Option Stream) : (fun y => (upd s p v y).map (·.wide)) = upd (fun y => (s y).map (·.wide)) p (v.map (·.wide)) := by
  funext y
  unfold upd
  by_cases e : y = p
  · rw [if_pos e, if_pos e]
  · rw [if_neg e, if_neg e]

theorem map_upd_same {s : Streams} {p : Ptr} {x x' : Stream} (hs : s p = some x) (hw : x'.wide = x.wide) :
    (fun y => (upd s p (some x') y).map (·.wide)) = fun y => (s y).map (·.wide) := by
  funext y
  unfold upd
  by_cases e : y = p
  · rw [if_pos e, e, hs]; exact congrArg some hw
  · rw [if_neg e]

/-- The answers say which streams are open. -/
theorem openAfter_eq {h : List (Call × Answer)} {t : Nat} {s : Streams} {e : Option Errno} (hr : SpecRun win h t s e) : openAfter h = fun p => (s p).map (·.wide) := by
  induction hr with
  | nil => rfl
  | @snoc h t t' s s' c a _ _ _ _ hstep ih =>
    unfold openAfter at ih ⊢
    rw [List.foldl_append, ih]
    cases hstep with
    | wopen ho =>
      cases ho <;> first | rfl | (rw [map_upd]; rfl)
    | «open» _ _ _ ho =>
      cases ho <;> first | rfl | (rw [map_upd]; rfl)
    | openUnnamed _ => rfl
    | openNoMemory _ _ => rfl
    | openBadName _ => rfl
    | wread hs _ hr _ => exact (map_upd_same hs (reads_wide hr)).symm
    | wend hs _ hr => exact (map_upd_same hs (reads_wide hr)).symm
    | read hs _ hr _ => exact (map_upd_same hs (reads_wide hr)).symm
    | «end» hs _ hr => exact (map_upd_same hs (reads_wide hr)).symm
    | wrewind hs _ hr => exact (map_upd_same hs (rewinds_wide hr)).symm
    | wrewindNull => rfl
    | rewind hs _ hr => exact (map_upd_same hs (rewinds_wide hr)).symm
    | wclose _ _ => (rw [map_upd]; rfl)
    | wcloseNull => rfl
    | close _ _ => (rw [map_upd]; rfl)
    | closeNull => rfl

theorem hist_inv {h : List (Call × Answer)} {w : World} (hh : Hist win h w) : ∃ s g, SpecRun win h w.time s w.errno ∧ Inv w s g := by
  induction hh with
  | nil => exact ⟨_, _, .nil, Inv.init⟩
  | @snoc h w w' c a _ hl hrun ih =>
    obtain ⟨s, g, h1, h2⟩ := ih
    rw [openAfter_eq h1] at hl
    have := step_ok (win := win) h2 c hl
    rw [hrun] at this
    cases this with
    | ok a1 a2 a3 a4 => exact ⟨_, _, by rw [a3]; exact .snoc h1 a1 a2, a4⟩

/-- Where a stream stands. -/
structure Stands (win : Win) (h : List (Call × Answer)) (now : Nat) (p : Ptr) (x : Stream) : Prop where
  name : ∃ n wn path t, nameOf h p = some n ∧ win.widen n = some wn ∧ t < now ∧ win.full t wn = some path ∧ x.pattern = everything path
  shown : ∃ t before after, t < now ∧ win.listing t x.pattern = before ++ after ∧ Matches win before (shown h p) ∧ (x.rest = after ∨ (x.rest = [] ∧ ∃ t', t' < now ∧ win.broken t' = true))

theorem Stands.same {h h' : List (Call × Answer)} {now now' : Nat} {p : Ptr} {x : Stream} (hs : Stands win h now p x) (h1 : nameOf h' p = nameOf h p)
    (h2 : Spec.Dirent.shown h' p = Spec.Dirent.shown h p) (hle : now ≤ now') : Stands win h' now' p x := by
  obtain ⟨⟨n, wn, path, t, a1, a2, a3, a4, a5⟩, t', before, after, b1, b2, b3, b4⟩ := hs
  refine ⟨⟨n, wn, path, t, h1.trans a1, a2, by omega, a4, a5⟩, t', before, after, by omega, b2, by rw [h2]; exact b3, ?_⟩
  rcases b4 with b4 | ⟨b4, tb, c1, c2⟩
  · exact .inl b4
  · exact .inr ⟨b4, tb, by omega, c2⟩

theorem nameOf_snoc (h : List (Call × Answer)) (c : Call) (a : Answer) : nameOf (h ++ [(c, a)]) = (match (c, a) with
    | (.opendir (some n), .stream (some p)) => upd (nameOf h) p (some n)
    | _ => nameOf h) := by
  unfold nameOf; rw [List.foldl_append]; rfl

theorem shown_snoc (h : List (Call × Answer)) (c : Call) (a : Answer) : shown (h ++ [(c, a)]) = (match (c, a) with
    | (.opendir _, .stream (some p)) => fun y => if y = p then [] else shown h y
    | (.rewinddir p, _) => fun y => if y = p then [] else shown h y
    | (.readdir p, .entry (some e)) => fun y => if y = p then shown h p ++ [e] else shown h y
    | _ => shown h) := by
  unfold shown; rw [List.foldl_append]; rfl

theorem stands {h : List (Call × Answer)} {now : Nat} {s : Streams} {e : Option Errno} (hr : SpecRun win h now s e) : ∀ p x, s p = some x → x.wide = false → Stands win h now p x := by
  induction hr with
  | nil => intro p x hp; cases hp
  | @snoc h t t' s s' c a _ _ _ hle hstep ih =>
    intro p x hp hw
    -- another stream, or the same one as before
    have other : ∀ (p' : Ptr) (x' : Option Stream), s' = upd s p' x' → p ≠ p' → s p = some x := by
      intro p' x' e hne
      rw [e, upd_ne _ _ hne] at hp; exact hp
    have wideOther : ∀ (p' : Ptr) (x0 x' : Stream), s' = upd s p' (some x') → x'.wide = true → p ≠ p' := by
      intro p' x0 x' e hx' e'
      rw [e, e', upd_self] at hp; cases hp; rw [hx'] at hw; cases hw
    have opened : ∀ {n : Str} {wn : Wide} {p' : Ptr}, Opens win (fun x => t ≤ x ∧ x < t') false s (some wn) (some p') s' none → win.widen n = some wn →
        c = .opendir (some n) → a = .stream (some p') → Stands win (h ++ [(c, a)]) t' p x := by
      intro n wn p' ho hwn hc ha
      cases ho with
      | @opened n0 path t1 t2 _ e1 e2 e3 e4 e5 e6 =>
        cases e1
        subst hc ha
        by_cases e : p = p'
        · subst e
          rw [upd_self] at hp
          cases hp
          refine ⟨⟨n, wn, path, t1, ?_, hwn, e2.2, e4, rfl⟩, t2, [], _, e3.2, rfl, ?_, .inl rfl⟩
          · rw [nameOf_snoc]; exact upd_self _ _ _
          · rw [shown_snoc]; dsimp only; rw [if_pos rfl]; exact .nil
        · refine (ih p x (other p' _ rfl e) hw).same ?_ ?_ hle
          · rw [nameOf_snoc]; exact upd_ne _ _ e
          · rw [shown_snoc]; dsimp only; rw [if_neg e]
    cases hstep with
    | @wopen n0 r0 _ _ ho =>
      have hsame : nameOf (h ++ [(Call.wopendir n0, Answer.stream r0)]) p = nameOf h p := by rw [nameOf_snoc]
      have hsame2 : Spec.Dirent.shown (h ++ [(Call.wopendir n0, Answer.stream r0)]) p = Spec.Dirent.shown h p := by rw [shown_snoc]
      cases ho with
      | opened e1 e2 e3 e4 e5 e6 => exact (ih p x (other _ _ rfl (wideOther _ ⟨true, [], [], true⟩ _ rfl rfl)) hw).same hsame hsame2 hle
      | _ => exact (ih p x hp hw).same hsame hsame2 hle
    | @«open» n wn r _ _ h1 h2 h3 ho =>
      cases r with
      | some p' =>
        cases ho with
        | opened e1 e2 e3 e4 e5 e6 => exact opened (.opened e1 e2 e3 e4 e5 e6) h2 rfl rfl
      | none =>
        have hss : s' = s := by cases ho <;> rfl
        rw [hss] at hp
        exact (ih p x hp hw).same (by rw [nameOf_snoc]) (by rw [shown_snoc]) hle
    | @openUnnamed n0 _ => exact (ih p x hp hw).same (by rw [nameOf_snoc]; cases n0 <;> rfl) (by rw [shown_snoc]) hle
    | @openNoMemory n0 _ _ _ => exact (ih p x hp hw).same (by rw [nameOf_snoc]; cases n0 <;> rfl) (by rw [shown_snoc]) hle
    | openBadName _ => exact (ih p x hp hw).same (by rw [nameOf_snoc]) (by rw [shown_snoc]) hle
    | wread hs hx hr _ =>
      exact (ih p x (other _ _ rfl (wideOther _ ⟨true, [], [], true⟩ _ rfl ((reads_wide hr).trans hx))) hw).same (by rw [nameOf_snoc]) (by rw [shown_snoc]) hle
    | wend hs hx hr =>
      exact (ih p x (other _ _ rfl (wideOther _ ⟨true, [], [], true⟩ _ rfl ((reads_wide hr).trans hx))) hw).same (by rw [nameOf_snoc]) (by rw [shown_snoc]) hle
    | @read p' x0 x1 e a hs hx hr hsh =>
      by_cases e' : p = p'
      · subst e'
        rw [upd_self] at hp
        cases hp
        obtain ⟨⟨n, wn, path, t0, a1, a2, a3, a4, a5⟩, t1, before, after, b1, b2, b3, b4⟩ := ih p x0 hs hx
        cases hr with
        | @entry _ r hrest =>
          refine ⟨⟨n, wn, path, t0, by rw [nameOf_snoc]; exact a1, a2, by omega, a4, a5⟩, ?_⟩
          rcases b4 with b4 | ⟨b4, _⟩
          · rw [hrest] at b4
            subst b4
            refine ⟨t1, before ++ [e], r, by omega, by rw [List.append_assoc]; exact b2, ?_, .inl rfl⟩
            rw [shown_snoc]
            dsimp only
            rw [if_pos rfl]
            exact .snoc b3 hsh
          · rw [hrest] at b4; cases b4
      · refine (ih p x (other p' _ rfl e') hw).same (by rw [nameOf_snoc]) ?_ hle
        rw [shown_snoc]; dsimp only; rw [if_neg e']
    | @«end» p' x0 x1 hs hx hr =>
      by_cases e' : p = p'
      · subst e'
        rw [upd_self] at hp
        cases hp
        obtain ⟨⟨n, wn, path, t0, a1, a2, a3, a4, a5⟩, t1, before, after, b1, b2, b3, b4⟩ := ih p x0 hs hx
        have hsh : Spec.Dirent.shown (h ++ [(Call.readdir p, Answer.entry none)]) p = Spec.Dirent.shown h p := by rw [shown_snoc]
        cases hr with
        | done hrest =>
          exact (ih p _ hs hx).same (by rw [nameOf_snoc]) hsh hle
        | @failed tb hy hnow hb =>
          exact ⟨⟨n, wn, path, t0, by rw [nameOf_snoc]; exact a1, a2, by omega, a4, a5⟩, t1, before, after, by omega, b2, by rw [hsh]; exact b3, .inr ⟨rfl, tb, hnow.2, hb⟩⟩
      · exact (ih p x (other p' _ rfl e') hw).same (by rw [nameOf_snoc]) (by rw [shown_snoc]) hle
    | wrewind hs hx hr =>
      exact (ih p x (other _ _ rfl (wideOther _ ⟨true, [], [], true⟩ _ rfl ((rewinds_wide hr).trans hx))) hw).same (by rw [nameOf_snoc]) (by rw [shown_snoc]) hle
    | wrewindNull => exact (ih p x hp hw).same (by rw [nameOf_snoc]) (by rw [shown_snoc]) hle
    | @rewind p' x0 x1 hs hx hr =>
      by_cases e' : p = p'
      · subst e'
        rw [upd_self] at hp
        cases hp
        obtain ⟨⟨n, wn, path, t0, a1, a2, a3, a4, a5⟩, _⟩ := ih p x0 hs hx
        cases hr with
        | @again t1 hnow =>
          refine ⟨⟨n, wn, path, t0, by rw [nameOf_snoc]; exact a1, a2, by omega, a4, a5⟩, t1, [], _, hnow.2, rfl, ?_, .inl rfl⟩
          rw [shown_snoc]; dsimp only; rw [if_pos rfl]; exact .nil
      · refine (ih p x (other p' _ rfl e') hw).same (by rw [nameOf_snoc]) ?_ hle
        rw [shown_snoc]; dsimp only; rw [if_neg e']
    | @wclose p' x0 hs hx =>
      have hne : p ≠ p' := by
        intro e; subst e; rw [upd_self] at hp; cases hp
      exact (ih p x (other p' _ rfl hne) hw).same (by rw [nameOf_snoc]) (by rw [shown_snoc]) hle
    | wcloseNull => exact (ih p x hp hw).same (by rw [nameOf_snoc]) (by rw [shown_snoc]) hle
    | @close p' x0 hs hx =>
      have hne : p ≠ p' := by
        intro e; subst e; rw [upd_self] at hp; cases hp
      exact (ih p x (other p' _ rfl hne) hw).same (by rw [nameOf_snoc]) (by rw [shown_snoc]) hle
    | closeNull => exact (ih p x hp hw).same (by rw [nameOf_snoc]) (by rw [shown_snoc]) hle

end Tgt.Dirent
