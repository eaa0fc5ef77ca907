import Verif.Spec.Dirent
/-
Directory streams for Windows.
-/
namespace Tgt.Dirent
open Spec.Dirent

variable {win : Win}

theorem upd_self {α : Type} (f : Nat → Option α) (x : Nat) (v : Option α) : upd f x v x = v := if_pos rfl
theorem upd_ne {α : Type} (f : Nat → Option α) {x y : Nat} (v : Option α) (h : y ≠ x) : upd f x v y = f y := if_neg h
theorem upd_fresh {α : Type} {f : Nat → Option α} {x : Nat} (h : f x = none) (v : Option α) : upd (upd f x v) x none = f := by
  funext y
  unfold upd
  by_cases e : y = x
  · subst e; simp [h]
  · simp [e]

theorem bind_ok {α β : Type} {p : D α} {f : α → D β} {w w' : World} {a : α} (h : p w = .ok a w') : bind p f w = f a w' := by
  unfold bind; rw [h]

/-- Who owns what: blocks, handles, and for each stream its `_WDIR` and its pattern. -/
structure Ghost where
  own : Nat → Nat
  hown : Nat → Nat
  q : Nat → Nat
  pp : Nat → Nat

/-- What the `_WDIR` of stream `p` holds. -/
structure Holds (finds : Nat → Option (List Entry)) (hown : Nat → Nat) (p : Ptr) (d : WDir) (x : Stream) : Prop where
  ready : x.ready = true → ∃ e r h, d.cached = true ∧ d.data = some e ∧ d.handle = some h ∧ finds h = some r ∧ hown h = p ∧ x.rest = e :: r
  read : x.ready = false → d.cached = false ∧ (∀ h, d.handle = some h → finds h = some x.rest ∧ hown h = p) ∧ (d.handle = none → x.rest = [])

/-- Stream `p` is represented correctly. -/
structure Good (w : World) (g : Ghost) (p : Ptr) (x : Stream) : Prop where
  self : g.own p = p
  wide : x.wide = true → g.q p = p
  narrow : x.wide = false → w.mem p = some (.dir (some (g.q p))) ∧ g.q p ≠ p
  ownq : g.own (g.q p) = p
  ownpp : g.own (g.pp p) = p
  repr : ∃ d size, w.mem (g.q p) = some (.wdir d) ∧ d.patt = some (g.pp p) ∧ w.mem (g.pp p) = some (.patt size x.pattern) ∧ Holds w.finds g.hown p d x

structure Inv (w : World) (s : Streams) (g : Ghost) : Prop where
  good : ∀ p x, s p = some x → Good w g p x
  mem : ∀ y b, w.mem y = some b → y < w.nextPtr ∧ s (g.own y) ≠ none ∧ (y = g.own y ∨ y = g.q (g.own y) ∨ y = g.pp (g.own y))
  finds : ∀ h r, w.finds h = some r → h < w.nextFind ∧ s (g.hown h) ≠ none ∧ ∃ d, w.mem (g.q (g.hown h)) = some (.wdir d) ∧ d.handle = some h

theorem Inv.init : Inv World.init (fun _ => none) ⟨id, id, id, id⟩ :=
  ⟨fun _ _ h => (by cases h), fun _ _ h => (by cases h), fun _ _ h => (by cases h)⟩

theorem Inv.fresh {w : World} {s : Streams} {g : Ghost} (h : Inv w s g) {y : Nat} (hy : w.nextPtr ≤ y) : w.mem y = none := by
  cases hm : w.mem y with
  | none => rfl
  | some b => exact absurd (Nat.lt_of_lt_of_le (h.mem y b hm).1 hy) (Nat.lt_irrefl _)

theorem Inv.freshFind {w : World} {s : Streams} {g : Ghost} (h : Inv w s g) {y : Nat} (hy : w.nextFind ≤ y) : w.finds y = none := by
  cases hm : w.finds y with
  | none => rfl
  | some b => exact absurd (Nat.lt_of_lt_of_le (h.finds y b hm).1 hy) (Nat.lt_irrefl _)

theorem Inv.stream_lt {w : World} {s : Streams} {g : Ghost} (h : Inv w s g) {p : Ptr} {x : Stream} (hp : s p = some x) : p < w.nextPtr := by
  have hg := h.good p x hp
  cases hw : x.wide with
  | true =>
    obtain ⟨d, size, h1, _⟩ := hg.repr
    rw [hg.wide hw] at h1
    exact (h.mem p _ h1).1
  | false => exact (h.mem p _ (hg.narrow hw).1).1

/-- The operating system was asked, nothing else. -/
theorem Inv.idle {w w' : World} {s : Streams} {g : Ghost} (h : Inv w s g) (hm : w'.mem = w.mem) (hf : w'.finds = w.finds) (h1 : w.nextPtr ≤ w'.nextPtr)
    (h2 : w.nextFind ≤ w'.nextFind) : Inv w' s g := by
  refine ⟨?_, ?_, ?_⟩
  · intro p x hp
    have := h.good p x hp
    exact ⟨this.self, this.wide, by rw [hm]; exact this.narrow, this.ownq, this.ownpp, by rw [hm, hf]; exact this.repr⟩
  · intro y b hy
    rw [hm] at hy
    obtain ⟨a1, a2, a3⟩ := h.mem y b hy
    exact ⟨Nat.lt_of_lt_of_le a1 h1, a2, a3⟩
  · intro y b hy
    rw [hf] at hy
    obtain ⟨a1, a2, a3⟩ := h.finds y b hy
    exact ⟨Nat.lt_of_lt_of_le a1 h2, a2, by rw [hm]; exact a3⟩

/-- The representation of another stream is not touched. -/
theorem Good.frame {w w' : World} {g g' : Ghost} {p : Ptr} {x : Stream} (h : Good w g p x) (hm : ∀ y b, w.mem y = some b → g.own y = p → w'.mem y = some b)
    (hf : ∀ y r, w.finds y = some r → g.hown y = p → w'.finds y = some r) (ho : ∀ y b, w.mem y = some b → g.own y = p → g'.own y = p)
    (hh : ∀ y r, w.finds y = some r → g.hown y = p → g'.hown y = p) (hq : g'.q p = g.q p) (hpp : g'.pp p = g.pp p) : Good w' g' p x := by
  obtain ⟨d, size, h1, h2, h3, h4⟩ := h.repr
  have hself : g'.own p = p := by
    cases hw : x.wide with
    | true => rw [h.wide hw] at h1; exact ho p _ h1 h.self
    | false => exact ho p _ (h.narrow hw).1 h.self
  refine ⟨hself, fun hw => by rw [hq]; exact h.wide hw, fun hw => ?_, by rw [hq]; exact ho _ _ h1 h.ownq, by rw [hpp]; exact ho _ _ h3 h.ownpp, ?_⟩
  · rw [hq]; exact ⟨hm _ _ (h.narrow hw).1 h.self, (h.narrow hw).2⟩
  · refine ⟨d, size, by rw [hq]; exact hm _ _ h1 h.ownq, by rw [hpp]; exact h2, by rw [hpp]; exact hm _ _ h3 h.ownpp, ?_, ?_⟩
    · intro hr
      obtain ⟨e, r, y, a1, a2, a3, a4, a5, a6⟩ := h4.ready hr
      exact ⟨e, r, y, a1, a2, a3, hf y r a4 a5, hh y r a4 a5, a6⟩
    · intro hr
      obtain ⟨a1, a2, a3⟩ := h4.read hr
      exact ⟨a1, fun y hy => ⟨hf y _ (a2 y hy).1 (a2 y hy).2, hh y _ (a2 y hy).1 (a2 y hy).2⟩, a3⟩

/-- One stream's `_WDIR` and its search have changed. -/
theorem Inv.change {w w' : World} {s : Streams} {g : Ghost} (h : Inv w s g) {p : Ptr} {x x' : Stream} {d d' : WDir} {hown' : Nat → Nat} (hp : s p = some x)
    (hd : w.mem (g.q p) = some (.wdir d)) (hw : x'.wide = x.wide) (hpat : x'.pattern = x.pattern) (hdp : d'.patt = d.patt)
    (hm : w'.mem = upd w.mem (g.q p) (some (.wdir d'))) (h1 : w.nextPtr ≤ w'.nextPtr)
    (hf : ∀ y r, w'.finds y = some r → y < w'.nextFind ∧ ((hown' y = p ∧ d'.handle = some y) ∨ (hown' y = g.hown y ∧ g.hown y ≠ p ∧ w.finds y = some r)))
    (hf2 : ∀ y r, w.finds y = some r → g.hown y ≠ p → w'.finds y = some r ∧ hown' y = g.hown y)
    (hx : Holds w'.finds hown' p d' x') : Inv w' (upd s p (some x')) { g with hown := hown' } := by
  have hg := h.good p x hp
  have keepM : ∀ y b, w.mem y = some b → y ≠ g.q p → w'.mem y = some b := by
    intro y b hy hne
    rw [hm, upd_ne _ _ hne]; exact hy
  have somes : ∀ y, s y ≠ none → upd s p (some x') y ≠ none := by
    intro y hy
    by_cases e : y = p
    · subst e; rw [upd_self]; simp
    · rw [upd_ne _ _ e]; exact hy
  refine ⟨?_, ?_, ?_⟩
  · intro p' x'' hp'
    by_cases e : p' = p
    · subst e
      rw [upd_self] at hp'
      cases hp'
      obtain ⟨d0, size, a1, a2, a3, a4⟩ := hg.repr
      rw [hd] at a1; cases a1
      have hne : g.pp p' ≠ g.q p' := by
        intro e; rw [e, hd] at a3; cases a3
      refine ⟨hg.self, fun hh => hg.wide (by rw [← hw]; exact hh), fun hh => ?_, hg.ownq, hg.ownpp, d', size, ?_, ?_, ?_, hx⟩
      · obtain ⟨b1, b2⟩ := hg.narrow (by rw [← hw]; exact hh)
        exact ⟨keepM _ _ b1 (fun e => b2 e.symm), b2⟩
      · rw [hm]; exact upd_self _ _ _
      · rw [hdp]; exact a2
      · rw [hpat]; exact keepM _ _ a3 hne
    · rw [upd_ne _ _ e] at hp'
      refine (h.good p' x'' hp').frame ?_ ?_ (fun _ _ _ h => h) ?_ rfl rfl
      · intro y b hy ho
        refine keepM y b hy (fun e' => e ?_)
        rw [e', hg.ownq] at ho; exact ho.symm
      · intro y r hy ho
        exact (hf2 y r hy (fun e' => e (ho.symm.trans e'))).1
      · intro y r hy ho
        exact ((hf2 y r hy (fun e' => e (ho.symm.trans e'))).2).trans ho
  · intro y b hy
    have : ∃ b', w.mem y = some b' := by
      rw [hm] at hy
      by_cases e : y = g.q p
      · exact ⟨_, by rw [e]; exact hd⟩
      · rw [upd_ne _ _ e] at hy; exact ⟨b, hy⟩
    obtain ⟨b', hb'⟩ := this
    obtain ⟨a1, a2, a3⟩ := h.mem y b' hb'
    exact ⟨Nat.lt_of_lt_of_le a1 h1, somes _ a2, a3⟩
  · intro y r hy
    obtain ⟨a1, a2⟩ := hf y r hy
    refine ⟨a1, ?_⟩
    rcases a2 with ⟨b1, b2⟩ | ⟨b1, b2, b3⟩
    · show upd s p (some x') (hown' y) ≠ none ∧ ∃ d, w'.mem (g.q (hown' y)) = _ ∧ _
      rw [b1]
      exact ⟨by rw [upd_self]; simp, d', by rw [hm]; exact upd_self _ _ _, b2⟩
    · obtain ⟨c1, c2, d2, c3, c4⟩ := h.finds y r b3
      show upd s p (some x') (hown' y) ≠ none ∧ ∃ d, w'.mem (g.q (hown' y)) = _ ∧ _
      rw [b1]
      refine ⟨somes _ c2, d2, keepM _ _ c3 ?_, c4⟩
      intro e
      cases hs : s (g.hown y) with
      | none => exact c2 hs
      | some x2 =>
        have := (h.good _ x2 hs).ownq
        rw [e, hg.ownq] at this
        exact b2 this.symm

/-! ### Reading -/

/-- The handle of a stream and what it finds. -/
theorem Good.handle {w : World} {g : Ghost} {p : Ptr} {x : Stream} {d : WDir} {hn : Nat} (hx : Holds w.finds g.hown p d x) (hd : d.handle = some hn) :
    (∃ r, w.finds hn = some r) ∧ g.hown hn = p := by
  cases hr : x.ready with
  | true =>
    obtain ⟨e, r, y, _, _, a3, a4, a5, _⟩ := hx.ready hr
    rw [hd] at a3; cases a3
    exact ⟨⟨r, a4⟩, a5⟩
  | false =>
    obtain ⟨_, a2, _⟩ := hx.read hr
    exact ⟨⟨_, (a2 hn hd).1⟩, (a2 hn hd).2⟩

theorem Inv.only {w : World} {s : Streams} {g : Ghost} (h : Inv w s g) {p : Ptr} {d : WDir} (hd : w.mem (g.q p) = some (.wdir d)) {y : Nat} {r : List Entry}
    (hy : w.finds y = some r) (ho : g.hown y = p) : d.handle = some y := by
  obtain ⟨_, _, d2, c3, c4⟩ := h.finds y r hy
  rw [ho, hd] at c3
  cases c3; exact c4

theorem next_ok {w : World} {s : Streams} {g : Ghost} (h : Inv w s g) {p : Ptr} {x : Stream} (hp : s p = some x) :
    ∃ r w' x', next win (g.q p) w = .ok r w' ∧ w.time ≤ w'.time ∧ Reads win (fun t => w.time ≤ t ∧ t < w'.time) x r x' ∧ Inv w' (upd s p (some x')) g ∧
      x'.wide = x.wide ∧ w'.errno = w.errno := by
  have hg := h.good p x hp
  obtain ⟨d, size, h1, h2, h3, h4⟩ := hg.repr
  have hq : w.mem (g.q p) = some (.wdir d) := h1
  unfold next wdirAt
  rw [hq]
  dsimp only
  cases hr : x.ready with
  | true =>
    obtain ⟨e, r, hn, a1, a2, a3, a4, a5, a6⟩ := h4.ready hr
    rw [if_pos a1, a2]
    dsimp only
    unfold bind write
    rw [hq]
    refine ⟨some e, _, _, rfl, Nat.le_refl _, .entry a6, ?_, rfl, rfl⟩
    refine h.change (d' := { d with data := some e, cached := false }) hp hq rfl rfl rfl rfl (Nat.le_refl _) ?_ ?_ ?_
    · intro y r' hy
      refine ⟨(h.finds y r' hy).1, ?_⟩
      by_cases ho : g.hown y = p
      · exact .inl ⟨ho, h.only hq hy ho⟩
      · exact .inr ⟨rfl, ho, hy⟩
    · intro y r' hy _; exact ⟨hy, rfl⟩
    · refine ⟨fun hh => (Bool.false_ne_true hh).elim, fun _ => ⟨rfl, ?_, ?_⟩⟩
      · intro y hy
        have hy : d.handle = some y := hy
        rw [a3] at hy; cases hy; exact ⟨a4, a5⟩
      · intro hy
        have hy : d.handle = none := hy
        rw [a3] at hy; cases hy
  | false =>
    obtain ⟨a1, a2, a3⟩ := h4.read hr
    rw [if_neg (by simp [a1])]
    cases hh : d.handle with
    | none =>
      dsimp only
      refine ⟨none, w, x, rfl, Nat.le_refl _, .done (a3 hh), ?_, rfl, rfl⟩
      have : upd s p (some x) = s := by
        funext y; unfold upd
        by_cases e : y = p
        · subst e; rw [if_pos rfl, hp]
        · rw [if_neg e]
      rw [this]; exact h
    | some hn =>
      obtain ⟨b1, b2⟩ := a2 hn hh
      dsimp only
      -- the search ends
      have stop : ∀ (hreads : Reads win (fun t => w.time ≤ t ∧ t < w.time + 1) x none { x with rest := [] }),
          findNext win hn w = .ok none { w with time := w.time + 1 } →
          ∃ r w' x', (bind (findNext win hn) fun r =>
            match r with
            | some e => bind (write (g.q p) (.wdir { d with data := some e, handle := some hn })) fun _ => pure (some e)
            | none => bind (findClose hn) fun _ => bind (write (g.q p) (.wdir { d with handle := none })) fun _ => pure none) w = .ok r w' ∧ w.time ≤ w'.time ∧
            Reads win (fun t => w.time ≤ t ∧ t < w'.time) x r x' ∧ Inv w' (upd s p (some x')) g ∧ x'.wide = x.wide ∧ w'.errno = w.errno := by
        intro hreads hfn
        refine ⟨none, { w with time := w.time + 1, finds := upd w.finds hn none, mem := upd w.mem (g.q p) (some (.wdir { d with handle := none })) },
          { x with rest := [] }, ?_, Nat.le_succ _, hreads, ?_, rfl, rfl⟩
        · unfold bind
          rw [hfn]
          dsimp only
          unfold findClose
          dsimp only
          rw [b1]
          dsimp only
          unfold write
          dsimp only
          rw [hq]
          rfl
        · refine h.change (d' := { d with handle := none }) hp hq rfl rfl rfl rfl (Nat.le_refl _) ?_ ?_ ?_
          · intro y r' hy
            have hy : upd w.finds hn none y = some r' := hy
            by_cases e : y = hn
            · subst e; rw [upd_self] at hy; cases hy
            · rw [upd_ne _ _ e] at hy
              refine ⟨(h.finds y r' hy).1, .inr ⟨rfl, ?_, hy⟩⟩
              intro ho
              have := h.only hq hy ho
              rw [hh] at this; cases this; exact e rfl
          · intro y r' hy ho
            refine ⟨?_, rfl⟩
            show upd w.finds hn none y = some r'
            rw [upd_ne _ _ (fun e => ho (by rw [e]; exact b2))]; exact hy
          · exact ⟨fun hh' => (by have hh' : x.ready = true := hh'; rw [hr] at hh'; cases hh'), fun _ => ⟨a1, fun y hy => (by cases hy), fun _ => rfl⟩⟩
      cases hrest : x.rest with
      | nil =>
        refine stop (by have := Reads.done (win := win) (now := fun t => w.time ≤ t ∧ t < w.time + 1) hrest; rw [show ({ x with rest := [] } : Stream) = x by rw [← hrest]]; exact this) ?_
        unfold findNext; rw [b1, hrest]
      | cons e r =>
        by_cases hb : win.broken w.time = true
        · refine stop (.failed hr ⟨Nat.le_refl _, Nat.lt_succ_self _⟩ hb) ?_
          unfold findNext; rw [b1, hrest]; dsimp only; rw [if_pos hb]
        · refine ⟨some e, { w with time := w.time + 1, finds := upd w.finds hn (some r), mem := upd w.mem (g.q p) (some (.wdir { d with data := some e, handle := some hn })) },
            { x with rest := r, ready := false }, ?_, Nat.le_succ _, .entry hrest, ?_, rfl, rfl⟩
          · unfold bind findNext
            rw [b1, hrest]
            dsimp only
            rw [if_neg hb]
            dsimp only
            unfold write
            dsimp only
            rw [hq]
            rfl
          · refine h.change (d' := { d with data := some e, handle := some hn }) hp hq rfl rfl rfl rfl (Nat.le_refl _) ?_ ?_ ?_
            · intro y r' hy
              have hy : upd w.finds hn (some r) y = some r' := hy
              by_cases e' : y = hn
              · subst e'; exact ⟨(h.finds y _ b1).1, .inl ⟨b2, rfl⟩⟩
              · rw [upd_ne _ _ e'] at hy
                refine ⟨(h.finds y r' hy).1, .inr ⟨rfl, ?_, hy⟩⟩
                intro ho
                have := h.only hq hy ho
                rw [hh] at this; cases this; exact e' rfl
            · intro y r' hy ho
              refine ⟨?_, rfl⟩
              show upd w.finds hn (some r) y = some r'
              rw [upd_ne _ _ (fun e => ho (by rw [e]; exact b2))]; exact hy
            · refine ⟨fun hh' => (Bool.false_ne_true hh').elim, fun _ => ⟨a1, ?_, ?_⟩⟩
              · intro y hy
                cases hy
                exact ⟨upd_self _ _ _, b2⟩
              · intro hy
                cases hy

/-! ### Rewinding -/

/-- A stream's search is over; the others go on. -/
structure Closed (w : World) (g : Ghost) (p : Ptr) (f : Nat → Option (List Entry)) : Prop where
  rest : ∀ y r, f y = some r → w.finds y = some r ∧ g.hown y ≠ p
  keep : ∀ y r, w.finds y = some r → g.hown y ≠ p → f y = some r

theorem Inv.closed {w : World} {s : Streams} {g : Ghost} (h : Inv w s g) {p : Ptr} {x : Stream} {d : WDir} (hd : w.mem (g.q p) = some (.wdir d))
    (hx : Holds w.finds g.hown p d x) {hn : Nat} (hh : d.handle = some hn) : Closed w g p (upd w.finds hn none) := by
  obtain ⟨_, b2⟩ := Good.handle hx hh
  refine ⟨fun y r hy => ?_, fun y r hy ho => ?_⟩
  · by_cases e : y = hn
    · subst e; rw [upd_self] at hy; cases hy
    · rw [upd_ne _ _ e] at hy
      refine ⟨hy, fun ho => ?_⟩
      have := h.only hd hy ho
      rw [hh] at this; cases this; exact e rfl
  · rw [upd_ne _ _ (fun e => ho (by rw [e]; exact b2))]; exact hy

theorem Inv.closed_none {w : World} {s : Streams} {g : Ghost} (h : Inv w s g) {p : Ptr} {d : WDir} (hd : w.mem (g.q p) = some (.wdir d))
    (hh : d.handle = none) : Closed w g p w.finds := by
  refine ⟨fun y r hy => ⟨hy, fun ho => ?_⟩, fun y r hy _ => hy⟩
  have := h.only hd hy ho
  rw [hh] at this; cases this

theorem rewind_ok {w : World} {s : Streams} {g : Ghost} (h : Inv w s g) {p : Ptr} {x : Stream} (hp : s p = some x) :
    ∃ w' x' g', wrewinddir win (some (g.q p)) w = .ok () w' ∧ w.time ≤ w'.time ∧ Rewinds win (fun t => w.time ≤ t ∧ t < w'.time) x x' ∧
      Inv w' (upd s p (some x')) g' ∧ w'.errno = w.errno := by
  have hg := h.good p x hp
  obtain ⟨d, size, h1, h2, h3, h4⟩ := hg.repr
  have close : ∃ f, (match d.handle with
        | some h => findClose h
        | none => pure ()) w = .ok () { w with finds := f } ∧ Closed w g p f := by
    cases hh : d.handle with
    | none => exact ⟨w.finds, rfl, h.closed_none h1 hh⟩
    | some hn =>
      obtain ⟨⟨r, b1⟩, b2⟩ := Good.handle h4 hh
      refine ⟨upd w.finds hn none, ?_, h.closed h1 h4 hh⟩
      show findClose hn w = _
      unfold findClose
      rw [b1]
  obtain ⟨f, hf, hc⟩ := close
  have step : wrewinddir win (some (g.q p)) w = bind (first win (g.q p)) (fun _ => pure ()) { w with finds := f } := by
    unfold wrewinddir wdirAt
    dsimp only
    rw [h1]
    dsimp only
    exact bind_ok hf
  rw [step]
  unfold bind first wdirAt
  dsimp only
  rw [h1]
  dsimp only
  rw [h2]
  dsimp only
  rw [h3]
  dsimp only
  unfold bind findFirst
  dsimp only
  cases hl : win.listing w.time x.pattern with
  | nil =>
    dsimp only
    unfold write
    dsimp only
    rw [h1]
    dsimp only
    refine ⟨_, { x with rest := [], ready := false }, g, rfl, Nat.le_succ _, ?_, ?_, rfl⟩
    · have := Rewinds.again (win := win) (now := fun t => w.time ≤ t ∧ t < w.time + 1) (x := x) (t := w.time) ⟨Nat.le_refl _, Nat.lt_succ_self _⟩
      rw [hl] at this; exact this
    · refine h.change (d' := { d with handle := none, cached := false }) hp h1 rfl rfl rfl (by first | rfl | (dsimp only; rw [h2]))  (Nat.le_refl _) ?_ ?_ ?_
      · intro y r hy
        obtain ⟨c1, c2⟩ := hc.rest y r hy
        exact ⟨(h.finds y r c1).1, .inr ⟨rfl, c2, c1⟩⟩
      · intro y r hy ho
        exact ⟨hc.keep y r hy ho, rfl⟩
      · exact ⟨fun hh => (Bool.false_ne_true hh).elim, fun _ => ⟨rfl, fun y hy => (by cases hy), fun _ => rfl⟩⟩
  | cons e r =>
    dsimp only
    unfold write
    dsimp only
    rw [h1]
    dsimp only
    refine ⟨_, { x with rest := e :: r, ready := true }, { g with hown := fun y => if y = w.nextFind then p else g.hown y }, rfl, Nat.le_succ _, ?_, ?_, rfl⟩
    · have := Rewinds.again (win := win) (now := fun t => w.time ≤ t ∧ t < w.time + 1) (x := x) (t := w.time) ⟨Nat.le_refl _, Nat.lt_succ_self _⟩
      rw [hl] at this; exact this
    · have hne : ∀ y r, w.finds y = some r → y ≠ w.nextFind := fun y r hy e => by
        have := (h.finds y r hy).1
        rw [e] at this; exact Nat.lt_irrefl _ this
      refine h.change (d' := { d with handle := some w.nextFind, data := some e, cached := true }) hp h1 rfl rfl rfl (by first | rfl | (dsimp only; rw [h2]))  (Nat.le_refl _) ?_ ?_ ?_
      · intro y r' hy
        have hy : upd f w.nextFind (some r) y = some r' := hy
        by_cases e' : y = w.nextFind
        · subst e'
          exact ⟨Nat.lt_succ_self _, .inl ⟨if_pos rfl, rfl⟩⟩
        · rw [upd_ne _ _ e'] at hy
          obtain ⟨c1, c2⟩ := hc.rest y r' hy
          exact ⟨Nat.lt_succ_of_lt (h.finds y r' c1).1, .inr ⟨if_neg e', c2, c1⟩⟩
      · intro y r' hy ho
        refine ⟨?_, if_neg (hne y r' hy)⟩
        show upd f w.nextFind (some r) y = some r'
        rw [upd_ne _ _ (hne y r' hy)]; exact hc.keep y r' hy ho
      · exact ⟨fun _ => ⟨e, r, w.nextFind, rfl, rfl, rfl, upd_self _ _ _, if_pos rfl, rfl⟩, fun hh => (Bool.false_ne_true hh.symm).elim⟩

/-! ### Closing -/

theorem Inv.drop {w w' : World} {s : Streams} {g : Ghost} (h : Inv w s g) {p : Ptr} {x : Stream} (hp : s p = some x) (hc : Closed w g p w'.finds)
    (hm : ∀ y, w'.mem y = if y = p ∨ y = g.q p ∨ y = g.pp p then none else w.mem y) (h1 : w'.nextPtr = w.nextPtr) (h2 : w'.nextFind = w.nextFind) :
    Inv w' (upd s p none) g := by
  have hg := h.good p x hp
  have own : ∀ y b, w.mem y = some b → ((y = p ∨ y = g.q p ∨ y = g.pp p) ↔ g.own y = p) := by
    intro y b hy
    constructor
    · rintro (rfl | rfl | rfl)
      · exact hg.self
      · exact hg.ownq
      · exact hg.ownpp
    · intro ho
      have := (h.mem y b hy).2.2
      rw [ho] at this; exact this
  refine ⟨?_, ?_, ?_⟩
  · intro p' x' hp'
    by_cases e : p' = p
    · subst e; rw [upd_self] at hp'; cases hp'
    · rw [upd_ne _ _ e] at hp'
      refine (h.good p' x' hp').frame ?_ ?_ (fun _ _ _ h => h) (fun _ _ _ h => h) rfl rfl
      · intro y b hy ho
        rw [hm, if_neg (fun hh => e (ho.symm.trans ((own y b hy).1 hh)))]; exact hy
      · intro y r hy ho
        exact hc.keep y r hy (fun e' => e (ho.symm.trans e'))
  · intro y b hy
    rw [hm] at hy
    by_cases c : y = p ∨ y = g.q p ∨ y = g.pp p
    · rw [if_pos c] at hy; cases hy
    · rw [if_neg c] at hy
      obtain ⟨a1, a2, a3⟩ := h.mem y b hy
      refine ⟨by rw [h1]; exact a1, ?_, a3⟩
      rw [upd_ne _ _ (fun e => c ((own y b hy).2 e))]; exact a2
  · intro y r hy
    obtain ⟨c1, c2⟩ := hc.rest y r hy
    obtain ⟨b1, b2, d, b3, b4⟩ := h.finds y r c1
    refine ⟨by rw [h2]; exact b1, by rw [upd_ne _ _ c2]; exact b2, d, ?_, b4⟩
    rw [hm, if_neg ?_]
    · exact b3
    · intro hh
      have := (own _ _ b3).1 hh
      cases hs : s (g.hown y) with
      | none => exact b2 hs
      | some x2 =>
        have ho := (h.good _ x2 hs).ownq
        rw [ho] at this
        exact c2 this

theorem wclose_ok {w : World} {s : Streams} {g : Ghost} (h : Inv w s g) {p : Ptr} {x : Stream} (hp : s p = some x) :
    ∃ w', wclosedir (some (g.q p)) w = .ok 0 w' ∧ w'.time = w.time ∧ w'.errno = w.errno ∧ w'.nextPtr = w.nextPtr ∧ w'.nextFind = w.nextFind ∧ Closed w g p w'.finds ∧
      ∀ y, w'.mem y = if y = g.q p ∨ y = g.pp p then none else w.mem y := by
  have hg := h.good p x hp
  obtain ⟨d, size, h1, h2, h3, h4⟩ := hg.repr
  have hne : g.pp p ≠ g.q p := by
    intro e; rw [e, h1] at h3; cases h3
  have close : ∃ f d', (match d.handle with
        | some h => bind (findClose h) fun _ => write (g.q p) (.wdir { d with handle := none })
        | none => pure ()) w = .ok () { w with finds := f, mem := upd w.mem (g.q p) (some d') } ∧ Closed w g p f := by
    cases hh : d.handle with
    | none =>
      refine ⟨w.finds, .wdir d, ?_, h.closed_none h1 hh⟩
      have : upd w.mem (g.q p) (some (.wdir d)) = w.mem := by
        funext y
        unfold upd
        by_cases e : y = g.q p
        · rw [if_pos e, e, h1]
        · rw [if_neg e]
      rw [this]; rfl
    | some hn =>
      obtain ⟨⟨r, b1⟩, b2⟩ := Good.handle h4 hh
      refine ⟨upd w.finds hn none, .wdir { d with handle := none }, ?_, h.closed h1 h4 hh⟩
      dsimp only
      unfold bind findClose
      rw [b1]
      dsimp only
      unfold write
      dsimp only
      rw [h1]
  obtain ⟨f, d', hf, hc⟩ := close
  refine ⟨{ w with finds := f, mem := upd (upd (upd w.mem (g.q p) (some d')) (g.pp p) none) (g.q p) none }, ?_, rfl, rfl, rfl, rfl, hc, ?_⟩
  · unfold wclosedir wdirAt
    dsimp only
    rw [h1]
    dsimp only
    refine (bind_ok hf).trans ?_
    rw [h2]
    dsimp only
    unfold bind free
    dsimp only
    rw [upd_ne _ _ hne, h3]
    dsimp only
    rw [upd_ne _ _ hne.symm, upd_self]
    rfl
  · intro y
    dsimp only
    unfold upd
    by_cases e : y = g.q p
    · rw [if_pos e, if_pos (.inl e)]
    · rw [if_neg e]
      by_cases e' : y = g.pp p
      · rw [if_pos e', if_pos (.inr e')]
      · rw [if_neg e', if_neg e, if_neg (by rintro (h | h); exact e h; exact e' h)]

/-! ### Opening -/

theorem star (path : Wide) : withStar path = everything path := by
  unfold withStar
  unfold everything
  split
  · rename_i h; rw [if_pos (.inl h)]
  · rename_i h; rw [if_pos (.inr (.inl h))]
  · rename_i h; rw [if_pos (.inr (.inr h))]
  · rename_i h1 h2 h3
    rw [if_neg]
    rintro (h | h | h)
    · exact h1 h
    · exact h2 h
    · exact h3 h

theorem everything_length (path : Wide) : (everything path).length ≤ path.length + 2 := by
  unfold everything
  split <;> simp

theorem addStar_ok {size n : Nat} {path : Wide} (h : path.length + 2 < size) (w : World) : addStar size n (some path) w = .ok (everything path) w := by
  unfold addStar
  dsimp only
  rw [star, if_pos (Nat.lt_of_le_of_lt (everything_length path) h)]
  rfl

/-- Closing a stream that is being opened. -/
theorem wclose_new {w : World} {p pp : Ptr} (hne : pp ≠ p) {size : Nat} {text : Wide} {data : Option Entry} {c : Bool}
    (h1 : w.mem p = some (.wdir ⟨data, c, none, some pp⟩)) (h2 : w.mem pp = some (.patt size text)) :
    wclosedir (some p) w = .ok 0 { w with mem := upd (upd w.mem pp none) p none } := by
  unfold wclosedir wdirAt
  dsimp only
  rw [h1]
  dsimp only
  unfold bind pure free
  dsimp only
  rw [h2]
  dsimp only
  rw [upd_ne _ _ hne.symm, h1]

theorem first_new {w : World} {p pp : Ptr} {size : Nat} {text : Wide} {d : WDir} (hd : d.patt = some pp)
    (h1 : w.mem p = some (.wdir d)) (h2 : w.mem pp = some (.patt size text)) :
    first win p w = match win.listing w.time text with
      | [] => .ok false { w with time := w.time + 1, mem := upd w.mem p (some (.wdir { d with handle := none, cached := false })) }
      | e :: r => .ok true { w with time := w.time + 1, finds := upd w.finds w.nextFind (some r), nextFind := w.nextFind + 1,
                                    mem := upd w.mem p (some (.wdir { d with handle := some w.nextFind, data := some e, cached := true })) } := by
  unfold first wdirAt
  rw [h1]
  dsimp only
  rw [hd]
  dsimp only
  rw [h2]
  dsimp only
  unfold bind findFirst
  cases win.listing w.time text with
  | nil =>
    dsimp only
    unfold write
    dsimp only
    rw [h1]
    rfl
  | cons e r =>
    dsimp only
    unfold write
    dsimp only
    rw [h1]
    rfl

theorem malloc_no (b : Block) {w : World} (h : win.noMemory w.time = true) : malloc win b w = .ok none { w with time := w.time + 1, errno := some .ENOMEM } := by
  unfold malloc; rw [if_pos h]

theorem malloc_yes (b : Block) {w : World} (h : ¬ win.noMemory w.time = true) :
    malloc win b w = .ok (some w.nextPtr) { w with time := w.time + 1, mem := upd w.mem w.nextPtr (some b), nextPtr := w.nextPtr + 1 } := by
  unfold malloc; rw [if_neg h]

/-- The answer of `GetFullPathNameW`. -/
def fullAnswer (win : Win) (t : Nat) (n : Wide) (size : Nat) : Nat × Option Wide :=
  match win.full t n with
  | none => (0, none)
  | some p => if p.length < size then (p.length, some p) else (p.length + 1, none)

theorem getFullPathName_eq (n : Wide) (size : Nat) (w : World) : getFullPathName win n size w = .ok (fullAnswer win w.time n size) { w with time := w.time + 1 } := rfl

theorem wclose_bare {w : World} {p : Ptr} {data : Option Entry} {c : Bool} (h1 : w.mem p = some (.wdir ⟨data, c, none, none⟩)) :
    wclosedir (some p) w = .ok 0 { w with mem := upd w.mem p none } := by
  unfold wclosedir wdirAt
  dsimp only
  rw [h1]
  dsimp only
  unfold bind pure free
  dsimp only
  rw [h1]

theorem write_ok {w : World} {p : Ptr} {b b' : Block} (h : w.mem p = some b') : write p b w = .ok () { w with mem := upd w.mem p (some b) } := by
  unfold write; rw [h]

/-- What opening comes to. -/
inductive Opened (win : Win) (w : World) (name : Option Wide) : R (Option Ptr) → Prop where
  | no {w' : World} : w.time ≤ w'.time → w'.mem = w.mem → w'.finds = w.finds → w.nextPtr ≤ w'.nextPtr → w'.nextFind = w.nextFind →
    (∀ wide s, Opens win (fun t => w.time ≤ t ∧ t < w'.time) wide s name none s w'.errno) → w'.errno ≠ none → Opened win w name (.ok none w')
  | yes {w' : World} {n path : Wide} {t t' size : Nat} {e : Entry} {r : List Entry} : w.time ≤ w'.time → name = some n → w.time ≤ t ∧ t < w'.time → w.time ≤ t' ∧ t' < w'.time →
    win.full t n = some path → win.listing t' (everything path) = e :: r →
    w'.mem = upd (upd w.mem w.nextPtr (some (.wdir ⟨some e, true, some w.nextFind, some (w.nextPtr + 1)⟩))) (w.nextPtr + 1) (some (.patt size (everything path))) →
    w'.finds = upd w.finds w.nextFind (some r) → w'.nextPtr = w.nextPtr + 2 → w'.nextFind = w.nextFind + 1 → w'.errno = w.errno → Opened win w name (.ok (some w.nextPtr) w')
  | moved {n : Wide} {b : Bad} : name = some n → win.full (w.time + 1) n ≠ win.full (w.time + 3) n → b = .outOfBounds ∨ b = .uninitialised → Opened win w name (.bad b)

theorem wopendir_outcome {w : World} (name : Option Wide) (f1 : w.mem w.nextPtr = none) (f2 : w.mem (w.nextPtr + 1) = none) : Opened win w name (wopendir win name w) := by
  cases name with
  | none => exact .no (Nat.le_refl _) rfl rfl (Nat.le_refl _) rfl (fun _ _ => .unnamed (.inl rfl)) (fun h => (by cases h))
  | some n =>
    cases n with
    | nil => exact .no (Nat.le_refl _) rfl rfl (Nat.le_refl _) rfl (fun _ _ => .unnamed (.inr rfl)) (fun h => (by cases h))
    | cons c cs =>
      generalize hn : (c :: cs : Wide) = n
      have hne : n ≠ [] := by rw [← hn]; simp
      have e1 : wopendir win (some n) = bind (malloc win (.wdir ⟨none, false, none, none⟩)) fun r =>
          match r with
          | none => pure none
          | some p =>
            bind (getFullPathName win n 0) fun n1 =>
            bind (malloc win (.patt (n1.1 + 8) [])) fun r =>
            match r with
            | none => bind (wclosedir (some p)) fun _ => pure none
            | some pp =>
              bind (write p (.wdir ⟨none, false, none, some pp⟩)) fun _ =>
              bind (getFullPathName win n n1.1) fun n2 =>
              if n2.1 > 0 then
                bind (addStar (n1.1 + 8) n2.1 n2.2) fun text =>
                bind (write pp (.patt (n1.1 + 8) text)) fun _ =>
                bind (first win p) fun ok =>
                if ok then pure (some p)
                else bind (setErrno .ENOENT) fun _ => bind (wclosedir (some p)) fun _ => pure none
              else bind (setErrno .ENOENT) fun _ => bind (wclosedir (some p)) fun _ => pure none := by rw [← hn]; rfl
      rw [e1]
      clear e1
      by_cases m1 : win.noMemory w.time = true
      · rw [bind_ok (malloc_no _ m1)]
        exact .no (Nat.le_succ _) rfl rfl (Nat.le_refl _) rfl (fun _ _ => .noMemory ⟨Nat.le_refl _, Nat.lt_succ_self _⟩ m1) (fun h => (by cases h))
      · rw [bind_ok (malloc_yes _ m1)]
        dsimp only
        rw [bind_ok (getFullPathName_eq _ _ _)]
        dsimp only
        generalize hw2 : ({ time := w.time + 1 + 1, finds := w.finds, nextFind := w.nextFind, mem := upd w.mem w.nextPtr (some (.wdir ⟨none, false, none, none⟩)), nextPtr := w.nextPtr + 1, errno := w.errno } : World) = w2
        have hnp : w.nextPtr + 1 ≠ w.nextPtr := Nat.succ_ne_self _
        have t2 : w2.time = w.time + 2 := by rw [← hw2]
        have q2 : w2.nextPtr = w.nextPtr + 1 := by rw [← hw2]
        have g2 : w2.finds = w.finds := by rw [← hw2]
        have r2 : w2.errno = w.errno := by rw [← hw2]
        have k2 : w2.nextFind = w.nextFind := by rw [← hw2]
        have mem2 : w2.mem = upd w.mem w.nextPtr (some (.wdir ⟨none, false, none, none⟩)) := by rw [← hw2]
        by_cases m2 : win.noMemory w2.time = true
        · rw [bind_ok (malloc_no _ m2)]
          dsimp only
          rw [bind_ok (wclose_bare (by show w2.mem _ = _; rw [mem2, upd_self]))]
          refine .no (by show _ ≤ w2.time + 1; omega) ?_ g2 (by show _ ≤ w2.nextPtr; rw [q2]; exact Nat.le_succ _) k2
            (fun _ _ => .noMemory (t := w2.time) ⟨by omega, Nat.lt_succ_self _⟩ m2) (fun h => (by cases h))
          show upd w2.mem _ none = _
          rw [mem2, upd_fresh f1]
        · rw [bind_ok (malloc_yes _ m2)]
          dsimp only
          rw [q2]
          generalize hn1 : fullAnswer win (w.time + 1) n 0 = n1
          rw [bind_ok (write_ok (by show upd w2.mem _ _ _ = _; rw [upd_ne _ _ hnp.symm, mem2, upd_self]))]
          rw [bind_ok (getFullPathName_eq _ _ _)]
          dsimp only
          generalize hw4 : ({ time := w2.time + 1 + 1, finds := w2.finds, nextFind := w2.nextFind, mem := upd (upd w2.mem (w.nextPtr + 1) (some (.patt (n1.1 + 8) []))) w.nextPtr (some (.wdir ⟨none, false, none, some (w.nextPtr + 1)⟩)), nextPtr := w.nextPtr + 1 + 1, errno := w2.errno } : World) = w4
          have t4 : w4.time = w.time + 4 := by rw [← hw4]; show w2.time + 1 + 1 = _; rw [t2]
          have q4 : w4.nextPtr = w.nextPtr + 2 := by rw [← hw4]
          have g4 : w4.finds = w.finds := by rw [← hw4]; exact g2
          have r4 : w4.errno = w.errno := by rw [← hw4]; exact r2
          have k4 : w4.nextFind = w.nextFind := by rw [← hw4]; exact k2
          have mem4 : w4.mem = upd (upd w.mem w.nextPtr (some (.wdir ⟨none, false, none, some (w.nextPtr + 1)⟩))) (w.nextPtr + 1) (some (.patt (n1.1 + 8) [])) := by
            rw [← hw4]
            show upd (upd w2.mem _ _) _ _ = _
            rw [mem2]
            funext y
            unfold upd
            by_cases c1 : y = w.nextPtr
            · subst c1; rw [if_pos rfl, if_neg hnp.symm, if_pos rfl]
            · rw [if_neg c1]
              by_cases c2 : y = w.nextPtr + 1
              · rw [if_pos c2, if_pos c2]
              · rw [if_neg c2, if_neg c2, if_neg c1, if_neg c1]
          rw [show w2.time + 1 = w.time + 3 by omega]
          have tn : w.time ≤ w.time + 3 ∧ w.time + 3 < w4.time := ⟨by omega, by omega⟩
          -- giving up
          have give : ∀ (w5 : World) (size : Nat) (text : Wide), w4.time ≤ w5.time → w5.finds = w.finds → w5.nextPtr = w.nextPtr + 2 → w5.nextFind = w.nextFind →
              w5.mem = upd (upd w.mem w.nextPtr (some (.wdir ⟨none, false, none, some (w.nextPtr + 1)⟩))) (w.nextPtr + 1) (some (.patt size text)) →
              (∀ wide s, Opens win (fun t => w.time ≤ t ∧ t < w5.time) wide s (some n) none s (some .ENOENT)) →
              Opened win w (some n) (bind (setErrno .ENOENT) (fun _ => bind (wclosedir (some w.nextPtr)) fun _ => pure none) w5) := by
            intro w5 size text a1 a2 a3 a4 a5 a6
            rw [bind_ok (show setErrno .ENOENT w5 = .ok () { w5 with errno := some .ENOENT } from rfl)]
            rw [bind_ok (wclose_new hnp (size := size) (text := text) (data := none) (c := false) (by show w5.mem _ = _; rw [a5, upd_ne _ _ hnp.symm, upd_self]) (by show w5.mem _ = _; rw [a5, upd_self]))]
            refine .no (by show _ ≤ w5.time; omega) ?_ a2 (by show _ ≤ w5.nextPtr; rw [a3]; exact Nat.le_add_right _ _) a4 a6 (fun h => (by cases h))
            show upd (upd w5.mem _ _) _ _ = _
            rw [a5]
            funext y
            unfold upd
            by_cases c1 : y = w.nextPtr
            · subst c1; rw [if_pos rfl, f1]
            · rw [if_neg c1]
              by_cases c2 : y = w.nextPtr + 1
              · subst c2; rw [if_pos rfl, f2]
              · rw [if_neg c2, if_neg c2, if_neg c1]
          cases hf : win.full (w.time + 3) n with
          | none =>
            rw [show fullAnswer win (w.time + 3) n n1.1 = (0, none) by unfold fullAnswer; rw [hf]]
            rw [if_neg (by simp)]
            exact give w4 _ _ (Nat.le_refl _) g4 q4 k4 mem4 (fun _ _ => .noPath rfl tn (.inl hf))
          | some path =>
            by_cases hl : path.length < n1.1
            · rw [show fullAnswer win (w.time + 3) n n1.1 = (path.length, some path) by unfold fullAnswer; rw [hf]; dsimp only; rw [if_pos hl]]
              dsimp only
              by_cases h0 : path.length > 0
              · rw [if_pos h0, bind_ok (addStar_ok (by omega) _)]
                rw [bind_ok (write_ok (by rw [mem4, upd_self]))]
                have mem5 : ∀ size text, upd w4.mem (w.nextPtr + 1) (some (.patt size text)) =
                    upd (upd w.mem w.nextPtr (some (.wdir ⟨none, false, none, some (w.nextPtr + 1)⟩))) (w.nextPtr + 1) (some (.patt size text)) := by
                  intro size text
                  rw [mem4]
                  funext y
                  unfold upd
                  by_cases c2 : y = w.nextPtr + 1
                  · rw [if_pos c2, if_pos c2]
                  · rw [if_neg c2, if_neg c2, if_neg c2]
                have hfirst := first_new (win := win) (w := { w4 with mem := upd w4.mem (w.nextPtr + 1) (some (.patt (n1.1 + 8) (everything path))) }) (p := w.nextPtr)
                  (pp := w.nextPtr + 1) (size := n1.1 + 8) (text := everything path) (d := ⟨none, false, none, some (w.nextPtr + 1)⟩) rfl
                  (by show upd w4.mem _ _ _ = _; rw [mem5, upd_ne _ _ hnp.symm, upd_self]) (by show upd w4.mem _ _ _ = _; rw [upd_self])
                dsimp only at hfirst
                cases hls : win.listing w4.time (everything path) with
                | nil =>
                  rw [hls] at hfirst
                  rw [bind_ok hfirst]
                  rw [if_neg (by simp)]
                  refine give _ (n1.1 + 8) (everything path) (Nat.le_succ _) g4 q4 k4 ?_ (fun _ _ => .notFound rfl ⟨tn.1, Nat.lt_succ_of_lt tn.2⟩ (t' := w4.time) ⟨by omega, Nat.lt_succ_self _⟩ hf hls)
                  show upd (upd w4.mem _ _) _ _ = _
                  rw [mem5]
                  funext y
                  unfold upd
                  by_cases c1 : y = w.nextPtr
                  · subst c1; rw [if_pos rfl, if_neg hnp.symm, if_pos rfl]
                  · rw [if_neg c1, if_neg c1]
                | cons e r =>
                  rw [hls] at hfirst
                  rw [bind_ok hfirst]
                  rw [if_pos rfl]
                  refine .yes (size := n1.1 + 8) (by show _ ≤ w4.time + 1; omega) rfl ⟨tn.1, Nat.lt_succ_of_lt tn.2⟩ (t' := w4.time) ⟨by omega, Nat.lt_succ_self _⟩ hf hls ?_ ?_ ?_ ?_ r4
                  · show upd (upd w4.mem _ _) _ _ = _
                    rw [mem5, k4]
                    funext y
                    unfold upd
                    by_cases c1 : y = w.nextPtr
                    · subst c1; rw [if_pos rfl, if_neg hnp.symm, if_pos rfl]
                    · rw [if_neg c1, if_neg c1]
                      by_cases c2 : y = w.nextPtr + 1
                      · rw [if_pos c2, if_pos c2]
                      · rw [if_neg c2, if_neg c2, if_neg c1]
                  · show upd w4.finds w4.nextFind _ = _
                    rw [g4, k4]
                  · exact q4
                  · show w4.nextFind + 1 = _
                    rw [k4]
              · rw [if_neg h0]
                have : path = [] := List.eq_nil_of_length_eq_zero (by omega)
                subst this
                exact give w4 _ _ (Nat.le_refl _) g4 q4 k4 mem4 (fun _ _ => .noPath rfl tn (.inr hf))
            · rw [show fullAnswer win (w.time + 3) n n1.1 = (path.length + 1, none) by unfold fullAnswer; rw [hf]; dsimp only; rw [if_neg hl]]
              dsimp only
              rw [if_pos (Nat.succ_pos _)]
              have hmv : win.full (w.time + 1) n ≠ win.full (w.time + 3) n := by
                intro e
                rw [hf] at e
                unfold fullAnswer at hn1
                rw [e] at hn1
                dsimp only at hn1
                rw [if_neg (Nat.not_lt_zero _)] at hn1
                rw [← hn1] at hl
                exact hl (Nat.lt_succ_self _)
              unfold bind addStar
              dsimp only
              split
              · rename_i he
                split at he <;> cases he
              · rename_i b he
                refine .moved rfl hmv ?_
                split at he
                · cases he; exact .inr rfl
                · cases he; exact .inl rfl

/-- A new stream. -/
theorem Inv.add {w w' : World} {s : Streams} {g g' : Ghost} (h : Inv w s g) {p : Ptr} {x : Stream} (hp : s p = none) (hx : Good w' g' p x)
    (hm : ∀ y b, w.mem y = some b → w'.mem y = some b ∧ g'.own y = g.own y)
    (hm' : ∀ y b, w'.mem y = some b → y < w'.nextPtr ∧ (w.mem y = some b ∨ (g'.own y = p ∧ (y = p ∨ y = g'.q p ∨ y = g'.pp p))))
    (hf : ∀ y r, w.finds y = some r → w'.finds y = some r ∧ g'.hown y = g.hown y)
    (hf' : ∀ y r, w'.finds y = some r → y < w'.nextFind ∧ (w.finds y = some r ∨ (g'.hown y = p ∧ ∃ d, w'.mem (g'.q p) = some (.wdir d) ∧ d.handle = some y)))
    (hq : ∀ y, y ≠ p → g'.q y = g.q y ∧ g'.pp y = g.pp y) : Inv w' (upd s p (some x)) g' := by
  have somes : ∀ y, s y ≠ none → upd s p (some x) y ≠ none := by
    intro y hy
    by_cases e : y = p
    · subst e; rw [upd_self]; simp
    · rw [upd_ne _ _ e]; exact hy
  refine ⟨?_, ?_, ?_⟩
  · intro p' x' hp'
    by_cases e : p' = p
    · subst e; rw [upd_self] at hp'; cases hp'; exact hx
    · rw [upd_ne _ _ e] at hp'
      exact (h.good p' x' hp').frame (fun y b hy _ => (hm y b hy).1) (fun y r hy _ => (hf y r hy).1) (fun y b hy ho => (hm y b hy).2.trans ho)
        (fun y r hy ho => (hf y r hy).2.trans ho) (hq p' e).1 (hq p' e).2
  · intro y b hy
    obtain ⟨a1, a2 | ⟨a2, a3⟩⟩ := hm' y b hy
    · obtain ⟨b1, b2, b3⟩ := h.mem y b a2
      rw [(hm y b a2).2]
      refine ⟨a1, somes _ b2, ?_⟩
      have hne : g.own y ≠ p := fun e => b2 (by rw [e]; exact hp)
      rw [(hq _ hne).1, (hq _ hne).2]; exact b3
    · rw [a2]
      exact ⟨a1, by rw [upd_self]; simp, a3⟩
  · intro y r hy
    obtain ⟨a1, a2 | ⟨a2, a3⟩⟩ := hf' y r hy
    · obtain ⟨b1, b2, d, b3, b4⟩ := h.finds y r a2
      rw [(hf y r a2).2]
      have hne : g.hown y ≠ p := fun e => b2 (by rw [e]; exact hp)
      rw [(hq _ hne).1]
      exact ⟨a1, somes _ b2, d, (hm _ _ b3).1, b4⟩
    · rw [a2]
      exact ⟨a1, by rw [upd_self]; simp, a3⟩

theorem Inv.closed_stream {w : World} {s : Streams} {g : Ghost} (h : Inv w s g) {p : Ptr} (hp : w.nextPtr ≤ p) : s p = none := by
  cases hs : s p with
  | none => rfl
  | some x => exact absurd (Nat.lt_of_lt_of_le (h.stream_lt hs) hp) (Nat.lt_irrefl _)

theorem lt_of_mem {w : World} {s : Streams} {g : Ghost} (h : Inv w s g) {y : Nat} {b : Block} (hy : w.mem y = some b) {k : Nat} : y ≠ w.nextPtr + k :=
  fun e => absurd (Nat.lt_of_lt_of_le (h.mem y b hy).1 (by rw [e]; exact Nat.le_add_right _ _)) (Nat.lt_irrefl _)

theorem lt_of_find {w : World} {s : Streams} {g : Ghost} (h : Inv w s g) {y : Nat} {r : List Entry} (hy : w.finds y = some r) : y ≠ w.nextFind :=
  fun e => absurd (h.finds y r hy).1 (by rw [e]; exact Nat.lt_irrefl _)

/-- The ghosts of a new stream `p` with its `_WDIR` at `q` and its pattern at `pp`. -/
def Ghost.add (g : Ghost) (p q pp hn : Nat) : Ghost where
  own y := if y = p ∨ y = q ∨ y = pp then p else g.own y
  hown y := if y = hn then p else g.hown y
  q y := if y = p then q else g.q y
  pp y := if y = p then pp else g.pp y

theorem Inv.open {w w' : World} {s : Streams} {g : Ghost} (h : Inv w s g) {p q pp size : Nat} {e : Entry} {r : List Entry} {wide : Bool} {pattern : Wide}
    (f1 : w.nextPtr ≤ p) (f2 : w.nextPtr ≤ q) (f3 : w.nextPtr ≤ pp) (g1 : p < w'.nextPtr) (g2 : q < w'.nextPtr) (g3 : pp < w'.nextPtr) (hle : w.nextPtr ≤ w'.nextPtr)
    (hw1 : wide = true → q = p) (hw2 : wide = false → w'.mem p = some (.dir (some q)) ∧ q ≠ p)
    (m1 : w'.mem q = some (.wdir ⟨some e, true, some w.nextFind, some pp⟩)) (m2 : w'.mem pp = some (.patt size pattern))
    (m3 : ∀ y, y ≠ p → y ≠ q → y ≠ pp → w'.mem y = w.mem y) (hf : w'.finds = upd w.finds w.nextFind (some r)) (hn : w'.nextFind = w.nextFind + 1) :
    Inv w' (upd s p (some ⟨wide, pattern, e :: r, true⟩)) (g.add p q pp w.nextFind) := by
  have old : ∀ y b, w.mem y = some b → y ≠ p ∧ y ≠ q ∧ y ≠ pp := by
    intro y b hy
    have := (h.mem y b hy).1
    exact ⟨fun e => absurd (Nat.lt_of_lt_of_le this f1) (by rw [e]; exact Nat.lt_irrefl _), fun e => absurd (Nat.lt_of_lt_of_le this f2) (by rw [e]; exact Nat.lt_irrefl _),
      fun e => absurd (Nat.lt_of_lt_of_le this f3) (by rw [e]; exact Nat.lt_irrefl _)⟩
  have eq : (g.add p q pp w.nextFind).q p = q := if_pos rfl
  have epp : (g.add p q pp w.nextFind).pp p = pp := if_pos rfl
  refine h.add (h.closed_stream f1) ⟨if_pos (.inl rfl), fun hh => eq.trans (hw1 hh), fun hh => ?_, ?_, ?_, ?_⟩ ?_ ?_ ?_ ?_ ?_
  · rw [eq]; exact hw2 hh
  · rw [eq]; exact if_pos (.inr (.inl rfl))
  · rw [epp]; exact if_pos (.inr (.inr rfl))
  · refine ⟨_, size, by rw [eq]; exact m1, by rw [epp], by rw [epp]; exact m2, fun _ => ⟨e, r, w.nextFind, rfl, rfl, rfl, by rw [hf, upd_self], if_pos rfl, rfl⟩, ?_⟩
    intro hh; cases hh
  · intro y b hy
    obtain ⟨o1, o2, o3⟩ := old y b hy
    exact ⟨by rw [m3 y o1 o2 o3]; exact hy, if_neg (by rintro (c | c | c); exact o1 c; exact o2 c; exact o3 c)⟩
  · intro y b hy
    rw [eq, epp]
    by_cases c : y = p ∨ y = q ∨ y = pp
    · refine ⟨by rcases c with rfl | rfl | rfl; exact g1; exact g2; exact g3, .inr ⟨if_pos c, c⟩⟩
    · have : w.mem y = some b := by
        rw [m3 y (fun e => c (.inl e)) (fun e => c (.inr (.inl e))) (fun e => c (.inr (.inr e)))] at hy; exact hy
      exact ⟨Nat.lt_of_lt_of_le (h.mem y b this).1 hle, .inl this⟩
  · intro y r' hy
    have := lt_of_find h hy
    exact ⟨by rw [hf, upd_ne _ _ this]; exact hy, if_neg this⟩
  · intro y r' hy
    rw [hf] at hy
    by_cases c : y = w.nextFind
    · refine ⟨by rw [hn, c]; exact Nat.lt_succ_self _, .inr ⟨if_pos c, _, by rw [eq]; exact m1, by rw [c]⟩⟩
    · rw [upd_ne _ _ c] at hy
      exact ⟨by rw [hn]; exact Nat.lt_succ_of_lt (h.finds y r' hy).1, .inl hy⟩
  · intro y hy
    exact ⟨if_neg hy, if_neg hy⟩

end Tgt.Dirent
