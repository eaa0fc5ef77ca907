import Verif.Proofs.DirentStep
/-
C93, C94, C95: directory streams for Windows (include/tinygettext/dirent.h).
-/
namespace Tgt
open Dirent Spec.Dirent

namespace Dirent

/-! ### Playing concrete histories -/

instance (o : Ptr → Option Bool) (c : Call) : Decidable (Legal o c) := by
  have : ∀ (p : Option Ptr) (b : Bool), Decidable (∀ q, p = some q → o q = some b) := fun p b =>
    match p with
    | none => isTrue (fun _ h => by cases h)
    | some q => decidable_of_iff (o q = some b) ⟨fun h q' e => by cases e; exact h, fun h => h q rfl⟩
  cases c <;> unfold Legal <;> infer_instance

/-- Make these calls after that history. -/
def play (win : Win) : List Call → List (Call × Answer) → World → Option (List (Call × Answer) × World)
  | [], h, w => some (h, w)
  | c :: cs, h, w =>
    if Legal (openAfter h) c then
      match c.run win w with
      | .ok a w' => play win cs (h ++ [(c, a)]) w'
      | .bad _ => none
    else none

theorem play_hist {win : Win} {cs : List Call} {h h' : List (Call × Answer)} {w w' : World} (hh : Hist win h w) (e : play win cs h w = some (h', w')) : Hist win h' w' := by
  induction cs generalizing h w with
  | nil => unfold play at e; cases e; exact hh
  | cons c cs ih =>
    unfold play at e
    by_cases hl : Legal (openAfter h) c
    · rw [if_pos hl] at e
      cases hr : c.run win w with
      | bad b => rw [hr] at e; cases e
      | ok a w1 => rw [hr] at e; exact ih (.snoc hh hl hr) e
    · rw [if_neg hl] at e; cases e

theorem play_answers {win : Win} {cs : List Call} {h' : List (Call × Answer)} (e : (play win cs [] World.init).map (·.1) = some h') : ∃ w, Hist win h' w := by
  cases hp : play win cs [] World.init with
  | none => rw [hp] at e; cases e
  | some x =>
    rw [hp] at e
    cases e
    exact ⟨x.2, play_hist .nil (show play win cs [] World.init = some (x.1, x.2) from hp)⟩

/-- A directory `C:\d` with a directory and two files in it, the name of the second of which has characters that the code page does not have. -/
def someWin : Win where
  noMemory _ := false
  full _ n := if n = [100] then some [67, 58, 92, 100] else none
  listing _ p := if p = [67, 58, 92, 100, 92, 42] then [⟨[46], [], false, true⟩, ⟨[97], [], false, false⟩, ⟨[8364], [69, 126, 49], false, false⟩] else []
  broken _ := false
  msvc := false
  widen s := some (s.map (·.toNat))
  narrow w := if w.all (· < 128) then some (w.map (UInt8.ofNat ·)) else none

/-- Two streams are read in turns. -/
theorem someHist : ∃ w, Hist someWin
    [(.opendir (some b!"d"), .stream (some 1)), (.readdir 1, .entry (some ⟨b!".", 1, .dir⟩)), (.wopendir (some [100]), .stream (some 4)), (.readdir 1, .entry (some ⟨b!"a", 1, .reg⟩)),
     (.wreaddir 4, .wentry (some ⟨[46], 1, .dir⟩)), (.readdir 1, .entry (some ⟨b!"E~1", 3, .reg⟩)), (.wclosedir (some 4), .status 0), (.readdir 1, .entry none)] w :=
  play_answers (cs := [.opendir (some b!"d"), .readdir 1, .wopendir (some [100]), .readdir 1, .wreaddir 4, .readdir 1, .wclosedir (some 4), .readdir 1]) (by decide +kernel)

end Dirent

/-! ### C93 -/

/-- C93.  Whatever calls a program has made (on streams that were open), the answers, and `errno`, are those of directory streams. -/
theorem C93_streams {win : Win} {h : List (Call × Answer)} {w : World} (hh : Hist win h w) : ∃ s, SpecRun win h w.time s w.errno := by
  obtain ⟨s, _, h1, _⟩ := hist_inv hh
  exact ⟨s, h1⟩

/-- What `readdir` has shown of a stream is the beginning of the directory's contents, each entry once and in order, whatever else was done in between. -/
theorem C93_in_order {win : Win} {h : List (Call × Answer)} {w : World} {p : Ptr} (hh : Hist win h w) (hp : openAfter h p = some false) :
    ∃ n wn path t t' before after, nameOf h p = some n ∧ win.widen n = some wn ∧ win.full t wn = some path ∧ win.listing t' (everything path) = before ++ after ∧
      Matches win before (shown h p) ∧ t < w.time ∧ t' < w.time := by
  obtain ⟨s, _, h1, _⟩ := hist_inv hh
  rw [openAfter_eq h1] at hp
  dsimp only at hp
  cases hs : s p with
  | none => rw [hs] at hp; cases hp
  | some x =>
    rw [hs] at hp
    have hw : x.wide = false := Option.some.inj hp
    obtain ⟨⟨n, wn, path, t, a1, a2, a3, a4, a5⟩, t', before, after, b1, b2, b3, _⟩ := stands h1 p x hs hw
    exact ⟨n, wn, path, t, t', before, after, a1, a2, a4, by rw [← a5]; exact b2, b3, a3, b1⟩

/-- When `readdir` says that it is at the end, and the system never failed, everything in the directory has been shown. -/
theorem C93_complete {win : Win} {h : List (Call × Answer)} {w : World} {p : Ptr} (hb : ∀ t, win.broken t = false) (hh : Hist win (h ++ [(.readdir p, .entry none)]) w) :
    ∃ n wn path t t', nameOf h p = some n ∧ win.widen n = some wn ∧ win.full t wn = some path ∧ Matches win (win.listing t' (everything path)) (shown h p) := by
  obtain ⟨s, _, h1, _⟩ := hist_inv hh
  generalize he : h ++ [(Call.readdir p, Answer.entry none)] = h' at h1
  generalize w.time = now, w.errno = err at h1
  cases h1 with
  | nil => exact absurd (congrArg List.length he) (by simp)
  | @snoc h0 t0 t1 s0 _ c a _ _ hr _ hstep =>
    obtain ⟨e1, e2⟩ := List.append_inj' he rfl
    cases e1
    cases e2
    cases hstep with
    | @«end» _ x x' hs hw hreads =>
      obtain ⟨⟨n, wn, path, t, a1, a2, _, a4, a5⟩, t', before, after, _, b2, b3, b4⟩ := stands hr p x hs hw
      refine ⟨n, wn, path, t, t', a1, a2, a4, ?_⟩
      have hrest : x.rest = [] := by
        cases hreads with
        | done h => exact h
        | failed _ _ h => rw [hb] at h; cases h
      rcases b4 with b4 | ⟨_, tb, _, c2⟩
      · rw [hrest] at b4
        rw [← b4, List.append_nil, a5] at b2
        rw [b2]; exact b3
      · rw [hb] at c2; cases c2

/-- The hypotheses of `C93_complete` are met by `someHist`. -/
example : ∃ h w, (∀ t, someWin.broken t = false) ∧ Hist someWin (h ++ [(.readdir 1, .entry none)]) w ∧ (shown h 1).length = 3 := by
  obtain ⟨w, hw⟩ := someHist
  exact ⟨[(.opendir (some b!"d"), .stream (some 1)), (.readdir 1, .entry (some ⟨b!".", 1, .dir⟩)), (.wopendir (some [100]), .stream (some 4)), (.readdir 1, .entry (some ⟨b!"a", 1, .reg⟩)),
     (.wreaddir 4, .wentry (some ⟨[46], 1, .dir⟩)), (.readdir 1, .entry (some ⟨b!"E~1", 3, .reg⟩)), (.wclosedir (some 4), .status 0)], w, fun _ => rfl, hw, by decide +kernel⟩

/-! ### C94 -/

/-- C94.  Every search that is open belongs to an open stream, which has no other. -/
theorem C94_searches {win : Win} {h : List (Call × Answer)} {w : World} (hh : Hist win h w) :
    ∃ owner : Nat → Ptr, (∀ x, w.finds x ≠ none → openAfter h (owner x) ≠ none) ∧ ∀ x y, w.finds x ≠ none → w.finds y ≠ none → owner x = owner y → x = y := by
  obtain ⟨s, g, h1, h2⟩ := hist_inv hh
  refine ⟨g.hown, fun x hx => ?_, fun x y hx hy e => ?_⟩
  · rw [openAfter_eq h1]
    cases hf : w.finds x with
    | none => exact absurd hf hx
    | some r =>
      have := (h2.finds x r hf).2.1
      cases hs : s (g.hown x) with
      | none => exact absurd hs this
      | some v => simp [hs]
  · cases hf : w.finds x with
    | none => exact absurd hf hx
    | some r =>
      cases hf' : w.finds y with
      | none => exact absurd hf' hy
      | some r' =>
        obtain ⟨_, _, d, a1, a2⟩ := h2.finds x r hf
        obtain ⟨_, _, d', b1, b2⟩ := h2.finds y r' hf'
        rw [e, b1] at a1
        cases a1
        rw [a2] at b2
        cases b2; rfl

/-- Every block of memory belongs to an open stream, which has two others at most. -/
theorem C94_memory {win : Win} {h : List (Call × Answer)} {w : World} (hh : Hist win h w) :
    ∃ owner : Ptr → Ptr, (∀ y, w.mem y ≠ none → openAfter h (owner y) ≠ none) ∧ ∀ p, ∃ q q', ∀ y, w.mem y ≠ none → owner y = p → y = p ∨ y = q ∨ y = q' := by
  obtain ⟨s, g, h1, h2⟩ := hist_inv hh
  refine ⟨g.own, fun y hy => ?_, fun p => ⟨g.q p, g.pp p, fun y hy e => ?_⟩⟩
  · rw [openAfter_eq h1]
    cases hf : w.mem y with
    | none => exact absurd hf hy
    | some r =>
      have := (h2.mem y r hf).2.1
      cases hs : s (g.own y) with
      | none => exact absurd hs this
      | some v => simp [hs]
  · cases hf : w.mem y with
    | none => exact absurd hf hy
    | some r =>
      have := (h2.mem y r hf).2.2
      rw [e] at this; exact this

/-- When all streams are closed nothing is left. -/
theorem C94_nothing_left {win : Win} {h : List (Call × Answer)} {w : World} (hh : Hist win h w) (hc : ∀ p, openAfter h p = none) :
    (∀ x, w.finds x = none) ∧ ∀ y, w.mem y = none := by
  obtain ⟨o1, a1, _⟩ := C94_searches hh
  obtain ⟨o2, a2, _⟩ := C94_memory hh
  exact ⟨fun x => Decidable.byContradiction fun hx => a1 x hx (hc _), fun y => Decidable.byContradiction fun hy => a2 y hy (hc _)⟩

/-- A stream that is opened is a new one. -/
theorem C94_new {win : Win} {h : List (Call × Answer)} {w : World} {c : Call} {p : Ptr} (hh : Hist win (h ++ [(c, .stream (some p))]) w) : openAfter h p = none := by
  obtain ⟨s, _, h1, _⟩ := hist_inv hh
  generalize he : h ++ [(c, Answer.stream (some p))] = h' at h1
  generalize w.time = now, w.errno = err at h1
  cases h1 with
  | nil => exact absurd (congrArg List.length he) (by simp)
  | @snoc h0 t0 t1 s0 _ c a _ _ hr _ hstep =>
    obtain ⟨e1, e2⟩ := List.append_inj' he rfl
    cases e1
    cases e2
    rw [openAfter_eq hr]
    have key : ∀ {wide : Bool} {n : Option Wide} {s' : Streams} {now : Nat → Prop} {err : Option Errno}, Opens win now wide s0 n (some p) s' err → (s0 p).map (·.wide) = none := by
      intro wide n s' now err ho
      cases ho with
      | opened _ _ _ _ _ h => rw [h]; rfl
    cases hstep with
    | wopen ho => exact key ho
    | «open» _ _ _ ho => exact key ho

/-- The hypothesis of `C94_nothing_left` is met. -/
example : ∃ h w, Hist someWin h w ∧ h.length = 6 ∧ ∀ p, openAfter h p = none := by
  obtain ⟨w, hw⟩ := play_answers (win := someWin) (cs := [.opendir (some b!"d"), .readdir 1, .opendir (some b!"x"), .wopendir (some [100]), .wclosedir (some 7), .closedir (some 1)])
    (h' := [(.opendir (some b!"d"), .stream (some 1)), (.readdir 1, .entry (some ⟨b!".", 1, .dir⟩)), (.opendir (some b!"x"), .stream none), (.wopendir (some [100]), .stream (some 7)),
      (.wclosedir (some 7), .status 0), (.closedir (some 1), .status 0)]) (by decide +kernel)
  refine ⟨_, w, hw, rfl, fun p => ?_⟩
  show upd (upd (upd (upd (fun _ => none) 1 (some false)) 7 (some true)) 7 none) 1 none p = none
  unfold upd
  by_cases h1 : p = 1
  · rw [if_pos h1]
  · rw [if_neg h1]
    by_cases h7 : p = 7
    · rw [if_pos h7]
    · rw [if_neg h7, if_neg h7, if_neg h1]

/-! ### C95 -/

/-- C95, the part that is true: a call (on a stream that is open) returns, unless the path of the directory changes while it is opened, or, with Microsoft's compiler, a name is too
long. -/
theorem C95_returns_partial {win : Win} {h : List (Call × Answer)} {w : World} {c : Call} {b : Bad} (hh : Hist win h w) (hl : Legal (openAfter h) c) (hr : c.run win w = .bad b) :
    ∃ s, SpecRun win h w.time s w.errno ∧ Dies win w.time s c b := by
  obtain ⟨s, g, h1, h2⟩ := hist_inv hh
  rw [openAfter_eq h1] at hl
  have := step_ok (win := win) h2 c hl
  rw [hr] at this
  cases this with
  | bad hd => exact ⟨s, h1, hd⟩

/-- In particular it returns if nobody changes the current directory and the compiler is another one. -/
theorem C95_safe {win : Win} {h : List (Call × Answer)} {w : World} {c : Call} (hf : ∀ n t t', win.full t n = win.full t' n) (hm : win.msvc = false) (hh : Hist win h w)
    (hl : Legal (openAfter h) c) : ∃ a w', c.run win w = .ok a w' := by
  cases hr : c.run win w with
  | ok a w' => exact ⟨a, w', rfl⟩
  | bad b =>
    obtain ⟨s, _, hd⟩ := C95_returns_partial hh hl hr
    cases hd with
    | wopen h _ => obtain ⟨t, t', _, _, _, hn⟩ := h; exact absurd (hf _ t t') hn
    | «open» _ h _ => obtain ⟨t, t', _, _, _, hn⟩ := h; exact absurd (hf _ t t') hn
    | openLong h _ _ => rw [hm] at h; cases h
    | readLong h _ _ _ _ => rw [hm] at h; cases h

/-- The hypotheses of `C95_safe` are met. -/
example : (∀ n t t', someWin.full t n = someWin.full t' n) ∧ someWin.msvc = false ∧ ∃ h w, Hist someWin h w ∧ h.length = 8 ∧ Legal (openAfter h) (.rewinddir 1) := by
  obtain ⟨w, hw⟩ := someHist
  exact ⟨fun _ _ _ => rfl, rfl, _, w, hw, rfl, by decide +kernel⟩

/-- While the directory is opened another thread changes the current directory, from `C:\` to one with a longer name. -/
def moving : Win := { someWin with full := fun t n => if n = [100] then (if t < 2 then some [67, 58, 92, 100] else some ([67, 58, 92] ++ List.replicate 20 97 ++ [92, 100])) else none }

/-- C95 is false: the program writes behind its buffer. -/
theorem C95_overrun : ∃ (win : Win) (c : Call), Hist win [] World.init ∧ Legal (openAfter []) c ∧ c.run win World.init = .bad .outOfBounds := by
  refine ⟨moving, .wopendir (some [100]), .nil, trivial, ?_⟩
  have h : (match (Call.wopendir (some [100])).run moving World.init with
    | .bad b => some b
    | .ok _ _ => none) = some Bad.outOfBounds := by decide +kernel
  cases hr : (Call.wopendir (some [100])).run moving World.init with
  | ok a w => rw [hr] at h; cases h
  | bad b => rw [hr] at h; cases h; rfl

/-- C95 is false: with Microsoft's compiler the name of a directory that is too long ends the program. -/
theorem C95_too_long : ∃ (win : Win) (c : Call), (∀ n t t', win.full t n = win.full t' n) ∧ Hist win [] World.init ∧ Legal (openAfter []) c ∧
    c.run win World.init = .bad .invalidParameter := by
  refine ⟨{ someWin with msvc := true }, .opendir (some (List.replicate 260 97)), fun _ _ _ => rfl, .nil, trivial, ?_⟩
  have h : (match (Call.opendir (some (List.replicate 260 97))).run { someWin with msvc := true } World.init with
    | .bad b => some b
    | .ok _ _ => none) = some Bad.invalidParameter := by decide +kernel
  cases hr : (Call.opendir (some (List.replicate 260 97))).run { someWin with msvc := true } World.init with
  | ok a w => rw [hr] at h; cases h
  | bad b => rw [hr] at h; cases h; rfl

end Tgt
