import Verif.Proofs.StarvedParse
import Verif.Proofs.MgrCalls
/-
Loading dictionaries when memory may run out.
-/
namespace Tgt.Starved
open Spec Manager Mgr POParser

theorem like_sameBut {c : Option Str} {i : Str} {d d' : Dictionary} (h : SameBut c i d d') : Like d d' := ⟨h.charset, h.hasFallback, h.fallback⟩

theorem like_partly {e : Effect} {d d' : Dictionary} (h : Partly e d d') : Like d d' := by
  cases h with
  | some _ => exact like_applyTo _ _
  | failed _ _ hs _ => exact (like_applyTo _ _).trans (like_sameBut hs)

theorem like_dirPart {env : Env} {l : Language} {dir : Str} {d d' : Dictionary} (h : DirPart env l dir d d') : Like d d' := by
  cases h with
  | nothing => exact .refl d
  | parsed _ _ _ _ hp => exact like_partly hp

theorem like_pathPart {env : Env} {l : Language} {path : List Str} {d d' : Dictionary} (h : PathPart env l path d d') : Like d d' := by
  induction h with
  | nil => exact .refl _
  | cons _ h ih => exact ih.trans (like_dirPart h)

/-- Nothing hides a failure: no file was cut short, and if memory ran out no message tells of it. -/
def Clean (sh : Shortage) (new : List Diag) : Prop :=
  (∀ t, sh.cut t = none) ∧ (Shortage.Fails sh → Diag.parseFailureWhat badAlloc ∉ new)

theorem Clean.left {sh : Shortage} {a b : List Diag} (h : Clean sh (a ++ b)) : Clean sh a := ⟨h.1, fun hf hm => h.2 hf (List.mem_append_left _ hm)⟩
theorem Clean.right {sh : Shortage} {a b : List Diag} (h : Clean sh (a ++ b)) : Clean sh b := ⟨h.1, fun hf hm => h.2 hf (List.mem_append_right _ hm)⟩
theorem Enough.clean {sh : Shortage} (h : Shortage.Enough sh) (l : List Diag) : Clean sh l :=
  ⟨h.2, fun ⟨t, ht⟩ => by rw [h.1 t] at ht; cases ht⟩
theorem Enough.no_fails {sh : Shortage} (h : Shortage.Enough sh) : ¬ Shortage.Fails sh := fun ⟨t, ht⟩ => by rw [h.1 t] at ht; cases ht

/-- Messages. -/
def logM (m : Manager) (l : List Diag) : Manager := { m with log := m.log ++ l }

theorem say_cases (sh : Shortage) (d : Diag) (m : Manager) (n t : Nat) :
    (say sh d ⟨m, n⟩ t = .terminated ∧ Shortage.Fails sh) ∨ ∃ t', say sh d ⟨m, n⟩ t = .ok () ⟨logM m [d], n⟩ t' := by
  unfold say
  split
  · rename_i h; exact .inl ⟨rfl, t, h⟩
  · exact .inr ⟨_, rfl⟩

theorem logM_logM (m : Manager) (a b : List Diag) : logM (logM m a) b = logM m (a ++ b) := by simp [logM]
theorem logM_nil (m : Manager) : logM m [] = m := by simp [logM]

/-! ### Scanning -/

theorem scanFiles_cases (sh : Shortage) (env : Env) {l : Language} (hl : l.isDefined = true) (files : List Str) : ∀ (b : Str × Nat) (m : Manager) (n t : Nat),
    (∃ lg t', scanFiles sh env l files b ⟨m, n⟩ t = .thrown badAlloc ⟨logM m lg, n⟩ t' ∧ Shortage.Fails sh) ∨
    (scanFiles sh env l files b ⟨m, n⟩ t = .terminated ∧ Shortage.Fails sh) ∨
    ∃ t', scanFiles sh env l files b ⟨m, n⟩ t = .ok (files.foldl (scanStep env.ct l) b) ⟨logM m (scanLog env.ct files), n⟩ t' := by
  induction files with
  | nil => intro b m n t; exact .inr (.inr ⟨t, by simp [scanFiles, scanLog, pure, logM_nil]⟩)
  | cons f rest ih =>
    intro b m n t
    rw [scanFiles]
    by_cases hs : hasSuffix f b!".po" = true
    · rw [if_pos hs]
      rcases alloc_cases sh (⟨m, n⟩ : Store) t with ⟨h, hf⟩ | h
      · exact .inl ⟨[], t + 1, by rw [bind_thrown h, logM_nil], hf⟩
      · rw [bind_ok h]
        have h3 : b!".po" <:+ f := (hasSuffix_iff f _).1 hs
        have hlen : ¬ f.length < 3 := by have := h3.length_le; simpa using this
        cases hc : convertFilename2Language env.ct f with
        | none => exact absurd ((C13_throws_iff env.ct f).1 hc) hlen
        | some name =>
          have hsc : fileScore env.ct l f = Language.match l (Language.fromEnv name) := by
            unfold fileScore
            rw [if_pos h3, hc]
          dsimp only
          by_cases hd : (Language.fromEnv name).isDefined = true
          · rw [if_neg (by simp [hd])]
            have hlog : scanLog env.ct (f :: rest) = scanLog env.ct rest := by simp [scanLog, hc, hd]
            rw [hlog, List.foldl_cons, scanStep, hsc]
            split
            · rcases alloc_cases sh (⟨m, n⟩ : Store) (t + 1) with ⟨h', hf⟩ | h'
              · exact .inl ⟨[], _, by rw [bind_thrown h', logM_nil], hf⟩
              · rw [bind_ok h']
                exact ih _ _ _ _
            · exact ih _ _ _ _
          · have hd' : (Language.fromEnv name).isDefined = false := by simpa using hd
            rw [if_pos (by simp [hd'])]
            have hlog : scanLog env.ct (f :: rest) = [.unknownLanguage f] ++ scanLog env.ct rest := by simp [scanLog, hc, hd', hs]
            have hn : Language.fromEnv name = none := by simpa [Language.isDefined] using hd'
            rw [hlog, List.foldl_cons, scanStep, hsc, hn, match_undefined hl, if_neg (by omega)]
            rcases say_cases sh (.unknownLanguage f) m n (t + 1) with ⟨h', hf⟩ | ⟨t1, h'⟩
            · exact .inr (.inl ⟨bind_terminated h', hf⟩)
            · rw [bind_ok h']
              rcases ih b (logM m [.unknownLanguage f]) n t1 with ⟨lg, t', h1, h2⟩ | h1 | ⟨t', h1⟩
              · exact .inl ⟨_, t', by rw [h1, logM_logM], h2⟩
              · exact .inr (.inl h1)
              · exact .inr (.inr ⟨t', by rw [h1, logM_logM]⟩)
    · have hs' : hasSuffix f b!".po" = false := by simpa using hs
      rw [if_neg hs]
      have hsc : fileScore env.ct l f = 0 := by
        unfold fileScore
        rw [if_neg (fun h => hs ((hasSuffix_iff f _).2 h))]
      have hlog : scanLog env.ct (f :: rest) = scanLog env.ct rest := by simp [scanLog, hs']
      rw [List.foldl_cons, scanStep, hsc, if_neg (by omega), hlog]
      exact ih _ _ _ _

/-! ### One file -/

/-- The results of loading into the dictionary `id` (which is `d`) of `m`, with and without limits on the memory. -/
inductive NearLoad (sh : Shortage) (lib : IconvLib) (m : Manager) (n : Nat) (id : DictId) (r0 : Res DL Unit) (P : Dictionary → Prop) : Out Store Unit → Prop where
  | ok {y : Dictionary} {l : List Diag} {t : Nat} : P y → (Clean sh l → r0 = .ok () (y, m.log ++ l) ∨ r0 = .diverge) →
    NearLoad sh lib m n id r0 P (.ok () ⟨put m id (y, m.log ++ l), n⟩ t)
  | thrown {w : Str} {y : Dictionary} {l : List Diag} {t : Nat} : P y →
    ((Clean sh l → r0 = .exn w (y, m.log ++ l) ∨ r0 = .diverge) ∨ (w = badAlloc ∧ Shortage.Fails sh)) →
    NearLoad sh lib m n id r0 P (.thrown w ⟨put m id (y, m.log ++ l), n⟩ t)
  | terminated : Shortage.Fails sh → NearLoad sh lib m n id r0 P .terminated
  | twice : Shortage.Fails sh → NearLoad sh lib m n id r0 P (.crashed .useAfterFree)
  | crashed {f : Fault} : FaultOk lib f → (Shortage.Enough sh → r0 = .fault f ∨ r0 = .diverge) → NearLoad sh lib m n id r0 P (.crashed f)
  | unfinished : (Shortage.Enough sh → r0 = .diverge) → NearLoad sh lib m n id r0 P .unfinished

/-- What a file may make of a dictionary. -/
def FilePart (env : Env) (path : Str) (d d' : Dictionary) : Prop :=
  d' = d ∨ ∃ s s', env.fs.openFile path = .stream s ∧ ReadAs s s' ∧ Partly (additions env path s' d.charset) d d'

theorem parse1_obs (env : Env) (pofile : Str) (s : Stream) (d : Dictionary) (log : List Diag) :
    parse1 env pofile s (d, log) = match observe (run (cfgOf env pofile) s d) with
      | .returned d l => .ok () (d, log ++ l)
      | .threw w d l => .ok () (d, log ++ l ++ [.parseFailure pofile, .parseFailureWhat w])
      | .threwPo d l => .poError (d, log ++ l)
      | .crashed f => .fault f
      | .unfinished => .diverge := by
  unfold parse1
  dsimp only
  cases run (cfgOf env pofile) s d <;> rfl

theorem readAs_delivered (sh : Shortage) (s : Stream) (t : Nat) : ReadAs s (delivered sh s t) := by
  unfold delivered
  cases sh.cut t with
  | none => exact .inl rfl
  | some n => exact .inr ⟨n, rfl⟩

/-- The messages of the handler. -/
theorem handler_cases (sh : Shortage) (pofile w : Str) (m : Manager) (n t : Nat) :
    (bind (say sh (.parseFailure pofile)) (fun _ => say sh (.parseFailureWhat w)) ⟨m, n⟩ t = .terminated ∧ Shortage.Fails sh) ∨
    ∃ t', bind (say sh (.parseFailure pofile)) (fun _ => say sh (.parseFailureWhat w)) ⟨m, n⟩ t
      = .ok () ⟨logM m [.parseFailure pofile, .parseFailureWhat w], n⟩ t' := by
  rcases say_cases sh (.parseFailure pofile) m n t with ⟨h, hf⟩ | ⟨t1, h⟩
  · exact .inl ⟨bind_terminated h, hf⟩
  · rw [bind_ok h]
    rcases say_cases sh (.parseFailureWhat w) (logM m [.parseFailure pofile]) n t1 with ⟨h', hf⟩ | ⟨t2, h'⟩
    · exact .inl ⟨h', hf⟩
    · exact .inr ⟨t2, by rw [h', logM_logM]; rfl⟩

theorem put_logM (m : Manager) (id : DictId) (d : Dictionary) (h : m.heap.get? id = some d) (l : List Diag) : logM m l = put m id (d, m.log ++ l) := by
  rw [put_self m id d h]; rfl

theorem logM_put (m : Manager) (id : DictId) (y : Dictionary) (l l' : List Diag) : logM (put m id (y, m.log ++ l)) l' = put m id (y, m.log ++ (l ++ l')) := by
  simp [logM, put]

theorem loadFile_near (sh : Shortage) (env : Env) (id : DictId) (dir f : Str) (hf : f.isEmpty = false) (m : Manager) (n : Nat) (d : Dictionary)
    (h : m.heap.get? id = some d) (t : Nat) :
    NearLoad sh env.lib m n id (file1 env dir f (d, m.log)) (FilePart env (dir ++ b!"/" ++ f) d) (loadFile sh env id dir f ⟨m, n⟩ t) := by
  unfold loadFile
  rw [hf]
  simp only [Bool.not_false, if_true]
  have hself : m = put m id (d, m.log ++ []) := by rw [put_self m id d h]; simp
  have caught : ∀ (r : Out Store Unit) (p : Sh Store Unit) (t1 : Nat), p ⟨m, n⟩ t1 = r → ∀ (w : Str) (y : Dictionary) (l : List Diag) (t2 : Nat),
      r = .thrown w ⟨put m id (y, m.log ++ l), n⟩ t2 → FilePart env (dir ++ b!"/" ++ f) d y →
      (Clean sh (l ++ [.parseFailure (dir ++ b!"/" ++ f), .parseFailureWhat w]) →
        file1 env dir f (d, m.log) = .ok () (y, m.log ++ (l ++ [.parseFailure (dir ++ b!"/" ++ f), .parseFailureWhat w])) ∨ file1 env dir f (d, m.log) = .diverge) →
      NearLoad sh env.lib m n id (file1 env dir f (d, m.log)) (FilePart env (dir ++ b!"/" ++ f) d)
        (catching p (fun w => bind (say sh (.parseFailure (dir ++ b!"/" ++ f))) fun _ => say sh (.parseFailureWhat w)) ⟨m, n⟩ t1) := by
    intro r p t1 hp w y l t2 hr hy hc
    unfold catching
    rw [hp, hr]
    dsimp only
    rcases handler_cases sh (dir ++ b!"/" ++ f) w (put m id (y, m.log ++ l)) n t2 with ⟨h1, hf⟩ | ⟨t', h1⟩
    · rw [h1]; exact .terminated hf
    · rw [h1, logM_put]; exact .ok hy hc
  rcases alloc_cases sh (⟨m, n⟩ : Store) t with ⟨h1, hF⟩ | h1
  · rw [bind_thrown h1]
    have : NearLoad sh env.lib m n id (file1 env dir f (d, m.log)) (FilePart env (dir ++ b!"/" ++ f) d) (.thrown badAlloc ⟨put m id (d, m.log ++ []), n⟩ (t + 1)) :=
      .thrown (.inl rfl) (.inr ⟨rfl, hF⟩)
    rwa [← hself] at this
  · rw [bind_ok h1]
    rcases alloc_cases sh (⟨m, n⟩ : Store) (t + 1) with ⟨h2, hF⟩ | h2
    · refine caught _ _ _ (bind_thrown h2) badAlloc d [] (t + 1 + 1) (by rw [← hself]) (.inl rfl) ?_
      intro hc
      exact absurd (by simp) (hc.2 hF)
    · cases ho : env.fs.openFile (dir ++ b!"/" ++ f) with
      | throws w =>
        refine caught _ _ _ (bind_ok h2) w d [] (t + 1 + 1) (by rw [← hself]; rfl) (.inl rfl) ?_
        intro _
        left
        unfold file1
        rw [ho]
        rfl
      | null =>
        dsimp only
        unfold catching
        rw [bind_ok h2]
        rcases say_cases sh (.openFailure (dir ++ b!"/" ++ f)) m n (t + 1 + 1) with ⟨h3, hF⟩ | ⟨t', h3⟩
        · rw [h3]; exact .terminated hF
        · rw [h3, put_logM m id d h]
          refine .ok (.inl rfl) (fun _ => .inl ?_)
          unfold file1
          rw [ho]
      | stream s =>
        dsimp only
        have hcut : (∀ t, sh.cut t = none) → delivered sh s (t + 1 + 1) = s := by
          intro hc; unfold delivered; rw [hc]
        have hfile : file1 env dir f (d, m.log) = parse1 env (dir ++ b!"/" ++ f) s (d, m.log) := by unfold file1; rw [ho]
        have hn := parse_near sh (cfgOf env (dir ++ b!"/" ++ f)) s d m.log (t + 1 + 1)
        have hra := readAs_delivered sh s (t + 1 + 1)
        have hpart : ∀ y, Partly (gathered (cfgOf env (dir ++ b!"/" ++ f)) d.charset (events (cfgOf env (dir ++ b!"/" ++ f)).ct
            (evFuel (cfgOf env (dir ++ b!"/" ++ f)) (delivered sh s (t + 1 + 1))) (delivered sh s (t + 1 + 1))).1 core0) d y → FilePart env (dir ++ b!"/" ++ f) d y :=
          fun y hy => .inr ⟨s, _, ho, hra, hy⟩
        have hpi : ∀ r, parse sh (cfgOf env (dir ++ b!"/" ++ f)) s (d, m.log) (t + 1 + 1) = r →
            (bind (alloc sh) fun _ => parseInto sh env id (dir ++ b!"/" ++ f) s) ⟨m, n⟩ (t + 1) = match r with
              | .ok _ x t => .ok () ⟨put m id x, n⟩ t
              | .thrown w x t => .thrown w ⟨put m id x, n⟩ t
              | .terminated => .terminated
              | .crashed f => .crashed f
              | .unfinished => .unfinished := by
          intro r hr
          rw [bind_ok h2]
          unfold parseInto
          rw [h]
          dsimp only
          have : parse sh ⟨env.ct, env.lib, env.pedantic, dir ++ b!"/" ++ f, true, env.fuel⟩ s (d, m.log) (t + 1 + 1) = r := hr
          rw [this]
          cases r <;> rfl
        generalize hr : parse sh (cfgOf env (dir ++ b!"/" ++ f)) s (d, m.log) (t + 1 + 1) = r at hn
        have hb := hpi r hr
        have hok : ∀ r', (bind (alloc sh) fun _ => parseInto sh env id (dir ++ b!"/" ++ f) s) ⟨m, n⟩ (t + 1) = r' → (∀ w s t, r' ≠ .thrown w s t) →
            catching (bind (alloc sh) fun _ => parseInto sh env id (dir ++ b!"/" ++ f) s)
              (fun w => bind (say sh (.parseFailure (dir ++ b!"/" ++ f))) fun _ => say sh (.parseFailureWhat w)) ⟨m, n⟩ (t + 1) = r' := by
          intro r' he hne
          unfold catching
          rw [he]
          cases r' with
          | thrown w s t => exact absurd rfl (hne w s t)
          | _ => rfl
        cases hn with
        | @ok y l t' ho' hp =>
          rw [hok _ hb (by intro w s t; simp)]
          refine .ok (hpart y hp) (fun hc => ?_)
          rw [hfile, parse1_obs]
          rw [hcut hc.1] at ho'
          rcases ho' with ho' | ho' <;> rw [ho']
          · exact .inl rfl
          · exact .inr rfl
        | @exn w y l t' ho' hp =>
          refine caught _ _ _ hb w y l t' rfl (hpart y hp) (fun hc => ?_)
          rw [hfile, parse1_obs]
          rw [hcut hc.1] at ho'
          rcases ho' with ho' | ho' <;> rw [ho']
          · exact .inl (by simp)
          · exact .inr rfl
        | @badAlloc y l t' hF hp =>
          refine caught _ _ _ hb badAlloc y l t' rfl (hpart y hp) (fun hc => ?_)
          exact absurd (by simp) (hc.2 hF)
        | terminated hF => rw [hok _ hb (by intro w s t; simp)]; exact .terminated hF
        | twice hF => rw [hok _ hb (by intro w s t; simp)]; exact .twice hF
        | crashed ho' hff =>
          rw [hok _ hb (by intro w s t; simp)]
          refine .crashed hff (fun hE => ?_)
          rw [hfile, parse1_obs]
          rw [hcut hE.2] at ho'
          rcases ho' with ho' | ho' <;> rw [ho']
          · exact .inl rfl
          · exact .inr rfl
        | unfinished ho' =>
          rw [hok _ hb (by intro w s t; simp)]
          refine .unfinished (fun hE => ?_)
          rw [hfile, parse1_obs]
          rw [hcut hE.2] at ho'
          rw [ho']

/-! ### Directories -/

/-- Loading goes on. -/
theorem NearLoad.shift {sh : Shortage} {lib : IconvLib} {m : Manager} {n : Nat} {id : DictId} {y1 : Dictionary} {a : List Diag} {r0 r1 : Res DL Unit}
    {P P' : Dictionary → Prop} {out : Out Store Unit} (h : NearLoad sh lib (put m id (y1, m.log ++ a)) n id r0 P out)
    (hr : Clean sh a → r1 = r0 ∨ r1 = .diverge) (hP : ∀ y, P y → P' y) : NearLoad sh lib m n id r1 P' out := by
  have hput : ∀ (y : Dictionary) (l : List Diag), put (put m id (y1, m.log ++ a)) id (y, (put m id (y1, m.log ++ a)).log ++ l) = put m id (y, m.log ++ (a ++ l)) := by
    intro y l
    rw [put_put]
    show put m id (y, (m.log ++ a) ++ l) = _
    rw [List.append_assoc]
  have hlog : ∀ l, (put m id (y1, m.log ++ a)).log ++ l = m.log ++ (a ++ l) := by
    intro l
    show (m.log ++ a) ++ l = _
    rw [List.append_assoc]
  cases h with
  | @ok y l t hp hc =>
    rw [hput]
    refine .ok (hP y hp) (fun hC => ?_)
    rcases hr hC.left with h1 | h1
    · rw [h1, ← hlog]; exact hc hC.right
    · exact .inr h1
  | @thrown w y l t hp hc =>
    rw [hput]
    refine .thrown (hP y hp) ?_
    rcases hc with hc | hc
    · refine .inl (fun hC => ?_)
      rcases hr hC.left with h1 | h1
      · rw [h1, ← hlog]; exact hc hC.right
      · exact .inr h1
    · exact .inr hc
  | terminated h => exact .terminated h
  | twice h => exact .twice h
  | crashed h hE =>
    refine .crashed h (fun he => ?_)
    rcases hr (Enough.clean he a) with h1 | h1
    · rw [h1]; exact hE he
    · exact .inr h1
  | unfinished hE =>
    refine .unfinished (fun he => ?_)
    rcases hr (Enough.clean he a) with h1 | h1
    · rw [h1]; exact hE he
    · exact h1

theorem files_near (sh : Shortage) (env : Env) (id : DictId) {l : Language} (hl : l.isDefined = true) (dir : Str) (files : List Str)
    (ho : env.fs.openDirectory dir = .ok files) (m : Manager) (n : Nat) (d : Dictionary) (h : m.heap.get? id = some d) (t : Nat) :
    NearLoad sh env.lib m n id (files1 env l dir files (d, m.log)) (DirPart env l dir d)
      (bind (scanFiles sh env l files ([], 0)) (fun best => loadFile sh env id dir best.1) ⟨m, n⟩ t) := by
  rcases scanFiles_cases sh env hl files ([], 0) m n t with ⟨lg, t', h1, hF⟩ | ⟨h1, hF⟩ | ⟨t', h1⟩
  · rw [bind_thrown h1, put_logM m id d h]; exact .thrown .nothing (.inr ⟨rfl, hF⟩)
  · rw [bind_terminated h1]; exact .terminated hF
  · rw [bind_ok h1]
    unfold files1
    cases he : (files.foldl (scanStep env.ct l) ([], 0)).1.isEmpty with
    | true =>
      simp only [if_true]
      unfold loadFile
      rw [he]
      simp only [Bool.not_true, Bool.false_eq_true, if_false]
      rw [put_logM m id d h]
      exact .ok .nothing (fun _ => .inl rfl)
    | false =>
      simp only [Bool.false_eq_true, if_false]
      have hg : (logM m (scanLog env.ct files)).heap.get? id = some d := h
      have hn := loadFile_near sh env id dir _ he (logM m (scanLog env.ct files)) n d hg t'
      have hlog : (logM m (scanLog env.ct files)).log = m.log ++ scanLog env.ct files := rfl
      rw [hlog] at hn
      rw [put_logM m id d h] at hn ⊢
      refine hn.shift (fun _ => .inl rfl) ?_
      intro y hy
      rcases hy with rfl | ⟨s, s', h2, h3, h4⟩
      · exact .nothing
      · rcases scan_best env.ct l files with ⟨_, h5⟩ | ⟨f, h5, h6⟩
        · rw [h5] at he; cases he
        · rw [h6] at h2 h4
          exact .parsed ho h5 h2 h3 h4

/-- Loading in the order of processing. -/
inductive Fwd (env : Env) (l : Language) : List Str → Dictionary → Dictionary → Prop where
  | nil {d : Dictionary} : Fwd env l [] d d
  | cons {dir : Str} {rest : List Str} {d d1 d2 : Dictionary} : DirPart env l dir d d1 → Fwd env l rest d1 d2 → Fwd env l (dir :: rest) d d2

theorem Fwd.none (env : Env) (l : Language) (dirs : List Str) (d : Dictionary) : Fwd env l dirs d d := by
  induction dirs with
  | nil => exact .nil
  | cons dir rest ih => exact .cons .nothing ih

theorem pathPart_snoc {env : Env} {l : Language} {dir : Str} {path : List Str} {d d1 d2 : Dictionary} (h1 : DirPart env l dir d d1) (h2 : PathPart env l path d1 d2) :
    PathPart env l (path ++ [dir]) d d2 := by
  induction h2 with
  | nil => exact .cons .nil h1
  | cons _ h ih => exact .cons (ih h1) h

theorem Fwd.path {env : Env} {l : Language} {dirs : List Str} {d d' : Dictionary} (h : Fwd env l dirs d d') : PathPart env l dirs.reverse d d' := by
  induction h with
  | nil => exact .nil
  | cons h1 _ ih => rw [List.reverse_cons]; exact pathPart_snoc h1 ih

theorem bind_assoc {σ α β γ : Type} (p : Sh σ α) (f : α → Sh σ β) (g : β → Sh σ γ) (s : σ) (t : Nat) :
    bind p (fun a => bind (f a) g) s t = bind (bind p f) g s t := by
  unfold bind
  cases p s t <;> rfl

theorem loadDirs_near (sh : Shortage) (env : Env) (id : DictId) {l : Language} (hl : l.isDefined = true) (dirs : List Str) : ∀ (m : Manager) (n : Nat) (d : Dictionary) (t : Nat),
    m.heap.get? id = some d →
    NearLoad sh env.lib m n id (dirs1 env l dirs (d, m.log)) (Fwd env l dirs d) (loadDirs sh env id l dirs ⟨m, n⟩ t) := by
  induction dirs with
  | nil =>
    intro m n d t h
    have := NearLoad.ok (sh := sh) (lib := env.lib) (m := m) (n := n) (id := id) (r0 := dirs1 env l [] (d, m.log)) (P := Fwd env l [] d) (y := d) (l := []) (t := t) .nil
      (fun _ => .inl (by simp [dirs1, Prog.pure]))
    rw [← put_logM m id d h, logM_nil] at this
    exact this
  | cons dir rest ih =>
    intro m n d t h
    have hthrow : ∀ w t, ((Clean sh [] → dirs1 env l (dir :: rest) (d, m.log) = .exn w (d, m.log ++ []) ∨ dirs1 env l (dir :: rest) (d, m.log) = .diverge) ∨
        (w = badAlloc ∧ Shortage.Fails sh)) →
        NearLoad sh env.lib m n id (dirs1 env l (dir :: rest) (d, m.log)) (Fwd env l (dir :: rest) d) (.thrown w ⟨m, n⟩ t) := by
      intro w t hw
      have := NearLoad.thrown (sh := sh) (lib := env.lib) (m := m) (n := n) (id := id) (P := Fwd env l (dir :: rest) d) (t := t) (Fwd.none env l (dir :: rest) d) hw
      rw [← put_logM m id d h, logM_nil] at this
      exact this
    unfold loadDirs
    rcases alloc_cases sh (⟨m, n⟩ : Store) t with ⟨h1, hF⟩ | h1
    · rw [bind_thrown h1]; exact hthrow _ _ (.inr ⟨rfl, hF⟩)
    · rw [bind_ok h1]
      cases ho : env.fs.openDirectory dir with
      | error w =>
        refine hthrow _ _ (.inl (fun _ => .inl ?_))
        unfold dirs1
        rw [ho, List.append_nil]
        rfl
      | ok files =>
        dsimp only
        rw [bind_assoc (scanFiles sh env l files ([], 0)) (fun best => loadFile sh env id dir best.1)]
        have hd1 : dirs1 env l (dir :: rest) (d, m.log) = Prog.bind (files1 env l dir files) (fun _ => dirs1 env l rest) (d, m.log) := by
          rw [dirs1, ho]
        rw [hd1, bind_apply]
        have hn := files_near sh env id hl dir files ho m n d h (t + 1)
        generalize hr : bind (scanFiles sh env l files ([], 0)) (fun best => loadFile sh env id dir best.1) ⟨m, n⟩ (t + 1) = r at hn
        cases hn with
        | @ok y lg t' hp hc =>
          rw [bind_ok hr]
          have hg : (put m id (y, m.log ++ lg)).heap.get? id = some y := AMap.get?_set_self _ _ _
          have hi := ih (put m id (y, m.log ++ lg)) n y t' hg
          refine hi.shift ?_ (fun z hz => .cons hp hz)
          intro hC
          rcases hc hC with h2 | h2
          · rw [h2]; exact .inl rfl
          · rw [h2]; exact .inr rfl
        | @thrown w y lg t' hp hc =>
          rw [bind_thrown hr]
          refine .thrown (.cons hp (Fwd.none env l rest y)) ?_
          rcases hc with hc | hc
          · refine .inl (fun hC => ?_)
            rcases hc hC with h2 | h2
            · rw [h2]; exact .inl rfl
            · rw [h2]; exact .inr rfl
          · exact .inr hc
        | terminated hF => rw [bind_terminated hr]; exact .terminated hF
        | twice hF => rw [bind_crashed hr]; exact .twice hF
        | crashed hf hE =>
          rw [bind_crashed hr]
          refine .crashed hf (fun he => ?_)
          rcases hE he with h2 | h2
          · rw [h2]; exact .inl rfl
          · rw [h2]; exact .inr rfl
        | unfinished hE =>
          rw [bind_unfinished hr]
          refine .unfinished (fun he => ?_)
          rw [hE he]

/-! ### `get_dictionary(language)` -/

/-- Every new dictionary holds a part of the files of its language. -/
def News (env : Env) (m m' : Manager) : Prop := ∀ q d, m.nextId ≤ q → m'.heap.get? q = some d →
  ∃ L, m'.dictionaries.get? L = some q ∧ PathPart env L m.searchPath (Dictionary.init m.charset) (unlinked d)

/-- What `get_dictionary(l)` leaves behind. -/
structure Kept (env : Env) (m m' : Manager) : Prop where
  inv : Inv m'
  grow : Grow m m'
  cur : m'.currentDict = m.currentDict
  lang : m'.currentLanguage = m.currentLanguage
  frame : Frame m m'
  news : News env m m'

/-- The results of a call with and without limits on the memory. -/
inductive NearGet (sh : Shortage) (lib : IconvLib) (m : Manager) (n : Nat) (r0 : Res Manager α) (K : Manager → Prop) (R : α → Manager → Prop) : Out Store α → Prop where
  | ok {p : α} {m' : Manager} {t : Nat} {l : List Diag} : K m' → R p m' → m'.log = m.log ++ l → (Clean sh l → r0 = .ok p m' ∨ r0 = .diverge) →
    NearGet sh lib m n r0 K R (.ok p ⟨m', n⟩ t)
  | thrown {w : Str} {m' : Manager} {n' t : Nat} {l : List Diag} : K m' → m'.log = m.log ++ l →
    ((n' = n ∧ (Clean sh l → r0 = .exn w m' ∨ r0 = .diverge)) ∨ (w = badAlloc ∧ Shortage.Fails sh ∧ n ≤ n' ∧ n' ≤ n + 1)) →
    NearGet sh lib m n r0 K R (.thrown w ⟨m', n'⟩ t)
  | terminated : Shortage.Fails sh → NearGet sh lib m n r0 K R .terminated
  | twice : Shortage.Fails sh → NearGet sh lib m n r0 K R (.crashed .useAfterFree)
  | crashed {f : Fault} : FaultOk lib f → (Shortage.Enough sh → r0 = .fault f ∨ r0 = .diverge) → NearGet sh lib m n r0 K R (.crashed f)
  | unfinished : (Shortage.Enough sh → r0 = .diverge) → NearGet sh lib m n r0 K R .unfinished

theorem kept_refl {env : Env} {m : Manager} (h : Inv m) : Kept env m m :=
  ⟨h, .refl m, rfl, rfl, fun _ _ => rfl, fun q d hq hd => by rw [h.heap_lt q hq] at hd; cases hd⟩

theorem kept_trans {env : Env} {m m1 m2 : Manager} (h1 : Kept env m m1) (h2 : Kept env m1 m2) : Kept env m m2 := by
  refine ⟨h2.inv, h1.grow.trans h2.grow, h2.cur.trans h1.cur, h2.lang.trans h1.lang, ?_, ?_⟩
  · intro q hq
    rw [h2.frame q (Nat.lt_of_lt_of_le hq h1.grow.next), h1.frame q hq]
  · intro q d hq hd
    by_cases hlt : q < m1.nextId
    · rw [h2.frame q hlt] at hd
      obtain ⟨L, h3, h4⟩ := h1.news q d hq hd
      exact ⟨L, h2.grow.keeps L q h3, h4⟩
    · obtain ⟨L, h3, h4⟩ := h2.news q d (by omega) hd
      rw [h1.grow.path, h1.grow.charset] at h4
      exact ⟨L, h3, h4⟩

theorem unlinked_of_like {cs : Str} {y : Dictionary} (h : Like (Dictionary.init cs) y) : unlinked y = y := by
  obtain ⟨_, h2, h3⟩ := h
  unfold unlinked
  obtain ⟨_, _, _, _, f, g⟩ := y
  dsimp only [Dictionary.init] at h2 h3
  subst h2 h3
  rfl

/-- The new dictionary, loaded. -/
theorem kept_fresh {env : Env} {m : Manager} (h : Inv m) {l : Language} (hl : l.isDefined = true) (hn : m.dictionaries.get? l = none) {y : Dictionary} {lg : List Diag}
    (hp : Fwd env l m.searchPath.reverse (Dictionary.init m.charset) y) : Kept env m (put (fresh l m) m.nextId (y, m.log ++ lg)) := by
  have hpp := hp.path
  rw [List.reverse_reverse] at hpp
  have hlike := like_pathPart hpp
  refine ⟨(h.fresh hl hn).put (fresh_heap m l) hlike, (fresh_grow hn).trans (put_grow _ _ _ (List.prefix_append _ _)), rfl, rfl, put_fresh_frame l m _, ?_⟩
  intro q d hq hd
  have hd : ((m.heap.set m.nextId (Dictionary.init m.charset)).set m.nextId y).get? q = some d := hd
  by_cases e : m.nextId = q
  · subst e
    rw [AMap.get?_set_self] at hd
    cases hd
    refine ⟨l, fresh_get m l, ?_⟩
    rw [unlinked_of_like hlike]
    exact hpp
  · rw [AMap.get?_set_ne _ _ e, AMap.get?_set_ne _ _ e, h.heap_lt q hq] at hd
    cases hd

/-- `get_dictionary(l)` for a country, without limits: after the own files, the dictionary of the language. -/
theorem getFor_country (env : Env) (f : Nat) (l : Language) (m : Manager) (hl : l.isDefined = true) (hn : m.dictionaries.get? l = none) (hc : l.getCountry ≠ []) {x : DL}
    (hx : dirs1 env l m.searchPath.reverse (Dictionary.init m.charset, m.log) = .ok () x) :
    (∀ fb m2, Manager.getDictionaryFor env f (baseOf l) (put (fresh l m) m.nextId x) = .ok fb m2 →
      Manager.getDictionaryFor env (f + 1) l m = (Manager.addFallback m.nextId fb >>= fun _ => Prog.pure m.nextId) m2) ∧
    (∀ w m2, Manager.getDictionaryFor env f (baseOf l) (put (fresh l m) m.nextId x) = .exn w m2 → Manager.getDictionaryFor env (f + 1) l m = .exn w m2) ∧
    (∀ e, Manager.getDictionaryFor env f (baseOf l) (put (fresh l m) m.nextId x) = .fault e → Manager.getDictionaryFor env (f + 1) l m = .fault e) ∧
    (Manager.getDictionaryFor env f (baseOf l) (put (fresh l m) m.nextId x) = .diverge → Manager.getDictionaryFor env (f + 1) l m = .diverge) := by
  rw [Mgr.getFor_miss env f l m hl hn, hx]
  simp only [Res.mapS, if_neg hc]
  refine ⟨fun fb m2 h => ?_, fun w m2 h => ?_, fun e h => ?_, fun h => ?_⟩ <;> rw [h]

theorem getFor_stops (env : Env) (f : Nat) (l : Language) (m : Manager) (hl : l.isDefined = true) (hn : m.dictionaries.get? l = none) :
    (∀ w x, dirs1 env l m.searchPath.reverse (Dictionary.init m.charset, m.log) = .exn w x →
      Manager.getDictionaryFor env (f + 1) l m = .exn w (put (fresh l m) m.nextId x)) ∧
    (∀ e, dirs1 env l m.searchPath.reverse (Dictionary.init m.charset, m.log) = .fault e → Manager.getDictionaryFor env (f + 1) l m = .fault e) ∧
    (dirs1 env l m.searchPath.reverse (Dictionary.init m.charset, m.log) = .diverge → Manager.getDictionaryFor env (f + 1) l m = .diverge) ∧
    (∀ x, dirs1 env l m.searchPath.reverse (Dictionary.init m.charset, m.log) = .ok () x → l.getCountry = [] →
      Manager.getDictionaryFor env (f + 1) l m = .ok m.nextId (put (fresh l m) m.nextId x)) := by
  rw [Mgr.getFor_miss env f l m hl hn]
  refine ⟨fun w x h => ?_, fun e h => ?_, fun h => ?_, fun x h hc => ?_⟩ <;> rw [h] <;> simp only [Res.mapS]
  rw [if_pos hc]

theorem unlinked_addFallback (d : Dictionary) (p : Option DictId) : unlinked (d.addFallback p) = unlinked d := by
  unfold unlinked Dictionary.addFallback; rfl

/-- Linking a new dictionary to that of the language. -/
theorem kept_link {env : Env} {m m2 : Manager} {l : Language} {id fb : DictId} {d2 : Dictionary} (hk : Kept env m m2) (hid : m.nextId ≤ id)
    (hget : m2.dictionaries.get? l = some id) (hb : m2.dictionaries.get? (baseOf l) = some fb) (hc : l.getCountry ≠ []) (hd : m2.heap.get? id = some d2) :
    Kept env m { m2 with heap := m2.heap.set id (d2.addFallback (some fb)) } := by
  refine ⟨hk.inv.addFallback hget hb hc hd, ?_, hk.cur, hk.lang, ?_, ?_⟩
  · have hG2 := hk.grow
    exact ⟨hG2.path, hG2.charset, hG2.fuzzy, hG2.freed, hG2.next, hG2.keeps, hG2.log⟩
  · intro q hq
    show (m2.heap.set id _).get? q = _
    rw [AMap.get?_set_ne _ _ (by omega), hk.frame q hq]
  · intro q d hq hd'
    have hd' : (m2.heap.set id (d2.addFallback (some fb))).get? q = some d := hd'
    by_cases e : id = q
    · subst e
      rw [AMap.get?_set_self] at hd'
      cases hd'
      obtain ⟨L, h1, h2⟩ := hk.news id d2 hid hd
      exact ⟨L, h1, by rw [unlinked_addFallback]; exact h2⟩
    · rw [AMap.get?_set_ne _ _ e] at hd'
      exact hk.news q d hq hd'

theorem getFor_near (sh : Shortage) (env : Env) (f : Nat) : ∀ (l : Language) (m : Manager) (n t : Nat), l.isDefined = true → Inv m →
    NearGet sh env.lib m n (Manager.getDictionaryFor env f l m) (Kept env m) (fun p m' => m'.dictionaries.get? l = some p)
      (getDictionaryFor sh env f l ⟨m, n⟩ t) := by
  induction f with
  | zero => intro l m n t _ _; exact .unfinished (fun _ => rfl)
  | succ f ih =>
    intro l m n t hl h
    unfold getDictionaryFor
    rw [if_neg (by simp [hl])]
    dsimp only
    cases hn : m.dictionaries.get? l with
    | some p =>
      dsimp only
      exact .ok (l := []) (kept_refl h) hn (by simp) (fun _ => .inl (Mgr.getFor_hit env f l m hl hn))
    | none =>
      dsimp only
      have hst := getFor_stops env f l m hl hn
      have hself : ∀ (n' t' : Nat), n ≤ n' → n' ≤ n + 1 → Shortage.Fails sh → ∀ r0 : Res Manager DictId, NearGet sh env.lib m n r0 (Kept env m)
          (fun p m' => m'.dictionaries.get? l = some p) (.thrown badAlloc ⟨m, n'⟩ t') :=
        fun n' t' h1 h2 hF r0 => .thrown (l := []) (kept_refl h) (by simp) (.inr ⟨rfl, hF, h1, h2⟩)
      have hnew : (newDict sh l ⟨m, n⟩ t = .thrown badAlloc ⟨m, n⟩ (t + 1) ∧ Shortage.Fails sh) ∨
          (newDict sh l ⟨m, n⟩ t = .thrown badAlloc ⟨m, n + 1⟩ (t + 1 + 1) ∧ Shortage.Fails sh) ∨
          newDict sh l ⟨m, n⟩ t = .ok m.nextId ⟨fresh l m, n⟩ (t + 1 + 1) := by
        unfold newDict
        rcases alloc_cases sh (⟨m, n⟩ : Store) t with ⟨h1, hF⟩ | h1
        · exact .inl ⟨bind_thrown h1, hF⟩
        · rw [bind_ok h1]
          dsimp only
          by_cases ho : sh.fails (t + 1) = true
          · rw [if_pos ho]; exact .inr (.inl ⟨rfl, _, ho⟩)
          · rw [if_neg ho]; exact .inr (.inr rfl)
      rcases hnew with ⟨h1, hF⟩ | ⟨h1, hF⟩ | h1
      · rw [bind_thrown h1]; exact hself _ _ (Nat.le_refl _) (by omega) hF _
      · rw [bind_thrown h1]; exact hself _ _ (by omega) (Nat.le_refl _) hF _
      · rw [bind_ok h1]
        have hld := loadDirs_near sh env m.nextId hl m.searchPath.reverse (fresh l m) n (Dictionary.init m.charset) (t + 1 + 1) (fresh_heap m l)
        have hlog : (fresh l m).log = m.log := rfl
        rw [hlog] at hld
        generalize hr : loadDirs sh env m.nextId l m.searchPath.reverse ⟨fresh l m, n⟩ (t + 1 + 1) = r at hld
        cases hld with
        | @ok y lg t1 hp hc =>
          rw [hlog] at hc hr
          rw [bind_ok hr]
          have hk := kept_fresh (env := env) h hl hn (lg := lg) hp
          have hget : (put (fresh l m) m.nextId (y, m.log ++ lg)).dictionaries.get? l = some m.nextId := fresh_get m l
          have hmlog : (put (fresh l m) m.nextId (y, m.log ++ lg)).log = m.log ++ lg := rfl
          by_cases hcn : l.getCountry = []
          · have hce : (!l.getCountry.isEmpty) = false := by rw [hcn]; rfl
            rw [hce]
            simp only [Bool.false_eq_true, if_false]
            refine .ok (l := lg) hk hget rfl (fun hC => ?_)
            rcases hc hC with h2 | h2
            · exact .inl (hst.2.2.2 _ h2 hcn)
            · exact .inr (hst.2.2.1 h2)
          · have hce : (!l.getCountry.isEmpty) = true := by simpa using hcn
            rw [hce]
            simp only [if_true]
            have hg := fun hx => getFor_country env f l m hl hn hcn (x := (y, m.log ++ lg)) hx
            generalize hM : put (fresh l m) m.nextId (y, m.log ++ lg) = m1 at hk hget hmlog hg hr ⊢
            rcases alloc_cases sh (⟨m1, n⟩ : Store) t1 with ⟨h2, hF⟩ | h2
            · rw [bind_thrown (bind_thrown h2)]
              exact .thrown hk hmlog (.inr ⟨rfl, hF, Nat.le_refl _, by omega⟩)
            · have hb := ih (baseOf l) m1 n (t1 + 1) (base_defined hl).1 hk.inv
              have hbind : bind (alloc sh) (fun _ => bind (getDictionaryFor sh env f (Language.fromSpec l.getLanguage [] [])) fun fb => lift (addFallback m.nextId fb)) ⟨m1, n⟩ t1
                  = bind (getDictionaryFor sh env f (baseOf l)) (fun fb => lift (addFallback m.nextId fb)) ⟨m1, n⟩ (t1 + 1) := bind_ok h2
              generalize hrb : getDictionaryFor sh env f (baseOf l) ⟨m1, n⟩ (t1 + 1) = rb at hb
              cases hb with
              | @ok fb m2 t2 l2 k2 g2 e2 c2 =>
                have hk2 := kept_trans hk k2
                have hget2 := k2.grow.keeps _ _ hget
                obtain ⟨_, _, d2, hd2, _⟩ := hk2.inv.cached _ _ hget2
                have hadd : ∀ (α : Type) (k : Unit → M α), (Manager.addFallback m.nextId fb >>= k) m2 = k () { m2 with heap := m2.heap.set m.nextId (d2.addFallback (some fb)) } := by
                  intro α k
                  rw [prog_bind, bind_apply]
                  unfold Manager.addFallback
                  rw [hd2]
                have hl2 : lift (addFallback m.nextId fb) ⟨m2, n⟩ t2 = .ok () ⟨{ m2 with heap := m2.heap.set m.nextId (d2.addFallback (some fb)) }, n⟩ t2 := by
                  unfold lift Manager.addFallback
                  dsimp only
                  rw [hd2]
                rw [bind_ok (hbind.trans ((bind_ok hrb).trans hl2))]
                refine .ok (l := lg ++ l2) (kept_link hk2 (Nat.le_refl _) hget2 g2 hcn hd2) hget2 (by rw [← List.append_assoc, ← hmlog]; exact e2) (fun hC => ?_)
                rcases hc hC.left with h3 | h3
                · rcases c2 hC.right with h4 | h4
                  · left
                    rw [(hg h3).1 _ _ h4, hadd]
                    rfl
                  · exact .inr ((hg h3).2.2.2 h4)
                · exact .inr (hst.2.2.1 h3)
              | @thrown w m2 n2 t2 l2 k2 e2 c2 =>
                rw [bind_thrown (hbind.trans (bind_thrown hrb))]
                refine .thrown (l := lg ++ l2) (kept_trans hk k2) (by rw [← List.append_assoc, ← hmlog]; exact e2) ?_
                rcases c2 with ⟨e, c2⟩ | c2
                · refine .inl ⟨e, fun hC => ?_⟩
                  rcases hc hC.left with h3 | h3
                  · rcases c2 hC.right with h4 | h4
                    · exact .inl ((hg h3).2.1 _ _ h4)
                    · exact .inr ((hg h3).2.2.2 h4)
                  · exact .inr (hst.2.2.1 h3)
                · exact .inr c2
              | terminated hF => rw [bind_terminated (hbind.trans (bind_terminated hrb))]; exact .terminated hF
              | twice hF => rw [bind_crashed (hbind.trans (bind_crashed hrb))]; exact .twice hF
              | crashed hf hE =>
                rw [bind_crashed (hbind.trans (bind_crashed hrb))]
                refine .crashed hf (fun he => ?_)
                rcases hc (Enough.clean he _) with h3 | h3
                · rcases hE he with h4 | h4
                  · exact .inl ((hg h3).2.2.1 _ h4)
                  · exact .inr ((hg h3).2.2.2 h4)
                · exact .inr (hst.2.2.1 h3)
              | unfinished hE =>
                rw [bind_unfinished (hbind.trans (bind_unfinished hrb))]
                refine .unfinished (fun he => ?_)
                rcases hc (Enough.clean he _) with h3 | h3
                · exact (hg h3).2.2.2 (hE he)
                · exact hst.2.2.1 h3
        | @thrown w y lg t1 hp hc =>
          rw [bind_thrown hr]
          refine .thrown (kept_fresh h hl hn hp) rfl ?_
          rcases hc with hc | hc
          · refine .inl ⟨rfl, fun hC => ?_⟩
            rcases hc hC with h2 | h2
            · exact .inl (hst.1 _ _ h2)
            · exact .inr (hst.2.2.1 h2)
          · exact .inr ⟨hc.1, hc.2, Nat.le_refl _, by omega⟩
        | terminated hF => rw [bind_terminated hr]; exact .terminated hF
        | twice hF => rw [bind_crashed hr]; exact .twice hF
        | crashed hf hE =>
          rw [bind_crashed hr]
          refine .crashed hf (fun he => ?_)
          rcases hE he with h2 | h2
          · exact .inl (hst.2.1 _ h2)
          · exact .inr (hst.2.2.1 h2)
        | unfinished hE =>
          rw [bind_unfinished hr]
          exact .unfinished (fun he => hst.2.2.1 (hE he))

end Tgt.Starved
