import Verif.Proofs.NestedParse
import Verif.Proofs.MgrLoad
/-
Loading from the search path while callbacks run that leave the dictionary alone.
-/
namespace Tgt.Nested
open Spec Manager POParser Mgr

/-- Some file is longer than the bound on loops. -/
def Long (env : Env) : Prop := ∃ path s, env.fs.openFile path = .stream s ∧ env.fuel ≤ s.rest.length

variable {say : Say} {id : DictId} {R : DL → Manager → Prop} {B : Bad}

theorem scanFiles_sim (v : Voice say id R B) (env : Env) {language : Manager → Language} {l : Language} (hl : l.isDefined = true)
    (hlang : ∀ {x m}, R x m → language m = l) (files : List Str) : ∀ (best : Str × Nat) (x : DL) (m : Manager), R x m →
    Sat (fun b m' => b = files.foldl (scanStep env.ct l) best ∧ R (x.1, x.2 ++ scanLog env.ct files) m') (fun _ _ => False) B.te B.fa B.di
      (scanFiles say env language files best m) := by
  induction files with
  | nil => intro b x m h; exact ⟨rfl, by simpa [scanLog] using h⟩
  | cons f rest ih =>
    intro b x m h
    rw [scanFiles]
    by_cases hs : hasSuffix f b!".po" = true
    · rw [if_pos hs]
      have h3 : b!".po" <:+ f := (hasSuffix_iff f _).1 hs
      have hlen : ¬ f.length < 3 := by have := h3.length_le; simpa using this
      cases hc : convertFilename2Language env.ct f with
      | none => exact absurd ((C13_throws_iff env.ct f).1 hc) hlen
      | some name =>
        have hsc : fileScore env.ct l f = Language.match l (Language.fromEnv name) := by
          unfold fileScore
          rw [if_pos h3, hc]
        dsimp only
        by_cases hd : (Language.fromEnv name).isDefined = true
        · rw [if_neg (by simp [hd])]
          have hlog : scanLog env.ct (f :: rest) = scanLog env.ct rest := by simp [scanLog, hc, hd]
          rw [hlog, List.foldl_cons, scanStep, hsc, hlang h]
          exact ih _ x m h
        · have hd' : (Language.fromEnv name).isDefined = false := by simpa using hd
          rw [if_pos (by simp [hd'])]
          have hlog : scanLog env.ct (f :: rest) = [.unknownLanguage f] ++ scanLog env.ct rest := by simp [scanLog, hc, hd', hs]
          have hn : Language.fromEnv name = none := by simpa [Language.isDefined] using hd'
          rw [hlog, List.foldl_cons, scanStep, hsc, hn, match_undefined hl, if_neg (by omega)]
          refine Sat.bind (v.say _ h) ?_
          intro _ m' h'
          rw [← List.append_assoc]
          exact ih b _ m' h'
    · have hs' : hasSuffix f b!".po" = false := by simpa using hs
      rw [if_neg hs]
      have hsc : fileScore env.ct l f = 0 := by
        unfold fileScore
        rw [if_neg (fun h => hs ((hasSuffix_iff f _).2 h))]
      have hlog : scanLog env.ct (f :: rest) = scanLog env.ct rest := by simp [scanLog, hs']
      rw [List.foldl_cons, scanStep, hsc, if_neg (by omega), hlog]
      exact ih _ _ _ h

theorem parse1_obs (env : Env) (pofile : Str) (s : Stream) (d : Dictionary) (log : List Diag) :
    parse1 env pofile s (d, log) = match observe (run (cfgOf env pofile) s d) with
      | .returned d l => .ok () (d, log ++ l)
      | .threw w d l => .ok () (d, log ++ l ++ [.parseFailure pofile, .parseFailureWhat w])
      | .threwPo d l => .poError (d, log ++ l)
      | .crashed f => .fault f
      | .unfinished => .diverge := by
  unfold parse1
  dsimp only
  cases run (cfgOf env pofile) s d <;> rfl

theorem loadFile_sim (v : Voice say id R B) (env : Env) (dir f : Str) (hf : f.isEmpty = false) (x : DL) (m : Manager) (h : R x m) :
    Sat (fun _ m' => ∃ y, file1 env dir f x = .ok () y ∧ R y m') (fun _ _ => False) B.te (fun e => B.fa e ∨ file1 env dir f x = .fault e)
      (B.di ∨ file1 env dir f x = .diverge ∨ Long env) (loadFile say env id dir f m) := by
  unfold loadFile file1
  rw [hf]
  simp only [Bool.not_false, if_true]
  have handle : ∀ (w : Str) (y : DL) (m1 : Manager), R y m1 → ∀ (r0 : Res DL Unit),
      r0 = .ok () (y.1, y.2 ++ [.parseFailure (dir ++ b!"/" ++ f), .parseFailureWhat w]) →
      Sat (fun _ m' => ∃ y, r0 = .ok () y ∧ R y m') (fun _ _ => False) B.te (fun e => B.fa e ∨ r0 = .fault e) (B.di ∨ r0 = .diverge ∨ Long env)
        ((Nested.bind (say (.parseFailure (dir ++ b!"/" ++ f))) fun _ => say (.parseFailureWhat w)) m1) := by
    intro w y m1 h1 r0 hr
    refine Sat.bind ((v.say _ h1).mono (fun _ _ h => h) (fun _ _ h => h.elim) (fun h => h) (fun _ h => .inl h) (fun h => .inl h)) ?_
    intro _ m2 h2
    refine (v.say _ h2).mono ?_ (fun _ _ h => h.elim) (fun h => h) (fun _ h => .inl h) (fun h => .inl h)
    intro _ m3 h3
    exact ⟨_, hr, by simpa using h3⟩
  cases ho : env.fs.openFile (dir ++ b!"/" ++ f) with
  | throws w =>
    dsimp only
    unfold catching throw
    exact handle w x m h _ rfl
  | null =>
    dsimp only
    unfold catching
    have hs := v.say (.openFailure (dir ++ b!"/" ++ f)) h
    cases hp : say (.openFailure (dir ++ b!"/" ++ f)) m with
    | exn w m' => rw [hp] at hs; exact hs.elim
    | ok a m' => rw [hp] at hs; exact ⟨_, rfl, hs⟩
    | terminated => rw [hp] at hs; exact hs
    | fault e => rw [hp] at hs; exact .inl hs
    | diverge => rw [hp] at hs; exact .inl hs
  | stream s =>
    dsimp only
    obtain ⟨d, lg⟩ := x
    have hp1 := parse1_obs env (dir ++ b!"/" ++ f) s d lg
    have hs := parse_sim v env (dir ++ b!"/" ++ f) s _ m h
    unfold catching
    cases hp : parse say env id (dir ++ b!"/" ++ f) s m with
    | ok a m' =>
      rw [hp] at hs
      obtain ⟨d', l', h1, h2⟩ := hs
      dsimp only at h1
      rw [h1] at hp1
      exact ⟨_, hp1, h2⟩
    | exn w m' =>
      rw [hp] at hs
      obtain ⟨d', l', h1, h2⟩ := hs
      dsimp only at h1
      rw [h1] at hp1
      dsimp only at hp1 h2 ⊢
      exact handle w _ m' h2 _ hp1
    | terminated => rw [hp] at hs; exact hs
    | fault e =>
      rw [hp] at hs
      rcases hs with hs | hs
      · exact .inl hs
      · refine .inr ?_
        dsimp only at hs
        rw [hs] at hp1
        exact hp1
    | diverge =>
      rw [hp] at hs
      rcases hs with hs | hs | hs
      · exact .inl hs
      · refine .inr (.inl ?_)
        dsimp only at hs
        rw [hs] at hp1
        exact hp1
      · exact .inr (.inr ⟨_, s, ho, hs⟩)

theorem onPath_eq {path : List Str} {m : Manager} (h : m.searchPath = path) : onPath path m = .ok () m := by
  unfold onPath; rw [if_pos h]

theorem loadDirs_sim (v : Voice say id R B) (env : Env) {language : Manager → Language} {l : Language} (hl : l.isDefined = true)
    (hlang : ∀ {x m}, R x m → language m = l) {path : List Str} (hpath : ∀ {x m}, R x m → m.searchPath = path) (dirs : List Str) : ∀ (x : DL) (m : Manager), R x m →
    Sat (fun _ m' => ∃ y, dirs1 env l dirs x = .ok () y ∧ R y m') (fun w m' => ∃ y, dirs1 env l dirs x = .exn w y ∧ R y m') B.te
      (fun e => B.fa e ∨ dirs1 env l dirs x = .fault e) (B.di ∨ dirs1 env l dirs x = .diverge ∨ Long env)
      (loadDirs say env id language path dirs m) := by
  induction dirs with
  | nil =>
    intro x m h
    unfold loadDirs
    rw [onPath_eq (hpath h)]
    exact ⟨x, rfl, h⟩
  | cons dir rest ih =>
    intro x m h
    unfold loadDirs dirs1
    have h0 : Sat (fun _ m' => R x m') (fun w m' => False) B.te B.fa B.di (onPath path m) := by rw [onPath_eq (hpath h)]; exact h
    have hob : ∀ {β : Type} (f : Unit → N β), Nested.bind (onPath path) f m = f () m := by
      intro β f; unfold Nested.bind; rw [onPath_eq (hpath h)]
    rw [hob]
    cases ho : env.fs.openDirectory dir with
    | error w => exact ⟨x, rfl, h⟩
    | ok files =>
      dsimp only
      rw [bind_apply]
      have hsc := scanFiles_sim v env hl hlang files ([], 0) x m h
      unfold Nested.bind
      cases hp : scanFiles say env language files ([], 0) m with
      | exn w m' => rw [hp] at hsc; exact hsc.elim
      | terminated => rw [hp] at hsc; exact hsc
      | fault e => rw [hp] at hsc; exact .inl hsc
      | diverge => rw [hp] at hsc; exact .inl hsc
      | ok b m1 =>
        rw [hp] at hsc
        obtain ⟨hb, h1⟩ := hsc
        dsimp only
        rw [onPath_eq (hpath h1)]
        dsimp only
        subst hb
        have hfile : Sat (fun _ m' => ∃ y, files1 env l dir files x = .ok () y ∧ R y m') (fun _ _ => False) B.te (fun e => B.fa e ∨ files1 env l dir files x = .fault e)
            (B.di ∨ files1 env l dir files x = .diverge ∨ Long env) (loadFile say env id dir (files.foldl (scanStep env.ct l) ([], 0)).1 m1) := by
          unfold files1
          cases he : (files.foldl (scanStep env.ct l) ([], 0)).1.isEmpty with
          | true =>
            simp only [if_true]
            unfold loadFile
            rw [he]
            exact ⟨_, rfl, h1⟩
          | false =>
            simp only [Bool.false_eq_true, if_false]
            exact loadFile_sim v env dir _ he _ m1 h1
        cases hq : loadFile say env id dir (files.foldl (scanStep env.ct l) ([], 0)).1 m1 with
        | exn w m' => rw [hq] at hfile; exact hfile.elim
        | terminated => rw [hq] at hfile; exact hfile
        | fault e =>
          rw [hq] at hfile
          rcases hfile with hfile | hfile
          · exact .inl hfile
          · exact .inr (by rw [hfile])
        | diverge =>
          rw [hq] at hfile
          rcases hfile with hfile | hfile | hfile
          · exact .inl hfile
          · exact .inr (.inl (by rw [hfile]))
          · exact .inr (.inr hfile)
        | ok a m2 =>
          rw [hq] at hfile
          obtain ⟨y, h2, h3⟩ := hfile
          rw [h2]
          exact ih y m2 h3

end Tgt.Nested
