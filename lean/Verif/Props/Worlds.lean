import Verif.Spec.Worlds
import Verif.Props.Sessions
import Verif.Props.ManagerLoad
/-
Files that do not serve a language do not matter to it (C83).
-/
namespace Tgt
open Spec Manager Mgr POParser

namespace Worlds

theorem best_unique {ct : CType} {l : Language} {files : List Str} {f g : Str} (h : BestFile ct l files f) (h' : BestFile ct l files g) : f = g := by
  obtain ⟨b, a, rfl, h1, h2, h3⟩ := h
  obtain ⟨b', a', he, h1', h2', h3'⟩ := h'
  rcases List.append_eq_append_iff.1 he with ⟨t, ht, ht'⟩ | ⟨t, ht, ht'⟩
  · cases t with
    | nil => simp at ht'; exact ht'.1
    | cons x t =>
      simp only [List.cons_append, List.cons.injEq] at ht'
      obtain ⟨rfl, rfl⟩ := ht'
      have e1 := h2' f (by rw [ht]; simp)
      have e2 := h3 g (by simp)
      omega
  · cases t with
    | nil => simp at ht'; exact ht'.1.symm
    | cons x t =>
      simp only [List.cons_append, List.cons.injEq] at ht'
      obtain ⟨rfl, rfl⟩ := ht'
      have e1 := h2 g (by rw [ht]; simp)
      have e2 := h3' f (by simp)
      omega

theorem best_not_none {ct : CType} {l : Language} {files : List Str} {f : Str} (h : BestFile ct l files f) : ¬ NoFile ct l files := by
  obtain ⟨b, a, rfl, h1, _, _⟩ := h
  intro hn
  have := hn f (by simp)
  omega

theorem scan_none {ct : CType} {l : Language} {files : List Str} (h : NoFile ct l files) :
    (files.foldl (scanStep ct l) ([], 0)).1.isEmpty = true := by
  rcases best_cases ct l files with ⟨_, h2⟩ | ⟨h1, _⟩
  · exact h2
  · exact absurd h (best_not_none h1)

theorem scan_some {ct : CType} {l : Language} {files : List Str} {f : Str} (h : BestFile ct l files f) :
    (files.foldl (scanStep ct l) ([], 0)).1 = f ∧ (files.foldl (scanStep ct l) ([], 0)).1.isEmpty = false := by
  rcases best_cases ct l files with ⟨h1, _⟩ | ⟨h1, h2⟩
  · exact absurd h1 (best_not_none h)
  · exact ⟨best_unique h1 h, h2⟩

theorem mapS_id {σ τ α : Type} (g : σ → τ) (h : τ → τ) (hg : ∀ s, h s = s) (r : Res σ α) : (r.mapS g).mapS h = r.mapS g := by
  cases r <;> simp [Res.mapS, hg]

theorem parse1_same {env env' : Env} (hm : SameMachine env env') (pofile : Str) (s : Stream) : parse1 env pofile s = parse1 env' pofile s := by
  obtain ⟨h1, h2, h3, h4⟩ := hm
  have : cfgOf env pofile = cfgOf env' pofile := by simp only [cfgOf, h1, h2, h3, h4]
  unfold parse1
  rw [this]

theorem file1_same {env env' : Env} (hm : SameMachine env env') (dir f : Str)
    (h : env.fs.openFile (dir ++ b!"/" ++ f) = env'.fs.openFile (dir ++ b!"/" ++ f)) : file1 env dir f = file1 env' dir f := by
  funext x
  unfold file1
  rw [← h]
  cases env.fs.openFile (dir ++ b!"/" ++ f) with
  | stream s => dsimp only; rw [parse1_same hm]
  | _ => rfl

theorem fst_log {α : Type} (r : Res DL α) (log : List Diag) : (r.mapS (fun y => (y.1, log ++ y.2))).mapS Prod.fst = r.mapS Prod.fst := by
  cases r <;> rfl

theorem dirs1_same {env env' : Env} (hm : SameMachine env env') (l : Language) (dirs : List Str) (h : ∀ dir ∈ dirs, SameFor env env' l dir) :
    ∀ (d : Dictionary) (log log' : List Diag),
      (dirs1 env l dirs (d, log)).mapS Prod.fst = (dirs1 env' l dirs (d, log')).mapS Prod.fst := by
  induction dirs with
  | nil => intro d log log'; rfl
  | cons dir t ih =>
    intro d log log'
    have hs := h dir List.mem_cons_self
    have ih := ih (fun x hx => h x (List.mem_cons_of_mem _ hx))
    unfold dirs1
    unfold SameFor at hs
    cases h1 : env.fs.openDirectory dir with
    | error w =>
      cases h2 : env'.fs.openDirectory dir with
      | error w' => rw [h1, h2] at hs; dsimp only at hs; subst hs; rfl
      | ok files => rw [h1, h2] at hs; exact hs.elim
    | ok files =>
      cases h2 : env'.fs.openDirectory dir with
      | error w' => rw [h1, h2] at hs; exact hs.elim
      | ok files' =>
        rw [h1, h2] at hs
        dsimp only at hs ⊢
        rw [bind_apply, bind_apply]
        have hf : (files1 env l dir files (d, log)).mapS Prod.fst = (files1 env' l dir files' (d, log')).mapS Prod.fst := by
          unfold files1
          rw [← hm.1]
          rcases hs with ⟨n1, n2⟩ | ⟨f, b1, b2, ho⟩
          · rw [if_pos (scan_none n1), if_pos (scan_none n2)]; rfl
          · rw [if_neg (by rw [(scan_some b1).2]; simp), if_neg (by rw [(scan_some b2).2]; simp), (scan_some b1).1, (scan_some b2).1]
            dsimp only
            rw [file1_log, file1_log env', fst_log, fst_log, file1_same hm dir f ho]
        cases hx : files1 env l dir files (d, log) with
        | ok a x =>
          rw [hx] at hf
          cases hy : files1 env' l dir files' (d, log') with
          | ok b y =>
            rw [hy] at hf
            obtain ⟨x1, x2⟩ := x
            obtain ⟨y1, y2⟩ := y
            simp only [Res.mapS, Res.ok.injEq] at hf
            obtain ⟨_, rfl⟩ := hf
            exact ih x1 x2 y2
          | _ => rw [hy] at hf; cases hf
        | exn w x =>
          rw [hx] at hf
          cases hy : files1 env' l dir files' (d, log') <;> rw [hy] at hf <;> first | exact hf | cases hf
        | poError x =>
          rw [hx] at hf
          cases hy : files1 env' l dir files' (d, log') <;> rw [hy] at hf <;> first | exact hf | cases hf
        | fault f =>
          rw [hx] at hf
          cases hy : files1 env' l dir files' (d, log') <;> rw [hy] at hf <;> first | exact hf | cases hf
        | diverge =>
          rw [hx] at hf
          cases hy : files1 env' l dir files' (d, log') <;> rw [hy] at hf <;> first | exact hf | cases hf

/-- `get_dictionary(l)` on managers that differ in their logs. -/
theorem getFor_quiet (env : Env) (n : Nat) (l : Language) {m m' : Manager} (h : unlogged m = unlogged m') :
    (getDictionaryFor env n l m).mapS unlogged = (getDictionaryFor env n l m').mapS unlogged := by
  have key : ∀ m, (getDictionaryFor env n l m).mapS unlogged = (getDictionaryFor env n l (unlogged m)).mapS unlogged := by
    intro m
    have := obl_getFor env n l m.log (unlogged m)
    rw [logged_unlogged] at this
    rw [this, Res.mapS_mapS]
    rfl
  rw [key m, key m', h]

theorem getFor_same {env env' : Env} (hm : SameMachine env env') (n : Nat) : ∀ (l : Language) (m : Manager),
    (∀ dir ∈ m.searchPath, SameFor env env' l dir) → (l.getCountry ≠ [] → ∀ dir ∈ m.searchPath, SameFor env env' (bare l) dir) →
    (getDictionaryFor env n l m).mapS unlogged = (getDictionaryFor env' n l m).mapS unlogged := by
  induction n with
  | zero => intro l m _ _; rfl
  | succ n ih =>
    intro l m h1 h2
    cases hl : l.isDefined with
    | false =>
      have : ∀ e : Env, getDictionaryFor e (n + 1) l m = .fault .assertFailed := by
        intro e; rw [getDictionaryFor, if_pos (by simp [hl])]; rfl
      rw [this, this]
    | true =>
      cases hd : m.dictionaries.get? l with
      | some p =>
        have : ∀ e : Env, getDictionaryFor e (n + 1) l m = .ok p m := by
          intro e
          rw [getDictionaryFor, if_neg (by simp [hl])]
          simp only [prog_bind, bind_apply, Prog.get, hd]
          rfl
        rw [this, this]
      | none =>
        rw [getFor_miss env n l m hl hd, getFor_miss env' n l m hl hd]
        have hs := dirs1_same hm l m.searchPath.reverse (fun dir hd => h1 dir (List.mem_reverse.1 hd)) (Dictionary.init m.charset) m.log m.log
        have hput : ∀ x y : DL, x.1 = y.1 → unlogged (put (fresh l m) m.nextId x) = unlogged (put (fresh l m) m.nextId y) := by
          intro x y h; unfold put unlogged; rw [h]
        cases hx : dirs1 env l m.searchPath.reverse (Dictionary.init m.charset, m.log) with
        | ok a x =>
          rw [hx] at hs
          cases hy : dirs1 env' l m.searchPath.reverse (Dictionary.init m.charset, m.log) with
          | ok b y =>
            rw [hy] at hs
            simp only [Res.mapS, Res.ok.injEq] at hs
            have hp := hput x y hs.2
            simp only [Res.mapS]
            by_cases hc : l.getCountry = []
            · rw [if_pos hc, if_pos hc]
              simp only [Res.ok.injEq, true_and]
              exact hp
            · rw [if_neg hc, if_neg hc]
              have hb := base_defined hl
              have e1 := ih (baseOf l) (put (fresh l m) m.nextId x) (h2 hc) (fun h => absurd hb.2 h)
              have e2 := getFor_quiet env' n (baseOf l) hp
              rw [e2] at e1
              cases hg : getDictionaryFor env n (baseOf l) (put (fresh l m) m.nextId x) with
              | ok fb m2 =>
                rw [hg] at e1
                cases hg' : getDictionaryFor env' n (baseOf l) (put (fresh l m) m.nextId y) with
                | ok fb' m2' =>
                  rw [hg'] at e1
                  simp only [Res.mapS, Res.ok.injEq] at e1
                  obtain ⟨rfl, e⟩ := e1
                  have hh : m2.heap = m2'.heap := by
                    have := congrArg Manager.heap e; exact this
                  dsimp only
                  simp only [prog_bind, bind_apply, Manager.addFallback, ← hh]
                  cases m2.heap.get? m.nextId with
                  | none => rfl
                  | some d =>
                    simp only [Prog.pure, Res.ok.injEq, true_and]
                    show unlogged { m2 with heap := m2.heap.set m.nextId (d.addFallback (some fb)) } = unlogged { m2' with heap := m2.heap.set m.nextId (d.addFallback (some fb)) }
                    have : ∀ h, { unlogged m2 with heap := h } = { unlogged m2' with heap := h } := by intro h; rw [e]
                    exact this _
                | _ => rw [hg'] at e1; cases e1
              | exn w m2 =>
                rw [hg] at e1
                cases hg' : getDictionaryFor env' n (baseOf l) (put (fresh l m) m.nextId y) <;> rw [hg'] at e1 <;> first | exact e1 | cases e1
              | poError m2 =>
                rw [hg] at e1
                cases hg' : getDictionaryFor env' n (baseOf l) (put (fresh l m) m.nextId y) <;> rw [hg'] at e1 <;> first | exact e1 | cases e1
              | fault f =>
                rw [hg] at e1
                cases hg' : getDictionaryFor env' n (baseOf l) (put (fresh l m) m.nextId y) <;> rw [hg'] at e1 <;> first | exact e1 | cases e1
              | diverge =>
                rw [hg] at e1
                cases hg' : getDictionaryFor env' n (baseOf l) (put (fresh l m) m.nextId y) <;> rw [hg'] at e1 <;> first | exact e1 | cases e1
          | _ => rw [hy] at hs; cases hs
        | exn w x =>
          rw [hx] at hs
          cases hy : dirs1 env' l m.searchPath.reverse (Dictionary.init m.charset, m.log) <;> rw [hy] at hs <;> try cases hs
          simp only [Res.mapS, Res.exn.injEq] at hs ⊢
          exact ⟨hs.1, hput _ _ hs.2⟩
        | poError x =>
          rw [hx] at hs
          cases hy : dirs1 env' l m.searchPath.reverse (Dictionary.init m.charset, m.log) <;> rw [hy] at hs <;> try cases hs
          simp only [Res.mapS, Res.poError.injEq] at hs ⊢
          exact hput _ _ hs
        | fault f =>
          rw [hx] at hs
          cases hy : dirs1 env' l m.searchPath.reverse (Dictionary.init m.charset, m.log) <;> rw [hy] at hs <;> try cases hs
          rfl
        | diverge =>
          rw [hx] at hs
          cases hy : dirs1 env' l m.searchPath.reverse (Dictionary.init m.charset, m.log) <;> rw [hy] at hs <;> try cases hs
          rfl

/-! With the same listings the messages are the same, too. -/

theorem scanFiles_same {env env' : Env} (hct : env.ct = env'.ct) (l : Language) (files : List Str) : ∀ b, scanFiles env l files b = scanFiles env' l files b := by
  induction files with
  | nil => intro b; rfl
  | cons f t ih =>
    intro b
    simp only [scanFiles, hct, ih]

theorem dirs1_agree {env env' : Env} (h : Agree env env') (l : Language) (dirs : List Str) : dirs1 env l dirs = dirs1 env' l dirs := by
  induction dirs with
  | nil => rfl
  | cons dir t ih =>
    unfold dirs1
    rw [← h.2.1 dir]
    cases ho : env.fs.openDirectory dir with
    | error w => rfl
    | ok files =>
      dsimp only
      rw [ih]
      congr 1
      funext x
      unfold files1
      rw [← h.1.1]
      rcases best_cases env.ct l files with ⟨_, h2⟩ | ⟨h1, h2⟩
      · rw [if_pos h2, if_pos h2]
      · rw [if_neg (by simp [h2]), if_neg (by simp [h2]), file1_same h.1 dir _ (h.2.2 dir files l _ ho h1)]

theorem getFor_agree {env env' : Env} (h : Agree env env') (n : Nat) : ∀ (l : Language) (m : Manager), getDictionaryFor env n l m = getDictionaryFor env' n l m := by
  induction n with
  | zero => intro l m; rfl
  | succ n ih =>
    intro l m
    cases hl : l.isDefined with
    | false =>
      have : ∀ e : Env, getDictionaryFor e (n + 1) l m = .fault .assertFailed := by
        intro e; rw [getDictionaryFor, if_pos (by simp [hl])]; rfl
      rw [this, this]
    | true =>
      cases hd : m.dictionaries.get? l with
      | some p =>
        have : ∀ e : Env, getDictionaryFor e (n + 1) l m = .ok p m := by
          intro e
          rw [getDictionaryFor, if_neg (by simp [hl])]
          simp only [prog_bind, bind_apply, Prog.get, hd]
          rfl
        rw [this, this]
      | none => rw [getFor_miss env n l m hl hd, getFor_miss env' n l m hl hd, dirs1_agree h]; simp only [ih]

theorem collect_agree {env env' : Env} (h : Agree env env') (dirs : List Str) : ∀ acc, collectDirs env dirs acc = collectDirs env' dirs acc := by
  induction dirs with
  | nil => intro acc; rfl
  | cons dir t ih => intro acc; simp only [collectDirs, ← h.2.1 dir, ih]

theorem run_agree {env env' : Env} (h : Agree env env') (c : Call) (m : Manager) : c.run env m = c.run env' m := by
  have hf : env.fuel = env'.fuel := h.1.2.2.2
  cases c with
  | getDictionary =>
    have : Manager.getDictionary env m = Manager.getDictionary env' m := by
      unfold Manager.getDictionary
      simp only [prog_bind, bind_apply, Prog.get]
      cases m.currentDict with
      | some p => rfl
      | none =>
        dsimp only
        split
        · rw [bind_apply, bind_apply, hf, getFor_agree h]
        · rfl
    simp only [Call.run, prog_bind, bind_apply, this]
  | getDictionaryFor l => simp only [Call.run, prog_bind, bind_apply, hf, getFor_agree h]
  | getLanguages => simp only [Call.run, Manager.getLanguages, prog_bind, bind_apply, collect_agree h]
  | ask id q => simp only [Call.run, hf]
  | _ => rfl

theorem best_filter {ct : CType} {l : Language} {files : List Str} {f : Str} :
    BestFile ct l (files.filter (fun f => 0 < fileScore ct l f)) f → BestFile ct l files f := by
  rintro ⟨b, a, h, h1, h2, h3⟩
  have hf := h
  obtain ⟨b', a', rfl, hb, ha⟩ := List.filter_eq_append_iff.1 h
  obtain ⟨c, a'', rfl, hc, hp, ha⟩ := List.filter_eq_cons_iff.1 ha
  refine ⟨b' ++ c, a'', by simp, h1, ?_, ?_⟩
  · intro x hx
    by_cases hx0 : 0 < fileScore ct l x
    · rcases List.mem_append.1 hx with hx | hx
      · refine h2 x ?_
        rw [← hb]
        exact List.mem_filter.2 ⟨hx, by simpa using hx0⟩
      · exact absurd (by simpa using hx0) (hc x hx)
    · omega
  · intro x hx
    by_cases hx0 : 0 < fileScore ct l x
    · refine h3 x ?_
      rw [← ha]
      exact List.mem_filter.2 ⟨hx, by simpa using hx0⟩
    · omega

theorem none_filter {ct : CType} {l : Language} {files : List Str} (h : files.filter (fun f => 0 < fileScore ct l f) = []) : NoFile ct l files := by
  intro f hf
  have := List.filter_eq_nil_iff.1 h f hf
  simp at this
  exact this

end Worlds

/-- C83.  `get_dictionary(l)` depends on nothing but, for each directory of the search path, whether it can be listed, which file
serves `l` best (for a language with a country: also which one serves the bare language best), and how that file opens and reads.
In two worlds in which these are the same, whatever else they contain, it returns or throws the same and leaves the manager the
same, messages apart. -/
theorem C83_get_dictionary (env env' : Env) (hm : SameMachine env env') (l : Language) (m : Manager)
    (h : ∀ dir ∈ m.searchPath, SameFor env env' l dir)
    (hb : l.getCountry ≠ [] → ∀ dir ∈ m.searchPath, SameFor env env' (bare l) dir) :
    ((Call.getDictionaryFor l).outcome env m).map (fun x => (x.1, unlogged x.2))
      = ((Call.getDictionaryFor l).outcome env' m).map (fun x => (x.1, unlogged x.2)) := by
  have := Worlds.getFor_same hm env.fuel l m h hb
  unfold Call.outcome Call.run
  simp only [prog_bind, bind_apply]
  rw [← hm.2.2.2]
  cases hx : Manager.getDictionaryFor env env.fuel l m <;> cases hy : Manager.getDictionaryFor env' env.fuel l m <;>
    rw [hx, hy] at this <;> simp [Res.mapS] at this <;> simp [Prog.pure, this]

/-- C83.  In particular, files that do not serve a language may be added to directories, removed and changed in any way: if the
directories of the search path list the same files that serve `l` (and those that serve the bare language), in the same order among
other files, and these files open in the same way, `get_dictionary(l)` does the same. -/
theorem C83_other_files (env env' : Env) (hm : SameMachine env env') (l : Language) (m : Manager)
    (h : ∀ dir ∈ m.searchPath, ∃ files files', env.fs.openDirectory dir = .ok files ∧ env'.fs.openDirectory dir = .ok files' ∧
      ∀ x ∈ [l, bare l], files.filter (fun f => 0 < fileScore env.ct x f) = files'.filter (fun f => 0 < fileScore env.ct x f) ∧
        ∀ f ∈ files, 0 < fileScore env.ct x f → env.fs.openFile (dir ++ b!"/" ++ f) = env'.fs.openFile (dir ++ b!"/" ++ f)) :
    ((Call.getDictionaryFor l).outcome env m).map (fun x => (x.1, unlogged x.2))
      = ((Call.getDictionaryFor l).outcome env' m).map (fun x => (x.1, unlogged x.2)) := by
  have key : ∀ x ∈ [l, bare l], ∀ dir ∈ m.searchPath, SameFor env env' x dir := by
    intro x hx dir hd
    obtain ⟨files, files', h1, h2, h3⟩ := h dir hd
    obtain ⟨h4, h5⟩ := h3 x hx
    unfold SameFor
    rw [h1, h2]
    dsimp only
    rcases best_cases env.ct x (files.filter (fun f => 0 < fileScore env.ct x f)) with ⟨hn, _⟩ | ⟨hb, _⟩
    · have h0 : files.filter (fun f => 0 < fileScore env.ct x f) = [] := by
        rw [List.eq_nil_iff_forall_not_mem]
        intro f hf
        have e1 := hn f hf
        have e2 := (List.mem_filter.1 hf).2
        simp at e2
        omega
      exact .inl ⟨Worlds.none_filter h0, Worlds.none_filter (by rw [← h4]; exact h0)⟩
    · have b1 := Worlds.best_filter hb
      have b2 := hb
      rw [h4] at b2
      have hmem : ∀ {fs : List Str} {f : Str}, BestFile env.ct x fs f → f ∈ fs ∧ 0 < fileScore env.ct x f := by
        rintro fs f ⟨b, a, rfl, h, _⟩; exact ⟨by simp, h⟩
      refine .inr ⟨_, b1, Worlds.best_filter (by rw [← h4] at b2 ⊢; exact b2), h5 _ (hmem b1).1 (hmem b1).2⟩
  exact C83_get_dictionary env env' hm l m (key l (by simp)) (fun _ => key (bare l) (by simp))

/-- C83.  The order in which directories list their files does not matter, if no two files serve a language equally well. -/
theorem C83_listing_order (env env' : Env) (hm : SameMachine env env') (hf : env.fs.openFile = env'.fs.openFile) (l : Language) (m : Manager)
    (h : ∀ dir ∈ m.searchPath, ∃ files files', env.fs.openDirectory dir = .ok files ∧ env'.fs.openDirectory dir = .ok files' ∧
      files.Perm files' ∧ ∀ x ∈ [l, bare l], ∀ f ∈ files, ∀ g ∈ files, 0 < fileScore env.ct x f → fileScore env.ct x f = fileScore env.ct x g → f = g) :
    ((Call.getDictionaryFor l).outcome env m).map (fun x => (x.1, unlogged x.2))
      = ((Call.getDictionaryFor l).outcome env' m).map (fun x => (x.1, unlogged x.2)) := by
  have key : ∀ x ∈ [l, bare l], ∀ dir ∈ m.searchPath, SameFor env env' x dir := by
    intro x hx dir hd
    obtain ⟨files, files', h1, h2, hp, h3⟩ := h dir hd
    have h3 := h3 x hx
    unfold SameFor
    rw [h1, h2]
    dsimp only
    have top : ∀ {fs : List Str} {f : Str}, BestFile env.ct x fs f → f ∈ fs ∧ 0 < fileScore env.ct x f ∧ ∀ g ∈ fs, fileScore env.ct x g ≤ fileScore env.ct x f := by
      rintro fs f ⟨b, a, rfl, h, hb, ha⟩
      refine ⟨by simp, h, fun g hg => ?_⟩
      rcases List.mem_append.1 hg with hg | hg
      · exact Nat.le_of_lt (hb g hg)
      · rcases List.mem_cons.1 hg with rfl | hg
        · exact Nat.le_refl _
        · exact ha g hg
    rcases best_cases env.ct x files with ⟨n1, _⟩ | ⟨b1, _⟩
    · exact .inl ⟨n1, fun f hf => n1 f (hp.mem_iff.2 hf)⟩
    · rcases best_cases env.ct x files' with ⟨n2, _⟩ | ⟨b2, _⟩
      · exact absurd (fun f hf => n2 f (hp.mem_iff.1 hf)) (Worlds.best_not_none b1)
      · obtain ⟨t1, t2, t3⟩ := top b1
        obtain ⟨s1, s2, s3⟩ := top b2
        have e1 := t3 _ (hp.mem_iff.2 s1)
        have e2 := s3 _ (hp.mem_iff.1 t1)
        have := h3 _ t1 _ (hp.mem_iff.2 s1) t2 (by omega)
        rw [← this] at b2
        exact .inr ⟨_, b1, b2, by rw [hf]⟩
  exact C83_get_dictionary env env' hm l m (key l (by simp)) (fun _ => key (bare l) (by simp))

/-- C83.  Whole sessions: replace the world of every call by one with the same listings, in which every file that serves some
language best opens in the same way.  Then every call has the same outcome and the same messages come up: files that serve no language
best are never looked at. -/
theorem C83_sessions (m : Manager) (s : List (Env × Call)) (w : Env → Env) (h : ∀ x ∈ s, Agree x.1 (w x.1)) :
    session m (s.map (fun x => (w x.1, x.2))) = session m s := by
  induction s generalizing m with
  | nil => rfl
  | cons x t ih =>
    obtain ⟨env, c⟩ := x
    have hx := h (env, c) List.mem_cons_self
    have e : c.outcome (w env) m = c.outcome env m := by
      unfold Call.outcome
      rw [Worlds.run_agree hx]
    simp only [List.map_cons, session, e]
    cases c.outcome env m with
    | none => rfl
    | some y => simp only [ih _ (fun x hx => h x (List.mem_cons_of_mem _ hx))]

/-! Concrete worlds -/

/-- The small world, with a French file more, another README, and the files of `hi` listed in another order. -/
def otherOs : OS where
  listing p := if p = b!"hi" then some [b!"de.po", b!"fr.po", b!"de_at.po", b!"xx.po", b!"README"] else demoOs.listing p
  content f := if f = b!"hi/README" then some b!"msgid" else if f = b!"hi/fr.po" then some b!"msgid \"dog\"\nmsgstr \"chien\"\n" else demoOs.content f

/-- The world with these files. -/
def otherEnv : Env := { demoEnv with fs := unixFileSystem otherOs }

theorem otherEnv_at : ∀ dir ∈ [b!"hi", b!"lo"], SameFor demoEnv otherEnv atLang dir := by
  intro dir hd
  simp only [List.mem_cons, List.not_mem_nil, or_false] at hd
  rcases hd with rfl | rfl
  · exact .inr ⟨b!"de_at.po", ⟨[b!"README", b!"xx.po"], [b!"de.po"], by decide +kernel⟩, ⟨[b!"de.po", b!"fr.po"], [b!"xx.po", b!"README"], by decide +kernel⟩, rfl⟩
  · exact .inr ⟨b!"de.po", ⟨[], [], by decide +kernel⟩, ⟨[], [], by decide +kernel⟩, rfl⟩

theorem otherEnv_de : ∀ dir ∈ [b!"hi", b!"lo"], SameFor demoEnv otherEnv (bare atLang) dir := by
  intro dir hd
  simp only [List.mem_cons, List.not_mem_nil, or_false] at hd
  rcases hd with rfl | rfl
  · exact .inr ⟨b!"de.po", ⟨[b!"README", b!"xx.po", b!"de_at.po"], [], by decide +kernel⟩, ⟨[], [b!"fr.po", b!"de_at.po", b!"xx.po", b!"README"], by decide +kernel⟩, rfl⟩
  · exact .inr ⟨b!"de.po", ⟨[], [], by decide +kernel⟩, ⟨[], [], by decide +kernel⟩, rfl⟩

-- so Austrian German is the same in both worlds, and it is not nothing: a dictionary is returned
example : let m := newManager ⟨[b!"hi", b!"lo"], b!"UTF-8", true⟩
    ((Call.getDictionaryFor atLang).outcome demoEnv m).map (fun x => (x.1, unlogged x.2))
      = ((Call.getDictionaryFor atLang).outcome otherEnv m).map (fun x => (x.1, unlogged x.2)) ∧
    ((Call.getDictionaryFor atLang).outcome demoEnv m).any (fun x => decide (x.1 = .returned (.dict 1))) = true ∧
    demoOs.listing b!"hi" ≠ otherOs.listing b!"hi" :=
  ⟨C83_get_dictionary demoEnv otherEnv ⟨rfl, rfl, rfl, rfl⟩ atLang (newManager ⟨[b!"hi", b!"lo"], b!"UTF-8", true⟩) otherEnv_at (fun _ => otherEnv_de),
    by decide +kernel, by decide +kernel⟩

-- the hypotheses of `C83_listing_order` and `C83_other_files`
example : let files := [b!"README", b!"xx.po", b!"de_at.po", b!"de.po"]
    let files' := [b!"de.po", b!"de_at.po", b!"xx.po", b!"README"]
    files.Perm files' ∧ (∀ x ∈ [atLang, bare atLang], ∀ f ∈ files, ∀ g ∈ files, 0 < fileScore .c x f → fileScore .c x f = fileScore .c x g → f = g) ∧
    fileScore .c atLang b!"de_at.po" ≠ 0 ∧
    ∀ x ∈ [atLang, bare atLang], files.filter (fun f => 0 < fileScore .c x f) = ([b!"fr.po", b!"de_at.po", b!"de.po"] : List Str).filter (fun f => 0 < fileScore .c x f) := by
  refine ⟨?_, ?_, ?_, ?_⟩ <;> decide +kernel

/-- The small world with another README. -/
def readmeOs : OS := { demoOs with content := fun f => if f = b!"hi/README" then some b!"hello" else demoOs.content f }

/-- No language at all is served by the README. -/
theorem readme_agree : Agree demoEnv { demoEnv with fs := unixFileSystem readmeOs } := by
  refine ⟨⟨rfl, rfl, rfl, rfl⟩, fun dir => rfl, ?_⟩
  intro dir files l f hd ⟨b, a, he, hf, _⟩
  have hne : dir ++ b!"/" ++ f ≠ b!"hi/README" := by
    intro h
    have hp : b!".po" <:+ f := by
      unfold fileScore at hf
      split at hf
      · assumption
      · omega
    have : b!".po" <:+ b!"hi/README" := by
      rw [← h]
      exact hp.trans (List.suffix_append _ _)
    revert this
    decide +kernel
  show (unixFileSystem demoOs).openFile _ = (unixFileSystem readmeOs).openFile _
  unfold unixFileSystem readmeOs
  dsimp only
  rw [if_neg hne]

end Tgt
