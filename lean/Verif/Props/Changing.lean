import Verif.Proofs.Changing
/-
Files that change while they are loaded (C88).
-/
namespace Tgt
open Spec Manager Mgr POParser

namespace Chg

theorem atMoment_eq {α : Type} (t : Nat) (r : Res Manager α) : atMoment t r = r.mapS (fun m => (m, t)) := by cases r <;> rfl

theorem atMoment_bind {α β : Type} (t : Nat) (p : M α) (f : α → β) (m : Manager) (q : Changing.W α) (t0 : Nat) (h : q (m, t0) = atMoment t (p m)) :
    Prog.bind q (fun a => Prog.pure (f a)) (m, t0) = atMoment t (Prog.bind p (fun a => Prog.pure (f a)) m) := by
  rw [bind_apply, bind_apply, h]
  cases p m <;> rfl

theorem lift_at {α : Type} (p : M α) (m : Manager) (t : Nat) : Changing.lift p (m, t) = atMoment t (p m) := by
  rw [lift_eq, atMoment_eq]

theorem getFor_one (env : Env) (fs : Nat → FileSys) (hp : PlainNames fs) (n : Nat) (l : Language) (m : Manager) (t : Nat) (h : Inv m)
    (h1 : l.getCountry = [] ∨ m.dictionaries.get? l ≠ none ∨ m.dictionaries.get? (baseOf l) ≠ none) :
    ∃ g t', MadeOf fs t t' g ∧ Changing.getDictionaryFor env fs n l (m, t) = atMoment t' (getDictionaryFor (Spec.Env.still env g) n l m) := by
  have hself := MadeOf.self fs t t (Nat.le_refl _)
  cases n with
  | zero => exact ⟨fs t, t, hself, rfl⟩
  | succ f =>
    cases hl : l.isDefined with
    | false =>
      refine ⟨fs t, t, hself, ?_⟩
      rw [Changing.getDictionaryFor, if_pos (by simp [hl]), getDictionaryFor, if_pos (by simp [hl])]
      rfl
    | true =>
      cases hn : m.dictionaries.get? l with
      | some p =>
        refine ⟨fs t, t, hself, ?_⟩
        rw [getFor_hit env fs f l m t hl hn, Mgr.getFor_hit _ f l m hl hn]
        rfl
      | none =>
        obtain ⟨g, t1, hm, he⟩ := getFor_still env fs hp f l m t h hl hn
        refine ⟨g, t1, hm, ?_⟩
        rw [he, Mgr.getFor_miss _ f l m hl hn]
        cases dirs1 (Spec.Env.still env g) l m.searchPath.reverse (Dictionary.init m.charset, m.log) with
        | ok a x =>
          dsimp only [Res.mapS]
          by_cases hc : l.getCountry = []
          · rw [if_pos hc, if_pos hc]; rfl
          · rw [if_neg hc, if_neg hc]
            have hb : ∃ q, m.dictionaries.get? (baseOf l) = some q := by
              rcases h1 with h1 | h1 | h1
              · exact absurd h1 hc
              · exact absurd hn h1
              · cases hq : m.dictionaries.get? (baseOf l) with
                | none => exact absurd hq h1
                | some q => exact ⟨q, rfl⟩
            obtain ⟨q, hq⟩ := hb
            have hq1 : (put (fresh l m) m.nextId x).dictionaries.get? (baseOf l) = some q := (fresh_grow hn).keeps _ _ hq
            cases f with
            | zero => rfl
            | succ f =>
              rw [getFor_hit env fs f _ _ t1 (base_defined hl).1 hq1, Mgr.getFor_hit _ f _ _ (base_defined hl).1 hq1]
              dsimp only
              cases (Manager.addFallback m.nextId q >>= fun _ => Prog.pure m.nextId) (put (fresh l m) m.nextId x) <;> rfl
        | _ => rfl

theorem collect_still (env : Env) (fs : Nat → FileSys) (dirs : List Str) (hn : dirs.Nodup) : ∀ (acc : List Language) (m : Manager) (t : Nat),
    ∃ g t', MadeOf fs t t' g ∧ Changing.collectDirs fs dirs acc (m, t) = atMoment t' (collectDirs (Spec.Env.still env g) dirs acc m) := by
  induction dirs with
  | nil => intro acc m t; exact ⟨fs t, t, .self fs t t (Nat.le_refl _), rfl⟩
  | cons dir rest ih =>
    intro acc m t
    have hn' := List.nodup_cons.1 hn
    cases ho : (fs t).openDirectory dir with
    | error w =>
      refine ⟨fs t, t + 1, .self fs t _ (Nat.le_succ _), ?_⟩
      unfold Changing.collectDirs collectDirs
      rw [bind_apply, listing_eq]
      show _ = atMoment _ ((match (fs t).openDirectory dir with
        | .error w => Prog.throwExn w
        | .ok files => collectDirs (Spec.Env.still env (fs t)) rest (collectFiles files acc)) m)
      dsimp only
      rw [ho]
      rfl
    | ok files =>
      obtain ⟨g, t', hm, he⟩ := ih hn'.2 (collectFiles files acc) m (t + 1)
      have hle := hm.le
      refine ⟨mix dir (fs t) g g, t', ?_, ?_⟩
      · constructor
        · intro p
          by_cases e : p = dir
          · exact ⟨t, Nat.le_refl _, by omega, if_pos e⟩
          · obtain ⟨w, h1, h2, h3⟩ := hm.1 p
            exact ⟨w, by omega, h2, (if_neg e).trans h3⟩
        · intro p
          obtain ⟨w, h1, h2, h3⟩ := hm.2 p
          refine ⟨w, by omega, h2, ?_⟩
          rw [← h3]
          unfold mix
          dsimp only
          split <;> rfl
      · have hc : ∀ (ds : List Str), dir ∉ ds → ∀ acc m, collectDirs (Spec.Env.still env (mix dir (fs t) g g)) ds acc m = collectDirs (Spec.Env.still env g) ds acc m := by
          intro ds
          induction ds with
          | nil => intro _ acc m; rfl
          | cons d ds ihd =>
            intro hd acc m
            have hne : d ≠ dir := fun e => hd (by rw [e]; simp)
            have ho' : (Spec.Env.still env (mix dir (fs t) g g)).fs.openDirectory d = (Spec.Env.still env g).fs.openDirectory d := if_neg hne
            unfold collectDirs
            rw [ho']
            cases (Spec.Env.still env g).fs.openDirectory d with
            | error w => rfl
            | ok files => exact ihd (fun h => hd (List.mem_cons_of_mem _ h)) _ _
        have ho' : (Spec.Env.still env (mix dir (fs t) g g)).fs.openDirectory dir = .ok files := (if_pos rfl).trans ho
        unfold Changing.collectDirs
        rw [collectDirs, ho']
        dsimp only
        rw [hc rest hn'.1, bind_apply, listing_eq, ho]
        exact he

theorem getFor_steady (env : Env) (n : Nat) : ∀ (l : Language) (m : Manager) (t : Nat), Inv m →
    ∃ t', Changing.getDictionaryFor env (fun _ => env.fs) n l (m, t) = atMoment t' (getDictionaryFor env n l m) := by
  have hd : ∀ (l : Language) (dirs : List Str) (x : DL) (t : Nat), ∃ t', dirsC env (fun _ => env.fs) l dirs (x, t) = (dirs1 env l dirs x).mapS (fun y => (y, t')) := by
    intro l dirs
    induction dirs with
    | nil => intro x t; exact ⟨t, rfl⟩
    | cons dir rest ih =>
      intro x t
      unfold dirsC dirs1
      dsimp only
      cases ho : env.fs.openDirectory dir with
      | error w => exact ⟨t + 1, rfl⟩
      | ok files =>
        dsimp only
        rw [bind_apply]
        have hst : Spec.Env.still env env.fs = env := rfl
        rw [hst]
        cases files1 env l dir files x with
        | ok a y => exact ih y _
        | poError y => exact ⟨t + cost env.ct l files, rfl⟩
        | exn w y => exact ⟨t + cost env.ct l files, rfl⟩
        | fault y => exact ⟨t + cost env.ct l files, rfl⟩
        | diverge => exact ⟨t + cost env.ct l files, rfl⟩
  induction n with
  | zero => intro l m t _; exact ⟨t, rfl⟩
  | succ n ih =>
    intro l m t h
    cases hl : l.isDefined with
    | false =>
      refine ⟨t, ?_⟩
      rw [Changing.getDictionaryFor, if_pos (by simp [hl]), getDictionaryFor, if_pos (by simp [hl])]
      rfl
    | true =>
      cases hn : m.dictionaries.get? l with
      | some p =>
        refine ⟨t, ?_⟩
        rw [getFor_hit env _ n l m t hl hn, Mgr.getFor_hit _ n l m hl hn]
        rfl
      | none =>
        obtain ⟨t1, he⟩ := hd l m.searchPath.reverse (Dictionary.init m.charset, m.log) t
        rw [getFor_miss env _ n l m t hl hn, Mgr.getFor_miss _ n l m hl hn, he]
        have hs := sane_dirs1 env l m.searchPath.reverse (Dictionary.init m.charset, m.log)
        cases hx : dirs1 env l m.searchPath.reverse (Dictionary.init m.charset, m.log) with
        | ok a x =>
          rw [hx] at hs
          dsimp only [Res.mapS]
          by_cases hc : l.getCountry = []
          · rw [if_pos hc, if_pos hc]; exact ⟨t1, rfl⟩
          · rw [if_neg hc, if_neg hc]
            obtain ⟨t2, hb⟩ := ih (baseOf l) _ t1 ((h.fresh hl hn).put (fresh_heap m l) hs.1)
            rw [hb]
            refine ⟨t2, ?_⟩
            cases getDictionaryFor env n (baseOf l) (put (fresh l m) m.nextId x) with
            | ok fb m2 => dsimp only [atMoment]; cases (Manager.addFallback m.nextId fb >>= fun _ => Prog.pure m.nextId) m2 <;> rfl
            | _ => rfl
        | _ => exact ⟨t1, rfl⟩

end Chg
open Chg

/-- C88.  However the file system changes while a call runs: unless the call loads two dictionaries, it does exactly what it does in some world
that does not change, in which every directory and every file is as it was at some moment of the call.  (Directories list plain file names.) -/
theorem C88_still_world (cs : Str) (m : Manager) (hr : ReachIn cs m) (env : Env) (fs : Nat → FileSys) (hp : PlainNames fs) (t : Nat) (c : Call)
    (h1 : c.LoadsOne m) :
    ∃ g t', MadeOf fs t t' g ∧ c.runIn env fs (m, t) = atMoment t' (c.run (Spec.Env.still env g) m) := by
  have h := reachIn_inv hr
  have hself := MadeOf.self fs t t (Nat.le_refl _)
  cases c with
  | getDictionary =>
    unfold Call.runIn Call.run
    cases hcur : m.currentDict with
    | some p =>
      refine ⟨fs t, t, hself, ?_⟩
      unfold Changing.getDictionary Manager.getDictionary
      simp only [prog_bind, bind_apply, Prog.get, hcur]
      rfl
    | none =>
      by_cases hl : m.currentLanguage.isDefined = true
      · obtain ⟨g, t', hm, he⟩ := getFor_one env fs hp env.fuel m.currentLanguage m t h h1
        refine ⟨g, t', hm, ?_⟩
        refine atMoment_bind t' _ _ m _ t ?_
        unfold Changing.getDictionary Manager.getDictionary
        simp only [prog_bind, bind_apply, Prog.get, hcur]
        rw [if_pos hl, if_pos hl, bind_apply, bind_apply, he]
        have hfu : (Spec.Env.still env g).fuel = env.fuel := rfl
        rw [hfu]
        cases Manager.getDictionaryFor (Spec.Env.still env g) env.fuel m.currentLanguage m <;> rfl
      · refine ⟨fs t, t, hself, ?_⟩
        unfold Changing.getDictionary Manager.getDictionary
        simp only [prog_bind, bind_apply, Prog.get, hcur]
        rw [if_neg hl, if_neg hl]
        rfl
  | getDictionaryFor l =>
    obtain ⟨g, t', hm, he⟩ := getFor_one env fs hp env.fuel l m t h h1
    exact ⟨g, t', hm, atMoment_bind t' _ _ m _ t he⟩
  | getLanguages =>
    obtain ⟨g, t', hm, he⟩ := collect_still env fs m.searchPath h.path [] m t
    exact ⟨g, t', hm, atMoment_bind t' _ _ m _ t he⟩
  | getLanguage => exact ⟨fs t, t, hself, lift_at (Call.run env .getLanguage) m t⟩
  | getUseFuzzy => exact ⟨fs t, t, hself, lift_at (Call.run env .getUseFuzzy) m t⟩
  | _ => exact ⟨fs t, t, hself, lift_at (Call.run env _) m t⟩

/-- C88.  When `get_dictionary(L)` for a country creates a dictionary, and perhaps its fallback, each of the two has the contents of a world
that does not change; the second world is made of later answers than the first. -/
theorem C88_two_loads (cs : Str) (m m' : Manager) (hr : ReachIn cs m) (env : Env) (fs : Nat → FileSys) (hp : PlainNames fs) (t t' n : Nat) (l : Language)
    (p : DictId) (hg : Changing.getDictionaryFor env fs n l (m, t) = .ok p (m', t')) (hnew : m.heap.get? p = none) :
    ∃ g t1, MadeOf fs t t1 g ∧ t1 ≤ t' ∧ ∃ d, m'.heap.get? p = some d ∧
      PathLoads (Spec.Env.still env g) l m.searchPath (Dictionary.init m.charset) (unlinked d) ∧
      (l.getCountry ≠ [] → ∃ q e, d.fallback = some q ∧ m'.heap.get? q = some e ∧ (m.heap.get? q = none →
        ∃ g', MadeOf fs t1 t' g' ∧ PathLoads (Spec.Env.still env g') (bare l) m.searchPath (Dictionary.init m.charset) (unlinked e))) := by
  have h := reachIn_inv hr
  cases n with
  | zero => cases hg
  | succ f =>
    have hl : l.isDefined = true := by
      cases hd : l.isDefined with
      | true => rfl
      | false => rw [Changing.getDictionaryFor, if_pos (by simp [hd])] at hg; cases hg
    have hn : m.dictionaries.get? l = none := by
      cases hc : m.dictionaries.get? l with
      | none => rfl
      | some q =>
        obtain ⟨_, _, d, hd, _⟩ := h.cached l q hc
        rw [getFor_hit env fs f l m t hl hc] at hg
        cases hg
        rw [hd] at hnew; cases hnew
    obtain ⟨g, t1, hm, he⟩ := getFor_still env fs hp f l m t h hl hn
    rw [he] at hg
    have hs := sane_dirs1 (Spec.Env.still env g) l m.searchPath.reverse (Dictionary.init m.charset, m.log)
    cases hx : dirs1 (Spec.Env.still env g) l m.searchPath.reverse (Dictionary.init m.charset, m.log) with
    | ok a x =>
      rw [hx] at hg hs
      dsimp only [Res.mapS] at hg
      have hl1 : Like (Dictionary.init m.charset) x.1 := hs.1
      have hpl := (path1_ok hx).2
      have hh : (put (fresh l m) m.nextId x).heap.get? m.nextId = some x.1 := AMap.get?_set_self _ _ _
      refine ⟨g, t1, hm, ?_⟩
      by_cases hc : l.getCountry = []
      · rw [if_pos hc] at hg
        cases hg
        exact ⟨Nat.le_refl _, x.1, hh, by rw [unlinked_like hl1]; exact hpl, fun h => absurd hc h⟩
      · rw [if_neg hc] at hg
        have hI : Inv (put (fresh l m) m.nextId x) := (h.fresh hl hn).put (fresh_heap m l) hl1
        have hb := getFor_post env fs f (baseOf l) _ t1 (base_defined hl).1 hI
        cases hr2 : Changing.getDictionaryFor env fs f (baseOf l) (put (fresh l m) m.nextId x, t1) with
        | ok fb mt =>
          obtain ⟨m2, t2⟩ := mt
          rw [hr2] at hb hg
          obtain ⟨i2, g2, c2, l2, b2, f2⟩ := hb
          have hd2 : m2.heap.get? m.nextId = some x.1 := by
            rw [f2 m.nextId (Nat.lt_succ_self _)]; exact hh
          dsimp only at hg
          rw [prog_bind, bind_apply] at hg
          unfold Manager.addFallback at hg
          rw [hd2] at hg
          dsimp only [Prog.pure, Res.mapS] at hg
          cases hg
          obtain ⟨_, _, e, hfe, _⟩ := i2.cached _ _ b2
          have hfb : m.nextId ≠ fb := by
            intro e'
            subst e'
            have := i2.inj _ _ _ b2 (g2.keeps _ _ (fresh_get m l))
            exact base_ne hl hc this.symm
          have hfe' : (m2.heap.set m.nextId (x.1.addFallback (some fb))).get? fb = some e := by
            rw [AMap.get?_set_ne _ _ hfb]; exact hfe
          -- the second load
          cases f with
          | zero => cases hr2
          | succ f =>
            cases hn2 : (put (fresh l m) m.nextId x).dictionaries.get? (baseOf l) with
            | some q =>
              rw [getFor_hit env fs f _ _ t1 (base_defined hl).1 hn2] at hr2
              cases hr2
              refine ⟨Nat.le_refl _, _, AMap.get?_set_self _ _ _, ?_, fun _ => ⟨fb, e, rfl, hfe', ?_⟩⟩
              · show PathLoads _ _ _ _ (unlinked x.1)
                rw [unlinked_like hl1]; exact hpl
              · intro hq
                have hqm : m.dictionaries.get? (baseOf l) = some fb := by
                  have : (m.dictionaries.set l m.nextId).get? (baseOf l) = some fb := hn2
                  rwa [AMap.get?_set_ne _ _ (base_ne hl hc)] at this
                obtain ⟨_, _, e0, he0, _⟩ := h.cached _ _ hqm
                rw [hq] at he0; cases he0
            | none =>
              obtain ⟨g', t2', hm', he'⟩ := getFor_still env fs hp f (baseOf l) _ t1 hI (base_defined hl).1 hn2
              rw [he'] at hr2
              have hs2 := sane_dirs1 (Spec.Env.still env g') (baseOf l) m.searchPath.reverse (Dictionary.init m.charset, x.2)
              have hpath : (put (fresh l m) m.nextId x).searchPath = m.searchPath := rfl
              have hcs : (put (fresh l m) m.nextId x).charset = m.charset := rfl
              have hlog : (put (fresh l m) m.nextId x).log = x.2 := rfl
              rw [hpath, hcs, hlog] at hr2
              cases hx2 : dirs1 (Spec.Env.still env g') (baseOf l) m.searchPath.reverse (Dictionary.init m.charset, x.2) with
              | ok b y =>
                rw [hx2] at hr2 hs2
                dsimp only [Res.mapS] at hr2
                rw [if_pos (base_defined hl).2] at hr2
                cases hr2
                have hl2 : Like (Dictionary.init m.charset) y.1 := hs2.1
                refine ⟨hm'.le, _, AMap.get?_set_self _ _ _, ?_, fun _ => ⟨_, e, rfl, hfe', ?_⟩⟩
                · show PathLoads _ _ _ _ (unlinked x.1)
                  rw [unlinked_like hl1]; exact hpl
                · intro _
                  refine ⟨g', hm', ?_⟩
                  have hy : (put (fresh (baseOf l) (put (fresh l m) m.nextId x)) (put (fresh l m) m.nextId x).nextId y).heap.get? (put (fresh l m) m.nextId x).nextId = some y.1 :=
                    AMap.get?_set_self _ _ _
                  rw [hy] at hfe
                  cases hfe
                  rw [unlinked_like hl2]
                  exact (path1_ok hx2).2
              | _ => rw [hx2] at hr2; cases hr2
        | _ => rw [hr2] at hg; cases hg
    | _ => rw [hx] at hg; cases hg

/-- C88.  If the file system does not change, these are the calls of the other properties. -/
theorem C88_steady (cs : Str) (m : Manager) (hr : ReachIn cs m) (env : Env) (t : Nat) (c : Call) :
    ∃ t', c.runIn env (fun _ => env.fs) (m, t) = atMoment t' (c.run env m) := by
  have h := reachIn_inv hr
  cases c with
  | getDictionary =>
    unfold Call.runIn Call.run
    cases hcur : m.currentDict with
    | some p =>
      refine ⟨t, ?_⟩
      unfold Changing.getDictionary Manager.getDictionary
      simp only [prog_bind, bind_apply, Prog.get, hcur]
      rfl
    | none =>
      by_cases hl : m.currentLanguage.isDefined = true
      · obtain ⟨t', he⟩ := getFor_steady env env.fuel m.currentLanguage m t h
        refine ⟨t', atMoment_bind t' _ _ m _ t ?_⟩
        unfold Changing.getDictionary Manager.getDictionary
        simp only [prog_bind, bind_apply, Prog.get, hcur]
        rw [if_pos hl, if_pos hl, bind_apply, bind_apply, he]
        cases Manager.getDictionaryFor env env.fuel m.currentLanguage m <;> rfl
      · refine ⟨t, ?_⟩
        unfold Changing.getDictionary Manager.getDictionary
        simp only [prog_bind, bind_apply, Prog.get, hcur]
        rw [if_neg hl, if_neg hl]
        rfl
  | getDictionaryFor l =>
    obtain ⟨t', he⟩ := getFor_steady env env.fuel l m t h
    exact ⟨t', atMoment_bind t' _ _ m _ t he⟩
  | getLanguages =>
    have : ∀ (dirs : List Str) (acc : List Language) (m : Manager) (t : Nat), ∃ t',
        Changing.collectDirs (fun _ => env.fs) dirs acc (m, t) = atMoment t' (collectDirs env dirs acc m) := by
      intro dirs
      induction dirs with
      | nil => intro acc m t; exact ⟨t, rfl⟩
      | cons dir rest ih =>
        intro acc m t
        unfold Changing.collectDirs collectDirs
        rw [bind_apply, listing_eq]
        dsimp only
        cases env.fs.openDirectory dir with
        | error w => exact ⟨t + 1, rfl⟩
        | ok files => exact ih _ _ _
    obtain ⟨t', he⟩ := this m.searchPath [] m t
    exact ⟨t', atMoment_bind t' _ _ m _ t he⟩
  | getLanguage => exact ⟨t, lift_at (Call.run env .getLanguage) m t⟩
  | getUseFuzzy => exact ⟨t, lift_at (Call.run env .getUseFuzzy) m t⟩
  | _ => exact ⟨t, lift_at (Call.run env _) m t⟩

/-- C88.  After any history of calls during which the file system changed: the current dictionary, every cached dictionary, the fallback of every
existing dictionary and the empty dictionary exist. -/
theorem C88_live (cs : Str) (m : Manager) (hr : ReachIn cs m) :
    m.heap.get? emptyDict ≠ none ∧
    (∀ p, m.currentDict = some p → m.heap.get? p ≠ none) ∧
    (∀ l p, m.dictionaries.get? l = some p → m.heap.get? p ≠ none) ∧
    (∀ p d, m.heap.get? p = some d → d.hasFallback = true → ∃ q, d.fallback = some q ∧ m.heap.get? q ≠ none) := by
  have h := reachIn_inv hr
  refine ⟨?_, ?_, ?_, ?_⟩
  · obtain ⟨d, hd, _⟩ := h.empty
    show m.heap.get? 0 ≠ none
    rw [hd]; simp
  · intro p hp
    obtain ⟨_, _, d, hd, _⟩ := h.cached _ p (h.cur p hp).2
    rw [hd]; simp
  · intro l p hp
    obtain ⟨_, _, d, hd, _⟩ := h.cached l p hp
    rw [hd]; simp
  · intro p d hd hf
    obtain ⟨_, q, d', _, _, h1, _, h2, _⟩ := h.fallback hd hf
    exact ⟨q, h1, by rw [h2]; simp⟩

/-- C88.  And no call crashes, except through a dead reference, for the undefined language or by the overflow of the line counter of a file
(with a converter that behaves). -/
theorem C88_no_crash (cs : Str) (m : Manager) (hr : ReachIn cs m) (env : Env) (hl : TameLib env.lib) (fs : Nat → FileSys) (t : Nat) (c : Call)
    (hd : c ≠ .getDictionaryFor none) (hc : ∀ id, c.target? = some id → m.heap.get? id ≠ none) (f : Fault) (h : c.runIn env fs (m, t) = .fault f) :
    f = .signedOverflow := by
  have hp := Chg.call_post env fs c t (reachIn_inv hr)
  rw [h] at hp
  rcases hp with hp | ⟨_, hp⟩ | ⟨_, id, h1, h2⟩
  · rcases hp with hp | ⟨_, hp⟩
    · exact hp
    · exact absurd hl hp
  · exact absurd hp hd
  · exact absurd h2 (hc id h1)

/-! ### A directory that disappears -/

/-- The directory `hi` of the small world is removed after two accesses. -/
def vanishing (t : Nat) : FileSys :=
  if t < 2 then unixFileSystem demoOs else unixFileSystem { demoOs with listing := fun p => if p = b!"hi" then none else demoOs.listing p }

theorem vanishing_plain : PlainNames vanishing := by
  have h0 : ∀ dir files, demoOs.listing dir = some files → ∀ f ∈ files, (47 : Byte) ∉ f := by
    intro dir files h
    unfold demoOs at h
    dsimp only at h
    split at h
    · cases h; decide +kernel
    · split at h
      · cases h; decide +kernel
      · cases h
  intro t dir files h
  unfold vanishing at h
  split at h
  · unfold unixFileSystem at h
    dsimp only at h
    split at h
    · rename_i l hl; cases h; exact h0 dir _ hl
    · cases h
  · unfold unixFileSystem at h
    dsimp only at h
    split at h
    · rename_i l hl
      split at hl
      · cases hl
      · cases h; exact h0 dir _ hl
    · cases h

namespace Chg
theorem files1_no_exn (env : Env) (l : Language) (dir : Str) (files : List Str) (x y : DL) (w : Str) : files1 env l dir files x ≠ .exn w y := by
  unfold files1
  split
  · simp
  · unfold file1
    split
    · simp
    · simp
    · unfold parse1
      split <;> simp
end Chg

/-- C88.  With two loads the call need not be that of one world that does not change: if the directory disappears between the loads, the dictionary of
the country has its translations although the call throws. -/
theorem C88_two_worlds : ∃ (fs : Nat → FileSys) (m : Manager) (c : Call), PlainNames fs ∧ ReachIn b!"UTF-8" m ∧
    ∀ g t', c.runIn demoEnv fs (m, 0) ≠ atMoment t' (c.run (Spec.Env.still demoEnv g) m) := by
  have hm : ∃ m, (Call.addDirectory b!"hi" false).runIn demoEnv vanishing (Manager.init b!"UTF-8", 0) = .ok .done (m, 0) ∧
      m = { Manager.init b!"UTF-8" with searchPath := [b!"hi"] } := ⟨_, by rfl, rfl⟩
  obtain ⟨m, h1, h2⟩ := hm
  refine ⟨vanishing, m, .getDictionaryFor atLang, vanishing_plain, .ok .new h1, ?_⟩
  intro g t' he
  have hrun : ∃ w m', (Call.getDictionaryFor atLang).runIn demoEnv vanishing (m, 0) = .exn w (m', 3) ∧
      ((m'.heap.get? 1).map (fun d => d.entries.length)) = some 1 := by
    subst h2
    have hk : (match (Call.getDictionaryFor atLang).runIn demoEnv vanishing ({ Manager.init b!"UTF-8" with searchPath := [b!"hi"] }, 0) with
        | .exn _ x => decide (x.2 = 3 ∧ ((x.1.heap.get? 1).map (fun d => d.entries.length)) = some 1)
        | _ => false) = true := by decide +kernel
    cases hr : (Call.getDictionaryFor atLang).runIn demoEnv vanishing ({ Manager.init b!"UTF-8" with searchPath := [b!"hi"] }, 0) with
    | exn w x =>
      rw [hr] at hk
      obtain ⟨x, t⟩ := x
      simp only [decide_eq_true_eq] at hk
      obtain ⟨rfl, hk⟩ := hk
      exact ⟨w, x, rfl, hk⟩
    | _ => rw [hr] at hk; cases hk
  obtain ⟨w, m', hr, hl⟩ := hrun
  rw [hr] at he
  have hx : ∃ w', getDictionaryFor (Spec.Env.still demoEnv g) 300 atLang m = .exn w' m' := by
    have hc : (Call.getDictionaryFor atLang).run (Spec.Env.still demoEnv g) m
        = Prog.bind (getDictionaryFor (Spec.Env.still demoEnv g) 300 atLang) (fun p => Prog.pure (.dict p)) m := rfl
    rw [hc, bind_apply] at he
    cases hq : getDictionaryFor (Spec.Env.still demoEnv g) 300 atLang m with
    | exn w' m1 =>
      rw [hq] at he
      simp only [atMoment, Res.exn.injEq, Prod.mk.injEq] at he
      exact ⟨w', by rw [he.2.1]⟩
    | _ => rw [hq] at he; cases he
  obtain ⟨w', hx⟩ := hx
  have hdef : atLang.isDefined = true := by decide +kernel
  have hpath : m.searchPath.reverse = [b!"hi"] := by rw [h2]; rfl
  have hempty : m.dictionaries = [] := by rw [h2]; rfl
  have hnext : m.nextId = 1 := by rw [h2]; rfl
  rw [Mgr.getFor_miss _ 299 atLang m hdef (by rw [hempty]; rfl), hpath] at hx
  have hone : ∀ l x, dirs1 (Spec.Env.still demoEnv g) l [b!"hi"] x = match g.openDirectory b!"hi" with
      | .error w => .exn w x
      | .ok files => files1 (Spec.Env.still demoEnv g) l b!"hi" files x := by
    intro l x
    unfold dirs1
    show (match g.openDirectory b!"hi" with
      | .error w => Prog.throwExn w
      | .ok files => Prog.bind (files1 (Spec.Env.still demoEnv g) l b!"hi" files) (fun _ => dirs1 (Spec.Env.still demoEnv g) l [])) x = _
    cases g.openDirectory b!"hi" with
    | error w => rfl
    | ok files =>
      dsimp only
      rw [bind_apply]
      cases files1 (Spec.Env.still demoEnv g) l b!"hi" files x <;> rfl
  rw [hone] at hx
  cases ho : g.openDirectory b!"hi" with
  | error e =>
    rw [ho] at hx
    dsimp only [Res.mapS] at hx
    simp only [Res.exn.injEq] at hx
    rw [← hx.2, ← hnext] at hl
    have : (put (fresh atLang m) m.nextId (Dictionary.init m.charset, m.log)).heap.get? m.nextId = some (Dictionary.init m.charset) := AMap.get?_set_self _ _ _
    rw [this] at hl
    simp [Dictionary.init, hnext] at hl
  | ok files =>
    rw [ho] at hx
    dsimp only at hx
    cases hf : files1 (Spec.Env.still demoEnv g) atLang b!"hi" files (Dictionary.init m.charset, m.log) with
    | exn w x => exact files1_no_exn _ _ _ _ _ _ _ hf
    | ok a x =>
      rw [hf] at hx
      dsimp only [Res.mapS] at hx
      rw [if_neg (by decide +kernel)] at hx
      have hb : (put (fresh atLang m) m.nextId x).dictionaries.get? (baseOf atLang) = none := by
        show (m.dictionaries.set atLang m.nextId).get? (baseOf atLang) = none
        rw [AMap.get?_set_ne _ _ (by decide +kernel), hempty]
        rfl
      rw [Mgr.getFor_miss _ 298 (baseOf atLang) _ (by decide +kernel) hb] at hx
      have hp2 : (put (fresh atLang m) m.nextId x).searchPath.reverse = [b!"hi"] := hpath
      rw [hp2, hone, ho] at hx
      dsimp only at hx
      cases hf2 : files1 (Spec.Env.still demoEnv g) (baseOf atLang) b!"hi" files
          (Dictionary.init (put (fresh atLang m) m.nextId x).charset, (put (fresh atLang m) m.nextId x).log) with
      | exn w x => exact files1_no_exn _ _ _ _ _ _ _ hf2
      | ok b y =>
        rw [hf2] at hx
        dsimp only [Res.mapS] at hx
        rw [if_pos (by decide +kernel)] at hx
        dsimp only at hx
        rw [prog_bind, bind_apply] at hx
        have hA : ∀ (mm : Manager) (a b : DictId), (∃ m1, Manager.addFallback a b mm = .ok () m1) ∨ Manager.addFallback a b mm = .fault .useAfterFree := by
          intro mm a b
          unfold Manager.addFallback
          cases mm.heap.get? a with
          | none => exact .inr rfl
          | some d => exact .inl ⟨_, rfl⟩
        rcases hA (put (fresh (baseOf atLang) (put (fresh atLang m) m.nextId x)) (put (fresh atLang m) m.nextId x).nextId y) m.nextId
            (put (fresh atLang m) m.nextId x).nextId with ⟨m1, h⟩ | h
        · rw [h] at hx; cases hx
        · rw [h] at hx; cases hx
      | _ => rw [hf2] at hx; cases hx
    | _ => rw [hf] at hx; cases hx

-- the world changes and yet loading German goes through: the listing of `hi` and its file were read before it disappeared
example : (match (Call.getDictionaryFor deLang).runIn demoEnv vanishing ({ Manager.init b!"UTF-8" with searchPath := [b!"hi"] }, 0) with
    | .ok (.dict p) x => decide (p = 1 ∧ x.2 = 2 ∧ ((x.1.heap.get? 1).map (fun d => d.entries.length)) = some 2)
    | _ => false) = true ∧
    ((vanishing 0).openDirectory b!"hi").toOption ≠ ((vanishing 2).openDirectory b!"hi").toOption := by
  decide +kernel

/-- The German file of `hi` is rewritten after two accesses. -/
def edited (t : Nat) : FileSys :=
  if t < 2 then unixFileSystem demoOs
  else unixFileSystem { demoOs with content := fun f => if f = b!"hi/de.po" then some b!"msgid \"dog\"\nmsgstr \"Hunderl\"\n" else demoOs.content f }

-- two loads: Austrian German as it was at first, German as it is later
example : (match Changing.getDictionaryFor demoEnv edited 300 atLang ({ Manager.init b!"UTF-8" with searchPath := [b!"hi"] }, 0) with
    | .ok p x => decide (p = 1 ∧ x.2 = 4 ∧ ((x.1.heap.get? 1).map (fun d => (stored d none b!"potato", d.fallback))) = some (some [b!"Erdapfel"], some 2) ∧
        ((x.1.heap.get? 2).map (fun d => (stored d none b!"dog"))) = some (some [b!"Hunderl"]))
    | _ => false) = true := by
  decide +kernel

end Tgt
