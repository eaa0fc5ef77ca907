import Verif.Proofs.Starved
/-
All calls when memory may run out.
-/
namespace Tgt.Starved
open Spec Manager Mgr POParser

/-- What is true after a call that came back. -/
structure AfterS (env : Env) (m : Manager) (c : Call) (m' : Manager) : Prop where
  inv : Inv m'
  quiet : c.configures = false → Grow m m' ∧ ∀ q, q < m.nextId → c.changes? ≠ some q → m'.heap.get? q = m.heap.get? q
  empty : c.changes? ≠ some 0 → m'.heap.get? 0 = m.heap.get? 0
  news : News env m m'
  conf : config m' = config m ∨ config m' = c.configure (config m)
  gone : c.Changes m → m'.dictionaries = [] ∧ m'.currentDict = none
  old : ∀ q, q < m.nextId → c.changes? ≠ some q → m'.heap.get? q = m.heap.get? q ∨ m'.heap.get? q = Option.none

theorem News.none {env : Env} {m m' : Manager} (h : Inv m') (hn : m'.nextId = m.nextId) : News env m m' := by
  intro q d hq hd
  rw [h.heap_lt q (by rw [hn]; exact hq)] at hd
  cases hd

theorem afterS_quiet {env : Env} {m m' : Manager} {c : Call} (h0 : Inv m) (h : Inv m') (hg : Grow m m') (hf : Frame m m') (hn : News env m m')
    (_hc : ∀ k, c.configure k = k) (hch : ¬ c.Changes m) : AfterS env m c m' := by
  refine ⟨h, fun _ => ⟨hg, fun q hq _ => hf q hq⟩, fun _ => hf 0 h0.next_pos, hn, .inl ?_, fun h => absurd h hch, fun q hq _ => .inl (hf q hq)⟩
  unfold config
  rw [hg.path, hg.charset, hg.fuzzy]

theorem afterS_same {env : Env} {m : Manager} {c : Call} (h : Inv m) (hch : ¬ c.Changes m) : AfterS env m c m :=
  ⟨h, fun _ => ⟨.refl m, fun _ _ _ => rfl⟩, fun _ => rfl, .none h rfl, .inl rfl, fun h => absurd h hch, fun _ _ _ => .inl rfl⟩

theorem afterS_conf {env : Env} {m m' m'' : Manager} {c : Call} (hc : c.configures = true) (hcl : Cleared m m') (h : Inv m'') (hh : m''.heap = m'.heap)
    (hd : m''.dictionaries = m'.dictionaries) (hcu : m''.currentDict = m'.currentDict) (hn : m''.nextId = m'.nextId)
    (hk : config m'' = config m ∨ config m'' = c.configure (config m)) : AfterS env m c m'' := by
  refine ⟨h, (fun h' => by rw [hc] at h'; cases h'), fun _ => ?_, .none h (hn.trans hcl.next), hk, fun _ => ⟨hd.trans hcl.dicts, hcu.trans hcl.cur⟩, fun q _ _ => ?_⟩
  · rw [hh, hcl.heap, if_pos rfl]
  · rw [hh, hcl.heap]
    by_cases e : q = 0
    · subst e; exact .inl (if_pos rfl)
    · exact .inr (if_neg e)

/-- The results of a call. -/
abbrev NearCall (sh : Shortage) (env : Env) (c : Call) (m : Manager) (n : Nat) (r : Out Store Answer) : Prop :=
  NearGet sh env.lib m n (c.run env m) (AfterS env m c) (fun _ m' => config m' = c.configure (config m)) r

theorem run_get (env : Env) (m : Manager) (hc : m.currentDict = none) (hl : m.currentLanguage.isDefined = true) :
    (∀ p m', Manager.getDictionaryFor env env.fuel m.currentLanguage m = .ok p m' →
      Call.run env .getDictionary m = .ok (.dict p) { m' with currentDict := some p }) ∧
    (∀ w m', Manager.getDictionaryFor env env.fuel m.currentLanguage m = .exn w m' → Call.run env .getDictionary m = .exn w m') ∧
    (∀ f, Manager.getDictionaryFor env env.fuel m.currentLanguage m = .fault f → Call.run env .getDictionary m = .fault f) ∧
    (Manager.getDictionaryFor env env.fuel m.currentLanguage m = .diverge → Call.run env .getDictionary m = .diverge) := by
  have : Call.run env .getDictionary m = Prog.bind (Prog.bind (Manager.getDictionaryFor env env.fuel m.currentLanguage)
      fun p => Prog.bind (Prog.modify fun m => { m with currentDict := some p }) fun _ => Prog.pure p) (fun p => Prog.pure (Answer.dict p)) m := by
    unfold Call.run Manager.getDictionary
    simp only [prog_bind, bind_apply, Prog.get, hc, hl, if_true]
  rw [this]
  refine ⟨fun p m' h => ?_, fun w m' h => ?_, fun f h => ?_, fun h => ?_⟩ <;> simp only [bind_apply, h] <;> rfl

theorem getDictionary_near (sh : Shortage) (env : Env) (m : Manager) (n t : Nat) (h : Inv m) :
    NearCall sh env .getDictionary m n ((Call.getDictionary).starved sh env ⟨m, n⟩ t) := by
  have hno : ¬ Call.Changes m .getDictionary := id
  unfold NearCall
  cases hc : m.currentDict with
  | some p =>
    have hs : (Call.getDictionary).starved sh env ⟨m, n⟩ t = .ok (.dict p) ⟨m, n⟩ t := by
      unfold Call.starved getDictionary bind
      simp only [hc]
      rfl
    rw [hs]
    refine .ok (l := []) (afterS_same h hno) rfl (List.append_nil _).symm (fun _ => .inl ?_)
    unfold Call.run Manager.getDictionary
    simp only [prog_bind, bind_apply, Prog.get, hc]
    rfl
  | none =>
    by_cases hl : m.currentLanguage.isDefined = true
    · have hs : (Call.getDictionary).starved sh env ⟨m, n⟩ t = bind (bind (getDictionaryFor sh env env.fuel m.currentLanguage) fun p =>
          bind (modify fun s => { s with m := { s.m with currentDict := some p } }) fun _ => pure p) (fun p => pure (.dict p)) ⟨m, n⟩ t := by
        unfold Call.starved getDictionary
        show bind (fun s t => _) _ _ _ = _
        unfold bind
        simp only [hc, hl, if_true]
      rw [hs]
      have hg := run_get env m hc hl
      have hn := getFor_near sh env env.fuel m.currentLanguage m n t hl h
      generalize hr : getDictionaryFor sh env env.fuel m.currentLanguage ⟨m, n⟩ t = r at hn
      cases hn with
      | @ok p m' t' l k g e c =>
        have hb : bind (getDictionaryFor sh env env.fuel m.currentLanguage) (fun p =>
            bind (modify fun s => { s with m := { s.m with currentDict := some p } }) fun _ => pure p) ⟨m, n⟩ t
            = .ok p ⟨{ m' with currentDict := some p }, n⟩ t' := bind_ok hr
        rw [bind_ok hb]
        have hi : Inv { m' with currentDict := some p } := by
          have h1 := k.inv
          refine ⟨h1.path, h1.keysD, h1.inj, h1.cached, h1.empty, h1.heapK, h1.live, h1.freedN, h1.freedIff, ?_⟩
          intro q hq
          have hq : some p = some q := hq
          cases hq
          show m'.currentLanguage.isDefined = true ∧ m'.dictionaries.get? m'.currentLanguage = some p
          rw [k.lang]
          exact ⟨hl, g⟩
        have hgr : Grow m { m' with currentDict := some p } := by
          have h2 := k.grow
          exact ⟨h2.path, h2.charset, h2.fuzzy, h2.freed, h2.next, h2.keeps, h2.log⟩
        refine .ok (l := l) (afterS_quiet h hi hgr k.frame k.news (fun _ => rfl) hno) ?_ e (fun hC => ?_)
        · show config m' = config m
          unfold config
          rw [k.grow.path, k.grow.charset, k.grow.fuzzy]
        · rcases c hC with h1 | h1
          · exact .inl (hg.1 _ _ h1)
          · exact .inr (hg.2.2.2 h1)
      | @thrown w m' n' t' l k e c =>
        rw [bind_thrown (bind_thrown hr)]
        refine .thrown (l := l) (afterS_quiet h k.inv k.grow k.frame k.news (fun _ => rfl) hno) e ?_
        rcases c with ⟨e1, c⟩ | c
        · refine .inl ⟨e1, fun hC => ?_⟩
          rcases c hC with h1 | h1
          · exact .inl (hg.2.1 _ _ h1)
          · exact .inr (hg.2.2.2 h1)
        · exact .inr c
      | terminated hF => rw [bind_terminated (bind_terminated hr)]; exact .terminated hF
      | twice hF => rw [bind_crashed (bind_crashed hr)]; exact .twice hF
      | crashed hf hE =>
        rw [bind_crashed (bind_crashed hr)]
        refine .crashed hf (fun he => ?_)
        rcases hE he with h1 | h1
        · exact .inl (hg.2.2.1 _ h1)
        · exact .inr (hg.2.2.2 h1)
      | unfinished hE =>
        rw [bind_unfinished (bind_unfinished hr)]
        exact .unfinished (fun he => hg.2.2.2 (hE he))
    · have hs : (Call.getDictionary).starved sh env ⟨m, n⟩ t = .ok (.dict emptyDict) ⟨m, n⟩ t := by
        unfold Call.starved getDictionary
        show bind (fun s t => _) _ _ _ = _
        unfold bind
        simp only [hc, if_neg hl]
        rfl
      rw [hs]
      refine .ok (l := []) (afterS_same h hno) rfl (List.append_nil _).symm (fun _ => .inl ?_)
      unfold Call.run Manager.getDictionary
      simp only [prog_bind, bind_apply, Prog.get, hc, if_neg hl]
      rfl

theorem run_getFor (env : Env) (l : Language) (m : Manager) :
    (∀ p m', Manager.getDictionaryFor env env.fuel l m = .ok p m' → Call.run env (.getDictionaryFor l) m = .ok (.dict p) m') ∧
    (∀ w m', Manager.getDictionaryFor env env.fuel l m = .exn w m' → Call.run env (.getDictionaryFor l) m = .exn w m') ∧
    (∀ f, Manager.getDictionaryFor env env.fuel l m = .fault f → Call.run env (.getDictionaryFor l) m = .fault f) ∧
    (Manager.getDictionaryFor env env.fuel l m = .diverge → Call.run env (.getDictionaryFor l) m = .diverge) := by
  have : Call.run env (.getDictionaryFor l) m = Prog.bind (Manager.getDictionaryFor env env.fuel l) (fun p => Prog.pure (Answer.dict p)) m := rfl
  rw [this]
  refine ⟨fun p m' h => ?_, fun w m' h => ?_, fun f h => ?_, fun h => ?_⟩ <;> simp only [bind_apply, h] <;> rfl

theorem getDictionaryFor_near (sh : Shortage) (env : Env) (L : Language) (hL : L.isDefined = true) (m : Manager) (n t : Nat) (h : Inv m) :
    NearCall sh env (.getDictionaryFor L) m n ((Call.getDictionaryFor L).starved sh env ⟨m, n⟩ t) := by
  have hno : ¬ Call.Changes m (.getDictionaryFor L) := id
  unfold NearCall
  have hg := run_getFor env L m
  have hn := getFor_near sh env env.fuel L m n t hL h
  have hs : (Call.getDictionaryFor L).starved sh env ⟨m, n⟩ t = bind (getDictionaryFor sh env env.fuel L) (fun p => pure (.dict p)) ⟨m, n⟩ t := rfl
  rw [hs]
  generalize hr : getDictionaryFor sh env env.fuel L ⟨m, n⟩ t = r at hn
  cases hn with
  | @ok p m' t' l k g e c =>
    rw [bind_ok hr]
    refine .ok (l := l) (afterS_quiet h k.inv k.grow k.frame k.news (fun _ => rfl) hno) ?_ e (fun hC => ?_)
    · show config m' = config m
      unfold config
      rw [k.grow.path, k.grow.charset, k.grow.fuzzy]
    · rcases c hC with h1 | h1
      · exact .inl (hg.1 _ _ h1)
      · exact .inr (hg.2.2.2 h1)
  | @thrown w m' n' t' l k e c =>
    rw [bind_thrown hr]
    refine .thrown (l := l) (afterS_quiet h k.inv k.grow k.frame k.news (fun _ => rfl) hno) e ?_
    rcases c with ⟨e1, c⟩ | c
    · refine .inl ⟨e1, fun hC => ?_⟩
      rcases c hC with h1 | h1
      · exact .inl (hg.2.1 _ _ h1)
      · exact .inr (hg.2.2.2 h1)
    · exact .inr c
  | terminated hF => rw [bind_terminated hr]; exact .terminated hF
  | twice hF => rw [bind_crashed hr]; exact .twice hF
  | crashed hf hE =>
    rw [bind_crashed hr]
    refine .crashed hf (fun he => ?_)
    rcases hE he with h1 | h1
    · exact .inl (hg.2.2.1 _ h1)
    · exact .inr (hg.2.2.2 h1)
  | unfinished hE =>
    rw [bind_unfinished hr]
    exact .unfinished (fun he => hg.2.2.2 (hE he))

/-! ### `get_languages` -/

theorem collectFiles_cases (sh : Shortage) (files : List Str) : ∀ (acc : List Language) (s : Store) (t : Nat),
    (∃ t', collectFiles sh files acc s t = .thrown badAlloc s t' ∧ Shortage.Fails sh) ∨
    ∃ t', collectFiles sh files acc s t = .ok (Manager.collectFiles files acc) s t' := by
  induction files with
  | nil => intro acc s t; exact .inr ⟨t, rfl⟩
  | cons f rest ih =>
    intro acc s t
    rw [collectFiles, Manager.collectFiles]
    split
    · rcases alloc_cases sh s t with ⟨h, hF⟩ | h
      · exact .inl ⟨_, bind_thrown h, hF⟩
      · rw [bind_ok h]; exact ih _ s _
    · exact ih _ s t

theorem collectDirs_cases (sh : Shortage) (env : Env) (dirs : List Str) : ∀ (acc : List Language) (m : Manager) (n t : Nat),
    (∃ t', collectDirs sh env dirs acc ⟨m, n⟩ t = .thrown badAlloc ⟨m, n⟩ t' ∧ Shortage.Fails sh) ∨
    (∃ l t', collectDirs sh env dirs acc ⟨m, n⟩ t = .ok l ⟨m, n⟩ t' ∧ Manager.collectDirs env dirs acc m = .ok l m) ∨
    (∃ w t', collectDirs sh env dirs acc ⟨m, n⟩ t = .thrown w ⟨m, n⟩ t' ∧ Manager.collectDirs env dirs acc m = .exn w m) := by
  induction dirs with
  | nil => intro acc m n t; exact .inr (.inl ⟨acc, t, rfl, rfl⟩)
  | cons d rest ih =>
    intro acc m n t
    rw [collectDirs, Manager.collectDirs]
    rcases alloc_cases sh (⟨m, n⟩ : Store) t with ⟨h, hF⟩ | h
    · exact .inl ⟨_, bind_thrown h, hF⟩
    · rw [bind_ok h]
      cases env.fs.openDirectory d with
      | error w => exact .inr (.inr ⟨w, t + 1, rfl, rfl⟩)
      | ok files =>
        dsimp only
        rcases collectFiles_cases sh files acc ⟨m, n⟩ (t + 1) with ⟨t', h', hF⟩ | ⟨t', h'⟩
        · exact .inl ⟨_, bind_thrown h', hF⟩
        · rw [bind_ok h']; exact ih _ _ _ _

theorem getLanguages_near (sh : Shortage) (env : Env) (m : Manager) (n t : Nat) (h : Inv m) :
    NearCall sh env .getLanguages m n ((Call.getLanguages).starved sh env ⟨m, n⟩ t) := by
  have hno : ¬ Call.Changes m .getLanguages := id
  unfold NearCall
  have hs : (Call.getLanguages).starved sh env ⟨m, n⟩ t = bind (getLanguages sh env) (fun l => pure (.languages l)) ⟨m, n⟩ t := rfl
  have hu : Call.run env .getLanguages m = Prog.bind (Manager.collectDirs env m.searchPath []) (fun l => Prog.pure (.languages l)) m := rfl
  have hg : getLanguages sh env ⟨m, n⟩ t = collectDirs sh env m.searchPath [] ⟨m, n⟩ t := rfl
  rw [hs, hu]
  rcases collectDirs_cases sh env m.searchPath [] m n t with ⟨t', h1, hF⟩ | ⟨l, t', h1, h2⟩ | ⟨w, t', h1, h2⟩
  · rw [bind_thrown (hg.trans h1)]
    exact .thrown (l := []) (afterS_same h hno) (List.append_nil _).symm (.inr ⟨rfl, hF, Nat.le_refl _, by omega⟩)
  · rw [bind_ok (hg.trans h1)]
    refine .ok (l := []) (afterS_same h hno) rfl (List.append_nil _).symm (fun _ => .inl ?_)
    rw [bind_apply, h2]
    rfl
  · rw [bind_thrown (hg.trans h1)]
    refine .thrown (l := []) (afterS_same h hno) (List.append_nil _).symm (.inl ⟨rfl, fun _ => .inl ?_⟩)
    rw [bind_apply, h2]

/-! ### The other calls -/

theorem setCharset_near (sh : Shortage) (env : Env) (cs : Str) (m : Manager) (n t : Nat) (h : Inv m) :
    NearCall sh env (.setCharset cs) m n ((Call.setCharset cs).starved sh env ⟨m, n⟩ t) := by
  unfold NearCall
  obtain ⟨m1, h1, h2, h3⟩ := clearCache_ok h
  have hl : lift clearCache ⟨m, n⟩ t = .ok () ⟨m1, n⟩ t := by unfold lift; dsimp only; rw [h1]
  have hs : (Call.setCharset cs).starved sh env ⟨m, n⟩ t = bind (setCharset sh cs) (fun _ => pure .done) ⟨m, n⟩ t := rfl
  have hu : Call.run env (.setCharset cs) m = .ok .done { m1 with charset := cs } := by
    unfold Call.run Manager.setCharset
    simp only [prog_bind, bind_apply, h1, Prog.modify]
    rfl
  have hlog : m1.log = m.log ++ [] := by rw [List.append_nil]; exact h3.log
  rw [hs, hu]
  rcases alloc_cases sh (⟨m1, n⟩ : Store) t with ⟨ha, hF⟩ | ha
  · have : setCharset sh cs ⟨m, n⟩ t = .thrown badAlloc ⟨m1, n⟩ (t + 1) := by
      unfold setCharset
      rw [bind_ok hl, bind_thrown ha]
    rw [bind_thrown this]
    refine .thrown (l := []) (afterS_conf rfl h3 h2 rfl rfl rfl rfl (.inl ?_)) hlog (.inr ⟨rfl, hF, Nat.le_refl _, by omega⟩)
    simp [config, h3.path, h3.charset, h3.fuzzy]
  · have : setCharset sh cs ⟨m, n⟩ t = .ok () ⟨{ m1 with charset := cs }, n⟩ (t + 1) := by
      unfold setCharset
      rw [bind_ok hl, bind_ok ha]
      rfl
    rw [bind_ok this]
    have hk : config { m1 with charset := cs } = (Call.setCharset cs).configure (config m) := by simp [config, Call.configure, h3.path, h3.fuzzy]
    exact .ok (l := []) (afterS_conf rfl h3 (h2.config h3.dicts h3.cur m1.searchPath h2.path cs m1.useFuzzy) rfl rfl rfl rfl (.inr hk)) hk hlog (fun _ => .inl rfl)

theorem addDirectory_near (sh : Shortage) (env : Env) (p : Str) (b : Bool) (m : Manager) (n t : Nat) (h : Inv m) :
    NearCall sh env (.addDirectory p b) m n ((Call.addDirectory p b).starved sh env ⟨m, n⟩ t) := by
  unfold NearCall
  have hs : (Call.addDirectory p b).starved sh env ⟨m, n⟩ t = bind (addDirectory sh p b) (fun _ => pure .done) ⟨m, n⟩ t := rfl
  have hu : Call.run env (.addDirectory p b) m = Prog.bind (Manager.addDirectory p b) (fun _ => Prog.pure .done) m := rfl
  rw [hs, hu]
  by_cases hp : p ∈ m.searchPath
  · have : addDirectory sh p b ⟨m, n⟩ t = .ok () ⟨m, n⟩ t := by unfold addDirectory; simp only [hp, if_true]
    rw [bind_ok this]
    have hno : ¬ Call.Changes m (.addDirectory p b) := fun h => h hp
    refine .ok (l := []) (afterS_same h hno) ?_ (List.append_nil _).symm (fun _ => .inl ?_)
    · cases b <;> simp [Call.configure, config, hp]
    · rw [bind_apply, addDirectory_known hp]; rfl
  · obtain ⟨m1, h1, h2, h3⟩ := clearCache_ok h
    have hl : lift clearCache ⟨m, n⟩ t = .ok () ⟨m1, n⟩ t := by unfold lift; dsimp only; rw [h1]
    have hlog : m1.log = m.log ++ [] := by rw [List.append_nil]; exact h3.log
    rcases alloc_cases sh (⟨m1, n⟩ : Store) t with ⟨ha, hF⟩ | ha
    · have : addDirectory sh p b ⟨m, n⟩ t = .thrown badAlloc ⟨m1, n⟩ (t + 1) := by
        unfold addDirectory
        simp only [hp, if_false]
        rw [bind_ok hl, bind_thrown ha]
      rw [bind_thrown this]
      refine .thrown (l := []) (afterS_conf rfl h3 h2 rfl rfl rfl rfl (.inl ?_)) hlog (.inr ⟨rfl, hF, Nat.le_refl _, by omega⟩)
      simp [config, h3.path, h3.charset, h3.fuzzy]
    · have hq : (if b then p :: m1.searchPath else m1.searchPath ++ [p]) = addPath p b m.searchPath := by rw [h3.path]; rfl
      have : addDirectory sh p b ⟨m, n⟩ t = .ok () ⟨{ m1 with searchPath := addPath p b m.searchPath }, n⟩ (t + 1) := by
        unfold addDirectory
        simp only [hp, if_false]
        rw [bind_ok hl, bind_ok ha, ← hq]
        rfl
      rw [bind_ok this]
      have hn : (addPath p b m.searchPath).Nodup := by
        obtain ⟨m2, _, _, h5⟩ := addDirectory_ok h hp b
        exact h5.path
      have hk : config { m1 with searchPath := addPath p b m.searchPath } = (Call.addDirectory p b).configure (config m) := by
        cases b <;> simp [config, Call.configure, h3.charset, h3.fuzzy, hp, addPath]
      refine .ok (l := []) (afterS_conf rfl h3 (h2.config h3.dicts h3.cur _ hn m1.charset m1.useFuzzy) rfl rfl rfl rfl (.inr hk)) hk hlog (fun _ => .inl ?_)
      have : Manager.addDirectory p b m = .ok () { m1 with searchPath := addPath p b m.searchPath } := by
        unfold Manager.addDirectory
        simp only [prog_bind, bind_apply, Prog.get, if_neg hp, h1, Prog.modify, h3.path]
        rfl
      rw [bind_apply, this]
      rfl

theorem add_near (sh : Shortage) (env : Env) (id : DictId) (a : Add) (m : Manager) (n t : Nat) (h : Inv m) {d : Dictionary} (hd : m.heap.get? id = some d) :
    NearCall sh env (.add id a) m n ((Call.add id a).starved sh env ⟨m, n⟩ t) := by
  unfold NearCall
  have hs : (Call.add id a).starved sh env ⟨m, n⟩ t = bind (add sh id a) (fun _ => pure .done) ⟨m, n⟩ t := rfl
  have hno : ¬ Call.Changes m (.add id a) := fun h => h
  rw [hs]
  have haft : ∀ (d' : Dictionary) (l : List Diag), Like d d' → AfterS env m (.add id a) (put m id (d', m.log ++ l)) := by
    intro d' l hlk
    have hg := put_grow m id (d', m.log ++ l) (List.prefix_append _ _)
    have hne : ∀ q, (Call.add id a).changes? ≠ some q → id ≠ q := fun q hq e => hq (by rw [← e]; rfl)
    refine ⟨h.put hd hlk, fun _ => ⟨hg, fun q _ hq => AMap.get?_set_ne _ _ (hne q hq)⟩, fun hq => AMap.get?_set_ne _ _ (hne 0 hq), .none (h.put hd hlk) rfl, .inl ?_, fun h => absurd h hno,
      fun q _ hq => .inl (AMap.get?_set_ne _ _ (hne q hq))⟩
    simp [config, hg.path, hg.charset, hg.fuzzy]
  rcases Mem.add_cases sh.fails a d m.log t with ⟨t', h1, _⟩ | ⟨d', log', t', h1, _, h2, h3, h4, k, _, hk⟩ | ⟨h1, _, k, hk⟩
  · have : add sh id a ⟨m, n⟩ t = .ok () ⟨put m id ((a.apply d).1, m.log ++ (a.apply d).2), n⟩ t' := by
      unfold add
      simp only [hd, h1]
      rfl
    rw [bind_ok this]
    refine .ok (haft _ _ (like_apply a d)) rfl rfl (fun _ => .inl ?_)
    unfold Call.run
    simp only [prog_bind, bind_apply, onDict, hd]
    rfl
  · obtain ⟨l, hl⟩ : ∃ l, log' = m.log ++ l := by
      rcases h4 with h4 | h4
      · exact ⟨[], by rw [h4, List.append_nil]⟩
      · exact ⟨_, h4⟩
    subst hl
    have : add sh id a ⟨m, n⟩ t = .thrown badAlloc ⟨put m id (d', m.log ++ l), n⟩ t' := by
      unfold add
      simp only [hd, h1]
      rfl
    rw [bind_thrown this]
    exact .thrown (haft _ _ (like_sameBut h2.but)) rfl (.inr ⟨rfl, ⟨k, hk⟩, Nat.le_refl _, by omega⟩)
  · have : add sh id a ⟨m, n⟩ t = .terminated := by
      unfold add
      simp only [hd, h1]
    rw [bind_terminated this]
    exact .terminated ⟨k, hk⟩

theorem says_cases (sh : Shortage) (ds : List Diag) : ∀ (m : Manager) (n t : Nat),
    (says sh ds ⟨m, n⟩ t = .terminated ∧ Shortage.Fails sh) ∨ ∃ t', says sh ds ⟨m, n⟩ t = .ok () ⟨logM m ds, n⟩ t' := by
  induction ds with
  | nil => intro m n t; exact .inr ⟨t, by rw [logM_nil]; rfl⟩
  | cons d ds ih =>
    intro m n t
    rw [says]
    rcases say_cases sh d m n t with ⟨h, hF⟩ | ⟨t1, h⟩
    · exact .inl ⟨bind_terminated h, hF⟩
    · rw [bind_ok h]
      rcases ih (logM m [d]) n t1 with h' | ⟨t', h'⟩
      · exact .inl h'
      · exact .inr ⟨t', by rw [h', logM_logM]; rfl⟩

theorem ask_near (sh : Shortage) (env : Env) (id : DictId) (q : Query) (m : Manager) (n t : Nat) (h : Inv m) {d : Dictionary} (hd : m.heap.get? id = some d) :
    NearCall sh env (.ask id q) m n ((Call.ask id q).starved sh env ⟨m, n⟩ t) := by
  unfold NearCall
  have hs : (Call.ask id q).starved sh env ⟨m, n⟩ t = bind (ask sh env.fuel id q) (fun s => pure (.text s)) ⟨m, n⟩ t := rfl
  have hu : Call.run env (.ask id q) m = Prog.bind (Manager.ask env.fuel id q) (fun s => Prog.pure (.text s)) m := rfl
  have hno : ¬ Call.Changes m (.ask id q) := fun h => h
  rw [hs, hu, bind_apply]
  rcases ask_ok h env.fuel hd q with ⟨r, lg, h1, l, rfl⟩ | ⟨h1, _⟩
  · have haft : AfterS env m (.ask id q) (logM m l) :=
      afterS_quiet h (h.log _) ⟨rfl, rfl, rfl, rfl, Nat.le_refl _, fun _ _ h => h, List.prefix_append _ _⟩ (fun _ _ => rfl)
        (.none (h.log _) rfl) (fun _ => rfl) hno
    have ha : ask sh env.fuel id q ⟨m, n⟩ t = bind (says sh l) (fun _ => bind (alloc sh) fun _ => pure r) ⟨m, n⟩ t := by
      unfold ask
      simp only [h1, List.drop_left]
    rw [h1]
    rcases says_cases sh l m n t with ⟨h2, hF⟩ | ⟨t1, h2⟩
    · rw [bind_terminated (ha.trans (bind_terminated h2))]; exact .terminated hF
    · rcases alloc_cases sh (⟨logM m l, n⟩ : Store) t1 with ⟨h3, hF⟩ | h3
      · rw [bind_thrown (ha.trans ((bind_ok h2).trans (bind_thrown h3)))]
        exact .thrown haft rfl (.inr ⟨rfl, hF, Nat.le_refl _, by omega⟩)
      · rw [bind_ok (ha.trans ((bind_ok h2).trans (bind_ok h3)))]
        exact .ok haft rfl rfl (fun _ => .inl rfl)
  · have ha : ask sh env.fuel id q ⟨m, n⟩ t = .unfinished := by
      unfold ask
      simp only [h1]
    rw [bind_unfinished ha, h1]
    exact .unfinished (fun _ => rfl)

/-- A call that does not allocate. -/
theorem lift_near (sh : Shortage) (env : Env) (c : Call) (m m' : Manager) (n t : Nat) (a : Answer) (l : List Diag) (hs : c.starved sh env = lift (c.run env))
    (hr : c.run env m = .ok a m') (haft : AfterS env m c m') (hc : config m' = c.configure (config m)) (hl : m'.log = m.log ++ l) :
    NearCall sh env c m n (c.starved sh env ⟨m, n⟩ t) := by
  unfold NearCall
  have : c.starved sh env ⟨m, n⟩ t = .ok a ⟨m', n⟩ t := by
    rw [hs]
    unfold lift
    dsimp only
    rw [hr]
  rw [this]
  exact .ok haft hc hl (fun _ => .inl hr)

/-- Every call. -/
theorem call_near (sh : Shortage) (env : Env) (c : Call) (m : Manager) (n t : Nat) (h : Inv m) (hu : c ≠ .getDictionaryFor none)
    (ht : ∀ id, c.target? = some id → m.heap.get? id ≠ none) : NearCall sh env c m n (c.starved sh env ⟨m, n⟩ t) := by
  have hlive : ∀ id, c.target? = some id → ∃ d, m.heap.get? id = some d := by
    intro id hid
    cases hd : m.heap.get? id with
    | none => exact absurd hd (ht id hid)
    | some d => exact ⟨d, rfl⟩
  cases c with
  | getDictionary => exact getDictionary_near sh env m n t h
  | getDictionaryFor l =>
    cases l with
    | none => exact absurd rfl hu
    | some i => exact getDictionaryFor_near sh env (some i) rfl m n t h
  | getLanguages => exact getLanguages_near sh env m n t h
  | setCharset cs => exact setCharset_near sh env cs m n t h
  | addDirectory p b => exact addDirectory_near sh env p b m n t h
  | add id a =>
    obtain ⟨d, hd⟩ := hlive id rfl
    exact add_near sh env id a m n t h hd
  | ask id q =>
    obtain ⟨d, hd⟩ := hlive id rfl
    exact ask_near sh env id q m n t h hd
  | getLanguage => exact lift_near sh env _ m m n t _ [] rfl rfl (afterS_same h id) rfl (List.append_nil _).symm
  | getUseFuzzy => exact lift_near sh env _ m m n t _ [] rfl rfl (afterS_same h id) rfl (List.append_nil _).symm
  | setLanguage l =>
    obtain ⟨m', hr, h1, h2, _, h3⟩ := setLanguage_inv h l
    have hrun : Call.run env (.setLanguage l) m = .ok .done m' := by
      unfold Call.run
      simp only [prog_bind, bind_apply, hr]
      rfl
    have hn : m'.nextId = m.nextId ∧ m'.log = m.log := by
      unfold Manager.setLanguage at hr
      split at hr <;> cases hr <;> exact ⟨rfl, rfl⟩
    refine lift_near sh env _ m m' n t _ [] rfl hrun (afterS_quiet h h1 h2 (fun q _ => by rw [h3]) (.none h1 hn.1) (fun _ => rfl) id) ?_ ?_
    · show config m' = config m
      simp [config, h2.path, h2.charset, h2.fuzzy]
    · rw [hn.2, List.append_nil]
  | setUseFuzzy b =>
    obtain ⟨m', hr, hc, h2⟩ := setUseFuzzy_ok h b
    have hrun : Call.run env (.setUseFuzzy b) m = .ok .done { m' with useFuzzy := b } := by
      unfold Call.run
      simp only [prog_bind, bind_apply, hr]
      rfl
    have hk : config { m' with useFuzzy := b } = (Call.setUseFuzzy b).configure (config m) := by simp [config, Call.configure, hc.path, hc.charset]
    exact lift_near sh env _ m _ n t _ [] rfl hrun (afterS_conf rfl hc h2 rfl rfl rfl rfl (.inr hk)) hk (by rw [List.append_nil]; exact hc.log)
  | removeDirectory p =>
    by_cases hp : p ∈ m.searchPath
    · obtain ⟨m', hr, hc, h2⟩ := removeDirectory_ok h hp
      have hrun : Call.run env (.removeDirectory p) m = .ok .done { m' with searchPath := m.searchPath.erase p } := by
        unfold Call.run
        simp only [prog_bind, bind_apply, hr]
        rfl
      have hk : config { m' with searchPath := m.searchPath.erase p } = (Call.removeDirectory p).configure (config m) := by
        simp only [config, Call.configure, hc.charset, hc.fuzzy, h.path.erase_eq_filter]
        congr 1
        apply List.filter_congr
        intro x _
        by_cases e : x = p <;> simp [e]
      exact lift_near sh env _ m _ n t _ [] rfl hrun (afterS_conf rfl hc h2 rfl rfl rfl rfl (.inr hk)) hk (by rw [List.append_nil]; exact hc.log)
    · have hrun : Call.run env (.removeDirectory p) m = .ok .done m := by
        unfold Call.run
        simp only [prog_bind, bind_apply, removeDirectory_unknown hp]
        rfl
      refine lift_near sh env _ m _ n t _ [] rfl hrun (afterS_same h hp) ?_ (List.append_nil _).symm
      simp only [Call.configure, config]
      congr 1
      symm
      apply List.filter_eq_self.2
      intro x hx
      simp
      rintro rfl
      exact hp hx
  | setPluralForms id p =>
    obtain ⟨d, hd⟩ := hlive id rfl
    have hno : ¬ Call.Changes m (.setPluralForms id p) := fun h => h
    have hrun : Call.run env (.setPluralForms id p) m = .ok .done (put m id (d.setPluralForms p, m.log ++ [])) := by
      unfold Call.run
      simp only [prog_bind, bind_apply, onDict, hd]
      rfl
    have hlk : Like d (d.setPluralForms p) := ⟨rfl, rfl, rfl⟩
    have hg := put_grow m id (d.setPluralForms p, m.log ++ []) (List.prefix_append _ _)
    have hne : ∀ q, (Call.setPluralForms id p).changes? ≠ some q → id ≠ q := fun q hq e => hq (by rw [← e]; rfl)
    refine lift_near sh env _ m _ n t _ [] rfl hrun ⟨h.put hd hlk, fun _ => ⟨hg, fun q _ hq => AMap.get?_set_ne _ _ (hne q hq)⟩,
      fun hq => AMap.get?_set_ne _ _ (hne 0 hq), .none (h.put hd hlk) rfl, .inl ?_, fun h => absurd h hno,
      fun q _ hq => .inl (AMap.get?_set_ne _ _ (hne q hq))⟩ ?_ rfl
    · rfl
    · rfl

/-- Misuse. -/
theorem call_misuse (sh : Shortage) (env : Env) (c : Call) (m : Manager) (n t : Nat) (h : c = .getDictionaryFor none ∨ ∃ id, c.target? = some id ∧ m.heap.get? id = none) :
    (∃ f, c.starved sh env ⟨m, n⟩ t = .crashed f ∧ c.run env m = .fault f) ∨ (c.starved sh env ⟨m, n⟩ t = .unfinished ∧ c.run env m = .diverge) := by
  rcases h with rfl | ⟨id, h1, h2⟩
  · have hs : (Call.getDictionaryFor none).starved sh env ⟨m, n⟩ t = bind (getDictionaryFor sh env env.fuel none) (fun p => pure (.dict p)) ⟨m, n⟩ t := rfl
    cases hf : env.fuel with
    | zero => exact .inr ⟨by rw [hs, hf]; rfl, by show Prog.bind (Manager.getDictionaryFor env env.fuel none) _ m = _; rw [hf]; rfl⟩
    | succ k => exact .inl ⟨.assertFailed, by rw [hs, hf]; rfl, by show Prog.bind (Manager.getDictionaryFor env env.fuel none) _ m = _; rw [hf]; rfl⟩
  · cases c with
    | add i a =>
      cases h1
      refine .inl ⟨.useAfterFree, ?_, by unfold Call.run; simp only [prog_bind, bind_apply, onDict, h2]⟩
      have : add sh id a ⟨m, n⟩ t = .crashed .useAfterFree := by unfold add; simp only [h2]
      exact bind_crashed this
    | ask i q =>
      cases h1
      have h3 : Manager.ask env.fuel id q m = .fault .useAfterFree := by unfold Manager.ask; simp only [h2]
      refine .inl ⟨.useAfterFree, ?_, by unfold Call.run; simp only [prog_bind, bind_apply, h3]⟩
      have : ask sh env.fuel id q ⟨m, n⟩ t = .crashed .useAfterFree := by unfold ask; simp only [h3]
      exact bind_crashed this
    | setPluralForms i q =>
      cases h1
      have h3 : Call.run env (.setPluralForms id q) m = .fault .useAfterFree := by
        unfold Call.run
        simp only [prog_bind, bind_apply, onDict, h2]
      refine .inl ⟨.useAfterFree, ?_, h3⟩
      show lift (Call.run env (.setPluralForms id q)) _ _ = _
      unfold lift
      dsimp only
      rw [h3]
    | _ => cases h1

/-- A call that came back was proper. -/
theorem came_back {sh : Shortage} {env : Env} {c : Call} {m : Manager} {n t : Nat} {s' : Store} (h : CameBack (c.starved sh env ⟨m, n⟩ t) s') :
    c ≠ .getDictionaryFor none ∧ ∀ id, c.target? = some id → m.heap.get? id ≠ none := by
  have key : ¬ (c = .getDictionaryFor none ∨ ∃ id, c.target? = some id ∧ m.heap.get? id = none) := by
    intro hm
    rcases call_misuse sh env c m n t hm with ⟨f, hx, _⟩ | ⟨hx, _⟩ <;> rcases h with ⟨a, t', h⟩ | ⟨w, t', h⟩ <;> rw [hx] at h <;> cases h
  exact ⟨fun e => key (.inl e), fun id h1 h2 => key (.inr ⟨id, h1, h2⟩)⟩

/-- What holds after a call that came back. -/
theorem came_back_after {sh : Shortage} {env : Env} {c : Call} {m : Manager} {n t : Nat} {s' : Store} (hi : Inv m) (h : CameBack (c.starved sh env ⟨m, n⟩ t) s') :
    AfterS env m c s'.m ∧ n ≤ s'.leaked ∧ s'.leaked ≤ n + 1 ∧ (n < s'.leaked → Shortage.Fails sh ∧ ∃ t', c.starved sh env ⟨m, n⟩ t = .thrown badAlloc s' t') := by
  obtain ⟨h1, h2⟩ := came_back h
  have hn := call_near sh env c m n t hi h1 h2
  unfold NearCall at hn
  rcases h with ⟨a, t', h⟩ | ⟨w, t', h⟩
  · rw [h] at hn
    cases hn with
    | ok k r e cl => exact ⟨k, Nat.le_refl _, Nat.le_succ _, fun h => absurd h (by simp)⟩
  · rw [h] at hn ⊢
    cases hn with
    | thrown k e cl =>
      rcases cl with ⟨e1, _⟩ | ⟨e1, e2, e3, e4⟩
      · subst e1; exact ⟨k, Nat.le_refl _, Nat.le_succ _, fun h => absurd h (by simp)⟩
      · subst e1; exact ⟨k, e3, e4, fun _ => ⟨e2, _, rfl⟩⟩

theorem reachStarved_inv {cs : Str} {s : Store} (h : ReachStarved cs s) : Inv s.m := by
  induction h with
  | new => exact inv_init cs
  | call _ hc ih => exact (came_back_after ih hc).1.inv

end Tgt.Starved
