import Verif.Proofs.NestedLoad
import Verif.Proofs.MgrCalls
import Verif.Spec.Nested
/-
Callbacks that only ask.
-/
namespace Tgt.Nested
open Spec Manager POParser Mgr

/-! ### What such code keeps -/

/-- The dictionary of a language is loaded completely. -/
def Full (env : Env) (m : Manager) (L : Language) (p : DictId) : Prop :=
  ∃ x d, dirs1 env L m.searchPath.reverse (Dictionary.init m.charset, []) = .ok () x ∧ m.heap.get? p = some d ∧ unlinked d = x.1 ∧
    (L.getCountry ≠ [] → d.hasFallback = true ∧ ∃ q, d.fallback = some q ∧ m.dictionaries.get? (baseOf L) = some q)

/-- All dictionaries added since are complete. -/
def News (env : Env) (m m' : Manager) : Prop := ∀ L p, m'.dictionaries.get? L = some p → m.dictionaries.get? L = none → Full env m' L p

structure Keeps (env : Env) (m m' : Manager) : Prop where
  inv : Inv m'
  grow : Grow m m'
  frame : Frame m m'
  lang : m'.currentLanguage = m.currentLanguage
  news : News env m m'

theorem Keeps.refl {env : Env} {m : Manager} (h : Inv m) : Keeps env m m :=
  ⟨h, .refl m, fun _ _ => rfl, rfl, fun L p h1 h2 => by rw [h1] at h2; cases h2⟩

theorem Full.keep {env : Env} {m m' : Manager} {L : Language} {p : DictId} (h : Full env m L p) (hi : Inv m) (hg : Grow m m') (hf : m'.heap.get? p = m.heap.get? p) :
    Full env m' L p := by
  obtain ⟨x, d, h1, h2, h3, h4⟩ := h
  refine ⟨x, d, by rw [hg.path, hg.charset]; exact h1, by rw [hf]; exact h2, h3, ?_⟩
  intro hc
  obtain ⟨h5, q, h6, h7⟩ := h4 hc
  exact ⟨h5, q, h6, hg.keeps _ _ h7⟩

theorem Full.lt {env : Env} {m : Manager} {L : Language} {p : DictId} (h : Full env m L p) (hi : Inv m) : p < m.nextId := by
  obtain ⟨x, d, h1, h2, h3, h4⟩ := h
  exact (hi.live p d h2).1

theorem Keeps.trans {env : Env} {a b c : Manager} (h : Keeps env a b) (h' : Keeps env b c) : Keeps env a c := by
  refine ⟨h'.inv, h.grow.trans h'.grow, ?_, h'.lang.trans h.lang, ?_⟩
  · intro q hq
    rw [h'.frame q (Nat.lt_of_lt_of_le hq h.grow.next), h.frame q hq]
  · intro L p h1 h2
    cases hb : b.dictionaries.get? L with
    | none => exact h'.news L p h1 hb
    | some p' =>
      have : p' = p := by have := h'.grow.keeps L p' hb; rw [h1] at this; cases this; rfl
      subst this
      have hF := h.news L p' hb h2
      exact hF.keep h.inv h'.grow (h'.frame p' (hF.lt h.inv))

theorem Keeps.path {env : Env} {m m' : Manager} (h : Keeps env m m') : m'.searchPath = m.searchPath := h.grow.path

/-- The log. -/
theorem keeps_log {env : Env} {m : Manager} (h : Inv m) (l : List Diag) : Keeps env m { m with log := m.log ++ l } :=
  ⟨h.log _, ⟨rfl, rfl, rfl, rfl, Nat.le_refl _, fun _ _ h => h, List.prefix_append _ _⟩, fun _ _ => rfl, rfl, fun L p h1 h2 => by
    have h1 : m.dictionaries.get? L = some p := h1
    rw [h1] at h2; cases h2⟩

/-- The endings of callbacks. -/
def askBad (env : Env) (path : List Str) : Bad := ⟨Unlistable env path, FaultOk env.lib, True⟩

/-- Logging statements whose callbacks only ask. -/
def Asking (env : Env) (path : List Str) (say : Say) : Prop := ∀ (d : Diag) (m : Manager), Mgr.Inv m → m.searchPath = path →
  Sat (fun _ m' => Keeps env m m') (fun _ _ => False) (Unlistable env path) (FaultOk env.lib) True (say d m)

/-! ### Loading -/

/-- While dictionary `id` of language `l` is loaded; `m1` is the state after it was created. -/
structure Loading (env : Env) (m1 : Manager) (l : Language) (id : DictId) (x : DL) (m : Manager) : Prop where
  inv : Inv m
  grow : Grow m1 m
  frame : ∀ q, q < m1.nextId → q ≠ id → m.heap.get? q = m1.heap.get? q
  lang : m.currentLanguage = m1.currentLanguage
  dict : m.heap.get? id = some x.1
  news : News env m1 m

theorem Loading.not_id {env : Env} {m1 m : Manager} {l : Language} {id : DictId} {x : DL} (h : Loading env m1 l id x m) (hid : m1.dictionaries.get? l = some id)
    {L : Language} {p : DictId} (h1 : m.dictionaries.get? L = some p) (h2 : m1.dictionaries.get? L = none) : p ≠ id := by
  intro e
  subst e
  have := h.inv.inj L l p h1 (h.grow.keeps _ _ hid)
  subst this
  rw [hid] at h2; cases h2

theorem Loading.keeps {env : Env} {m1 m m' : Manager} {l : Language} {id : DictId} {x : DL} (h : Loading env m1 l id x m) (hid : m1.dictionaries.get? l = some id)
    (hk : Keeps env m m') (y : List Diag) : Loading env m1 l id (x.1, y) m' := by
  have hlt : id < m.nextId := (h.inv.live id _ h.dict).1
  refine ⟨hk.inv, h.grow.trans hk.grow, ?_, hk.lang.trans h.lang, ?_, ?_⟩
  · intro q hq hne
    rw [hk.frame q (Nat.lt_of_lt_of_le hq h.grow.next), h.frame q hq hne]
  · rw [hk.frame id hlt]; exact h.dict
  · intro L p h1 h2
    cases hb : m.dictionaries.get? L with
    | none => exact hk.news L p h1 hb
    | some p' =>
      have : p' = p := by have := hk.grow.keeps L p' hb; rw [h1] at this; cases this; rfl
      subst this
      have hF := h.news L p' hb h2
      exact hF.keep h.inv hk.grow (hk.frame p' (hF.lt h.inv))

theorem Loading.write {env : Env} {m1 m : Manager} {l : Language} {id : DictId} {x : DL} (h : Loading env m1 l id x m) (hid : m1.dictionaries.get? l = some id)
    {y : Dictionary} (hl : Like x.1 y) : Loading env m1 l id (y, x.2) { m with heap := m.heap.set id y } := by
  have hi : Inv (put m id (y, m.log)) := h.inv.put h.dict hl
  have hg : Grow m (put m id (y, m.log)) := put_grow _ _ _ (List.prefix_refl _)
  refine ⟨hi, h.grow.trans hg, ?_, h.lang, AMap.get?_set_self _ _ _, ?_⟩
  · intro q hq hne
    show (m.heap.set id y).get? q = _
    rw [AMap.get?_set_ne _ _ (fun e => hne e.symm)]
    exact h.frame q hq hne
  · intro L p h1 h2
    have h1 : m.dictionaries.get? L = some p := h1
    have hne := h.not_id hid h1 h2
    refine (h.news L p h1 h2).keep h.inv hg ?_
    show (m.heap.set id y).get? p = _
    rw [AMap.get?_set_ne _ _ (fun e => hne e.symm)]

theorem loading_voice {env : Env} {path : List Str} {say : Say} (ha : Asking env path say) {m1 : Manager} (hp : m1.searchPath = path) {l : Language} {id : DictId}
    (hid : m1.dictionaries.get? l = some id) : Voice say id (Loading env m1 l id) (askBad env path) where
  dict := fun h => h.dict
  write := fun h hl => h.write hid hl
  say := fun {x m} d h => (ha d m h.inv (h.grow.path.trans hp)).mono (fun _ _ hk => h.keeps hid hk _) (fun _ _ h => h) (fun h => h) (fun _ h => h) (fun h => h)

theorem parse1_no_exn (env : Env) (pofile : Str) (s : Stream) (x : DL) (w : Str) (y : DL) : parse1 env pofile s x ≠ .exn w y := by
  unfold parse1
  cases run (cfgOf env pofile) s x.1 <;> simp

theorem files1_no_exn (env : Env) (l : Language) (dir : Str) (files : List Str) (x : DL) (w : Str) (y : DL) : files1 env l dir files x ≠ .exn w y := by
  unfold files1
  split
  · simp
  · unfold file1
    split
    · simp
    · simp
    · exact parse1_no_exn _ _ _ _ _ _

theorem dirs1_exn {env : Env} {l : Language} (dirs : List Str) : ∀ {x : DL} {w : Str} {y : DL}, dirs1 env l dirs x = .exn w y → Unlistable env dirs := by
  induction dirs with
  | nil => intro x w y h; cases h
  | cons dir rest ih =>
    intro x w y h
    unfold dirs1 at h
    cases ho : env.fs.openDirectory dir with
    | error w' => exact ⟨dir, by simp, w', ho⟩
    | ok files =>
      rw [ho] at h
      dsimp only at h
      rw [bind_apply] at h
      cases hf : files1 env l dir files x with
      | ok a z =>
        rw [hf] at h
        obtain ⟨d, h1, h2⟩ := ih h
        exact ⟨d, List.mem_cons_of_mem _ h1, h2⟩
      | exn w' z => exact absurd hf (files1_no_exn _ _ _ _ _ _ _)
      | _ => rw [hf] at h; cases h

theorem unlistable_reverse {env : Env} {path : List Str} (h : Unlistable env path.reverse) : Unlistable env path := by
  obtain ⟨d, h1, h2⟩ := h
  exact ⟨d, by simpa using h1, h2⟩

/-- The language passed is the same while the current language is. -/
def Steady (language : Manager → Language) : Prop := ∀ m m' : Manager, m'.currentLanguage = m.currentLanguage → language m' = language m

/-- After an exception. -/
structure Broken (m m' : Manager) : Prop where
  inv : Inv m'
  grow : Grow m m'
  frame : Frame m m'
  lang : m'.currentLanguage = m.currentLanguage

theorem Keeps.broken {env : Env} {m m' : Manager} (h : Keeps env m m') : Broken m m' := ⟨h.inv, h.grow, h.frame, h.lang⟩

theorem getFor_keeps {env : Env} {path : List Str} {say : Say} (ha : Asking env path say) (f : Nat) : ∀ {language : Manager → Language} {m : Manager}, Steady language →
    (language m).isDefined = true → Inv m → m.searchPath = path →
    Sat (fun p m' => Keeps env m m' ∧ m'.dictionaries.get? (language m) = some p) (fun _ m' => Broken m m' ∧ Unlistable env path) (Unlistable env path) (FaultOk env.lib) True
      (getDictionaryFor say env f language m) := by
  induction f with
  | zero => intro language m _ _ _ _; trivial
  | succ f ih =>
    intro language m hst hl hI hP
    unfold getDictionaryFor
    rw [if_neg (by simp [hl])]
    cases hn : m.dictionaries.get? (language m) with
    | some p => exact ⟨.refl hI, hn⟩
    | none =>
      dsimp only
      have hnew : lift (newDict (language m)) m = .ok m.nextId (fresh (language m) m) := rfl
      unfold Nested.bind
      rw [hnew]
      dsimp only
      have hid := fresh_get m (language m)
      have hF1 : Frame m (fresh (language m) m) := by
        intro q hq
        show (m.heap.set m.nextId (Dictionary.init m.charset)).get? q = _
        rw [AMap.get?_set_ne _ _ (by omega)]
      have hG1 := fresh_grow hn
      have h0 : Loading env (fresh (language m) m) (language m) m.nextId (Dictionary.init m.charset, []) (fresh (language m) m) :=
        ⟨hI.fresh hl hn, .refl _, fun _ _ _ => rfl, rfl, fresh_heap m _, fun L p h1 h2 => by rw [h1] at h2; cases h2⟩
      have hs := loadDirs_sim (loading_voice ha (m1 := fresh (language m) m) hP hid) env hl (language := language)
        (fun {x m'} h => hst m m' h.lang) (path := m.searchPath) (fun {x m'} h => h.grow.path) m.searchPath.reverse _ _ h0
      have sane := sane_dirs1 env (language m) m.searchPath.reverse (Dictionary.init m.charset, [])
      have brk : ∀ {x m'}, Loading env (fresh (language m) m) (language m) m.nextId x m' → Broken m m' := by
        intro x m' h
        refine ⟨h.inv, hG1.trans h.grow, ?_, h.lang⟩
        intro q hq
        rw [h.frame q (Nat.lt_succ_of_lt hq) (by omega), hF1 q hq]
      -- a finished load
      have done : ∀ {y : DL} {m2 : Manager} (d2 : Dictionary), dirs1 env (language m) m.searchPath.reverse (Dictionary.init m.charset, []) = .ok () y → Inv m2 →
          Grow (fresh (language m) m) m2 → (∀ q, q < (fresh (language m) m).nextId → q ≠ m.nextId → m2.heap.get? q = (fresh (language m) m).heap.get? q) →
          m2.currentLanguage = m.currentLanguage → News env (fresh (language m) m) m2 → m2.heap.get? m.nextId = some d2 → unlinked d2 = y.1 →
          ((language m).getCountry ≠ [] → d2.hasFallback = true ∧ ∃ q, d2.fallback = some q ∧ m2.dictionaries.get? (baseOf (language m)) = some q) → Keeps env m m2 := by
        intro y m2 d2 hy hi hg hfr hla hne hd hu hfb
        refine ⟨hi, hG1.trans hg, ?_, hla, ?_⟩
        · intro q hq
          rw [hfr q (Nat.lt_succ_of_lt hq) (by omega), hF1 q hq]
        · intro L p h1 h2
          by_cases hL : L = language m
          · subst hL
            have hp : p = m.nextId := by have := hg.keeps _ _ hid; rw [h1] at this; cases this; rfl
            subst hp
            refine ⟨y, d2, ?_, hd, hu, hfb⟩
            rw [hg.path, hg.charset]
            exact hy
          · refine hne L p h1 ?_
            show (m.dictionaries.set (language m) m.nextId).get? L = none
            rw [AMap.get?_set_ne _ _ (fun e => hL e.symm)]
            exact h2
      cases hload : loadDirs say env m.nextId language m.searchPath m.searchPath.reverse (fresh (language m) m) with
      | terminated => rw [hload] at hs; exact hs
      | diverge => trivial
      | fault e =>
        rw [hload] at hs
        rcases hs with hs | hs
        · exact hs
        · rw [hs] at sane; exact sane
      | exn w m' =>
        rw [hload] at hs
        obtain ⟨y, h1, h2⟩ := hs
        refine ⟨brk h2, ?_⟩
        have := unlistable_reverse (dirs1_exn _ h1)
        rwa [hP] at this
      | ok a m' =>
        rw [hload] at hs
        obtain ⟨y, h1, h2⟩ := hs
        dsimp only
        rw [h1] at sane
        have hlike : Like (Dictionary.init m.charset) y.1 := sane.1
        have hlm : language m' = language m := hst m m' h2.lang
        rw [hlm]
        by_cases hc : (language m).getCountry = []
        · rw [if_neg (by simp [hc])]
          exact ⟨done y.1 h1 h2.inv h2.grow h2.frame h2.lang h2.news h2.dict (unlinked_like hlike) (fun h => absurd hc h), h2.grow.keeps _ _ hid⟩
        · have hc' : (!(language m).getCountry.isEmpty) = true := by simpa using hc
          rw [if_pos hc']
          have hb := ih (language := fun _ => baseOf (language m)) (m := m') (fun _ _ _ => rfl) (base_defined hl).1 h2.inv (h2.grow.path.trans hP)
          have hbo : Language.fromSpec (language m).getLanguage [] [] = baseOf (language m) := rfl
          rw [hbo]
          cases hg : getDictionaryFor say env f (fun _ => baseOf (language m)) m' with
          | terminated => rw [hg] at hb; exact hb
          | diverge => trivial
          | fault e => rw [hg] at hb; exact hb
          | exn w m2 =>
            rw [hg] at hb
            refine ⟨?_, hb.2⟩
            have b1 := brk h2
            refine ⟨hb.1.inv, b1.grow.trans hb.1.grow, ?_, hb.1.lang.trans b1.lang⟩
            intro q hq
            rw [hb.1.frame q (Nat.lt_of_lt_of_le hq b1.grow.next), b1.frame q hq]
          | ok fb m2 =>
            rw [hg] at hb
            obtain ⟨hk, hfb⟩ := hb
            have h3 := h2.keeps hid hk []
            dsimp only
            unfold write
            rw [h3.dict]
            dsimp only
            have hget := h3.grow.keeps _ _ hid
            have hi := h3.inv.addFallback hget hfb hc h3.dict
            have hg2 : Grow m2 { m2 with heap := m2.heap.set m.nextId (y.1.addFallback (some fb)) } :=
              ⟨rfl, rfl, rfl, rfl, Nat.le_refl _, fun _ _ h => h, List.prefix_refl _⟩
            refine ⟨done (y.1.addFallback (some fb)) h1 hi (h3.grow.trans hg2) ?_ h3.lang ?_ (AMap.get?_set_self _ _ _) ?_ ?_, hget⟩
            · intro q hq hne
              show (m2.heap.set m.nextId _).get? q = _
              rw [AMap.get?_set_ne _ _ (fun e => hne e.symm)]
              exact h3.frame q hq hne
            · intro L p a1 a2
              have a1 : m2.dictionaries.get? L = some p := a1
              have hne := h3.not_id hid a1 a2
              refine (h3.news L p a1 a2).keep h3.inv hg2 ?_
              show (m2.heap.set m.nextId _).get? p = _
              rw [AMap.get?_set_ne _ _ (fun e => hne e.symm)]
            · have := unlinked_like hlike
              rw [← this]; rfl
            · intro _
              exact ⟨rfl, fb, rfl, hfb⟩

end Tgt.Nested
