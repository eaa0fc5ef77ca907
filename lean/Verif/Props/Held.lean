import Verif.Spec.Held
import Verif.Props.Size
/-
C99: what a manager holds is bounded.
-/
namespace Tgt
open Spec Manager Mgr POParser

/-- What holds of the state after a run that came back. -/
def Mgr.Ends {σ α : Type} (P : σ → Prop) : Res σ α → Prop
  | .ok _ s => P s
  | .exn _ s => P s
  | _ => True

theorem Mgr.files1_size {size : Str → Nat} {env : Env} (hs : SmallFiles size env) (l : Language) (dir : Str) (files : List Str)
    (ho : env.fs.openDirectory dir = .ok files) (x : DL) :
    Ends (fun y => dictSize y.1 ≤ dictSize x.1 + 4 * size dir) (files1 env l dir files x) := by
  cases hr : files1 env l dir files x with
  | ok a y => exact dirLoads_size _ (files1_ok ho hr).1 (hs dir)
  | exn w y =>
    exfalso
    unfold files1 at hr
    split at hr
    · cases hr
    · unfold file1 at hr
      split at hr
      · cases hr
      · cases hr
      · unfold parse1 at hr
        split at hr <;> cases hr
  | _ => trivial

theorem Mgr.dirs1_size {size : Str → Nat} {env : Env} (hs : SmallFiles size env) (l : Language) (dirs : List Str) : ∀ x : DL,
    Ends (fun y => dictSize y.1 ≤ dictSize x.1 + 4 * (dirs.map size).sum) (dirs1 env l dirs x) := by
  induction dirs with
  | nil => intro x; exact Nat.le_add_right _ _
  | cons dir t ih =>
    intro x
    unfold dirs1
    cases ho : env.fs.openDirectory dir with
    | error w => exact Nat.le_add_right _ _
    | ok files =>
      dsimp only
      rw [bind_apply]
      have h1 := files1_size hs l dir files ho x
      cases hr : files1 env l dir files x with
      | ok a y =>
        rw [hr] at h1
        have h1 : dictSize y.1 ≤ dictSize x.1 + 4 * size dir := h1
        have h2 := ih y
        dsimp only
        simp only [List.map_cons, List.sum_cons]
        cases hr2 : dirs1 env l t y with
        | ok b z => rw [hr2] at h2; have h2 : dictSize z.1 ≤ dictSize y.1 + 4 * (t.map size).sum := h2; show dictSize z.1 ≤ _; omega
        | exn w z => rw [hr2] at h2; have h2 : dictSize z.1 ≤ dictSize y.1 + 4 * (t.map size).sum := h2; show dictSize z.1 ≤ _; omega
        | _ => trivial
      | exn w y =>
        rw [hr] at h1
        have h1 : dictSize y.1 ≤ dictSize x.1 + 4 * size dir := h1
        simp only [List.map_cons, List.sum_cons]
        show dictSize y.1 ≤ _
        omega
      | _ => trivial

theorem Mgr.sum_reverse (l : List Nat) : l.reverse.sum = l.sum := by simp

/-- New dictionaries are small. -/
def Mgr.Small (size : Str → Nat) (m m' : Manager) : Prop :=
  ∀ p d, m'.heap.get? p = some d → m.heap.get? p = some d ∨ dictSize d ≤ 4 * (m.searchPath.map size).sum

/-- New dictionaries are those of `l` and of its bare language. -/
def Mgr.OnlyFor (l : Language) (m m' : Manager) : Prop :=
  ∀ L p, m'.dictionaries.get? L = some p → m.dictionaries.get? L = some p ∨ L = l ∨ (l.getCountry ≠ [] ∧ L = bareLang l)

theorem Mgr.fresh_small (size : Str → Nat) {m : Manager} {l : Language} {x : DL} (hx : dictSize x.1 ≤ 4 * (m.searchPath.map size).sum) :
    Small size m (put (fresh l m) m.nextId x) := by
  intro p d hp
  have hp : ((m.heap.set m.nextId (Dictionary.init m.charset)).set m.nextId x.1).get? p = some d := hp
  rw [AMap.get?_set] at hp
  split at hp
  · cases hp; exact .inr hx
  · rename_i e
    rw [AMap.get?_set_ne _ _ e] at hp
    exact .inl hp

theorem Mgr.fresh_only {m : Manager} {l : Language} {x : DL} : OnlyFor l m (put (fresh l m) m.nextId x) := by
  intro L p hp
  have hp : (m.dictionaries.set l m.nextId).get? L = some p := hp
  rw [AMap.get?_set] at hp
  split at hp
  · rename_i e; exact .inr (.inl e.symm)
  · exact .inl hp

theorem Mgr.getFor_held (env : Env) (f : Nat) : ∀ (l : Language) (m : Manager), l.isDefined = true → Mgr.Inv m →
    Ends (fun m' => OnlyFor l m m' ∧ ∀ size, SmallFiles size env → Small size m m') (getDictionaryFor env f l m) := by
  induction f with
  | zero => intro l m _ _; trivial
  | succ f ih =>
    intro l m hl h
    cases hn : m.dictionaries.get? l with
    | some p => rw [getFor_hit env f l m hl hn]; exact ⟨fun _ _ h => .inl h, fun _ _ _ _ h => .inl h⟩
    | none =>
      rw [getFor_miss env f l m hl hn]
      have hs := sane_dirs1 env l m.searchPath.reverse (Dictionary.init m.charset, m.log)
      have hz : ∀ size, SmallFiles size env →
          Ends (fun y => dictSize y.1 ≤ 4 * (m.searchPath.map size).sum) (dirs1 env l m.searchPath.reverse (Dictionary.init m.charset, m.log)) := by
        intro size hsz
        have := dirs1_size hsz l m.searchPath.reverse (Dictionary.init m.charset, m.log)
        have e : dictSize (Dictionary.init m.charset) = 0 := rfl
        simp only [List.map_reverse, sum_reverse, e, Nat.zero_add] at this
        exact this
      cases hx : dirs1 env l m.searchPath.reverse (Dictionary.init m.charset, m.log) with
      | ok a x =>
        rw [hx] at hs hz
        simp only [Res.mapS]
        have hI := (h.fresh hl hn).put (fresh_heap m l) hs.1
        have hO : OnlyFor l m (put (fresh l m) m.nextId x) := fresh_only
        have hS : ∀ size, SmallFiles size env → Small size m (put (fresh l m) m.nextId x) := fun size hsz => fresh_small size (hz size hsz)
        by_cases hc : l.getCountry = []
        · rw [if_pos hc]; exact ⟨hO, hS⟩
        · rw [if_neg hc]
          have hb := ih (baseOf l) _ (base_defined hl).1 hI
          have hP := getFor_post env f (baseOf l) _ (base_defined hl).1 hI
          have step : ∀ m2, (OnlyFor (baseOf l) (put (fresh l m) m.nextId x) m2 ∧ ∀ size, SmallFiles size env → Small size (put (fresh l m) m.nextId x) m2) →
              OnlyFor l m m2 ∧ ∀ size, SmallFiles size env → Small size m m2 := by
            rintro m2 ⟨h1, h2⟩
            refine ⟨?_, ?_⟩
            · intro L p hp
              rcases h1 L p hp with h1 | h1 | ⟨h1, _⟩
              · exact hO L p h1
              · exact .inr (.inr ⟨hc, h1⟩)
              · exact absurd (base_defined hl).2 h1
            · intro size hsz p d hp
              rcases h2 size hsz p d hp with h2 | h2
              · exact hS size hsz p d h2
              · exact .inr h2
          cases hr : getDictionaryFor env f (baseOf l) (put (fresh l m) m.nextId x) with
          | ok fb m2 =>
            rw [hr] at hb hP
            obtain ⟨h1, h2⟩ := step m2 hb
            have hget2 := hP.2.1.keeps _ _ (fresh_get m l)
            obtain ⟨_, _, d2, hd2, _⟩ := hP.1.cached _ _ hget2
            dsimp only
            rw [prog_bind, bind_apply]
            unfold Manager.addFallback
            rw [hd2]
            refine ⟨h1, ?_⟩
            intro size hsz p d hp
            have hp : (m2.heap.set m.nextId (d2.addFallback (some fb))).get? p = some d := hp
            rw [AMap.get?_set] at hp
            split at hp
            · cases hp
              rcases h2 size hsz _ _ hd2 with h3 | h3
              · rw [h.heap_lt _ (Nat.le_refl _)] at h3; cases h3
              · exact .inr h3
            · exact h2 size hsz p d hp
          | exn w m2 => rw [hr] at hb; exact step m2 hb
          | _ => trivial
      | exn w x =>
        rw [hx] at hz
        exact ⟨fresh_only, fun size hsz => fresh_small size (hz size hsz)⟩
      | _ => trivial

/-! ### The calls -/

/-- What a call that came back has done to the manager. -/
inductive Mgr.Did (env : Env) (c : Call) (m m' : Manager) : Prop where
  | loaded (l : Language) (hl : c = .getDictionaryFor l ∨ (c = .getDictionary ∧ m.currentLanguage = l ∧ l.isDefined = true)) (ho : OnlyFor l m m')
      (hs : ∀ size, SmallFiles size env → Small size m m') (hp : m'.searchPath = m.searchPath) (hc : m'.currentLanguage = m.currentLanguage)
      (hk : m'.dictionaries.get? l ≠ none ∧ ∀ L p, m.dictionaries.get? L = some p → m'.dictionaries.get? L = some p)
  | nothing (hd : m'.dictionaries = m.dictionaries) (hh : c.changes? = none → m'.heap = m.heap) (hp : m'.searchPath = m.searchPath)
      (hn : ¬ c.Changes m) (hc : m'.currentLanguage = match c with | .setLanguage l => l | _ => m.currentLanguage)
      (hk : match c with
        | .getDictionaryFor _ => False
        | .getDictionary => m.currentLanguage.isDefined = true → m.dictionaries.get? m.currentLanguage ≠ none
        | _ => True)
  | cleared (hd : m'.dictionaries = []) (hh : ∀ p, m'.heap.get? p ≠ none → p = 0) (hn : c.Changes m) (hc : m'.currentLanguage = m.currentLanguage)

theorem Mgr.run_done {x : M Unit} {a : Answer} {m m1 m' : Manager} {r : Unit} (h : x m = .ok r m1)
    (hl : (∃ b, (x >>= fun _ => Prog.pure a) m = .ok b m') ∨ (∃ w, (x >>= fun _ => Prog.pure a) m = .exn w m') ∨ (x >>= fun _ => Prog.pure a) m = .poError m') :
    m' = m1 := by
  simp only [prog_bind, bind_apply, h, Prog.pure] at hl
  rcases hl with ⟨b, hl⟩ | ⟨w, hl⟩ | hl
  · injection hl with _ hl; exact hl.symm
  · cases hl
  · cases hl

theorem Mgr.run_onDict {id : DictId} {g : Dictionary → Dictionary × List Diag} {a : Answer} {m m' : Manager}
    (hl : (∃ b, (onDict id g >>= fun _ => Prog.pure a) m = .ok b m') ∨ (∃ w, (onDict id g >>= fun _ => Prog.pure a) m = .exn w m') ∨
      (onDict id g >>= fun _ => Prog.pure a) m = .poError m') :
    m'.dictionaries = m.dictionaries ∧ m'.searchPath = m.searchPath ∧ m'.currentLanguage = m.currentLanguage := by
  cases hd : m.heap.get? id with
  | none =>
    simp only [prog_bind, bind_apply, onDict, hd] at hl
    rcases hl with ⟨b, hl⟩ | ⟨w, hl⟩ | hl <;> cases hl
  | some d =>
    have hx : onDict id g m = .ok () { m with heap := m.heap.set id (g d).1, log := m.log ++ (g d).2 } := by unfold onDict; rw [hd]
    have := run_done hx hl
    subst this
    exact ⟨rfl, rfl, rfl⟩

theorem Mgr.leads_did {env : Env} {c : Call} {m m' : Manager} (h : Mgr.Inv m) (hl : c.Leads env m m') : Did env c m m' := by
  cases c with
  | getDictionaryFor l =>
    unfold Call.Leads Call.run at hl
    simp only [prog_bind, bind_apply] at hl
    cases hd : l.isDefined with
    | false =>
      cases hn : env.fuel with
      | zero => rw [hn] at hl; rcases hl with ⟨b, hl⟩ | ⟨w, hl⟩ | hl <;> cases hl
      | succ n =>
        rw [hn, getDictionaryFor, if_pos (by simp [hd])] at hl
        rcases hl with ⟨b, hl⟩ | ⟨w, hl⟩ | hl <;> cases hl
    | true =>
      have h1 := getFor_held env env.fuel l m hd h
      have h2 := getFor_post env env.fuel l m hd h
      cases hr : getDictionaryFor env env.fuel l m with
      | ok p m1 =>
        rw [hr] at hl h1 h2
        rcases hl with ⟨b, hl⟩ | ⟨w, hl⟩ | hl <;> cases hl
        exact .loaded l (.inl rfl) h1.1 h1.2 h2.2.1.path h2.2.2.2.1 ⟨by rw [h2.2.2.2.2.1]; simp, h2.2.1.keeps⟩
      | exn w m1 =>
        rw [hr] at hl h1 h2
        rcases hl with ⟨b, hl⟩ | ⟨w, hl⟩ | hl <;> cases hl
        obtain ⟨p, hp⟩ := h2.2.2.2.2.1
        exact .loaded l (.inl rfl) h1.1 h1.2 h2.2.1.path h2.2.2.2.1 ⟨by rw [hp]; simp, h2.2.1.keeps⟩
      | poError m1 => rw [hr] at h2; exact h2.elim
      | fault e => rw [hr] at hl; rcases hl with ⟨b, hl⟩ | ⟨w, hl⟩ | hl <;> cases hl
      | diverge => rw [hr] at hl; rcases hl with ⟨b, hl⟩ | ⟨w, hl⟩ | hl <;> cases hl
  | getDictionary =>
    unfold Call.Leads Call.run Manager.getDictionary at hl
    simp only [prog_bind, bind_apply, Prog.get] at hl
    cases hcur : m.currentDict with
    | some p =>
      rw [hcur] at hl
      rcases hl with ⟨b, hl⟩ | ⟨w, hl⟩ | hl <;> cases hl
      exact .nothing rfl (fun _ => rfl) rfl (fun h => h) rfl (fun _ => by rw [(h.cur p hcur).2]; simp)
    | none =>
      rw [hcur] at hl
      dsimp only at hl
      by_cases hd : m.currentLanguage.isDefined = true
      · rw [if_pos hd] at hl
        simp only [bind_apply] at hl
        have h1 := getFor_held env env.fuel _ m hd h
        have h2 := getFor_post env env.fuel _ m hd h
        cases hr : getDictionaryFor env env.fuel m.currentLanguage m with
        | ok p m1 =>
          rw [hr] at hl h1 h2
          rcases hl with ⟨b, hl⟩ | ⟨w, hl⟩ | hl <;> cases hl
          exact .loaded _ (.inr ⟨rfl, rfl, hd⟩) h1.1 h1.2 h2.2.1.path h2.2.2.2.1 ⟨(fun e => by have := h2.2.2.2.2.1.symm.trans e; cases this), h2.2.1.keeps⟩
        | exn w m1 =>
          rw [hr] at hl h1 h2
          rcases hl with ⟨b, hl⟩ | ⟨w, hl⟩ | hl <;> cases hl
          obtain ⟨p, hp⟩ := h2.2.2.2.2.1
          exact .loaded _ (.inr ⟨rfl, rfl, hd⟩) h1.1 h1.2 h2.2.1.path h2.2.2.2.1 ⟨by rw [hp]; simp, h2.2.1.keeps⟩
        | poError m1 => rw [hr] at h2; exact h2.elim
        | fault e => rw [hr] at hl; rcases hl with ⟨b, hl⟩ | ⟨w, hl⟩ | hl <;> cases hl
        | diverge => rw [hr] at hl; rcases hl with ⟨b, hl⟩ | ⟨w, hl⟩ | hl <;> cases hl
      · rw [if_neg hd] at hl
        rcases hl with ⟨b, hl⟩ | ⟨w, hl⟩ | hl <;> cases hl
        exact .nothing rfl (fun _ => rfl) rfl (fun h => h) rfl (fun h => absurd h hd)
  | getLanguages =>
    unfold Call.Leads Call.run Manager.getLanguages at hl
    simp only [prog_bind, bind_apply, Prog.get] at hl
    rcases getLanguages_state env m.searchPath [] m with ⟨l, hr⟩ | ⟨w, hr⟩ <;> rw [hr] at hl <;>
      rcases hl with ⟨b, hl⟩ | ⟨w, hl⟩ | hl <;> cases hl
    · exact .nothing rfl (fun _ => rfl) rfl (fun h => h) rfl trivial
    · exact .nothing rfl (fun _ => rfl) rfl (fun h => h) rfl trivial
  | setLanguage l =>
    have hx : setLanguage l m = .ok () (if m.currentLanguage ≠ l then { m with currentLanguage := l, currentDict := none } else m) := by
      unfold setLanguage
      split <;> rfl
    have := run_done hx hl
    subst this
    by_cases e : m.currentLanguage ≠ l
    · rw [if_pos e]; exact .nothing rfl (fun _ => rfl) rfl (fun h => h) rfl trivial
    · rw [if_neg e]; exact .nothing rfl (fun _ => rfl) rfl (fun h => h) (by simpa using e) trivial
  | getLanguage =>
    rcases hl with ⟨b, hl⟩ | ⟨w, hl⟩ | hl <;> cases hl
    exact .nothing rfl (fun _ => rfl) rfl (fun h => h) rfl trivial
  | getUseFuzzy =>
    rcases hl with ⟨b, hl⟩ | ⟨w, hl⟩ | hl <;> cases hl
    exact .nothing rfl (fun _ => rfl) rfl (fun h => h) rfl trivial
  | setCharset s =>
    have hc := changes_cleared h (c := .setCharset s) trivial hl
    obtain ⟨m1, hr, hcl, _⟩ := setCharset_ok h s
    have := run_done hr hl
    exact .cleared hc.1 hc.2.2.2.2 trivial (by rw [this]; exact hcl.lang)
  | setUseFuzzy b =>
    have hc := changes_cleared h (c := .setUseFuzzy b) trivial hl
    obtain ⟨m1, hr, hcl, _⟩ := setUseFuzzy_ok h b
    have := run_done hr hl
    exact .cleared hc.1 hc.2.2.2.2 trivial (by rw [this]; exact hcl.lang)
  | addDirectory p b =>
    by_cases hp : p ∈ m.searchPath
    · have := run_done (addDirectory_known hp b) hl
      subst this
      exact .nothing rfl (fun _ => rfl) rfl (fun h => h hp) rfl trivial
    · have hc := changes_cleared h (c := .addDirectory p b) hp hl
      obtain ⟨m1, hr, hcl, _⟩ := addDirectory_ok h hp b
      have := run_done hr hl
      exact .cleared hc.1 hc.2.2.2.2 hp (by rw [this]; exact hcl.lang)
  | removeDirectory p =>
    by_cases hp : p ∈ m.searchPath
    · have hc := changes_cleared h (c := .removeDirectory p) hp hl
      obtain ⟨m1, hr, hcl, _⟩ := removeDirectory_ok h hp
      have := run_done hr hl
      exact .cleared hc.1 hc.2.2.2.2 hp (by rw [this]; exact hcl.lang)
    · have := run_done (removeDirectory_unknown hp) hl
      subst this
      exact .nothing rfl (fun _ => rfl) rfl hp rfl trivial
  | add id a =>
    obtain ⟨h1, h2, h3⟩ := run_onDict hl
    exact .nothing h1 (fun h => by cases h) h2 (fun h => h) h3 trivial
  | setPluralForms id p =>
    obtain ⟨h1, h2, h3⟩ := run_onDict hl
    exact .nothing h1 (fun h => by cases h) h2 (fun h => h) h3 trivial
  | ask id q =>
    unfold Call.Leads Call.run at hl
    simp only [prog_bind, bind_apply] at hl
    cases hd : m.heap.get? id with
    | none =>
      simp only [Manager.ask, hd] at hl
      rcases hl with ⟨b, hl⟩ | ⟨w, hl⟩ | hl <;> cases hl
    | some d =>
      rcases ask_ok h env.fuel hd q with ⟨r, l, hr, _⟩ | ⟨hr, _⟩ <;> rw [hr] at hl <;>
        rcases hl with ⟨b, hl⟩ | ⟨w, hl⟩ | hl <;> cases hl
      exact .nothing rfl (fun _ => rfl) rfl (fun h => h) rfl trivial

/-! ### Histories -/

/-- The manager holds only what was asked for. -/
structure Mgr.Holds (w : Wish) (m : Manager) : Prop where
  conf : w.config = config m
  cur : w.current = m.currentLanguage
  only : ∀ L p, m.dictionaries.get? L = some p → L ∈ w.asked ∨ ∃ l ∈ w.asked, l.getCountry ≠ [] ∧ L = bareLang l
  all : ∀ L ∈ w.asked, m.dictionaries.get? L ≠ none

theorem Mgr.wish_config {w : Wish} {m : Manager} (hw : w.config = config m) (c : Call) :
    (c.wish w).config = c.configure (config m) := by
  cases c with
  | getDictionary => unfold Call.wish; dsimp only; split <;> exact hw
  | addDirectory p b =>
    unfold Call.wish
    dsimp only
    split
    · rename_i hp
      rw [hw] at hp ⊢
      cases b <;> simp [Call.configure, hp]
    · rw [hw]
  | removeDirectory p =>
    unfold Call.wish
    dsimp only
    split
    · rw [hw]
    · rename_i hp
      rw [hw] at hp ⊢
      have e : (config m).path.filter (fun x => decide (x ≠ p)) = (config m).path := by
        apply List.filter_eq_self.2
        intro x hx
        simp
        rintro rfl
        exact hp hx
      unfold Call.configure
      dsimp only
      rw [e]
  | setCharset s => unfold Call.wish; dsimp only; rw [hw]
  | setUseFuzzy s => unfold Call.wish; dsimp only; rw [hw]
  | _ => exact hw

theorem Mgr.holds_step {env : Env} {c : Call} {m m' : Manager} {w : Wish} (h : Mgr.Inv m) (hw : Holds w m) (hl : c.Leads env m m') :
    Holds (c.wish w) m' := by
  have hconf : (c.wish w).config = config m' := by
    rw [(leads_after h hl).2.2.2]
    exact wish_config hw.conf c
  have hpath : w.config.path = m.searchPath := congrArg Config.path hw.conf
  cases leads_did h hl with
  | loaded l hc ho _ _ hcur hk =>
    have kept : ∀ l, (m'.dictionaries.get? l ≠ none ∧ ∀ L p, m.dictionaries.get? L = some p → m'.dictionaries.get? L = some p) →
        ∀ L ∈ l :: w.asked, m'.dictionaries.get? L ≠ none := by
      intro l hk L hL
      rcases List.mem_cons.1 hL with e | e
      · rw [e]; exact hk.1
      · cases hp : m.dictionaries.get? L with
        | none => exact absurd hp (hw.all L e)
        | some p => rw [hk.2 L p hp]; simp
    rcases hc with rfl | ⟨rfl, rfl, hd⟩
    · refine ⟨hconf, hw.cur.trans hcur.symm, ?_, kept _ hk⟩
      intro L p hp
      show L ∈ l :: w.asked ∨ ∃ x ∈ l :: w.asked, _
      rcases ho L p hp with h1 | h1 | ⟨h1, h2⟩
      · rcases hw.only L p h1 with h2 | ⟨x, h2, h3⟩
        · exact .inl (List.mem_cons_of_mem _ h2)
        · exact .inr ⟨x, List.mem_cons_of_mem _ h2, h3⟩
      · exact .inl (by rw [h1]; exact List.mem_cons_self)
      · exact .inr ⟨l, List.mem_cons_self, h1, h2⟩
    · have e : Call.wish w .getDictionary = { w with asked := m.currentLanguage :: w.asked } := by
        unfold Call.wish
        dsimp only
        rw [hw.cur, if_pos hd]
      rw [e] at hconf ⊢
      refine ⟨hconf, hw.cur.trans hcur.symm, ?_, kept _ hk⟩
      intro L p hp
      show L ∈ m.currentLanguage :: w.asked ∨ ∃ x ∈ m.currentLanguage :: w.asked, _
      rcases ho L p hp with h1 | h1 | ⟨h1, h2⟩
      · rcases hw.only L p h1 with h2 | ⟨x, h2, h3⟩
        · exact .inl (List.mem_cons_of_mem _ h2)
        · exact .inr ⟨x, List.mem_cons_of_mem _ h2, h3⟩
      · exact .inl (by rw [h1]; exact List.mem_cons_self)
      · exact .inr ⟨_, List.mem_cons_self, h1, h2⟩
  | nothing hd _ _ hn hcur hk =>
    have hasked : ∀ L, L ∈ w.asked → L ∈ (c.wish w).asked := by
      intro L hL
      cases c with
      | getDictionary => unfold Call.wish; dsimp only; split; exact List.mem_cons_of_mem _ hL; exact hL
      | getDictionaryFor l => exact List.mem_cons_of_mem _ hL
      | setCharset s => exact absurd trivial hn
      | setUseFuzzy s => exact absurd trivial hn
      | addDirectory p b =>
        unfold Call.wish
        dsimp only
        rw [if_pos (by rw [hpath]; exact Classical.byContradiction hn)]
        exact hL
      | removeDirectory p =>
        unfold Call.wish
        dsimp only
        rw [if_neg (by rw [hpath]; exact hn)]
        exact hL
      | _ => exact hL
    refine ⟨hconf, ?_, ?_, ?_⟩
    · rw [hcur]
      cases c with
      | getDictionary => unfold Call.wish; dsimp only; split <;> exact hw.cur
      | addDirectory p b => unfold Call.wish; dsimp only; split <;> exact hw.cur
      | removeDirectory p => unfold Call.wish; dsimp only; split <;> exact hw.cur
      | setLanguage l => rfl
      | _ => exact hw.cur
    · intro L p hp
      rw [hd] at hp
      rcases hw.only L p hp with h2 | ⟨x, h2, h3⟩
      · exact .inl (hasked _ h2)
      · exact .inr ⟨x, hasked _ h2, h3⟩
    · intro L hL
      rw [hd]
      cases c with
      | getDictionary =>
        unfold Call.wish at hL
        dsimp only at hL
        rw [hw.cur] at hL
        split at hL
        · rename_i hdef
          rcases List.mem_cons.1 hL with e | e
          · rw [e]; exact hk hdef
          · exact hw.all L e
        · exact hw.all L hL
      | getDictionaryFor l => exact hk.elim
      | setCharset s => exact absurd trivial hn
      | setUseFuzzy s => exact absurd trivial hn
      | addDirectory p b =>
        unfold Call.wish at hL
        dsimp only at hL
        rw [if_pos (by rw [hpath]; exact Classical.byContradiction hn)] at hL
        exact hw.all L hL
      | removeDirectory p =>
        unfold Call.wish at hL
        dsimp only at hL
        rw [if_neg (by rw [hpath]; exact hn)] at hL
        exact hw.all L hL
      | _ => exact hw.all L hL
  | cleared hd _ hn hcur =>
    refine ⟨hconf, ?_, ?_, ?_⟩
    · rw [hcur]
      cases c with
      | getDictionary => exact hn.elim
      | addDirectory p b => unfold Call.wish; dsimp only; split <;> exact hw.cur
      | removeDirectory p => unfold Call.wish; dsimp only; split <;> exact hw.cur
      | setLanguage l => exact hn.elim
      | _ => exact hw.cur
    · intro L p hp
      rw [hd] at hp
      cases hp
    · intro L hL
      exfalso
      cases c with
      | setCharset s => cases hL
      | setUseFuzzy s => cases hL
      | addDirectory p b =>
        unfold Call.wish at hL
        dsimp only at hL
        rw [if_neg (by rw [hpath]; exact hn)] at hL
        cases hL
      | removeDirectory p =>
        unfold Call.wish at hL
        dsimp only at hL
        rw [if_pos (by rw [hpath]; exact hn)] at hL
        cases hL
      | _ => exact hn.elim

theorem Mgr.hist_holds {cs : Str} {calls : List Call} {m : Manager} (h : History (.init cs) calls m) : Holds (wishes cs calls) m := by
  induction h with
  | nil => exact ⟨rfl, rfl, (fun L p hp => by cases hp), (fun L hL => by cases hL)⟩
  | snoc h1 h2 ih =>
    unfold wishes at ih ⊢
    rw [List.foldl_append]
    exact holds_step (hist_inv (inv_init cs) h1) ih h2

/-! ### Counting -/

theorem Mgr.length_le_of_subset {α : Type} [DecidableEq α] : ∀ (l l' : List α), l.Nodup → (∀ x ∈ l, x ∈ l') → l.length ≤ l'.length := by
  intro l
  induction l with
  | nil => intro l' _ _; exact Nat.zero_le _
  | cons a t ih =>
    intro l' hn hs
    obtain ⟨ha, ht⟩ := List.nodup_cons.1 hn
    have h1 := ih (l'.erase a) ht (fun x hx => (List.mem_erase_of_ne (fun e => ha (by rw [← e]; exact hx))).2 (hs x (List.mem_cons_of_mem _ hx)))
    have h2 := List.length_erase_of_mem (hs a List.mem_cons_self)
    have h3 : 0 < l'.length := List.length_pos_of_mem (hs a List.mem_cons_self)
    simp only [List.length_cons]
    omega

/-- Every language there is. -/
def Mgr.allLanguages : List Language := (List.finRange 241).map some

theorem Mgr.mem_allLanguages (l : Language) (h : l.isDefined = true) : l ∈ allLanguages := by
  cases l with
  | none => cases h
  | some i => exact List.mem_map.2 ⟨i, List.mem_finRange i, rfl⟩

theorem Mgr.dicts_le {m : Manager} (h : Mgr.Inv m) : m.dictionaries.length ≤ 241 := by
  have := length_le_of_subset m.dictionaries.keys allLanguages h.keysD (fun L hL => by
    cases hp : m.dictionaries.get? L with
    | none => exact absurd hL (AMap.get?_eq_none_iff.1 hp)
    | some p => exact mem_allLanguages L (h.cached L p hp).1)
  have e : allLanguages.length = 241 := by simp [allLanguages]
  rw [e] at this
  simpa [AMap.keys] using this

theorem Mgr.dicts_asked {w : Wish} {m : Manager} (h : Mgr.Inv m) (hw : Holds w m) : m.dictionaries.length ≤ 2 * w.asked.length := by
  have := length_le_of_subset m.dictionaries.keys (w.asked ++ w.asked.map bareLang) h.keysD (fun L hL => by
    cases hp : m.dictionaries.get? L with
    | none => exact absurd hL (AMap.get?_eq_none_iff.1 hp)
    | some p =>
      rcases hw.only L p hp with h1 | ⟨l, h1, _, h2⟩
      · exact List.mem_append_left _ h1
      · exact List.mem_append_right _ (List.mem_map.2 ⟨l, h1, h2.symm⟩))
  simp [AMap.keys] at this
  omega

/-- The live dictionaries other than the empty one are the cached ones. -/
theorem Mgr.live_le {m : Manager} (h : Mgr.Inv m) : (m.heap.keys.filter (fun p => decide (p ≠ 0))).length ≤ m.dictionaries.length := by
  have := length_le_of_subset (m.heap.keys.filter (fun p => decide (p ≠ 0))) (vals m.dictionaries) (h.heapK.filter _) (fun p hp => by
    obtain ⟨h1, h2⟩ := List.mem_filter.1 hp
    cases hd : m.heap.get? p with
    | none => exact absurd h1 (AMap.get?_eq_none_iff.1 hd)
    | some d =>
      rcases (h.live p d hd).2 with e | h3
      · simp [e] at h2
      · exact (mem_vals h p).2 h3)
  simpa [vals] using this

theorem Mgr.heap_le {m : Manager} (h : Mgr.Inv m) : m.heap.length ≤ 1 + m.dictionaries.length := by
  have := length_le_of_subset m.heap.keys (0 :: vals m.dictionaries) h.heapK (fun p hp => by
    cases hd : m.heap.get? p with
    | none => exact absurd hp (AMap.get?_eq_none_iff.1 hd)
    | some d =>
      rcases (h.live p d hd).2 with e | h3
      · rw [e]; exact List.mem_cons_self
      · exact List.mem_cons_of_mem _ ((mem_vals h p).2 h3))
  simp [vals, AMap.keys] at this
  omega

/-! ### C99 -/

/-- C99.  After any history the dictionaries that exist are: the empty one, one for each language asked for since the configuration last
changed, and those of the bare languages that these fall back to.  (Asking for the language again returns that very dictionary.) -/
theorem C99_exactly_what_was_asked (cs : Str) (calls : List Call) (m : Manager) (h : History (.init cs) calls m) :
    (∀ id, m.heap.get? id ≠ none → id = emptyDict ∨
      ∃ L, (∀ env n, getDictionaryFor env (n + 1) L m = .ok id m) ∧
        (L ∈ (wishes cs calls).asked ∨ ∃ l ∈ (wishes cs calls).asked, l.getCountry ≠ [] ∧ L = bareLang l)) ∧
    (∀ L ∈ (wishes cs calls).asked, ∃ id, m.heap.get? id ≠ none ∧ ∀ env n, getDictionaryFor env (n + 1) L m = .ok id m) := by
  have hI := hist_inv (inv_init cs) h
  have hw := hist_holds h
  refine ⟨?_, ?_⟩
  · intro id hid
    cases hd : m.heap.get? id with
    | none => exact absurd hd hid
    | some d =>
      rcases (hI.live id d hd).2 with e | ⟨L, hL⟩
      · exact .inl e
      · exact .inr ⟨L, fun env n => getFor_hit env n L m (hI.cached L id hL).1 hL, hw.only L id hL⟩
  · intro L hL
    cases hp : m.dictionaries.get? L with
    | none => exact absurd hp (hw.all L hL)
    | some id =>
      obtain ⟨h1, _, d, h2, _⟩ := hI.cached L id hp
      exact ⟨id, by rw [h2]; simp, fun env n => getFor_hit env n L m h1 hp⟩

/-- C99.  However long the history, a manager has at most one dictionary for each of the 241 languages, and the empty one; and at most two
for each request since the configuration last changed. -/
theorem C99_count (cs : Str) (calls : List Call) (m : Manager) (h : History (.init cs) calls m) :
    m.heap.length ≤ 242 ∧ m.heap.length ≤ 1 + 2 * (wishes cs calls).asked.length := by
  have hI := hist_inv (inv_init cs) h
  have h1 := heap_le hI
  have h2 := dicts_le hI
  have h3 := dicts_asked hI (hist_holds h)
  omega

theorem Mgr.historyIn_history {P : Env → Prop} {m m' : Manager} {calls : List Call} (h : HistoryIn P m calls m') : History m calls m' := by
  induction h with
  | nil => exact .nil
  | snoc _ _ h2 ih => exact .snoc ih h2

/-- Every dictionary is small, the empty one empty. -/
def Mgr.AllSmall (size : Str → Nat) (m : Manager) : Prop :=
  (∀ p d, m.heap.get? p = some d → dictSize d ≤ 4 * (m.searchPath.map size).sum) ∧ ∀ d, m.heap.get? 0 = some d → dictSize d = 0

theorem Mgr.small_step {size : Str → Nat} {env : Env} {c : Call} {m m' : Manager} (h : Mgr.Inv m) (hs : AllSmall size m) (hc : c.changes? = none)
    (henv : SmallFiles size env) (hl : c.Leads env m m') : AllSmall size m' := by
  have h0 : m'.heap.get? 0 = m.heap.get? 0 := (leads_after h hl).2.2.1 (by rw [hc]; simp)
  refine ⟨?_, fun d hd => hs.2 d (by rw [← h0]; exact hd)⟩
  intro p d hd
  cases leads_did h hl with
  | loaded l _ _ hsm hp _ _ =>
    rw [hp]
    rcases hsm size henv p d hd with h1 | h1
    · exact hs.1 p d h1
    · exact h1
  | nothing _ hh hp _ _ _ =>
    rw [hh hc] at hd
    rw [hp]
    exact hs.1 p d hd
  | cleared _ hh _ _ =>
    have e := hh p (by rw [hd]; simp)
    subst e
    rw [hs.2 d (by rw [← h0]; exact hd)]
    exact Nat.zero_le _

theorem Mgr.hist_small {size : Str → Nat} {cs : Str} {calls : List Call} {m : Manager} (h : HistoryIn (SmallFiles size) (.init cs) calls m)
    (hc : ∀ c ∈ calls, c.changes? = none) : AllSmall size m := by
  induction h with
  | nil =>
    have key : ∀ p d, (Manager.init cs).heap.get? p = some d → dictSize d = 0 := by
      intro p d hd
      have hm := AMap.get?_mem hd
      simp [Manager.init] at hm
      rw [hm.2]; rfl
    exact ⟨fun p d hd => by rw [key p d hd]; exact Nat.zero_le _, fun d hd => key 0 d hd⟩
  | snoc h1 h2 h3 ih =>
    exact small_step (hist_inv (inv_init cs) (historyIn_history h1)) (ih (fun c hx => hc c (List.mem_append_left _ hx))) (hc _ (by simp)) h2 h3

theorem Mgr.sum_le_count (B : Nat) : ∀ (heap : AMap DictId Dictionary), (∀ x ∈ heap, dictSize x.2 ≤ B) → (∀ x ∈ heap, x.1 = 0 → dictSize x.2 = 0) →
    (heap.map (fun x => dictSize x.2)).sum ≤ (heap.keys.filter (fun p => decide (p ≠ 0))).length * B := by
  intro heap
  induction heap with
  | nil => intro _ _; simp
  | cons x t ih =>
    intro h1 h2
    have h3 := ih (fun y hy => h1 y (List.mem_cons_of_mem _ hy)) (fun y hy => h2 y (List.mem_cons_of_mem _ hy))
    have hk : AMap.keys (x :: t) = x.1 :: AMap.keys t := rfl
    rw [hk, List.map_cons, List.sum_cons]
    by_cases e : x.1 = 0
    · rw [h2 x List.mem_cons_self e, List.filter_cons_of_neg (by simp [e])]
      omega
    · rw [List.filter_cons_of_pos (by simpa using e), List.length_cons, Nat.succ_mul]
      have := h1 x List.mem_cons_self
      omega

/-- C99.  If in all worlds the files in `dir` have at most `size dir` bytes, then however long the program runs (without adding translations of
its own), each dictionary holds at most four times the bytes in the search path, and the manager all in all 241 times that. -/
theorem C99_memory (cs : Str) (size : Str → Nat) (calls : List Call) (m : Manager) (h : HistoryIn (SmallFiles size) (.init cs) calls m)
    (hc : ∀ c ∈ calls, c.changes? = none) :
    (∀ p d, m.heap.get? p = some d → dictSize d ≤ 4 * (m.searchPath.map size).sum) ∧
    heldSize m ≤ 2 * (wishes cs calls).asked.length * (4 * (m.searchPath.map size).sum) ∧
    heldSize m ≤ 241 * (4 * (m.searchPath.map size).sum) := by
  have hI := hist_inv (inv_init cs) (historyIn_history h)
  have hs := hist_small h hc
  have h1 := sum_le_count (4 * (m.searchPath.map size).sum) m.heap
    (fun x hx => hs.1 x.1 x.2 (AMap.get?_of_mem hI.heapK hx))
    (fun x hx e => hs.2 x.2 (by rw [← e]; exact AMap.get?_of_mem hI.heapK hx))
  have h2 : heldSize m ≤ _ := Nat.le_trans h1 (Nat.mul_le_mul_right _ (live_le hI))
  exact ⟨hs.1, Nat.le_trans h2 (Nat.mul_le_mul_right _ (dicts_asked hI (hist_holds (historyIn_history h)))),
    Nat.le_trans h2 (Nat.mul_le_mul_right _ (dicts_le hI))⟩

/-- The state after a normal return. -/
def Res.state? {α : Type} : Res Manager α → Option Manager
  | .ok _ m => some m
  | _ => none

theorem Res.leads {env : Env} {c : Call} {m m' : Manager} (h : (c.run env m).state? = some m') : c.Leads env m m' := by
  cases hr : c.run env m with
  | ok a m1 => rw [hr] at h; cases h; exact .inl ⟨a, hr⟩
  | _ => rw [hr] at h; cases h

-- Austrian is asked for: three dictionaries; after a change of charset only German
example : ∃ m, script (.init b!"UTF-8") [.addDirectory b!"hi" false, .getDictionaryFor atLang] = some m ∧ m.heap.length = 3 ∧
    (wishes b!"UTF-8" [.addDirectory b!"hi" false, .getDictionaryFor atLang]).asked = [atLang] := of_any (by decide +kernel)
example : ∃ m, script (.init b!"UTF-8") [.addDirectory b!"hi" false, .getDictionaryFor atLang, .setCharset b!"UTF-8", .setLanguage deLang, .getDictionary] = some m ∧
    m.heap.length = 2 ∧ (wishes b!"UTF-8" [.addDirectory b!"hi" false, .getDictionaryFor atLang, .setCharset b!"UTF-8", .setLanguage deLang, .getDictionary]).asked = [deLang] :=
  of_any (by decide +kernel)

theorem demoOs_small (f t : Str) (h : demoOs.content f = some t) : Terminated t ∧ t.length ≤ 200 := by
  unfold Terminated
  dsimp only [demoOs] at h
  split at h
  · cases h; decide +kernel
  · split at h
    · cases h; decide +kernel
    · split at h
      · cases h; decide +kernel
      · cases h

-- the small world has small files
theorem demoEnv_small : SmallFiles (fun _ => 200) demoEnv := by
  intro dir f st h
  have h : (match demoOs.content (dir ++ b!"/" ++ f) with
    | some bytes => OpenFile.stream ⟨bytes, true, false⟩
    | none => .stream Stream.failed) = .stream st := h
  cases hc : demoOs.content (dir ++ b!"/" ++ f) with
  | none => rw [hc] at h; cases h; exact .inl rfl
  | some t => rw [hc] at h; cases h; exact .inr ⟨t, rfl, demoOs_small _ _ hc⟩

-- a history in it
example : ∃ m, HistoryIn (SmallFiles (fun _ => 200)) (.init b!"UTF-8") [.addDirectory b!"hi" false, .getDictionaryFor atLang] m ∧
    m.heap.length = 3 ∧ heldSize m = 42 := by
  obtain ⟨m1, h1, m2, h2, h3⟩ : ∃ m1, (Call.run demoEnv (.addDirectory b!"hi" false) (.init b!"UTF-8")).state? = some m1 ∧
      ∃ m2, (Call.run demoEnv (.getDictionaryFor atLang) m1).state? = some m2 ∧ m2.heap.length = 3 ∧ heldSize m2 = 42 := by
    obtain ⟨m1, h1, hx⟩ := of_any (o := (Call.run demoEnv (.addDirectory b!"hi" false) (.init b!"UTF-8")).state?)
      (P := fun m1 => (Call.run demoEnv (.getDictionaryFor atLang) m1).state?.any (fun m2 => decide (m2.heap.length = 3 ∧ heldSize m2 = 42)) = true)
      (by decide +kernel)
    obtain ⟨m2, h2, h3⟩ := of_any hx
    exact ⟨m1, h1, m2, h2, h3⟩
  exact ⟨m2, .snoc (.snoc .nil demoEnv_small (Res.leads h1)) demoEnv_small (Res.leads h2), h3⟩

end Tgt
