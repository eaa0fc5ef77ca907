import Verif.Proofs.MgrLoad
/-
In histories without exceptions, every cached dictionary of a country has its fallback.
-/
namespace Tgt.Mgr
open Spec Manager POParser

/-- Every cached country dictionary other than that of `X` has a fallback. -/
def FullBut (X : Option Language) (m : Manager) : Prop :=
  ∀ L p d, some L ≠ X → m.dictionaries.get? L = some p → m.heap.get? p = some d → L.getCountry ≠ [] → d.hasFallback = true

theorem FullBut.same {X : Option Language} {m m' : Manager} (h : FullBut X m) (h1 : m'.dictionaries = m.dictionaries) (h2 : m'.heap = m.heap) : FullBut X m' := by
  intro L p d hx hd hh hc
  rw [h1] at hd
  rw [h2] at hh
  exact h L p d hx hd hh hc

theorem full_fresh {X : Option Language} {m : Manager} (hI : Inv m) {l : Language} (x : DL) (h : FullBut X m) :
    FullBut (if l.getCountry = [] then X else some l) (put (fresh l m) m.nextId x) ∨ X ≠ none := by
  cases X with
  | some _ => exact .inr (by simp)
  | none =>
    left
    intro L p d hx hd hh hc
    have hd : (m.dictionaries.set l m.nextId).get? L = some p := hd
    rw [AMap.get?_set] at hd
    split at hd
    · rename_i e
      subst e
      rw [if_neg hc] at hx
      exact absurd rfl hx
    · have hlt : p < m.nextId := by
        obtain ⟨_, _, d', hd', _⟩ := hI.cached L p hd
        exact (hI.live p d' hd').1
      rw [put_fresh_frame l m x p hlt] at hh
      exact h L p d (by simp) hd hh hc

theorem full_fresh_base {X : Option Language} {m : Manager} (hI : Inv m) {l : Language} (hl : l.getCountry = []) (x : DL) (h : FullBut X m) :
    FullBut X (put (fresh l m) m.nextId x) := by
  intro L p d hx hd hh hc
  have hd : (m.dictionaries.set l m.nextId).get? L = some p := hd
  rw [AMap.get?_set] at hd
  split at hd
  · rename_i e
    subst e
    exact absurd hl hc
  · have hlt : p < m.nextId := by
      obtain ⟨_, _, d', hd', _⟩ := hI.cached L p hd
      exact (hI.live p d' hd').1
    rw [put_fresh_frame l m x p hlt] at hh
    exact h L p d hx hd hh hc

/-- Loading a bare language. -/
theorem full_base {X : Option Language} {env : Env} {n : Nat} {l : Language} {m m' : Manager} {p : DictId} (hI : Inv m) (hl : l.isDefined = true)
    (hc : l.getCountry = []) (h : FullBut X m) (hg : getDictionaryFor env n l m = .ok p m') : FullBut X m' := by
  cases n with
  | zero => cases hg
  | succ n =>
    cases hn : m.dictionaries.get? l with
    | some q => rw [getFor_hit env n l m hl hn] at hg; cases hg; exact h
    | none =>
      rw [getFor_miss env n l m hl hn] at hg
      cases hx : dirs1 env l m.searchPath.reverse (Dictionary.init m.charset, m.log) with
      | ok a x =>
        rw [hx] at hg
        dsimp only [Res.mapS] at hg
        rw [if_pos hc] at hg
        cases hg
        exact full_fresh_base hI hc x h
      | _ => rw [hx] at hg; cases hg

theorem full_getFor {env : Env} {n : Nat} {l : Language} {m m' : Manager} {p : DictId} (hI : Inv m) (hl : l.isDefined = true)
    (h : FullBut none m) (hg : getDictionaryFor env n l m = .ok p m') : FullBut none m' := by
  by_cases hc : l.getCountry = []
  · exact full_base hI hl hc h hg
  · cases n with
    | zero => cases hg
    | succ n =>
      cases hn : m.dictionaries.get? l with
      | some q => rw [getFor_hit env n l m hl hn] at hg; cases hg; exact h
      | none =>
        rw [getFor_miss env n l m hl hn] at hg
        have hs := sane_dirs1 env l m.searchPath.reverse (Dictionary.init m.charset, m.log)
        cases hx : dirs1 env l m.searchPath.reverse (Dictionary.init m.charset, m.log) with
        | ok a x =>
          rw [hx] at hg hs
          dsimp only [Res.mapS] at hg
          rw [if_neg hc] at hg
          have h1 : FullBut (some l) (put (fresh l m) m.nextId x) := by
            rcases full_fresh (l := l) hI x h with h' | h'
            · rw [if_neg hc] at h'; exact h'
            · exact absurd rfl h'
          have hI1 : Inv (put (fresh l m) m.nextId x) := (hI.fresh hl hn).put (fresh_heap m l) hs.1
          have hP := getFor_post env n (baseOf l) _ (base_defined hl).1 hI1
          cases hr : getDictionaryFor env n (baseOf l) (put (fresh l m) m.nextId x) with
          | ok fb m2 =>
            have h2 := full_base hI1 (base_defined hl).1 (base_defined hl).2 h1 hr
            rw [hr] at hg hP
            dsimp only at hg
            rw [prog_bind, bind_apply] at hg
            unfold Manager.addFallback at hg
            cases hd : m2.heap.get? m.nextId with
            | none => rw [hd] at hg; cases hg
            | some d2 =>
              rw [hd] at hg
              dsimp only [Prog.pure] at hg
              cases hg
              have hl2 : m2.dictionaries.get? l = some m.nextId := hP.2.1.keeps l _ (fresh_get m l)
              intro L q d _ hL hh hcc
              have hL : m2.dictionaries.get? L = some q := hL
              have hh : (m2.heap.set m.nextId (d2.addFallback (some fb))).get? q = some d := hh
              rw [AMap.get?_set] at hh
              split at hh
              · cases hh; rfl
              · rename_i hne
                refine h2 L q d ?_ hL hh hcc
                intro e
                cases e
                rw [hl2] at hL
                cases hL
                exact hne rfl
          | _ => rw [hr] at hg; cases hg
        | _ => rw [hx] at hg; cases hg

theorem full_heap {m m' : Manager} (h : FullBut none m) (h1 : m'.dictionaries = m.dictionaries)
    (h2 : ∀ p d', m'.heap.get? p = some d' → ∃ d, m.heap.get? p = some d ∧ d'.hasFallback = d.hasFallback) : FullBut none m' := by
  intro L p d' hx hd hh hc
  rw [h1] at hd
  obtain ⟨d, e1, e2⟩ := h2 p d' hh
  rw [e2]
  exact h L p d hx hd e1 hc

theorem full_nil {m : Manager} (h : m.dictionaries = []) : FullBut none m := by
  intro L p d _ hd
  rw [h] at hd
  cases hd

theorem full_onDict {m m' : Manager} (h : FullBut none m) {id : DictId} {f : Dictionary → Dictionary × List Diag}
    (hf : ∀ d, (f d).1.hasFallback = d.hasFallback) (hr : onDict id f m = .ok () m') : FullBut none m' := by
  unfold onDict at hr
  cases hd : m.heap.get? id with
  | none => rw [hd] at hr; cases hr
  | some d =>
    rw [hd] at hr
    dsimp only at hr
    cases hr
    refine full_heap h rfl ?_
    intro p d' hp0
    have hp : (m.heap.set id (f d).1).get? p = some d' := hp0
    clear hp0
    rw [AMap.get?_set] at hp
    split at hp
    · rename_i e; subst e; cases hp; exact ⟨d, hd, hf d⟩
    · exact ⟨d', hp, rfl⟩

theorem full_call {env : Env} {c : Call} {m m' : Manager} {a : Answer} (hI : Inv m) (h : FullBut none m) (hr : c.run env m = .ok a m') : FullBut none m' := by
  cases c with
  | getDictionary =>
    unfold Call.run at hr
    simp only [prog_bind, bind_apply] at hr
    cases hx : Manager.getDictionary env m with
    | ok p m1 =>
      rw [hx] at hr
      cases hr
      unfold Manager.getDictionary at hx
      simp only [prog_bind, bind_apply, Prog.get] at hx
      cases hc : m.currentDict with
      | some q => rw [hc] at hx; cases hx; exact h
      | none =>
        rw [hc] at hx
        dsimp only at hx
        split at hx
        · rename_i hl
          rw [bind_apply] at hx
          cases hg : Manager.getDictionaryFor env env.fuel m.currentLanguage m with
          | ok q m2 =>
            rw [hg] at hx
            cases hx
            exact (full_getFor hI hl h hg).same rfl rfl
          | _ => rw [hg] at hx; cases hx
        · cases hx; exact h
    | _ => rw [hx] at hr; cases hr
  | getDictionaryFor l =>
    unfold Call.run at hr
    simp only [prog_bind, bind_apply] at hr
    cases hx : Manager.getDictionaryFor env env.fuel l m with
    | ok p m1 =>
      rw [hx] at hr
      cases hr
      cases l with
      | none =>
        cases hf : env.fuel with
        | zero => rw [hf] at hx; cases hx
        | succ n => rw [hf] at hx; cases hx
      | some i => exact full_getFor hI rfl h hx
    | _ => rw [hx] at hr; cases hr
  | getLanguages =>
    unfold Call.run Manager.getLanguages at hr
    simp only [prog_bind, bind_apply, Prog.get] at hr
    rcases getLanguages_state env m.searchPath [] m with ⟨l, hx⟩ | ⟨w, hx⟩
    · rw [hx] at hr; cases hr; exact h
    · rw [hx] at hr; cases hr
  | setLanguage l =>
    unfold Call.run at hr
    simp only [prog_bind, bind_apply] at hr
    unfold Manager.setLanguage at hr
    by_cases hl : m.currentLanguage ≠ l
    · rw [if_pos hl] at hr; cases hr; exact h.same rfl rfl
    · rw [if_neg hl] at hr; cases hr; exact h
  | getLanguage => cases hr; exact h
  | getUseFuzzy => cases hr; exact h
  | setCharset s =>
    obtain ⟨mx, hx, hcl, _⟩ := setCharset_ok hI s
    unfold Call.run at hr
    simp only [prog_bind, bind_apply, hx] at hr
    cases hr
    exact full_nil hcl.dicts
  | setUseFuzzy b =>
    obtain ⟨mx, hx, hcl, _⟩ := setUseFuzzy_ok hI b
    unfold Call.run at hr
    simp only [prog_bind, bind_apply, hx] at hr
    cases hr
    exact full_nil hcl.dicts
  | addDirectory p b =>
    unfold Call.run at hr
    by_cases hp : p ∈ m.searchPath
    · simp only [prog_bind, bind_apply, addDirectory_known hp] at hr
      cases hr; exact h
    · obtain ⟨mx, hx, hcl, _⟩ := addDirectory_ok hI hp b
      simp only [prog_bind, bind_apply, hx] at hr
      cases hr
      exact full_nil hcl.dicts
  | removeDirectory p =>
    unfold Call.run at hr
    by_cases hp : p ∈ m.searchPath
    · obtain ⟨mx, hx, hcl, _⟩ := removeDirectory_ok hI hp
      simp only [prog_bind, bind_apply, hx] at hr
      cases hr
      exact full_nil hcl.dicts
    · simp only [prog_bind, bind_apply, removeDirectory_unknown hp] at hr
      cases hr; exact h
  | add id ad =>
    unfold Call.run at hr
    simp only [prog_bind, bind_apply] at hr
    cases hx : onDict id (fun d => ad.apply d) m with
    | ok u m1 =>
      rw [hx] at hr
      cases hr
      exact full_onDict h (fun d => (like_apply ad d).2.1) hx
    | _ => rw [hx] at hr; cases hr
  | setPluralForms id pf =>
    unfold Call.run at hr
    simp only [prog_bind, bind_apply] at hr
    cases hx : onDict id (fun d => (d.setPluralForms pf, [])) m with
    | ok u m1 =>
      rw [hx] at hr
      cases hr
      exact full_onDict h (fun d => rfl) hx
    | _ => rw [hx] at hr; cases hr
  | ask id q =>
    unfold Call.run at hr
    simp only [prog_bind, bind_apply] at hr
    unfold Manager.ask at hr
    cases hd : m.heap.get? id with
    | none => rw [hd] at hr; cases hr
    | some d =>
      rw [hd] at hr
      dsimp only at hr
      cases hq : q.on m.heap.get? env.fuel d m.log with
      | ok r l => rw [hq] at hr; cases hr; exact h.same rfl rfl
      | _ => rw [hq] at hr; cases hr

theorem smooth_history {m m' : Manager} {calls : List Call} (h : Smooth m calls m') : History m calls m' := by
  induction h with
  | nil => exact .nil
  | snoc _ hr ih => exact .snoc ih (.inl ⟨_, hr⟩)

theorem smooth_full {m m' : Manager} {calls : List Call} (hI : Inv m) (hF : FullBut none m) (h : Smooth m calls m') : FullBut none m' := by
  induction h with
  | nil => exact hF
  | snoc h1 hr ih => exact full_call (hist_inv hI (smooth_history h1)) ih hr

end Tgt.Mgr
