import Verif.Spec.Sessions
import Verif.Props.Manager
import Verif.Props.Logging
/-
C76: settings can be read back.  C77: asking changes nothing.
-/
namespace Tgt
open Spec Manager Mgr POParser

namespace Mgr

/-- The current language changes only by `set_language`. -/
theorem run_lang (env : Env) (c : Call) {m m' : Manager} (h : Inv m) (hl : c.Leads env m m') :
    m'.currentLanguage = match (generalizing := false) c with | .setLanguage l => l | _ => m.currentLanguage := by
  cases c with
  | getDictionary =>
    have key : ∀ r, (Manager.getDictionary env m) = r → (match (generalizing := false) r with
        | .ok _ m' => m'.currentLanguage = m.currentLanguage
        | .exn _ m' => m'.currentLanguage = m.currentLanguage
        | .poError m' => m'.currentLanguage = m.currentLanguage
        | _ => True) := by
      intro r hr
      unfold Manager.getDictionary at hr
      simp only [prog_bind, bind_apply, Prog.get] at hr
      cases hc : m.currentDict with
      | some p => rw [hc] at hr; subst hr; rfl
      | none =>
        rw [hc] at hr
        dsimp only at hr
        by_cases hd : m.currentLanguage.isDefined = true
        · rw [if_pos hd, bind_apply] at hr
          have hp := getFor_post env env.fuel m.currentLanguage m hd h
          cases hg : Manager.getDictionaryFor env env.fuel m.currentLanguage m with
          | ok p m1 => rw [hg] at hr hp; subst hr; exact hp.2.2.2.1
          | exn w m1 => rw [hg] at hr hp; subst hr; exact hp.2.2.2.1
          | poError m1 => rw [hg] at hp; exact hp.elim
          | fault f => rw [hg] at hr; subst hr; trivial
          | diverge => rw [hg] at hr; subst hr; trivial
        · rw [if_neg hd] at hr
          subst hr; rfl
    unfold Call.Leads Call.run at hl
    simp only [prog_bind, bind_apply] at hl
    have := key _ rfl
    cases hg : Manager.getDictionary env m with
    | ok p m1 => rw [hg] at hl this; rcases hl with ⟨_, e⟩ | ⟨_, e⟩ | e <;> cases e; exact this
    | exn w m1 => rw [hg] at hl this; rcases hl with ⟨_, e⟩ | ⟨_, e⟩ | e <;> cases e; exact this
    | poError m1 => rw [hg] at hl this; rcases hl with ⟨_, e⟩ | ⟨_, e⟩ | e <;> cases e; exact this
    | fault f => rw [hg] at hl; rcases hl with ⟨_, e⟩ | ⟨_, e⟩ | e <;> cases e
    | diverge => rw [hg] at hl; rcases hl with ⟨_, e⟩ | ⟨_, e⟩ | e <;> cases e
  | getDictionaryFor l =>
    unfold Call.Leads Call.run at hl
    simp only [prog_bind, bind_apply] at hl
    cases l with
    | none =>
      cases hf : env.fuel with
      | zero => rw [hf] at hl; rcases hl with ⟨_, e⟩ | ⟨_, e⟩ | e <;> cases e
      | succ n => rw [hf] at hl; rcases hl with ⟨_, e⟩ | ⟨_, e⟩ | e <;> cases e
    | some i =>
      have hp := getFor_post env env.fuel (some i) m rfl h
      cases hg : Manager.getDictionaryFor env env.fuel (some i) m with
      | ok p m1 => rw [hg] at hl hp; rcases hl with ⟨_, e⟩ | ⟨_, e⟩ | e <;> cases e; exact hp.2.2.2.1
      | exn w m1 => rw [hg] at hl hp; rcases hl with ⟨_, e⟩ | ⟨_, e⟩ | e <;> cases e; exact hp.2.2.2.1
      | poError m1 => rw [hg] at hp; exact hp.elim
      | fault f => rw [hg] at hl; rcases hl with ⟨_, e⟩ | ⟨_, e⟩ | e <;> cases e
      | diverge => rw [hg] at hl; rcases hl with ⟨_, e⟩ | ⟨_, e⟩ | e <;> cases e
  | getLanguages =>
    unfold Call.Leads Call.run Manager.getLanguages at hl
    simp only [prog_bind, bind_apply, Prog.get] at hl
    rcases getLanguages_state env m.searchPath [] m with ⟨l, hr⟩ | ⟨w, hr⟩
    · rw [hr] at hl; rcases hl with ⟨_, e⟩ | ⟨_, e⟩ | e <;> cases e; rfl
    · rw [hr] at hl; rcases hl with ⟨_, e⟩ | ⟨_, e⟩ | e <;> cases e; rfl
  | setLanguage l =>
    obtain ⟨m1, hr, _, _, h1, _⟩ := setLanguage_inv h l
    unfold Call.Leads Call.run at hl
    simp only [prog_bind, bind_apply, hr] at hl
    rcases hl with ⟨_, e⟩ | ⟨_, e⟩ | e <;> cases e; exact h1
  | getLanguage => rcases hl with ⟨_, e⟩ | ⟨_, e⟩ | e <;> cases e; rfl
  | getUseFuzzy => rcases hl with ⟨_, e⟩ | ⟨_, e⟩ | e <;> cases e; rfl
  | setCharset s =>
    obtain ⟨m1, hr, hc, _⟩ := setCharset_ok h s
    unfold Call.Leads Call.run at hl
    simp only [prog_bind, bind_apply, hr] at hl
    rcases hl with ⟨_, e⟩ | ⟨_, e⟩ | e <;> cases e; exact hc.lang
  | setUseFuzzy b =>
    obtain ⟨m1, hr, hc, _⟩ := setUseFuzzy_ok h b
    unfold Call.Leads Call.run at hl
    simp only [prog_bind, bind_apply, hr] at hl
    rcases hl with ⟨_, e⟩ | ⟨_, e⟩ | e <;> cases e; exact hc.lang
  | addDirectory p b =>
    unfold Call.Leads Call.run at hl
    by_cases hp : p ∈ m.searchPath
    · simp only [prog_bind, bind_apply, addDirectory_known hp] at hl
      rcases hl with ⟨_, e⟩ | ⟨_, e⟩ | e <;> cases e; rfl
    · obtain ⟨m1, hr, hc, h2⟩ := addDirectory_ok h hp b
      simp only [prog_bind, bind_apply, hr] at hl
      rcases hl with ⟨_, e⟩ | ⟨_, e⟩ | e <;> cases e; exact hc.lang
  | removeDirectory p =>
    unfold Call.Leads Call.run at hl
    by_cases hp : p ∈ m.searchPath
    · obtain ⟨m1, hr, hc, h2⟩ := removeDirectory_ok h hp
      simp only [prog_bind, bind_apply, hr] at hl
      rcases hl with ⟨_, e⟩ | ⟨_, e⟩ | e <;> cases e; exact hc.lang
    · simp only [prog_bind, bind_apply, removeDirectory_unknown hp] at hl
      rcases hl with ⟨_, e⟩ | ⟨_, e⟩ | e <;> cases e; rfl
  | add id a =>
    unfold Call.Leads Call.run at hl
    cases hd : m.heap.get? id with
    | none => simp only [prog_bind, bind_apply, onDict, hd] at hl; rcases hl with ⟨_, e⟩ | ⟨_, e⟩ | e <;> cases e
    | some d => simp only [prog_bind, bind_apply, onDict, hd] at hl; rcases hl with ⟨_, e⟩ | ⟨_, e⟩ | e <;> cases e; rfl
  | setPluralForms id p =>
    unfold Call.Leads Call.run at hl
    cases hd : m.heap.get? id with
    | none => simp only [prog_bind, bind_apply, onDict, hd] at hl; rcases hl with ⟨_, e⟩ | ⟨_, e⟩ | e <;> cases e
    | some d => simp only [prog_bind, bind_apply, onDict, hd] at hl; rcases hl with ⟨_, e⟩ | ⟨_, e⟩ | e <;> cases e; rfl
  | ask id q =>
    unfold Call.Leads Call.run at hl
    cases hd : m.heap.get? id with
    | none => simp only [prog_bind, bind_apply, Manager.ask, hd] at hl; rcases hl with ⟨_, e⟩ | ⟨_, e⟩ | e <;> cases e
    | some d =>
      rcases ask_ok h env.fuel hd q with ⟨r, l, hr, hp⟩ | ⟨hr, _⟩
      · simp only [prog_bind, bind_apply, hr] at hl; rcases hl with ⟨_, e⟩ | ⟨_, e⟩ | e <;> cases e; rfl
      · simp only [prog_bind, bind_apply, hr] at hl; rcases hl with ⟨_, e⟩ | ⟨_, e⟩ | e <;> cases e

theorem lastLanguage_snoc (calls : List Call) (c : Call) :
    lastLanguage (calls ++ [c]) = match c with | .setLanguage l => l | _ => lastLanguage calls := by
  induction calls with
  | nil => cases c <;> rfl
  | cons a t ih =>
    rw [List.cons_append]
    unfold lastLanguage
    rw [List.any_append, ih]
    cases c <;> simp [List.any]

theorem lastUseFuzzy_snoc (calls : List Call) (c : Call) :
    lastUseFuzzy (calls ++ [c]) = match c with | .setUseFuzzy l => l | _ => lastUseFuzzy calls := by
  induction calls with
  | nil => cases c <;> rfl
  | cons a t ih =>
    rw [List.cons_append]
    unfold lastUseFuzzy
    rw [List.any_append, ih]
    cases c <;> simp [List.any]

end Mgr

/-- C76.  After any history of calls, `get_language()` returns the argument of the last `set_language` (an undefined language if there was none),
whatever else was called, and even if calls threw exceptions. -/
theorem C76_language (cs : Str) (calls : List Call) (m : Manager) (h : History (.init cs) calls m) :
    Manager.getLanguage m = .ok (lastLanguage calls) m := by
  have key : m.currentLanguage = lastLanguage calls := by
    induction h with
    | nil => rfl
    | snoc h1 hl ih =>
      rw [run_lang _ _ (hist_inv (inv_init cs) h1) hl, lastLanguage_snoc, ih]
  unfold Manager.getLanguage
  rw [key]

/-- C76.  After any history of calls, `get_use_fuzzy()` returns the argument of the last `set_use_fuzzy` (`true` if there was none). -/
theorem C76_use_fuzzy (cs : Str) (calls : List Call) (m : Manager) (h : History (.init cs) calls m) :
    Manager.getUseFuzzy m = .ok (lastUseFuzzy calls) m := by
  have key : m.useFuzzy = lastUseFuzzy calls := by
    induction h with
    | nil => rfl
    | @snoc calls' m1 m2 c env h1 hl ih =>
      have := congrArg Config.useFuzzy (leads_after (hist_inv (inv_init cs) h1) hl).2.2.2
      rw [lastUseFuzzy_snoc, ← ih]
      change m2.useFuzzy = _ at this
      rw [this]
      cases c with
      | addDirectory p b =>
        have e : ∀ (k : Config), (Call.configure k (.addDirectory p b)).useFuzzy = k.useFuzzy := by
          intro k
          cases b <;> (unfold Call.configure; dsimp only; split <;> rfl)
        exact e _
      | _ => rfl
  unfold Manager.getUseFuzzy
  rw [key]

-- a history
example : lastLanguage [.setLanguage (some 3), .getLanguages, .setLanguage (some 5), .setUseFuzzy false, .getUseFuzzy] = some 5 ∧
    lastUseFuzzy [.setLanguage (some 3), .getLanguages, .setLanguage (some 5), .setUseFuzzy false, .getUseFuzzy] = false ∧
    ∃ m, History (.init b!"UTF-8") [.setLanguage (some 3), .setUseFuzzy false, .setLanguage (some 5)] m :=
  ⟨rfl, rfl, _, .snoc (calls := [_, _]) (env := demoEnv) (.snoc (calls := [_]) (env := demoEnv) (.snoc (calls := []) (env := demoEnv) .nil
    (.inl ⟨.done, rfl⟩)) (.inl ⟨.done, rfl⟩)) (.inl ⟨.done, rfl⟩)⟩

/-! ### C77 -/

namespace Mgr

theorem outcome_asks {env : Env} {c : Call} (hc : c.asks = true) {m m' : Manager} {o : Outcome} (h : c.outcome env m = some (o, m')) :
    unlogged m' = unlogged m := by
  cases c with
  | getLanguages =>
    unfold Call.outcome Call.run Manager.getLanguages at h
    simp only [prog_bind, bind_apply, Prog.get] at h
    rcases getLanguages_state env m.searchPath [] m with ⟨l, hr⟩ | ⟨w, hr⟩ <;> (rw [hr] at h; cases h; rfl)
  | getLanguage => cases h; rfl
  | getUseFuzzy => cases h; rfl
  | ask id q =>
    unfold Call.outcome Call.run at h
    cases hd : m.heap.get? id with
    | none => simp only [prog_bind, bind_apply, Manager.ask, hd] at h; cases h
    | some d =>
      cases hq : q.on m.heap.get? env.fuel d m.log with
      | ok r l => simp only [prog_bind, bind_apply, Manager.ask, hd, hq] at h; cases h; rfl
      | poError l => simp only [prog_bind, bind_apply, Manager.ask, hd, hq] at h; cases h; rfl
      | exn w l => simp only [prog_bind, bind_apply, Manager.ask, hd, hq] at h; cases h; rfl
      | fault f => simp only [prog_bind, bind_apply, Manager.ask, hd, hq] at h; cases h
      | diverge => simp only [prog_bind, bind_apply, Manager.ask, hd, hq] at h; cases h
  | _ => cases hc

/-- States that differ in the log only. -/
theorem outcome_sim {m k : Manager} (h : unlogged m = unlogged k) (env : Env) (c : Call) :
    (c.outcome env m).map (fun x => (x.1, unlogged x.2)) = (c.outcome env k).map (fun x => (x.1, unlogged x.2)) := by
  rw [outcome_eq env c m, outcome_eq env c k, h]
  cases c.outcome env (unlogged k) <;> rfl

theorem answer_sim {m k : Manager} (h : unlogged m = unlogged k) (x : Env × Call) : answer m x = answer k x := by
  have := congrArg (Option.map Prod.fst) (outcome_sim h x.1 x.2)
  unfold answer
  rw [Option.map_map, Option.map_map] at this
  exact this

theorem session_sim (s : List (Env × Call)) : ∀ {m k : Manager}, unlogged m = unlogged k →
    (session m s).map (fun x => (x.1, unlogged x.2)) = (session k s).map (fun x => (x.1, unlogged x.2)) := by
  induction s with
  | nil => intro m k h; simp only [session, Option.map_some, h]
  | cons x t ih =>
    intro m k h
    obtain ⟨env, c⟩ := x
    have ho := outcome_sim h env c
    unfold session
    cases h1 : c.outcome env m with
    | none =>
      cases h2 : c.outcome env k with
      | none => rfl
      | some y => rw [h1, h2] at ho; cases ho
    | some x =>
      cases h2 : c.outcome env k with
      | none => rw [h1, h2] at ho; cases ho
      | some y =>
        rw [h1, h2] at ho
        simp only [Option.map_some, Option.some.injEq, Prod.mk.injEq] at ho
        obtain ⟨e1, e2⟩ := ho
        have := ih e2
        dsimp only
        cases h3 : session x.2 t with
        | none =>
          cases h4 : session y.2 t with
          | none => rfl
          | some b => rw [h3, h4] at this; cases this
        | some a =>
          cases h4 : session y.2 t with
          | none => rw [h3, h4] at this; cases this
          | some b =>
            rw [h3, h4] at this
            simp only [Option.map_some, Option.some.injEq, Prod.mk.injEq] at this
            simp only [Option.map_some, this.1, this.2, e1]

theorem session_cons (m : Manager) (env : Env) (c : Call) (t : List (Env × Call)) : session m ((env, c) :: t) =
    match c.outcome env m with
    | none => none
    | some (o, m') => (session m' t).map (fun x => (o :: x.1, x.2)) := rfl

theorem session_append (s t : List (Env × Call)) : ∀ m : Manager, session m (s ++ t) =
    (session m s).bind (fun x => (session x.2 t).map (fun y => (x.1 ++ y.1, y.2))) := by
  induction s with
  | nil =>
    intro m
    simp only [List.nil_append, session, Option.bind_some]
    cases session m t <;> rfl
  | cons x s ih =>
    intro m
    obtain ⟨env, c⟩ := x
    rw [List.cons_append]
    rw [session_cons, session_cons]
    cases c.outcome env m with
    | none => rfl
    | some o =>
      dsimp only
      rw [ih]
      cases session o.2 s with
      | none => rfl
      | some y =>
        simp only [Option.bind_some, Option.map_some]
        cases session y.2 t <;> rfl

end Mgr

/-- C77.  A call that only asks, if it comes back, leaves the manager and all dictionaries as they are, messages apart. -/
theorem C77_changes_nothing (env : Env) (c : Call) (hc : c.asks = true) (m m' : Manager) (o : Outcome) (h : c.outcome env m = some (o, m')) :
    m' = { m with log := m'.log } := by
  have := congrArg (fun k => { k with log := m'.log }) (outcome_asks hc h)
  exact this

/-- C77.  Any number of calls that only ask, in any order: all of them come back if each of them alone does, and each has the answer that it has alone. -/
theorem C77_any_order (m : Manager) (qs : List (Env × Call)) (hq : ∀ q ∈ qs, q.2.asks = true ∧ answer m q ≠ none) :
    ∃ os m', session m qs = some (os, m') ∧ os.map some = qs.map (answer m) ∧ m' = { m with log := m'.log } := by
  have key : ∀ (qs : List (Env × Call)) (k : Manager), unlogged k = unlogged m → (∀ q ∈ qs, q.2.asks = true ∧ answer m q ≠ none) →
      ∃ os m', session k qs = some (os, m') ∧ os.map some = qs.map (answer m) ∧ unlogged m' = unlogged m := by
    intro qs
    induction qs with
    | nil => intro k hk _; exact ⟨[], k, rfl, rfl, hk⟩
    | cons q t ih =>
      intro k hk hq
      obtain ⟨env, c⟩ := q
      obtain ⟨h1, h2⟩ := hq _ List.mem_cons_self
      have ha := answer_sim hk (env, c)
      rw [← ha] at h2
      cases ho : c.outcome env k with
      | none => exact absurd (by unfold answer; rw [ho]; rfl) h2
      | some x =>
        obtain ⟨o, k'⟩ := x
        obtain ⟨os, m', h3, h4, h5⟩ := ih k' ((outcome_asks h1 ho).trans hk) (fun q hq' => hq q (List.mem_cons_of_mem _ hq'))
        refine ⟨o :: os, m', ?_, ?_, h5⟩
        · unfold session; rw [ho]; dsimp only; rw [h3]; rfl
        · rw [List.map_cons, List.map_cons, h4, ← ha]
          congr 1
          unfold answer; rw [ho]; rfl
  obtain ⟨os, m', h1, h2, h3⟩ := key qs m rfl hq
  exact ⟨os, m', h1, h2, congrArg (fun k => { k with log := m'.log }) h3⟩

/-- C77.  Asking in the middle of any session makes no difference to it: all other calls come back with the same, and the final state is the same, messages apart. -/
theorem C77_removable (m m' : Manager) (before qs after : List (Env × Call)) (hq : ∀ q ∈ qs, q.2.asks = true) (os : List Outcome)
    (h : session m (before ++ qs ++ after) = some (os, m')) :
    ∃ o1 o2 o3 m'', os = o1 ++ o2 ++ o3 ∧ o1.length = before.length ∧ o2.length = qs.length ∧ o3.length = after.length ∧
      session m (before ++ after) = some (o1 ++ o3, m'') ∧ m' = { m'' with log := m'.log } := by
  have hlen : ∀ (s : List (Env × Call)) (m : Manager) (x : List Outcome × Manager), session m s = some x → x.1.length = s.length := by
    intro s
    induction s with
    | nil => intro m x hx; cases hx; rfl
    | cons a t ih =>
      intro m x hx
      obtain ⟨env, c⟩ := a
      unfold session at hx
      cases ho : c.outcome env m with
      | none => rw [ho] at hx; cases hx
      | some o =>
        rw [ho] at hx
        dsimp only at hx
        cases hs : session o.2 t with
        | none => rw [hs] at hx; cases hx
        | some y => rw [hs] at hx; cases hx; simp [ih _ _ hs]
  have hsame : ∀ (qs : List (Env × Call)) (m : Manager) (x : List Outcome × Manager), (∀ q ∈ qs, q.2.asks = true) → session m qs = some x →
      unlogged x.2 = unlogged m := by
    intro qs
    induction qs with
    | nil => intro m x _ hx; cases hx; rfl
    | cons a t ih =>
      intro m x hq hx
      obtain ⟨env, c⟩ := a
      unfold session at hx
      cases ho : c.outcome env m with
      | none => rw [ho] at hx; cases hx
      | some o =>
        rw [ho] at hx
        dsimp only at hx
        cases hs : session o.2 t with
        | none => rw [hs] at hx; cases hx
        | some y =>
          rw [hs] at hx
          cases hx
          exact (ih _ _ (fun q hq' => hq q (List.mem_cons_of_mem _ hq')) hs).trans (outcome_asks (hq _ List.mem_cons_self) ho)
  rw [List.append_assoc, session_append] at h
  cases h1 : session m before with
  | none => rw [h1] at h; cases h
  | some x =>
    rw [h1] at h
    dsimp only [Option.bind_some] at h
    rw [session_append] at h
    cases h2 : session x.2 qs with
    | none => rw [h2] at h; cases h
    | some y =>
      rw [h2] at h
      dsimp only [Option.bind_some] at h
      cases h3 : session y.2 after with
      | none => rw [h3] at h; cases h
      | some z =>
        rw [h3] at h
        simp only [Option.map_some, Option.some.injEq, Prod.mk.injEq] at h
        obtain ⟨e1, e2⟩ := h
        have hs := session_sim after (hsame _ _ _ hq h2)
        rw [h3] at hs
        cases h4 : session x.2 after with
        | none => rw [h4] at hs; cases hs
        | some w =>
          rw [h4] at hs
          simp only [Option.map_some, Option.some.injEq, Prod.mk.injEq] at hs
          refine ⟨x.1, y.1, z.1, w.2, by rw [← e1, List.append_assoc], hlen _ _ _ h1, hlen _ _ _ h2, hlen _ _ _ h3, ?_, ?_⟩
          · rw [session_append, h1]
            dsimp only [Option.bind_some]
            rw [h4]
            simp only [Option.map_some, hs.1]
          · rw [← e2]
            exact congrArg (fun k => { k with log := z.2.log }) hs.2

-- three questions to a manager with a current language and the dictionary of `demoEnv`, and the same in the opposite order
def demoAsks : List (Env × Call) := [(demoEnv, .ask 0 (.translate b!"dog")), (demoEnv, .getLanguage), (demoEnv, .getUseFuzzy)]

example : (∀ q ∈ demoAsks, q.2.asks = true ∧ answer (.init b!"UTF-8") q ≠ none) ∧
    (session (.init b!"UTF-8") demoAsks).map Prod.fst = some [.returned (.text b!"dog"), .returned (.language none), .returned (.flag true)] ∧
    (session (.init b!"UTF-8") demoAsks.reverse).map Prod.fst = some [.returned (.flag true), .returned (.language none), .returned (.text b!"dog")] := by
  decide +kernel

-- asking between a `set_language` and a `get_language`
example : (session (.init b!"UTF-8") ([(demoEnv, .setLanguage (some 5))] ++ demoAsks ++ [(demoEnv, .getLanguage)])).map Prod.fst =
    some [.returned .done, .returned (.text b!"dog"), .returned (.language (some 5)), .returned (.flag true), .returned (.language (some 5))] := by
  decide +kernel

end Tgt
