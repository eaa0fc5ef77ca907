import Verif.Spec.Logging
import Verif.Props.ManagerMore
/-
C58: logging is passive.
-/
namespace Tgt
open Spec Manager Mgr POParser

/-! ### The library never looks at what was logged -/

/-- Prepend messages to the log. -/
def logged (L : List Diag) (m : Manager) : Manager := { m with log := L ++ m.log }

/-- Code that ignores the log and only adds to it. -/
def Oblivious {α : Type} (p : M α) : Prop := ∀ L m, p (logged L m) = (p m).mapS (logged L)

namespace Oblivious
variable {α β : Type}

theorem pure (a : α) : Oblivious (Prog.pure a) := fun _ _ => rfl
theorem fault (f : Fault) : Oblivious (Prog.fault f : M α) := fun _ _ => rfl
theorem diverge : Oblivious (Prog.diverge : M α) := fun _ _ => rfl
theorem throwExn (w : Str) : Oblivious (Prog.throwExn w : M α) := fun _ _ => rfl

theorem bind {p : M α} {f : α → M β} (hp : Oblivious p) (hf : ∀ a, Oblivious (f a)) : Oblivious (p >>= f) := by
  intro L m
  show Prog.bind p f _ = (Prog.bind p f m).mapS _
  unfold Prog.bind
  rw [hp L m]
  cases h : p m with
  | ok a s => exact hf a L s
  | poError s => rfl
  | exn w s => rfl
  | fault e => rfl
  | diverge => rfl

theorem getBind {f : Manager → M β} (hf : ∀ m, Oblivious (f m)) (hl : ∀ L m, f (logged L m) = f m) :
    Oblivious (Prog.get >>= f) := by
  intro L m
  show f (logged L m) (logged L m) = (f m m).mapS _
  rw [hl, hf]

theorem modify {f : Manager → Manager} (h : ∀ L m, f (logged L m) = logged L (f m)) : Oblivious (Prog.modify f) := by
  intro L m
  show Res.ok () (f (logged L m)) = Res.ok () (logged L (f m))
  rw [h]

end Oblivious

theorem obl_emit (d : List Diag) : Oblivious (Manager.emit d) := by
  intro L m
  simp [Manager.emit, logged, Res.mapS]

theorem obl_deleteDict (p : DictId) : Oblivious (deleteDict p) := by
  intro L m
  unfold deleteDict logged
  dsimp only
  cases m.heap.get? p <;> rfl

theorem obl_deleteAll (t : AMap Language DictId) : Oblivious (deleteAll t) := by
  induction t with
  | nil => exact .pure ()
  | cons x t ih => exact .bind (obl_deleteDict x.2) (fun _ => ih)

theorem obl_clearCache : Oblivious clearCache :=
  .getBind (fun _ => .bind (obl_deleteAll _) (fun _ => .modify (fun _ _ => rfl))) (fun _ _ => rfl)

theorem obl_scanFiles (env : Env) (l : Language) (files : List Str) : ∀ best, Oblivious (scanFiles env l files best) := by
  induction files with
  | nil => exact fun best => .pure best
  | cons f t ih =>
    intro best
    unfold scanFiles
    split
    · split
      · exact .throwExn _
      · dsimp only
        split
        · exact .bind (obl_emit _) (fun _ => ih best)
        · split
          · exact ih _
          · exact ih _
    · exact ih best

theorem obl_parseInto (env : Env) (id : DictId) (f : Str) (s : Stream) : Oblivious (parseInto env id f s) := by
  intro L m
  unfold parseInto logged
  dsimp only
  cases m.heap.get? id with
  | none => rfl
  | some d =>
    dsimp only
    cases POParser.parse ⟨env.ct, env.lib, env.pedantic, f, true, env.fuel⟩ s d <;> simp [Res.mapS]

theorem obl_loadFile (env : Env) (id : DictId) (dir f : Str) : Oblivious (loadFile env id dir f) := by
  unfold loadFile
  split
  · dsimp only
    split
    · exact obl_emit _
    · exact obl_emit _
    · exact obl_parseInto _ _ _ _
  · exact .pure ()

theorem obl_loadDirs (env : Env) (id : DictId) (l : Language) (dirs : List Str) : Oblivious (loadDirs env id l dirs) := by
  induction dirs with
  | nil => exact .pure ()
  | cons d t ih =>
    unfold loadDirs
    split
    · exact .throwExn _
    · exact .bind (obl_scanFiles _ _ _ _) (fun b => .bind (obl_loadFile _ _ _ _) (fun _ => ih))

theorem obl_newDict (l : Language) : Oblivious (newDict l) := fun _ _ => rfl

theorem obl_addFallback (id fb : DictId) : Oblivious (addFallback id fb) := by
  intro L m
  unfold addFallback logged
  dsimp only
  cases m.heap.get? id <;> rfl

theorem obl_getFor (env : Env) (n : Nat) : ∀ l, Oblivious (getDictionaryFor env n l) := by
  induction n with
  | zero => exact fun l => .diverge
  | succ n ih =>
    intro l
    unfold getDictionaryFor
    split
    · exact .fault _
    · refine .getBind (fun m => ?_) (fun _ _ => rfl)
      split
      · exact .pure _
      · refine .bind (obl_newDict l) (fun id => .bind (obl_loadDirs _ _ _ _) (fun _ => .bind ?_ (fun _ => .pure _)))
        split
        · exact .bind (ih _) (fun fb => obl_addFallback _ _)
        · exact .pure ()

theorem obl_getDictionary (env : Env) : Oblivious (getDictionary env) := by
  refine .getBind (fun m => ?_) (fun _ _ => rfl)
  split
  · exact .pure _
  · split
    · exact .bind (obl_getFor _ _ _) (fun p => .bind (.modify (fun _ _ => rfl)) (fun _ => .pure _))
    · exact .pure _

theorem obl_collectDirs (env : Env) (dirs : List Str) : ∀ acc, Oblivious (collectDirs env dirs acc) := by
  induction dirs with
  | nil => exact fun acc => .pure acc
  | cons d t ih =>
    intro acc
    unfold collectDirs
    split
    · exact .throwExn _
    · exact ih _

theorem obl_getLanguages (env : Env) : Oblivious (getLanguages env) :=
  .getBind (fun _ => obl_collectDirs _ _ _) (fun _ _ => rfl)

theorem obl_setLanguage (l : Language) : Oblivious (setLanguage l) := by
  intro L m
  unfold setLanguage logged
  dsimp only
  split <;> rfl

theorem obl_onDict (id : DictId) (f : Dictionary → Dictionary × List Diag) : Oblivious (onDict id f) := by
  intro L m
  unfold onDict logged
  dsimp only
  cases m.heap.get? id <;> simp [Res.mapS]

theorem translateIn_logged (heap : DictId → Option Dictionary) (n : Nat) : ∀ (d : Dictionary) (e : Entries) (i : Str) (L l : List Diag),
    d.translateIn heap n e i (L ++ l) = (d.translateIn heap n e i l).mapS (L ++ ·) := by
  induction n with
  | zero => intros; rfl
  | succ n ih =>
    intro d e i L l
    have step : ∀ (d : Dictionary) (i : Str) (L l : List Diag),
        (if d.hasFallback = true then
          match d.fallback with
          | none => .fault .nullDeref
          | some p =>
            match heap p with
            | none => .fault .useAfterFree
            | some d' => Dictionary.translateIn heap n d' d'.entries i ((L ++ l) ++ [.couldntTranslate i])
        else .ok i ((L ++ l) ++ [.couldntTranslate i]) : Res (List Diag) Str) =
        (if d.hasFallback = true then
          match d.fallback with
          | none => .fault .nullDeref
          | some p =>
            match heap p with
            | none => .fault .useAfterFree
            | some d' => Dictionary.translateIn heap n d' d'.entries i (l ++ [.couldntTranslate i])
        else .ok i (l ++ [.couldntTranslate i]) : Res (List Diag) Str).mapS (L ++ ·) := by
      intro d i L l
      cases d.hasFallback with
      | false => simp [Res.mapS]
      | true =>
        simp only [if_true]
        cases d.fallback with
        | none => rfl
        | some p =>
          dsimp only
          cases heap p with
          | none => rfl
          | some d' =>
            dsimp only
            rw [List.append_assoc]
            exact ih _ _ _ _ _
    unfold Dictionary.translateIn
    cases e.get? i with
    | none => exact step d i L l
    | some v =>
      cases v with
      | nil => exact step d i L l
      | cons s t => rfl

theorem query_logged (heap : DictId → Option Dictionary) (n : Nat) (d : Dictionary) (q : Query) (L l : List Diag) :
    q.on heap n d (L ++ l) = (q.on heap n d l).mapS (L ++ ·) := by
  cases q with
  | translate i => exact translateIn_logged _ _ _ _ _ _ _
  | plural i p k => simp [Query.on, Res.mapS]
  | ctxt c i =>
    show d.translateCtxt heap n c i _ = (d.translateCtxt heap n c i l).mapS _
    unfold Dictionary.translateCtxt
    cases d.ctxtEntries.get? c with
    | some e => exact translateIn_logged _ _ _ _ _ _ _
    | none => simp [Res.mapS]
  | ctxtPlural c i p k => simp [Query.on, Res.mapS]

theorem obl_ask (n : Nat) (id : DictId) (q : Query) : Oblivious (Manager.ask n id q) := by
  intro L m
  unfold Manager.ask logged
  dsimp only
  cases m.heap.get? id with
  | none => rfl
  | some d =>
    dsimp only
    rw [query_logged]
    cases q.on m.heap.get? n d m.log <;> rfl

/-- C58.  A call does the same whatever has been logged before, and only adds to the log. -/
theorem obl_run (env : Env) (c : Call) : Oblivious (c.run env) := by
  cases c with
  | getDictionary => exact .bind (obl_getDictionary _) (fun _ => .pure _)
  | getDictionaryFor l => exact .bind (obl_getFor _ _ _) (fun _ => .pure _)
  | getLanguages => exact .bind (obl_getLanguages _) (fun _ => .pure _)
  | setLanguage l => exact .bind (obl_setLanguage _) (fun _ => .pure _)
  | getLanguage => exact fun _ _ => rfl
  | setCharset s => exact .bind (.bind obl_clearCache (fun _ => .modify (fun _ _ => rfl))) (fun _ => .pure _)
  | setUseFuzzy b => exact .bind (.bind obl_clearCache (fun _ => .modify (fun _ _ => rfl))) (fun _ => .pure _)
  | getUseFuzzy => exact fun _ _ => rfl
  | addDirectory p b =>
    refine .bind (.getBind (fun m => ?_) (fun _ _ => rfl)) (fun _ => .pure _)
    split
    · exact .pure ()
    · exact .bind obl_clearCache (fun _ => .modify (fun _ _ => rfl))
  | removeDirectory p =>
    refine .bind (.getBind (fun m => ?_) (fun _ _ => rfl)) (fun _ => .pure _)
    split
    · exact .bind obl_clearCache (fun _ => .modify (fun _ _ => rfl))
    · exact .pure ()
  | add id a => exact .bind (obl_onDict _ _) (fun _ => .pure _)
  | setPluralForms id p => exact .bind (obl_onDict _ _) (fun _ => .pure _)
  | ask id q => exact .bind (obl_ask _ _ _) (fun _ => .pure _)

theorem outcome_logged (env : Env) (c : Call) (L : List Diag) (m : Manager) :
    c.outcome env (logged L m) = (c.outcome env m).map (fun x => (x.1, logged L x.2)) := by
  unfold Call.outcome
  rw [obl_run env c L m]
  cases c.run env m <;> rfl

theorem logged_unlogged (m : Manager) : logged m.log (unlogged m) = m := by simp [logged, unlogged]

theorem outcome_eq (env : Env) (c : Call) (m : Manager) :
    c.outcome env m = (c.outcome env (unlogged m)).map (fun x => (x.1, logged m.log x.2)) := by
  rw [← outcome_logged, logged_unlogged]

/-! ### Sessions -/

variable {κ κ' : Type}

theorem step_call (react : κ → Str → Callbacks κ → Callbacks κ) (w : World κ) (env : Env) (c : Call) :
    w.step react (.call env c) = (c.outcome env (unlogged w.manager)).map (fun x =>
      ([x.1], ⟨{ x.2 with log := w.manager.log ++ (sayAll react w.logger x.2.log).2 }, (sayAll react w.logger x.2.log).1⟩)) := by
  simp only [World.step]
  rw [outcome_eq]
  cases c.outcome env (unlogged w.manager) with
  | none => rfl
  | some x => simp [logged]

/-- A session without any logging. -/
def runCalls : Manager → List (Env × Call) → Option (List Outcome × Manager)
  | m, [] => some ([], m)
  | m, (env, c) :: t =>
    match c.outcome env m with
    | none => none
    | some (o, m') => (runCalls (unlogged m') t).map (fun x => (o :: x.1, x.2))

theorem visible_run (react : κ → Str → Callbacks κ → Callbacks κ) (ss : List (Step κ)) : ∀ (w : World κ),
    visible (w.run react ss) = runCalls (unlogged w.manager) (callsOf ss) := by
  induction ss with
  | nil => intro w; rfl
  | cons s ss ih =>
    intro w
    cases s with
    | setCallback lv k =>
      have := ih ⟨w.manager, ⟨w.logger.callbacks.set k lv, w.logger.calls⟩⟩
      show visible (match World.run react ⟨w.manager, ⟨w.logger.callbacks.set k lv, w.logger.calls⟩⟩ ss with
        | none => none
        | some (os', w'') => some ([] ++ os', w'')) = _
      rw [show callsOf (Step.setCallback lv k :: ss) = callsOf ss from rfl]
      rw [← this]
      cases World.run react ⟨w.manager, ⟨w.logger.callbacks.set k lv, w.logger.calls⟩⟩ ss <;> rfl
    | call env c =>
      unfold World.run
      rw [step_call, show callsOf (Step.call env c :: ss) = (env, c) :: callsOf ss from rfl, runCalls]
      cases c.outcome env (unlogged w.manager) with
      | none => rfl
      | some x =>
        dsimp only [Option.map_some]
        have := ih ⟨{ x.2 with log := w.manager.log ++ (sayAll react w.logger x.2.log).2 }, (sayAll react w.logger x.2.log).1⟩
        rw [show unlogged x.2 = unlogged { x.2 with log := w.manager.log ++ (sayAll react w.logger x.2.log).2 } from rfl, ← this]
        cases World.run react ⟨{ x.2 with log := w.manager.log ++ (sayAll react w.logger x.2.log).2 },
          (sayAll react w.logger x.2.log).1⟩ ss <;> rfl

/-- C58.  Two sessions with the same calls come back with the same outcomes and leave the manager (log apart) in the same state, whatever
callbacks are installed before and during the two sessions and whatever those callbacks do to each other. -/
theorem C58_passive (react : κ → Str → Callbacks κ → Callbacks κ) (react' : κ' → Str → Callbacks κ' → Callbacks κ')
    (ss : List (Step κ)) (ss' : List (Step κ')) (w : World κ) (w' : World κ') (hc : callsOf ss = callsOf ss')
    (hm : unlogged w.manager = unlogged w'.manager) : visible (w.run react ss) = visible (w'.run react' ss') := by
  rw [visible_run, visible_run, hc, hm]

theorem sayAll_append (react : κ → Str → Callbacks κ → Callbacks κ) (l1 : List Diag) : ∀ (l : Logger κ) (l2 : List Diag),
    (sayAll react l (l1 ++ l2)).1 = (sayAll react (sayAll react l l1).1 l2).1 := by
  induction l1 with
  | nil => intros; rfl
  | cons d t ih => intro l l2; exact ih _ _

theorem sayAll_calls (react : κ → Str → Callbacks κ → Callbacks κ) (ds : List Diag) : ∀ (l : Logger κ),
    ∃ new, (sayAll react l ds).1.calls = l.calls ++ new ∧ (new.map Prod.snd).Sublist (ds.map Diag.text) := by
  induction ds with
  | nil => intro l; exact ⟨[], by simp [sayAll], .slnil⟩
  | cons d t ih =>
    intro l
    obtain ⟨new, h1, h2⟩ := ih (l.say react d)
    simp only [sayAll]
    rw [h1]
    unfold Logger.say
    cases l.callbacks.installed d.level with
    | none => exact ⟨new, rfl, .cons _ h2⟩
    | some k => exact ⟨(k, d.text) :: new, by simp, .cons_cons _ h2⟩

theorem sayAll_constant (ds : List Diag) : ∀ (l : Logger κ),
    (sayAll (fun _ _ c => c) l ds).1 = ⟨l.callbacks, l.calls ++ ds.filterMap (fun d => (l.callbacks.installed d.level).map (·, d.text))⟩ := by
  induction ds with
  | nil => intro l; simp [sayAll]
  | cons d t ih =>
    intro l
    simp only [sayAll]
    rw [ih]
    unfold Logger.say
    cases h : l.callbacks.installed d.level with
    | none => simp [h]
    | some k => simp [h]

theorem listener_eq (c : Callbacks κ) (lv : Level) : listener c lv = c.installed lv := by cases lv <;> rfl

/-- C58.  The messages of a call: each is delivered exactly once, in order, to the callback of its channel — and dropped if there is none — when
callbacks leave the settings alone. -/
theorem C58_delivered (w w' : World κ) (env : Env) (c : Call) (os : List Outcome) (h : w.step (fun _ _ c => c) (.call env c) = some (os, w')) :
    w'.logger.callbacks = w.logger.callbacks ∧
      w'.logger.calls = w.logger.calls ++
        (c.messages env w.manager).filterMap (fun d => (listener w.logger.callbacks d.level).map (·, d.text)) := by
  simp only [listener_eq]
  rw [step_call] at h
  unfold Call.messages
  cases hx : c.outcome env (unlogged w.manager) with
  | none => rw [hx] at h; cases h
  | some x =>
    rw [hx] at h
    obtain ⟨rfl, rfl⟩ := Prod.mk.inj (Option.some.inj h)
    dsimp only
    rw [sayAll_constant]
    exact ⟨rfl, rfl⟩

/-- C58, also for callbacks that install other callbacks: every single message of a call goes, in its turn and once, to the callback that is
installed for its channel at that time, if any. -/
theorem C58_each (react : κ → Str → Callbacks κ → Callbacks κ) (w w' : World κ) (env : Env) (c : Call) (os : List Outcome)
    (h : w.step react (.call env c) = some (os, w')) (before after : List Diag) (d : Diag) (hd : c.messages env w.manager = before ++ d :: after) :
    ∃ earlier later, w'.logger.calls = w.logger.calls ++ earlier ++
        (match listener (sayAll react w.logger before).1.callbacks d.level with
        | none => []
        | some k => [(k, d.text)]) ++ later ∧
      (earlier.map Prod.snd).Sublist (before.map Diag.text) ∧ (later.map Prod.snd).Sublist (after.map Diag.text) := by
  simp only [listener_eq]
  rw [step_call] at h
  unfold Call.messages at hd
  cases hx : c.outcome env (unlogged w.manager) with
  | none => rw [hx] at h; cases h
  | some x =>
    rw [hx] at h hd
    obtain ⟨rfl, rfl⟩ := Prod.mk.inj (Option.some.inj h)
    dsimp only at hd ⊢
    obtain ⟨e, he, hs⟩ := sayAll_calls react before w.logger
    rw [hd, sayAll_append]
    simp only [sayAll, Logger.say]
    cases (sayAll react w.logger before).1.callbacks.installed d.level with
    | none =>
      obtain ⟨l, hl, ht⟩ := sayAll_calls react after (sayAll react w.logger before).1
      exact ⟨e, l, by dsimp only; rw [hl, he]; simp, hs, ht⟩
    | some k =>
      obtain ⟨l, hl, ht⟩ := sayAll_calls react after ⟨react k d.text (sayAll react w.logger before).1.callbacks, (sayAll react w.logger before).1.calls ++ [(k, d.text)]⟩
      exact ⟨e, l, by dsimp only; rw [hl, he], hs, ht⟩

/-- C58.  Setting a callback makes it the listener of that level, leaves the other levels alone, calls nobody and does not touch the manager. -/
theorem C58_set (react : κ → Str → Callbacks κ → Callbacks κ) (w : World κ) (lv : Level) (k : Option κ) :
    ∃ w', w.step react (.setCallback lv k) = some ([], w') ∧ w'.manager = w.manager ∧ w'.logger.calls = w.logger.calls ∧
      ∀ lv', listener w'.logger.callbacks lv' = if lv' = lv then k else listener w.logger.callbacks lv' := by
  refine ⟨_, rfl, rfl, rfl, fun lv' => ?_⟩
  cases lv <;> cases lv' <;> rfl

/-- C58.  With all callbacks null nothing is delivered. -/
theorem C58_null (react : κ → Str → Callbacks κ → Callbacks κ) (w w' : World κ) (env : Env) (c : Call) (os : List Outcome)
    (h : w.step react (.call env c) = some (os, w')) (hn : w.logger.callbacks = ⟨none, none, none⟩) : w'.logger = w.logger := by
  rw [step_call] at h
  cases hx : c.outcome env (unlogged w.manager) with
  | none => rw [hx] at h; cases h
  | some x =>
    rw [hx] at h
    obtain ⟨rfl, rfl⟩ := Prod.mk.inj (Option.some.inj h)
    dsimp only
    have : ∀ ds, (sayAll react w.logger ds).1 = w.logger := by
      intro ds
      induction ds with
      | nil => rfl
      | cons d t ih =>
        have hi : w.logger.callbacks.installed d.level = none := by rw [hn]; cases d.level <;> rfl
        simp only [sayAll, Logger.say, hi]
        exact ih
    exact this _

-- the info callback is installed in the middle of the session (the Austrian dictionary and its fallback both report); the
-- outcomes are those of a session with the default callback 0 everywhere
example :
    let before : List (Step Nat) := [.call demoEnv (.addDirectory b!"hi" false), .call demoEnv (.getDictionaryFor atLang),
      .call demoEnv (.ask 1 (.translate b!"unheard"))]
    let after : List (Step Nat) := [.call demoEnv (.ask 1 (.translate b!"nothing"))]
    let run := fun (cb : Callbacks Nat) s => (World.mk (.init b!"UTF-8") ⟨cb, []⟩).run (fun _ _ c => c) s
    (run ⟨none, none, some 7⟩ (before ++ [.setCallback .info (some 4)] ++ after)).map (fun x => (x.1.length, x.2.logger.calls)) =
        some (4, [(4, b!"Couldn't translate: nothing" ++ [10]), (4, b!"Couldn't translate: nothing" ++ [10])]) ∧
      visible (run ⟨none, none, some 7⟩ (before ++ [.setCallback .info (some 4)] ++ after)) =
        visible (run (.default 0) (before ++ after)) := by
  decide +kernel

/-! ### Callbacks that throw -/

theorem sayAll_extends (react : κ → Str → Callbacks κ → Callbacks κ) (ds : List Diag) (l : Logger κ) :
    ∃ new, (sayAll react l ds).1.calls = l.calls ++ new :=
  let ⟨new, h, _⟩ := sayAll_calls react ds l
  ⟨new, h⟩

theorem deliverAll_eq (react : κ → Str → Callbacks κ → Callbacks κ) (throws : κ → Str → Bool) (ds : List Diag) : ∀ (l : Logger κ) (new : List (κ × Str)),
    (sayAll react l ds).1.calls = l.calls ++ new →
    ((∀ x ∈ new, throws x.1 x.2 = false) → deliverAll react throws l ds = .ok (sayAll react l ds).1) ∧
    (∀ pre x post, new = pre ++ x :: post → (∀ y ∈ pre, throws y.1 y.2 = false) → throws x.1 x.2 = true →
      deliverAll react throws l ds = .error (l.calls ++ pre ++ [x])) := by
  induction ds with
  | nil =>
    intro l new h
    have : new = [] := by simpa [sayAll] using h
    subst this
    exact ⟨fun _ => rfl, fun pre x post h => by simp at h⟩
  | cons d ds ih =>
    intro l new h
    simp only [sayAll] at h
    unfold deliverAll Logger.deliver
    simp only [sayAll]
    unfold Logger.say at h ⊢
    cases hi : l.callbacks.installed d.level with
    | none =>
      rw [hi] at h
      exact ih l new h
    | some k =>
      rw [hi] at h
      dsimp only at h ⊢
      obtain ⟨new', hn'⟩ := sayAll_extends react ds ⟨react k d.text l.callbacks, l.calls ++ [(k, d.text)]⟩
      have hnew : new = (k, d.text) :: new' := by
        rw [hn'] at h
        dsimp only at h
        rw [List.append_assoc] at h
        exact (List.append_cancel_left h).symm
      subst hnew
      obtain ⟨h1, h2⟩ := ih _ new' hn'
      refine ⟨fun hall => ?_, ?_⟩
      · rw [if_neg (by simp [show throws k d.text = false from hall (k, d.text) (by simp)])]
        exact h1 (fun x hx => hall x (by simp [hx]))
      · intro pre x post he hpre hx
        cases pre with
        | nil =>
          injection he with he _
          subst he
          rw [if_pos hx]
          simp
        | cons y pre =>
          injection he with he1 he2
          subst he1
          rw [if_neg (by simp [show throws k d.text = false from hpre (k, d.text) (by simp)])]
          dsimp only
          rw [h2 pre x post he2 (fun y hy => hpre y (by simp [hy])) hx]
          simp

theorem run_extends (react : κ → Str → Callbacks κ → Callbacks κ) (ss : List (Step κ)) : ∀ (w w' : World κ) (os : List Outcome),
    w.run react ss = some (os, w') → ∃ new, w'.logger.calls = w.logger.calls ++ new := by
  induction ss with
  | nil => intro w w' os h; cases h; exact ⟨[], by simp⟩
  | cons s ss ih =>
    intro w w' os h
    unfold World.run at h
    split at h
    · cases h
    · rename_i os1 w1 h1
      split at h
      · cases h
      · rename_i os2 w2 h2
        cases h
        obtain ⟨n2, e2⟩ := ih _ _ _ h2
        cases s with
        | setCallback lv k => cases h1; exact ⟨n2, e2⟩
        | call env c =>
          simp only [World.step] at h1
          split at h1
          · cases h1
          · cases h1
            obtain ⟨n1, e1⟩ := sayAll_extends react _ w.logger
            exact ⟨n1 ++ n2, by rw [e2]; dsimp only; rw [e1, List.append_assoc]⟩

/-- C73.  A log callback that throws: take any session that comes to its end if no callback throws, and let `new` be the callback calls it
makes.  If no callback throws on any of them, the session is the same.  Otherwise the process ends at the first of them on which a
callback throws: exactly the calls up to it were made, the calls before came back as in the other session, and no call comes back with the
exception of a callback. -/
theorem C73_throwing_callback (react : κ → Str → Callbacks κ → Callbacks κ) (throws : κ → Str → Bool) (w w' : World κ) (ss : List (Step κ))
    (os : List Outcome) (h : w.run react ss = some (os, w')) (new : List (κ × Str)) (hnew : w'.logger.calls = w.logger.calls ++ new) :
    ((∀ x ∈ new, throws x.1 x.2 = false) → w.runT react throws ss = .finished os w') ∧
    (∀ pre x post, new = pre ++ x :: post → (∀ y ∈ pre, throws y.1 y.2 = false) → throws x.1 x.2 = true →
      ∃ os', os' <+: os ∧ os'.length < os.length ∧ w.runT react throws ss = .terminated os' (w.logger.calls ++ pre ++ [x])) := by
  induction ss generalizing w os new with
  | nil =>
    cases h
    have : new = [] := by simpa using hnew
    subst this
    exact ⟨fun _ => rfl, fun pre x post h => by simp at h⟩
  | cons s ss ih =>
    unfold World.run at h
    split at h
    · cases h
    · rename_i os1 w1 h1
      split at h
      · cases h
      · rename_i os2 w2 h2
        cases h
        cases s with
        | setCallback lv k =>
          cases h1
          exact ih _ _ h2 new hnew
        | call env c =>
          simp only [World.step] at h1
          split at h1
          · cases h1
          · rename_i o m' hm
            cases h1
            obtain ⟨n1, e1⟩ := sayAll_extends react (m'.log.drop w.manager.log.length) w.logger
            obtain ⟨n2, e2⟩ := run_extends react ss _ _ _ h2
            have hnn : new = n1 ++ n2 := by
              rw [e2] at hnew
              dsimp only at hnew
              rw [e1, List.append_assoc] at hnew
              exact (List.append_cancel_left hnew).symm
            subst hnn
            obtain ⟨d1, d2⟩ := deliverAll_eq react throws _ w.logger n1 e1
            obtain ⟨i1, i2⟩ := ih _ _ h2 n2 e2
            unfold World.runT
            rw [hm]
            dsimp only
            refine ⟨fun hall => ?_, ?_⟩
            · rw [d1 (fun x hx => hall x (by simp [hx]))]
              dsimp only
              rw [i1 (fun x hx => hall x (by simp [hx]))]
              rfl
            · intro pre x post he hpre hx
              rcases List.append_eq_append_iff.1 he with ⟨a, ha, hb⟩ | ⟨a, ha, hb⟩
              · -- the first call on which a callback throws belongs to a later step
                subst ha
                rw [d1 (fun y hy => hpre y (by simp [hy]))]
                obtain ⟨os', p1, p2, p3⟩ := i2 a x post hb (fun y hy => hpre y (by simp [hy])) hx
                refine ⟨o :: os', ?_, ?_, ?_⟩
                · obtain ⟨t, ht⟩ := p1
                  exact ⟨t, by rw [← ht]; rfl⟩
                · simpa using p2
                · dsimp only
                  rw [p3]
                  dsimp only
                  rw [e1]; simp
              · cases a with
                | nil =>
                  simp only [List.append_nil] at ha
                  subst ha
                  rw [d1 hpre]
                  obtain ⟨os', p1, p2, p3⟩ := i2 [] x post hb.symm (by simp) hx
                  refine ⟨o :: os', ?_, ?_, ?_⟩
                  · obtain ⟨t, ht⟩ := p1
                    exact ⟨t, by rw [← ht]; rfl⟩
                  · simpa using p2
                  · dsimp only
                    rw [p3]
                    dsimp only
                    rw [e1]; simp
                | cons y a =>
                  injection hb with hb1 hb2
                  subst hb1
                  rw [d2 pre x a ha hpre hx]
                  exact ⟨[], List.nil_prefix, by simp, rfl⟩

-- a session in which the second message makes the callback throw
example :
    let ss : List (Step Nat) := [.call demoEnv (.addDirectory b!"hi" false), .call demoEnv (.getDictionaryFor atLang),
      .setCallback .info (some 4), .call demoEnv (.ask 1 (.translate b!"fine")), .call demoEnv (.ask 1 (.translate b!"nothing")),
      .call demoEnv (.ask 1 (.translate b!"never"))]
    (match (World.mk (.init b!"UTF-8") ⟨⟨none, none, some 7⟩, []⟩).runT (fun _ _ c => c) (fun _ t => t == b!"Couldn't translate: nothing" ++ [10]) ss with
      | .terminated os calls => some (os.length, calls)
      | _ => none) =
        some (3, [(4, b!"Couldn't translate: fine" ++ [10]), (4, b!"Couldn't translate: fine" ++ [10]), (4, b!"Couldn't translate: nothing" ++ [10])]) := by
  decide +kernel

end Tgt
