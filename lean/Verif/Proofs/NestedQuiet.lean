import Verif.Proofs.NestedAsk
/-
Callbacks that call nothing.
-/
namespace Tgt.Nested
open Spec Manager POParser Mgr

/-- Logging statements whose callbacks call nothing. -/
def Quiet (say : Say) : Prop := ∀ (d : Diag) (m : Manager), say d m = .ok () { m with log := m.log ++ [d] }

theorem say_quiet (env : Env) (n : Nat) : Quiet (Nested.say env listens (n + 1)) := fun _ _ => rfl

/-- No bad ending. -/
def noBad : Bad := ⟨False, fun _ => False, False⟩

theorem quiet_voice {say : Say} (hq : Quiet say) (m1 : Manager) (id : DictId) : Voice say id (fun x m => m = put m1 id x) noBad where
  dict := fun {x m} h => by subst h; exact AMap.get?_set_self _ _ _
  write := fun {x m y} h _ => by subst h; simp [put, AMap.set_set]
  say := fun {x m} d h => by subst h; rw [hq]; rfl

variable {env : Env} {say : Say}

theorem add_quiet (hq : Quiet say) (id : DictId) (a : Add) (m : Manager) : add say id a m = lift (Manager.onDict id (fun d => a.apply d)) m := by
  cases hd : m.heap.get? id with
  | none =>
    unfold lift Manager.onDict
    rw [hd]
    cases a <;> simp [add, Nested.bind, write, hd]
  | some d =>
    have h := add_sim (quiet_voice hq m id) a (d, m.log) m (by rw [put_self m id d hd])
    unfold lift Manager.onDict
    rw [hd]
    dsimp only
    cases hr : add say id a m with
    | ok u m' => rw [hr] at h; rw [show m' = _ from h]; rfl
    | exn w m' => rw [hr] at h; exact h.elim
    | terminated => rw [hr] at h; exact h.elim
    | fault f => rw [hr] at h; exact h.elim
    | diverge => rw [hr] at h; exact h.elim

/-- A lookup's result in the manager. -/
def onLog (m : Manager) : Res (List Diag) Str → Out Str
  | .ok s lg => .ok s { m with log := lg }
  | .poError lg => .exn b!"POParserError" { m with log := lg }
  | .exn w lg => .exn w { m with log := lg }
  | .fault f => .fault f
  | .diverge => .diverge

theorem bind_quiet (hq : Quiet say) {α : Type} (d : Diag) (f : Unit → N α) (m : Manager) : Nested.bind (say d) f m = f () { m with log := m.log ++ [d] } := by
  unfold Nested.bind; rw [hq]

theorem translateIn_quiet (hq : Quiet say) (m : Manager) (msgid : Str) (f : Nat) : ∀ (lg : List Diag) (id : DictId) (d : Dictionary) (e : Entries), m.heap.get? id = some d →
    translateIn say f id e msgid { m with log := lg } = onLog m (Dictionary.translateIn m.heap.get? f d e msgid lg) := by
  induction f with
  | zero => intro lg id d e _; rfl
  | succ f ih =>
    intro lg id d e hd
    have miss : (Nested.bind (say (.couldntTranslate msgid)) fun _ =>
        withDict id fun d =>
          if d.hasFallback then
            match d.fallback with
            | none => fail .nullDeref
            | some p => withDict p fun d' => translateIn say f p d'.entries msgid
          else Nested.pure msgid) { m with log := lg } = onLog m ((fun log => let log := log ++ [Diag.couldntTranslate msgid]
          if d.hasFallback then
            match d.fallback with
            | none => (.fault .nullDeref : Res (List Diag) Str)
            | some p =>
              match m.heap.get? p with
              | none => .fault .useAfterFree
              | some d' => Dictionary.translateIn m.heap.get? f d' d'.entries msgid log
          else .ok msgid log) lg) := by
      rw [bind_quiet hq, withDict_get (show ({ m with log := lg ++ [Diag.couldntTranslate msgid] } : Manager).heap.get? id = some d from hd)]
      dsimp only
      by_cases hf : d.hasFallback = true
      · rw [if_pos hf, if_pos hf]
        cases d.fallback with
        | none => rfl
        | some p =>
          dsimp only
          cases hp : m.heap.get? p with
          | none => unfold withDict; dsimp only; rw [hp]; rfl
          | some d' =>
            rw [withDict_get (show ({ m with log := lg ++ [Diag.couldntTranslate msgid] } : Manager).heap.get? p = some d' from hp)]
            exact ih _ p d' d'.entries hp
      · rw [if_neg hf, if_neg hf]; rfl
    rw [translateIn, Dictionary.translateIn]
    cases hg : e.get? msgid with
    | none => exact miss
    | some v =>
      cases v with
      | nil => exact miss
      | cons s t => rfl

theorem candidates_quiet (hq : Quiet say) (m : Manager) {id : DictId} {d : Dictionary} (hd : m.heap.get? id = some d) (ctxt : Option Str) (ks : List Str) : ∀ (lg : List Diag),
    candidates say id ctxt (entriesOf d ctxt).keys ks { m with log := lg } = .ok () { m with log := lg ++ ks.map .candidate } := by
  induction ks with
  | nil => intro lg; simp [candidates, Nested.pure]
  | cons k ks ih =>
    intro lg
    unfold candidates
    rw [bind_quiet hq, withDict_get (show ({ m with log := lg ++ [Diag.candidate k] } : Manager).heap.get? id = some d from hd), if_pos rfl]
    have := ih (lg ++ [.candidate k])
    rw [this]
    simp

theorem translatePluralIn_quiet (hq : Quiet say) (m : Manager) {id : DictId} {d : Dictionary} (hd : m.heap.get? id = some d) (ctxt : Option Str) (i p : Str) (n : Int) :
    translatePluralIn say id ctxt d i p n m = .ok (d.translatePluralIn (entriesOf d ctxt) i p n).1 { m with log := m.log ++ (d.translatePluralIn (entriesOf d ctxt) i p n).2 } := by
  unfold translatePluralIn Dictionary.translatePluralIn
  cases he : (entriesOf d ctxt).get? i with
  | some v =>
    dsimp only
    cases hv : v[d.pluralForms.getPlural n]? with
    | none =>
      dsimp only
      rw [bind_quiet hq, bind_quiet hq]
      simp [Nested.pure]
    | some s =>
      dsimp only
      split <;> simp [Nested.pure]
  | none =>
    dsimp only
    rw [bind_quiet hq, bind_quiet hq]
    dsimp only
    rw [withDict_get (show ({ m with log := m.log ++ [Diag.couldntTranslate i] ++ [Diag.candidatesHead] } : Manager).heap.get? id = some d from hd)]
    unfold Nested.bind
    rw [candidates_quiet hq m hd]
    simp [Nested.pure]

theorem lift_ask (f : Nat) {id : DictId} (q : Query) {m : Manager} {d : Dictionary} (hd : m.heap.get? id = some d) :
    lift (Manager.ask f id q) m = onLog m (q.on m.heap.get? f d m.log) := by
  unfold lift Manager.ask onLog
  rw [hd]
  dsimp only
  cases q.on m.heap.get? f d m.log <;> rfl

theorem ask_quiet (hq : Quiet say) (f : Nat) (id : DictId) (q : Query) (m : Manager) : ask say f id q m = lift (Manager.ask f id q) m := by
  cases hd : m.heap.get? id with
  | none => unfold lift Manager.ask ask withDict; rw [hd]
  | some d =>
    rw [lift_ask f q hd]
    unfold ask
    rw [withDict_get hd]
    have tr : ∀ e i, translateIn say f id e i m = onLog m (Dictionary.translateIn m.heap.get? f d e i m.log) :=
      fun e i => translateIn_quiet hq m i f m.log id d e hd
    cases q with
    | translate i => exact tr _ _
    | ctxt c i =>
      unfold Query.on Dictionary.translateCtxt
      dsimp only
      cases hc : d.ctxtEntries.get? c with
      | some e => exact tr _ _
      | none => dsimp only; rw [bind_quiet hq]; rfl
    | plural i p n => dsimp only; rw [translatePluralIn_quiet hq m hd]; rfl
    | ctxtPlural c i p n =>
      unfold Query.on Dictionary.translateCtxtPlural
      dsimp only
      cases hc : d.ctxtEntries.get? c with
      | some e =>
        have he : entriesOf d (some c) = e := by unfold entriesOf Dictionary.ctxtAt; dsimp only; rw [hc]
        dsimp only
        rw [translatePluralIn_quiet hq m hd, he]
        rfl
      | none => dsimp only; rw [bind_quiet hq]; rfl

/-! ### Loading -/

theorem short_not_long (hs : ShortFiles env) : ¬ Long env := by
  rintro ⟨p, s, h1, h2⟩
  have := hs p s h1
  omega

theorem loadDirs_quiet (hq : Quiet say) (hs : ShortFiles env) {language : Manager → Language} (hst : Steady language) {m : Manager} (hl : (language m).isDefined = true) :
    loadDirs say env m.nextId language m.searchPath m.searchPath.reverse (fresh (language m) m) =
      lift (fun _ => (dirs1 env (language m) m.searchPath.reverse (Dictionary.init m.charset, m.log)).mapS (put (fresh (language m) m) m.nextId)) m := by
  have h := loadDirs_sim (quiet_voice hq (fresh (language m) m) m.nextId) env hl (language := language)
    (fun {x m'} h => hst m m' (by subst h; rfl)) (path := m.searchPath) (fun {x m'} h => by subst h; rfl) m.searchPath.reverse (Dictionary.init m.charset, m.log)
    (fresh (language m) m) (by rw [put_self _ _ _ (fresh_heap m _)]; rfl)
  unfold lift
  cases hr : loadDirs say env m.nextId language m.searchPath m.searchPath.reverse (fresh (language m) m) with
  | ok u m' => rw [hr] at h; obtain ⟨y, h1, h2⟩ := h; rw [h1, h2]; rfl
  | exn w m' => rw [hr] at h; obtain ⟨y, h1, h2⟩ := h; rw [h1, h2]; rfl
  | terminated => rw [hr] at h; exact h.elim
  | fault f =>
    rw [hr] at h
    rcases h with h | h
    · exact h.elim
    · rw [h]; rfl
  | diverge =>
    rw [hr] at h
    rcases h with h | h | h
    · exact h.elim
    · rw [h]; rfl
    · exact (short_not_long hs h).elim

theorem getFor_quiet (hq : Quiet say) (hs : ShortFiles env) (f : Nat) : ∀ {language : Manager → Language} {m : Manager}, Steady language →
    getDictionaryFor say env f language m = lift (Manager.getDictionaryFor env f (language m)) m := by
  induction f with
  | zero => intro language m _; rfl
  | succ f ih =>
    intro language m hst
    unfold lift
    by_cases hl : (language m).isDefined = true
    · cases hn : m.dictionaries.get? (language m) with
      | some p =>
        rw [getFor_hit env f _ m hl hn]
        unfold getDictionaryFor
        rw [if_neg (by simp [hl]), hn]
      | none =>
        rw [getFor_miss env f _ m hl hn]
        unfold getDictionaryFor
        rw [if_neg (by simp [hl]), hn]
        have hnew : lift (newDict (language m)) m = .ok m.nextId (fresh (language m) m) := rfl
        dsimp only
        unfold Nested.bind
        rw [hnew]
        dsimp only
        rw [loadDirs_quiet hq hs hst hl]
        unfold lift
        cases hr : dirs1 env (language m) m.searchPath.reverse (Dictionary.init m.charset, m.log) with
        | ok u y =>
          dsimp only [Res.mapS]
          have hlm : language (put (fresh (language m) m) m.nextId y) = language m := hst m _ rfl
          rw [hlm]
          by_cases hc : (language m).getCountry = []
          · rw [if_neg (by simp [hc]), if_pos hc]
          · have hc' : (!(language m).getCountry.isEmpty) = true := by simpa using hc
            rw [if_pos hc', if_neg hc]
            have hbo : Language.fromSpec (language m).getLanguage [] [] = baseOf (language m) := rfl
            rw [hbo, ih (language := fun _ => baseOf (language m)) (fun _ _ _ => rfl)]
            unfold lift
            cases Manager.getDictionaryFor env f (baseOf (language m)) (put (fresh (language m) m) m.nextId y) with
            | ok fb m2 =>
              dsimp only
              simp only [prog_bind, bind_apply]
              unfold write Manager.addFallback
              cases m2.heap.get? m.nextId with
              | none => rfl
              | some d => rfl
            | _ => rfl
        | _ => rfl
    · unfold getDictionaryFor Manager.getDictionaryFor
      have hl' : (!(language m).isDefined) = true := by simpa using hl
      rw [if_pos hl', if_pos hl']
      rfl

theorem getDictionary_quiet (hq : Quiet say) (hs : ShortFiles env) (m : Manager) : getDictionary say env m = lift (Manager.getDictionary env) m := by
  unfold getDictionary lift Manager.getDictionary
  simp only [prog_bind, bind_apply, Prog.get]
  cases m.currentDict with
  | some p => rfl
  | none =>
    dsimp only
    by_cases hl : m.currentLanguage.isDefined = true
    · rw [if_pos hl, if_pos hl]
      unfold Nested.bind
      rw [getFor_quiet hq hs env.fuel steady_current]
      unfold lift
      simp only [bind_apply]
      cases Manager.getDictionaryFor env env.fuel m.currentLanguage m <;> rfl
    · rw [if_neg hl, if_neg hl]; rfl

theorem lift_bind {α β : Type} (p : M α) (f : α → M β) (m : Manager) : Nested.bind (lift p) (fun a => lift (f a)) m = lift (p >>= f) m := by
  unfold Nested.bind lift
  simp only [prog_bind, bind_apply]
  cases p m <;> rfl

theorem perform_quiet (hq : Quiet say) (hs : ShortFiles env) (c : Call) (m : Manager) : perform say env c m = lift (c.run env) m := by
  have use : ∀ {α : Type} {p : N α} {q : M α} (g : α → Answer), p m = lift q m →
      Nested.bind p (fun a => Nested.pure (g a)) m = lift (q >>= fun a => Prog.pure (g a)) m := by
    intro α p q g h
    rw [← lift_bind]
    unfold Nested.bind
    rw [h]
    rfl
  cases c with
  | getDictionary => exact use _ (getDictionary_quiet hq hs m)
  | getDictionaryFor l => exact use _ (getFor_quiet hq hs env.fuel (steady_const l))
  | add id a => exact use (fun _ => .done) (add_quiet hq id a m)
  | ask id q => exact use _ (ask_quiet hq env.fuel id q m)
  | _ => rfl

end Tgt.Nested
