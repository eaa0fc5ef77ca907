import Verif.Props.Sessions
import Verif.Spec.Renewal
/-
C100: after a change of the configuration a manager is as good as new.
-/
namespace Tgt
open Spec Manager Mgr POParser

/-! ### Addresses do not matter -/

/-- Apply a function to the value of a result. -/
def Res.mapV {σ α β : Type} (g : α → β) : Res σ α → Res σ β
  | .ok a s => .ok (g a) s
  | .poError s => .poError s
  | .exn w s => .exn w s
  | .fault f => .fault f
  | .diverge => .diverge

namespace Mgr

theorem later_inj {k : Nat} {p q : DictId} (h : later k p = later k q) : p = q := by
  unfold later at h
  split at h <;> split at h <;> omega

theorem later_pos {k : Nat} {p : DictId} (h : 0 < p) : later k p = p + k := if_neg (by omega)

/-- A dictionary with its fallback at the other address. -/
def laterD (k : Nat) (d : Dictionary) : Dictionary := { d with fallback := d.fallback.map (later k) }

/-- A manager with all dictionaries at other addresses. -/
def laterM (k : Nat) (F : List DictId) (m : Manager) : Manager :=
  { m with dictionaries := m.dictionaries.map (fun x => (x.1, later k x.2))
           currentDict := m.currentDict.map (later k)
           heap := m.heap.map (fun x => (later k x.1, laterD k x.2))
           nextId := m.nextId + k
           freed := m.freed.map (later k) ++ F }

theorem dicts_get (k : Nat) (t : AMap Language DictId) (l : Language) :
    AMap.get? (t.map (fun x => (x.1, later k x.2)) : AMap Language DictId) l = (t.get? l).map (later k) := by
  induction t with
  | nil => rfl
  | cons x t ih =>
    obtain ⟨a, p⟩ := x
    show (if a = l then some (later k p) else AMap.get? (t.map _ : AMap Language DictId) l) = _
    rw [AMap.get?, ih]
    split <;> rfl

theorem dicts_set (k : Nat) (t : AMap Language DictId) (l : Language) (p : DictId) :
    AMap.set (t.map (fun x => (x.1, later k x.2)) : AMap Language DictId) l (later k p) = (t.set l p).map (fun x => (x.1, later k x.2)) := by
  induction t with
  | nil => rfl
  | cons x t ih =>
    obtain ⟨a, q⟩ := x
    show (if a = l then _ else _) = _
    rw [AMap.set]
    split
    · rfl
    · show (a, later k q) :: AMap.set (t.map _ : AMap Language DictId) l (later k p) = _
      rw [ih]; rfl

theorem heap_get (k : Nat) (h : AMap DictId Dictionary) (p : DictId) :
    AMap.get? (h.map (fun x => (later k x.1, laterD k x.2)) : AMap DictId Dictionary) (later k p) = (h.get? p).map (laterD k) := by
  induction h with
  | nil => rfl
  | cons x t ih =>
    obtain ⟨a, d⟩ := x
    show (if later k a = later k p then some (laterD k d) else AMap.get? (t.map _ : AMap DictId Dictionary) (later k p)) = _
    rw [AMap.get?, ih]
    by_cases e : a = p
    · rw [if_pos e, if_pos (by rw [e])]; rfl
    · rw [if_neg e, if_neg (fun e' => e (later_inj e'))]

theorem heap_set (k : Nat) (h : AMap DictId Dictionary) (p : DictId) (d : Dictionary) :
    AMap.set (h.map (fun x => (later k x.1, laterD k x.2)) : AMap DictId Dictionary) (later k p) (laterD k d)
      = (h.set p d).map (fun x => (later k x.1, laterD k x.2)) := by
  induction h with
  | nil => rfl
  | cons x t ih =>
    obtain ⟨a, q⟩ := x
    show (if later k a = later k p then _ else _) = _
    rw [AMap.set]
    by_cases e : a = p
    · rw [if_pos e, if_pos (by rw [e])]; rfl
    · rw [if_neg e, if_neg (fun e' => e (later_inj e'))]
      show (later k a, laterD k q) :: AMap.set (t.map _ : AMap DictId Dictionary) (later k p) (laterD k d) = _
      rw [ih]; rfl

theorem heap_erase (k : Nat) (h : AMap DictId Dictionary) (p : DictId) :
    AMap.erase (h.map (fun x => (later k x.1, laterD k x.2)) : AMap DictId Dictionary) (later k p)
      = (h.erase p).map (fun x => (later k x.1, laterD k x.2)) := by
  induction h with
  | nil => rfl
  | cons x t ih =>
    obtain ⟨a, q⟩ := x
    show (if later k a = later k p then _ else _) = _
    rw [AMap.erase]
    by_cases e : a = p
    · rw [if_pos e, if_pos (by rw [e])]
    · rw [if_neg e, if_neg (fun e' => e (later_inj e'))]
      show (later k a, laterD k q) :: AMap.erase (t.map _ : AMap DictId Dictionary) (later k p) = _
      rw [ih]; rfl

variable {α β : Type} {k : Nat} {F : List DictId}

theorem deleteDict_later (p : DictId) (m : Manager) :
    deleteDict (later k p) (laterM k F m) = (deleteDict p m).mapS (laterM k F) := by
  unfold deleteDict
  have e : (laterM k F m).heap.get? (later k p) = (m.heap.get? p).map (laterD k) := heap_get k m.heap p
  rw [e]
  cases m.heap.get? p with
  | none => rfl
  | some d =>
    show Res.ok () _ = Res.ok () _
    congr 1
    show ({ laterM k F m with heap := _, freed := _ } : Manager) = _
    unfold laterM
    rw [heap_erase]
    rfl

theorem deleteAll_later (t : AMap Language DictId) : ∀ m : Manager,
    deleteAll (t.map (fun x => (x.1, later k x.2)) : AMap Language DictId) (laterM k F m) = (deleteAll t m).mapS (laterM k F) := by
  induction t with
  | nil => intro m; rfl
  | cons x t ih =>
    intro m
    obtain ⟨l, p⟩ := x
    show Prog.bind (deleteDict (later k p)) (fun _ => deleteAll (t.map _ : AMap Language DictId)) _ = (Prog.bind (deleteDict p) (fun _ => deleteAll t) m).mapS _
    rw [bind_apply, bind_apply, deleteDict_later]
    cases deleteDict p m with
    | ok a s => exact ih s
    | _ => rfl

theorem clearCache_later (m : Manager) : clearCache (laterM k F m) = (clearCache m).mapS (laterM k F) := by
  unfold clearCache
  simp only [prog_bind, bind_apply, Prog.get]
  have e : (laterM k F m).dictionaries = m.dictionaries.map (fun x => (x.1, later k x.2)) := rfl
  rw [e, deleteAll_later]
  cases deleteAll m.dictionaries m <;> rfl

theorem laterD_unlinked {d : Dictionary} (h : d.fallback = none) : laterD k d = d := by
  unfold laterD
  rw [h]
  cases d
  cases h
  rfl

theorem fresh_later (l : Language) (m : Manager) (hm : 0 < m.nextId) : fresh l (laterM k F m) = laterM k F (fresh l m) := by
  have h1 : laterD k (Dictionary.init m.charset) = Dictionary.init m.charset := rfl
  have h2 : later k m.nextId = m.nextId + k := later_pos hm
  have e1 := heap_set k m.heap m.nextId (Dictionary.init m.charset)
  have e2 := dicts_set k m.dictionaries l m.nextId
  rw [h1, h2] at e1
  rw [h2] at e2
  unfold fresh laterM
  dsimp only
  rw [e1, e2, Nat.add_right_comm]

theorem put_later (m : Manager) (p : DictId) (x : DL) (h : x.1.fallback = none) :
    put (laterM k F m) (later k p) x = laterM k F (put m p x) := by
  have e1 := heap_set k m.heap p x.1
  rw [laterD_unlinked h] at e1
  unfold put laterM
  dsimp only
  rw [e1]

theorem addFallback_later (p q : DictId) (m : Manager) :
    Manager.addFallback (later k p) (later k q) (laterM k F m) = (Manager.addFallback p q m).mapS (laterM k F) := by
  unfold Manager.addFallback
  have e : (laterM k F m).heap.get? (later k p) = (m.heap.get? p).map (laterD k) := heap_get k m.heap p
  rw [e]
  cases m.heap.get? p with
  | none => rfl
  | some d =>
    have e2 := heap_set k m.heap p (d.addFallback (some q))
    have e3 : laterD k (d.addFallback (some q)) = (laterD k d).addFallback (some (later k q)) := rfl
    rw [e3] at e2
    show Res.ok () ({ laterM k F m with heap := _ } : Manager) = Res.ok () _
    unfold laterM
    dsimp only
    rw [e2]

theorem getFor_later (env : Env) (n : Nat) : ∀ (l : Language) (m : Manager), 0 < m.nextId →
    getDictionaryFor env n l (laterM k F m) = ((getDictionaryFor env n l m).mapS (laterM k F)).mapV (later k) := by
  induction n with
  | zero => intros; rfl
  | succ n ih =>
    intro l m hm
    cases hl : l.isDefined with
    | false => rw [getDictionaryFor, if_pos (by simp [hl])]; rfl
    | true =>
      have hget : (laterM k F m).dictionaries.get? l = (m.dictionaries.get? l).map (later k) := dicts_get k m.dictionaries l
      cases hc : m.dictionaries.get? l with
      | some p =>
        rw [hc] at hget
        rw [getFor_hit env n l _ hl hc, getFor_hit env n l _ hl hget]
        rfl
      | none =>
        rw [hc] at hget
        rw [getFor_miss env n l _ hl hc, getFor_miss env n l _ hl hget, fresh_later l m hm]
        have hs := sane_dirs1 env l m.searchPath.reverse (Dictionary.init m.charset, m.log)
        have e1 : (laterM k F m).searchPath = m.searchPath := rfl
        have e2 : (laterM k F m).charset = m.charset := rfl
        have e3 : (laterM k F m).log = m.log := rfl
        have e4 : (laterM k F m).nextId = later k m.nextId := (later_pos hm).symm
        rw [e1, e2, e3, e4]
        cases hx : dirs1 env l m.searchPath.reverse (Dictionary.init m.charset, m.log) with
        | ok a x =>
          rw [hx] at hs
          dsimp only [Res.mapS]
          rw [put_later _ _ _ (fallback_like hs.1)]
          by_cases hcc : l.getCountry = []
          · rw [if_pos hcc, if_pos hcc]; rfl
          · rw [if_neg hcc, if_neg hcc, ih (baseOf l) (put (fresh l m) m.nextId x) (Nat.succ_pos _)]
            cases getDictionaryFor env n (baseOf l) (put (fresh l m) m.nextId x) with
            | ok q m2 =>
              dsimp only [Res.mapS, Res.mapV]
              simp only [prog_bind, bind_apply, addFallback_later]
              cases Manager.addFallback m.nextId q m2 <;> rfl
            | _ => rfl
        | exn w x =>
          rw [hx] at hs
          dsimp only [Res.mapS]
          rw [put_later _ _ _ (fallback_like hs.1)]
          rfl
        | poError x => rw [hx] at hs; exact hs.elim
        | _ => rfl

theorem getDictionary_later (env : Env) (m : Manager) (hm : 0 < m.nextId) :
    getDictionary env (laterM k F m) = ((getDictionary env m).mapS (laterM k F)).mapV (later k) := by
  unfold getDictionary
  simp only [prog_bind, bind_apply, Prog.get]
  have e : (laterM k F m).currentDict = m.currentDict.map (later k) := rfl
  rw [e]
  cases hc : m.currentDict with
  | some p => rfl
  | none =>
    dsimp only [Option.map]
    have e2 : (laterM k F m).currentLanguage = m.currentLanguage := rfl
    rw [e2]
    split
    · rw [bind_apply, bind_apply, getFor_later env _ _ m hm]
      cases getDictionaryFor env env.fuel m.currentLanguage m <;> rfl
    · rfl

theorem collectDirs_later (env : Env) (dirs : List Str) : ∀ (acc : List Language) (m : Manager),
    collectDirs env dirs acc (laterM k F m) = (collectDirs env dirs acc m).mapS (laterM k F) := by
  induction dirs with
  | nil => intros; rfl
  | cons d t ih =>
    intro acc m
    unfold collectDirs
    cases env.fs.openDirectory d with
    | error w => rfl
    | ok files => exact ih _ _

theorem onDict_later (p : DictId) (f : Dictionary → Dictionary × List Diag)
    (hf : ∀ d, f (laterD k d) = (laterD k (f d).1, (f d).2)) (m : Manager) :
    onDict (later k p) f (laterM k F m) = (onDict p f m).mapS (laterM k F) := by
  unfold onDict
  have e : (laterM k F m).heap.get? (later k p) = (m.heap.get? p).map (laterD k) := heap_get k m.heap p
  rw [e]
  cases m.heap.get? p with
  | none => rfl
  | some d =>
    have e2 := heap_set k m.heap p (f d).1
    dsimp only [Option.map]
    rw [hf d]
    show Res.ok () ({ laterM k F m with heap := _, log := _ } : Manager) = Res.ok () _
    unfold laterM
    dsimp only
    rw [e2]

theorem apply_later (a : Add) (d : Dictionary) : a.apply (laterD k d) = (laterD k (a.apply d).1, (a.apply d).2) := by
  cases a with
  | singular c i s => cases c <;> rfl
  | plural c i p v => cases c <;> rfl

theorem translateIn_later (m : Manager) (n : Nat) : ∀ (d : Dictionary) (e : Entries) (i : Str) (log : List Diag),
    (laterD k d).translateIn (laterM k F m).heap.get? n e i log = d.translateIn m.heap.get? n e i log := by
  induction n with
  | zero => intros; rfl
  | succ n ih =>
    intro d e i log
    have step : (if (laterD k d).hasFallback = true then
          match (laterD k d).fallback with
          | none => .fault .nullDeref
          | some p =>
            match (laterM k F m).heap.get? p with
            | none => .fault .useAfterFree
            | some d' => Dictionary.translateIn (laterM k F m).heap.get? n d' d'.entries i (log ++ [.couldntTranslate i])
        else .ok i (log ++ [.couldntTranslate i]) : Res (List Diag) Str) =
        (if d.hasFallback = true then
          match d.fallback with
          | none => .fault .nullDeref
          | some p =>
            match m.heap.get? p with
            | none => .fault .useAfterFree
            | some d' => Dictionary.translateIn m.heap.get? n d' d'.entries i (log ++ [.couldntTranslate i])
        else .ok i (log ++ [.couldntTranslate i]) : Res (List Diag) Str) := by
      have e1 : (laterD k d).hasFallback = d.hasFallback := rfl
      rw [e1]
      cases d.hasFallback with
      | false => rfl
      | true =>
        simp only [if_true]
        have e2 : (laterD k d).fallback = d.fallback.map (later k) := rfl
        rw [e2]
        cases d.fallback with
        | none => rfl
        | some p =>
          dsimp only [Option.map]
          have e3 : (laterM k F m).heap.get? (later k p) = (m.heap.get? p).map (laterD k) := heap_get k m.heap p
          rw [e3]
          cases m.heap.get? p with
          | none => rfl
          | some d' => exact ih d' d'.entries i _
    unfold Dictionary.translateIn
    cases e.get? i with
    | none => exact step
    | some v =>
      cases v with
      | nil => exact step
      | cons s t => rfl

theorem query_later (m : Manager) (n : Nat) (d : Dictionary) (q : Query) (log : List Diag) :
    q.on (laterM k F m).heap.get? n (laterD k d) log = q.on m.heap.get? n d log := by
  cases q with
  | translate i => exact translateIn_later m n d d.entries i log
  | plural i p c => rfl
  | ctxt c i =>
    show (laterD k d).translateCtxt _ n c i log = d.translateCtxt _ n c i log
    unfold Dictionary.translateCtxt
    have e1 : (laterD k d).ctxtEntries = d.ctxtEntries := rfl
    rw [e1]
    cases d.ctxtEntries.get? c with
    | some e => exact translateIn_later m n d e i log
    | none => rfl
  | ctxtPlural c i p x => rfl

theorem ask_later (n : Nat) (p : DictId) (q : Query) (m : Manager) :
    Manager.ask n (later k p) q (laterM k F m) = (Manager.ask n p q m).mapS (laterM k F) := by
  unfold Manager.ask
  have e : (laterM k F m).heap.get? (later k p) = (m.heap.get? p).map (laterD k) := heap_get k m.heap p
  rw [e]
  cases m.heap.get? p with
  | none => rfl
  | some d =>
    dsimp only [Option.map]
    rw [query_later]
    have e2 : (laterM k F m).log = m.log := rfl
    rw [e2]
    cases q.on m.heap.get? n d m.log <;> rfl

theorem run_later (env : Env) (c : Call) (m : Manager) (hm : 0 < m.nextId) :
    (c.later k).run env (laterM k F m) = ((c.run env m).mapS (laterM k F)).mapV (Answer.later k) := by
  cases c with
  | getDictionary =>
    show Prog.bind (getDictionary env) _ _ = ((Prog.bind (getDictionary env) _ m).mapS _).mapV _
    rw [bind_apply, bind_apply, getDictionary_later env m hm]
    cases getDictionary env m <;> rfl
  | getDictionaryFor l =>
    show Prog.bind (getDictionaryFor env env.fuel l) _ _ = ((Prog.bind (getDictionaryFor env env.fuel l) _ m).mapS _).mapV _
    rw [bind_apply, bind_apply, getFor_later env _ l m hm]
    cases getDictionaryFor env env.fuel l m <;> rfl
  | getLanguages =>
    show Prog.bind (getLanguages env) _ _ = ((Prog.bind (getLanguages env) _ m).mapS _).mapV _
    rw [bind_apply, bind_apply]
    have e : getLanguages env (laterM k F m) = (getLanguages env m).mapS (laterM k F) := collectDirs_later env m.searchPath [] m
    rw [e]
    cases getLanguages env m <;> rfl
  | setLanguage l =>
    show Prog.bind (setLanguage l) _ _ = ((Prog.bind (setLanguage l) _ m).mapS _).mapV _
    rw [bind_apply, bind_apply]
    have e : setLanguage l (laterM k F m) = (setLanguage l m).mapS (laterM k F) := by
      unfold setLanguage
      have e2 : (laterM k F m).currentLanguage = m.currentLanguage := rfl
      rw [e2]
      split <;> rfl
    rw [e]
    cases setLanguage l m <;> rfl
  | getLanguage => rfl
  | getUseFuzzy => rfl
  | setCharset s =>
    show Prog.bind (setCharset s) _ _ = ((Prog.bind (setCharset s) _ m).mapS _).mapV _
    unfold setCharset
    simp only [prog_bind, bind_apply, clearCache_later]
    cases clearCache m <;> rfl
  | setUseFuzzy b =>
    show Prog.bind (setUseFuzzy b) _ _ = ((Prog.bind (setUseFuzzy b) _ m).mapS _).mapV _
    unfold setUseFuzzy
    simp only [prog_bind, bind_apply, clearCache_later]
    cases clearCache m <;> rfl
  | addDirectory p b =>
    show Prog.bind (addDirectory p b) _ _ = ((Prog.bind (addDirectory p b) _ m).mapS _).mapV _
    unfold addDirectory
    simp only [prog_bind, bind_apply, Prog.get]
    have e2 : (laterM k F m).searchPath = m.searchPath := rfl
    rw [e2]
    by_cases hp : p ∈ m.searchPath
    · simp only [if_pos hp]; rfl
    · simp only [if_neg hp, bind_apply, clearCache_later]
      cases clearCache m <;> rfl
  | removeDirectory p =>
    show Prog.bind (removeDirectory p) _ _ = ((Prog.bind (removeDirectory p) _ m).mapS _).mapV _
    unfold removeDirectory
    simp only [prog_bind, bind_apply, Prog.get]
    have e2 : (laterM k F m).searchPath = m.searchPath := rfl
    rw [e2]
    by_cases hp : p ∈ m.searchPath
    · simp only [if_pos hp, bind_apply, clearCache_later]
      cases clearCache m <;> rfl
    · simp only [if_neg hp]; rfl
  | add id a =>
    show Prog.bind (onDict (later k id) _) _ _ = ((Prog.bind (onDict id _) _ m).mapS _).mapV _
    rw [bind_apply, bind_apply, onDict_later id _ (apply_later a)]
    cases onDict id (fun d => a.apply d) m <;> rfl
  | setPluralForms id p =>
    show Prog.bind (onDict (later k id) _) _ _ = ((Prog.bind (onDict id _) _ m).mapS _).mapV _
    rw [bind_apply, bind_apply, onDict_later id _ (fun _ => rfl)]
    cases onDict id (fun d => (d.setPluralForms p, [])) m <;> rfl
  | ask id q =>
    show Prog.bind (Manager.ask env.fuel (later k id) q) _ _ = ((Prog.bind (Manager.ask env.fuel id q) _ m).mapS _).mapV _
    rw [bind_apply, bind_apply, ask_later]
    cases Manager.ask env.fuel id q m <;> rfl

theorem outcome_later (env : Env) (c : Call) (m : Manager) (hm : 0 < m.nextId) :
    (c.later k).outcome env (laterM k F m) = (c.outcome env m).map (fun x => (Outcome.later k x.1, laterM k F x.2)) := by
  unfold Call.outcome
  rw [run_later env c m hm]
  cases c.run env m <;> rfl

theorem outcome_leads {env : Env} {c : Call} {m m' : Manager} {o : Outcome} (h : c.outcome env m = some (o, m')) : c.Leads env m m' := by
  unfold Call.outcome at h
  unfold Call.Leads
  cases hr : c.run env m with
  | ok a s => rw [hr] at h; cases h; exact .inl ⟨a, rfl⟩
  | exn w s => rw [hr] at h; cases h; exact .inr (.inl ⟨w, rfl⟩)
  | poError s => rw [hr] at h; cases h; exact .inr (.inr rfl)
  | fault f => rw [hr] at h; cases h
  | diverge => rw [hr] at h; cases h

theorem seen_later (ss : List (Env × Call)) : ∀ {m : Manager}, Mgr.Inv m →
    seen (laterM k F m) (ss.map (fun x => (x.1, x.2.later k))) = ((seen m ss).1.map (fun x => (x.1.later k, x.2)), (seen m ss).2) := by
  induction ss with
  | nil => intro m h; rfl
  | cons x t ih =>
    intro m h
    obtain ⟨env, c⟩ := x
    rw [List.map_cons]
    unfold seen
    dsimp only
    rw [outcome_later env c m h.next_pos]
    cases ho : c.outcome env m with
    | none => rfl
    | some y =>
      obtain ⟨o, m'⟩ := y
      dsimp only [Option.map]
      rw [ih (leads_after h (outcome_leads ho)).1]
      rfl

theorem seen_logged (L : List Diag) (ss : List (Env × Call)) : ∀ m : Manager, seen (logged L m) ss = seen m ss := by
  induction ss with
  | nil => intro m; rfl
  | cons x t ih =>
    intro m
    obtain ⟨env, c⟩ := x
    unfold seen
    rw [outcome_logged]
    cases c.outcome env m with
    | none => rfl
    | some y =>
      obtain ⟨o, m'⟩ := y
      dsimp only [Option.map]
      rw [ih]
      have e : (logged L m').log.drop (logged L m).log.length = m'.log.drop m.log.length := by
        show (L ++ m'.log).drop (L ++ m.log).length = _
        rw [List.length_append, ← List.drop_drop, List.drop_left]
      rw [e]

theorem heap_single {h : AMap DictId Dictionary} {d : Dictionary} (hn : h.keys.Nodup) (h0 : h.get? 0 = some d)
    (h1 : ∀ p, h.get? p ≠ none → p = 0) : h = [(0, d)] := by
  cases h with
  | nil => cases h0
  | cons x t =>
    obtain ⟨a, v⟩ := x
    have ha : a = 0 := h1 a (by rw [AMap.get?, if_pos rfl]; simp)
    subst ha
    rw [AMap.get?, if_pos rfl] at h0
    cases h0
    cases t with
    | nil => rfl
    | cons y t =>
      exfalso
      obtain ⟨b, w⟩ := y
      have hne : b ≠ 0 := by
        intro e
        subst e
        simp [AMap.keys] at hn
      exact hne (h1 b (by rw [AMap.get?, if_neg (Ne.symm hne), AMap.get?, if_pos rfl]; simp))

/-- What a change of the configuration leaves is a new manager at other addresses. -/
theorem changed_renewed {m m1 : Manager} {c : Call} {env : Env} (h : Mgr.Inv m) (he : m.heap.get? 0 = some (.init b!"UTF-8")) (hc : c.Changes m)
    (hl : c.Leads env m m1) :
    m1 = logged m1.log (laterM (m1.nextId - 1) m1.freed (renewed (config m1) m1.currentLanguage)) := by
  obtain ⟨h1, h2, hI, _, h5⟩ := changes_cleared h hc hl
  have h0 : m1.heap.get? 0 = some (.init b!"UTF-8") := by
    rw [(leads_after h hl).2.2.1 (by cases c <;> first | exact hc.elim | simp [Call.changes?]), he]
  have hh := heap_single hI.heapK h0 h5
  have hn := hI.next_pos
  have e : 1 + (m1.nextId - 1) = m1.nextId := by omega
  cases m1
  simp only at h1 h2 hh e
  subst h1 h2 hh
  simp only [logged, laterM, renewed, newManager, Manager.init, config, e]
  simp [emptyDict, later, laterD, Dictionary.init]

end Mgr

/-! ### C100: after a change of the configuration a manager is as good as new -/

/-- C100.  Whatever was done with a manager before: after a call that changes the configuration it behaves, in every session that follows, like a new
manager with the same settings: the same results of all calls, the same exceptions, the same messages (only the dictionaries are at other addresses). -/
theorem C100_as_new (cs : Str) (calls : List Call) (m : Manager) (h : History (.init cs) calls m) (he : ∀ c ∈ calls, c.changes? ≠ some emptyDict)
    (c : Call) (hc : c.Changes m) (env : Env) (m1 : Manager) (hl : c.Leads env m m1) :
    ∃ k, ∀ ss : List (Env × Call), seen m1 (ss.map (fun x => (x.1, x.2.later k))) =
      ((seen (renewed (config m1) m1.currentLanguage) ss).1.map (fun x => (x.1.later k, x.2)), (seen (renewed (config m1) m1.currentLanguage) ss).2) := by
  have hI := hist_inv (inv_init cs) h
  obtain ⟨k, F, L, e⟩ : ∃ k F L, m1 = logged L (laterM k F (renewed (config m1) m1.currentLanguage)) :=
    ⟨_, _, _, changed_renewed hI (C44_empty_is_empty cs calls m h he) hc hl⟩
  refine ⟨k, fun ss => ?_⟩
  conv => lhs; rw [e]
  rw [seen_logged]
  refine seen_later ss ?_
  have hp : (config m1).path.Nodup := (leads_after hI hl).1.path
  have hn := inv_new (config m1) hp
  exact ⟨hn.path, hn.keysD, hn.inj, hn.cached, hn.empty, hn.heapK, hn.live, hn.freedN, hn.freedIff, fun p hp => by cases hp⟩

/-- C100.  The new manager is the one that the constructor makes, after it was told the settings. -/
theorem C100_settings (k : Config) (hk : k.path.Nodup) (l : Language) (env : Env) :
    session (.init k.charset) ((setup k l).map (fun c => (env, c))) = some ((setup k l).map (fun _ => .returned .done), renewed k l) := by
  obtain ⟨path, cs, uf⟩ := k
  have h2 : ∀ path, session (newManager ⟨path, cs, true⟩) [(env, .setUseFuzzy uf), (env, .setLanguage l)]
      = some ([.returned .done, .returned .done], renewed ⟨path, cs, uf⟩ l) := by
    intro path
    have e1 : (Call.setUseFuzzy uf).outcome env (newManager ⟨path, cs, true⟩) = some (.returned .done, newManager ⟨path, cs, uf⟩) := rfl
    have e2 : (Call.setLanguage l).outcome env (newManager ⟨path, cs, uf⟩) = some (.returned .done, renewed ⟨path, cs, uf⟩ l) := by
      cases l with
      | none => rfl
      | some i => rfl
    simp only [session, e1, e2, Option.map_some]
  have key : ∀ (t s : List Str), (s ++ t).Nodup →
      session (newManager ⟨s, cs, true⟩) ((t.map (fun p => Call.addDirectory p false) ++ [Call.setUseFuzzy uf, Call.setLanguage l]).map (fun c => (env, c)))
        = some ((t.map (fun p => Call.addDirectory p false) ++ [Call.setUseFuzzy uf, Call.setLanguage l]).map (fun _ => .returned .done), renewed ⟨s ++ t, cs, uf⟩ l) := by
    intro t
    induction t with
    | nil => intro s _; rw [List.append_nil]; exact h2 s
    | cons p t ih =>
      intro s hs
      have hp : p ∉ s := by
        intro hp
        rw [List.nodup_append] at hs
        exact hs.2.2 p hp p List.mem_cons_self rfl
      have e1 : (Call.addDirectory p false).outcome env (newManager ⟨s, cs, true⟩) = some (.returned .done, newManager ⟨s ++ [p], cs, true⟩) := by
        have h0 : (newManager ⟨s, cs, true⟩).searchPath = s := rfl
        have : Manager.addDirectory p false (newManager ⟨s, cs, true⟩) = .ok () (newManager ⟨s ++ [p], cs, true⟩) := by
          unfold Manager.addDirectory
          simp only [prog_bind, bind_apply, Prog.get, h0, if_neg hp]
          rfl
        unfold Call.outcome Call.run
        simp only [prog_bind, bind_apply, this]
        rfl
      have hi := ih (s ++ [p]) (by simpa using hs)
      rw [List.append_assoc] at hi
      simp only [List.map_cons, List.cons_append, session, e1]
      rw [hi]
      rfl
  exact key path [] hk

/-- C100.  Two managers whose configuration was changed last, with the same settings then, cannot be told apart, whatever was done with them before. -/
theorem C100_same_settings (cs cs' : Str) (calls calls' : List Call) (m m' : Manager) (h : History (.init cs) calls m) (h' : History (.init cs') calls' m')
    (he : ∀ c ∈ calls, c.changes? ≠ some emptyDict) (he' : ∀ c ∈ calls', c.changes? ≠ some emptyDict) (c c' : Call) (hc : c.Changes m) (hc' : c'.Changes m')
    (env env' : Env) (m1 m1' : Manager) (hl : c.Leads env m m1) (hl' : c'.Leads env' m' m1') (hs : config m1 = config m1')
    (hg : m1.currentLanguage = m1'.currentLanguage) :
    ∃ (k k' : Nat), ∀ ss : List (Env × Call), ∃ out : List (Outcome × List Diag) × Bool,
      seen m1 (ss.map (fun x => (x.1, x.2.later k))) = (out.1.map (fun x => (x.1.later k, x.2)), out.2) ∧
      seen m1' (ss.map (fun x => (x.1, x.2.later k'))) = (out.1.map (fun x => (x.1.later k', x.2)), out.2) := by
  obtain ⟨k, hk⟩ := C100_as_new cs calls m h he c hc env m1 hl
  obtain ⟨k', hk'⟩ := C100_as_new cs' calls' m' h' he' c' hc' env' m1' hl'
  rw [← hs, ← hg] at hk'
  exact ⟨k, k', fun ss => ⟨_, hk ss, hk' ss⟩⟩

/-- A manager that loaded two languages and was asked things, and is now told to use another directory. -/
def usedCalls : List Call :=
  [.addDirectory b!"hi" false, .setLanguage atLang, .getDictionary, .ask 1 (.translate b!"potato"), .add 1 (.singular none b!"x" b!"y")]

/-- The hypotheses of `C100_as_new` are met: the manager had made two dictionaries, and was given something to remember. -/
example : ∃ m m1, History (.init b!"UTF-8") usedCalls m ∧ (∀ c ∈ usedCalls, c.changes? ≠ some emptyDict) ∧ (Call.addDirectory b!"lo" false).Changes m ∧
    (Call.addDirectory b!"lo" false).Leads demoEnv m m1 ∧ m.heap.length = 3 ∧ m1.nextId = 3 ∧
    config m1 = ⟨[b!"hi", b!"lo"], b!"UTF-8", true⟩ ∧ m1.currentLanguage = atLang := by
  have h : (script (.init b!"UTF-8") usedCalls).any (fun m => decide (m.heap.length = 3 ∧ b!"lo" ∉ m.searchPath ∧
      ((script m [.addDirectory b!"lo" false]).map (fun m1 => (m1.nextId, config m1, m1.currentLanguage))
        = some (3, ⟨[b!"hi", b!"lo"], b!"UTF-8", true⟩, atLang)))) = true := by decide +kernel
  obtain ⟨m, hm, h1, h2, h3⟩ := of_any h
  unfold script at h3
  cases hr : (Call.addDirectory b!"lo" false).run demoEnv m with
  | ok a m1 =>
    rw [hr] at h3
    injection h3 with h3
    injection h3 with h4 h3
    injection h3 with h5 h6
    refine ⟨m, m1, ?_, by decide +kernel, h2, .inl ⟨a, hr⟩, h1, h4, h5, h6⟩
    have := script_history usedCalls .nil hm
    simpa using this
  | exn w m1 =>
    exfalso
    obtain ⟨m2, e, _⟩ := addDirectory_ok (hist_inv (inv_init _) (script_history usedCalls .nil hm)) h2 false
    unfold Call.run at hr
    simp only [prog_bind, bind_apply, e] at hr
    cases hr
  | _ => rw [hr] at h3; cases h3

/-- The session that follows, on the new manager: the potato is found, what was added to the old dictionary is not. -/
example : ((seen (renewed ⟨[b!"hi", b!"lo"], b!"UTF-8", true⟩ atLang) [(demoEnv, .getDictionary), (demoEnv, .ask 1 (.translate b!"potato")),
      (demoEnv, .ask 1 (.translate b!"x"))]).1.map Prod.fst)
    = [.returned (.dict 1), .returned (.text b!"Erdapfel"), .returned (.text b!"x")] := by decide +kernel

end Tgt
