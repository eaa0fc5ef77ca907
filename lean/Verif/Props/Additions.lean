import Verif.Props.ManagerLoad
import Verif.Spec.Additions
/-
C98: adding a directory of lowest priority only adds translations.
-/
namespace Tgt
open Spec Manager Mgr POParser

/-! ### Loading on top of something -/

/-- What is stored stays, as the beginning of what is stored now. -/
def Mgr.Kept (a b : Option (List Str)) : Prop := ∀ v, a = some v → ∃ w, b = some w ∧ v <+: w

theorem Mgr.newVec_prefix (a : Add) {v w : List Str} (h : v <+: w) : a.newVec v <+: a.newVec w := by
  obtain ⟨t, rfl⟩ := h
  cases a with
  | plural c i p s => exact List.prefix_refl _
  | singular c i s =>
    cases v with
    | nil => exact ⟨_, rfl⟩
    | cons x v => exact ⟨t, rfl⟩

theorem Mgr.kept_apply (a : Add) (key : Option Str × Str) {d d' : Dictionary} (h : Kept (d.lookup key) (d'.lookup key)) :
    Kept ((a.apply d).1.lookup key) ((a.apply d').1.lookup key) := by
  rw [Dict.lookup_apply, Dict.lookup_apply]
  split
  · rename_i e
    intro v hv
    cases hv
    refine ⟨_, rfl, newVec_prefix a ?_⟩
    rw [e]
    cases hd : d.lookup key with
    | none => exact List.nil_prefix
    | some x =>
      obtain ⟨w, hw, hp⟩ := h x hd
      rw [hw]
      exact hp
  · exact h

theorem Mgr.kept_addAll (key : Option Str × Str) (l : List Add) : ∀ {d d' : Dictionary}, Kept (d.lookup key) (d'.lookup key) →
    Kept ((addAll d l).lookup key) ((addAll d' l).lookup key) := by
  induction l with
  | nil => intro d d' h; exact h
  | cons a l ih => intro d d' h; exact ih (kept_apply a key h)

/-- What directories store in an empty dictionary they also store on top of other directories. -/
theorem Mgr.kept_path (env : Env) (l : Language) (cs : Str) (key : Option Str × Str) (path : List Str) {d d' : Dictionary}
    (h : Kept (d.lookup key) (d'.lookup key)) : Kept ((pathEff env l cs path d).lookup key) ((pathEff env l cs path d').lookup key) := by
  induction path with
  | nil => exact h
  | cons b t ih =>
    show Kept (((dirEff env l cs b).applyTo _).lookup _) (((dirEff env l cs b).applyTo _).lookup _)
    rw [lookup_applyTo, lookup_applyTo]
    exact kept_addAll key _ ih

theorem Mgr.untouched_path (env : Env) (l : Language) (cs : Str) (key : Option Str × Str) (path : List Str) {d' : Dictionary}
    (h : (pathEff env l cs path (Dictionary.init cs)).lookup key = none) : (pathEff env l cs path d').lookup key = d'.lookup key := by
  refine pathEff_none (cs := cs) path ?_ d'
  induction path with
  | nil => intro b hb; cases hb
  | cons a t ih =>
    have h' : ((dirEff env l cs a).applyTo (pathEff env l cs t (Dictionary.init cs))).lookup key = none := h
    have ht : (pathEff env l cs t (Dictionary.init cs)).lookup key = none := by
      apply Classical.byContradiction
      intro hn
      rw [lookup_applyTo] at h'
      exact lookup_addAll_some _ _ _ hn h'
    intro b hb
    rcases List.mem_cons.1 hb with e | e
    · subst e
      rw [lookup_applyTo] at h' ⊢
      rw [lookup_addAll_congr _ _ _ (pathEff env l cs t (Dictionary.init cs)) (by rw [init_lookup, ht])]
      exact h'
    · exact ih ht b e

theorem Mgr.rule_applyTo (e : Effect) {d d' : Dictionary} (h : d.pluralForms = d'.pluralForms) :
    (e.applyTo d).pluralForms = (e.applyTo d').pluralForms := by
  unfold Effect.applyTo
  dsimp only
  rw [h]

theorem Mgr.rule_path (env : Env) (l : Language) (cs : Str) (path : List Str) {d d' : Dictionary} (h : d.pluralForms = d'.pluralForms) :
    (pathEff env l cs path d).pluralForms = (pathEff env l cs path d').pluralForms := by
  induction path with
  | nil => exact h
  | cons b t ih => exact rule_applyTo _ ih

/-! ### Silent answers -/

/-- The message a lookup is about. -/
def Mgr.keyOf : Query → Option Str × Str
  | .translate i => (none, i)
  | .ctxt c i => (some c, i)
  | .plural i _ _ => (none, i)
  | .ctxtPlural c i _ _ => (some c, i)

theorem Mgr.lookup_ctxt (d : Dictionary) (c i : Str) : d.lookup (some c, i) = (d.ctxtEntries.get? c).bind (fun e => e.get? i) := by
  rw [← stored_lookup]; rfl

/-- A lookup of a message without a string. -/
theorem Mgr.translateIn_none {heap : DictId → Option Dictionary} {f : Nat} {d : Dictionary} {e : Entries} {i : Str} {log : List Diag} {s : Str}
    {log' : List Diag} (hn : (e.get? i).bind List.head? = none) (h : Dictionary.translateIn heap (f + 1) d e i log = .ok s log') :
    log' = log ++ [.couldntTranslate i] ∨ ∃ d', Dictionary.translateIn heap f d' d'.entries i (log ++ [.couldntTranslate i]) = .ok s log' := by
  cases hf : d.hasFallback with
  | false =>
    rw [Dict.translateIn_miss _ _ _ _ _ hn hf] at h
    cases h
    exact .inl rfl
  | true =>
    cases hp : d.fallback with
    | none =>
      exfalso
      unfold Dictionary.translateIn at h
      rcases hg : e.get? i with _ | _ | ⟨x, t⟩
      · simp [hg, hf, hp] at h
      · simp [hg, hf, hp] at h
      · simp [hg] at hn
    | some p =>
      cases hh : heap p with
      | none =>
        exfalso
        unfold Dictionary.translateIn at h
        rcases hg : e.get? i with _ | _ | ⟨x, t⟩
        · simp [hg, hf, hp, hh] at h
        · simp [hg, hf, hp, hh] at h
        · simp [hg] at hn
      | some d' =>
        rw [Dict.translateIn_fallback _ _ _ _ _ _ _ hn hf hp hh] at h
        exact .inr ⟨d', h⟩

/-- Lookups log at the end. -/
theorem Mgr.translateIn_log (heap : DictId → Option Dictionary) (f : Nat) : ∀ (d : Dictionary) (e : Entries) (i : Str) (log : List Diag) (s : Str) (log' : List Diag),
    Dictionary.translateIn heap f d e i log = .ok s log' → log <+: log' := by
  induction f with
  | zero => intro d e i log s log' h; cases h
  | succ f ih =>
    intro d e i log s log' h
    rcases hg : e.get? i with _ | _ | ⟨x, t⟩
    · rcases translateIn_none (by rw [hg]; rfl) h with h | ⟨d', h⟩
      · rw [h]; exact List.prefix_append _ _
      · exact (List.prefix_append _ _).trans (ih _ _ _ _ _ _ h)
    · rcases translateIn_none (by rw [hg]; rfl) h with h | ⟨d', h⟩
      · rw [h]; exact List.prefix_append _ _
      · exact (List.prefix_append _ _).trans (ih _ _ _ _ _ _ h)
    · rw [Dict.translateIn_hit _ _ _ _ _ _ _ hg] at h
      cases h; exact List.prefix_refl _

theorem Mgr.translateIn_silent {heap : DictId → Option Dictionary} {f : Nat} {d : Dictionary} {e : Entries} {i : Str} {log : List Diag} {s : Str}
    (h : Dictionary.translateIn heap f d e i log = .ok s log) : ∃ t, e.get? i = some (s :: t) := by
  cases f with
  | zero => cases h
  | succ f =>
    have none_case : (e.get? i).bind List.head? = none → False := by
      intro hn
      rcases translateIn_none hn h with h | ⟨d', h⟩
      · have := congrArg List.length h; simp at this
      · have := (translateIn_log _ _ _ _ _ _ _ _ h).length_le; simp at this; omega
    rcases hg : e.get? i with _ | _ | ⟨x, t⟩
    · exact (none_case (by rw [hg]; rfl)).elim
    · exact (none_case (by rw [hg]; rfl)).elim
    · rw [Dict.translateIn_hit _ _ _ _ _ _ _ hg] at h
      cases h; exact ⟨t, rfl⟩

/-- The strings and rule of a dictionary that answer a lookup without a message. -/
def Mgr.Says (q : Query) (v : List Str) (r : PluralForms) (s : Str) : Prop :=
  match q with
  | .translate _ | .ctxt _ _ => v.head? = some s
  | .plural i p n | .ctxtPlural _ i p n => ∃ x, v[r.getPlural n]? = some x ∧ s = if !x.isEmpty then x else Dictionary.english i p n

theorem Mgr.plural_silent {d : Dictionary} {e : Entries} {i p : Str} {n : Int} (h : (d.translatePluralIn e i p n).2 = []) :
    ∃ v x, e.get? i = some v ∧ v[d.pluralForms.getPlural n]? = some x ∧
      (d.translatePluralIn e i p n).1 = if !x.isEmpty then x else Dictionary.english i p n := by
  unfold Dictionary.translatePluralIn at h ⊢
  cases hv : e.get? i with
  | none => rw [hv] at h; simp at h
  | some v =>
    rw [hv] at h
    dsimp only at h ⊢
    cases hx : v[d.pluralForms.getPlural n]? with
    | none => rw [hx] at h; simp at h
    | some x =>
      refine ⟨v, x, rfl, hx, ?_⟩
      dsimp only
      split <;> rfl

theorem Mgr.silent_says {heap : DictId → Option Dictionary} {f : Nat} {d : Dictionary} {q : Query} {log : List Diag} {s : Str}
    (h : q.on heap f d log = .ok s log) : ∃ v, d.lookup (keyOf q) = some v ∧ Says q v d.pluralForms s := by
  have self : ∀ {l : List Diag}, log ++ l = log → l = [] := by intro l hl; simpa using hl
  cases q with
  | translate i =>
    obtain ⟨t, ht⟩ := translateIn_silent h
    exact ⟨s :: t, ht, rfl⟩
  | ctxt c i =>
    change d.translateCtxt heap f c i log = _ at h
    unfold Dictionary.translateCtxt at h
    cases hc : d.ctxtEntries.get? c with
    | none => rw [hc] at h; injection h with _ h; simp at h
    | some e =>
      rw [hc] at h
      obtain ⟨t, ht⟩ := translateIn_silent h
      refine ⟨s :: t, ?_, rfl⟩
      show d.lookup (some c, i) = _
      rw [lookup_ctxt, hc]
      exact ht
  | plural i p n =>
    injection h with h1 h2
    obtain ⟨v, x, a, b, c⟩ := plural_silent (self h2)
    exact ⟨v, a, x, b, h1.symm.trans c⟩
  | ctxtPlural c i p n =>
    injection h with h1 h2
    replace h2 := self h2
    unfold Dictionary.translateCtxtPlural at h1 h2
    cases hc : d.ctxtEntries.get? c with
    | none => rw [hc] at h2; simp at h2
    | some e =>
      rw [hc] at h1 h2
      obtain ⟨v, x, a, b, c'⟩ := plural_silent h2
      refine ⟨v, ?_, x, b, h1.symm.trans c'⟩
      show d.lookup (some c, i) = _
      rw [lookup_ctxt, hc]
      exact a

theorem Mgr.plural_says {d : Dictionary} {e : Entries} {i p : Str} {n : Int} {v : List Str} {x : Str} (hv : e.get? i = some v)
    (hx : v[d.pluralForms.getPlural n]? = some x) : d.translatePluralIn e i p n = (if !x.isEmpty then x else Dictionary.english i p n, []) := by
  unfold Dictionary.translatePluralIn
  rw [hv]
  dsimp only
  rw [hx]
  dsimp only
  split <;> rfl

theorem Mgr.says_silent {heap : DictId → Option Dictionary} {f : Nat} {d : Dictionary} {q : Query} {log : List Diag} {s : Str} {v : List Str}
    (hv : d.lookup (keyOf q) = some v) (h : Says q v d.pluralForms s) : q.on heap (f + 1) d log = .ok s log := by
  cases q with
  | translate i =>
    cases v with
    | nil => cases h
    | cons a t => cases h; exact Dict.translateIn_hit _ _ _ _ _ _ _ hv _
  | ctxt c i =>
    show d.translateCtxt heap (f + 1) c i log = _
    unfold Dictionary.translateCtxt
    replace hv : d.lookup (some c, i) = some v := hv
    rw [lookup_ctxt] at hv
    cases hc : d.ctxtEntries.get? c with
    | none => rw [hc] at hv; cases hv
    | some e =>
      rw [hc] at hv
      cases v with
      | nil => cases h
      | cons a t => cases h; exact Dict.translateIn_hit _ _ _ _ _ _ _ hv _
  | plural i p n =>
    obtain ⟨x, hx, hs⟩ := h
    have e := plural_says (p := p) (show d.entries.get? i = some v from hv) hx
    show Res.ok (d.translatePluralIn d.entries i p n).1 (log ++ (d.translatePluralIn d.entries i p n).2) = _
    rw [e, hs, List.append_nil]
  | ctxtPlural c i p n =>
    obtain ⟨x, hx, hs⟩ := h
    replace hv : d.lookup (some c, i) = some v := hv
    rw [lookup_ctxt] at hv
    show Res.ok (d.translateCtxtPlural c i p n).1 (log ++ (d.translateCtxtPlural c i p n).2) = _
    unfold Dictionary.translateCtxtPlural
    cases hc : d.ctxtEntries.get? c with
    | none => rw [hc] at hv; cases hv
    | some e =>
      rw [hc] at hv
      dsimp only
      rw [plural_says (p := p) hv hx, hs, List.append_nil]

theorem Mgr.says_longer {q : Query} {v w : List Str} {r : PluralForms} {s : Str} (hp : v <+: w) (h : Says q v r s) : Says q w r s := by
  obtain ⟨t, rfl⟩ := hp
  have hhead : v.head? = some s → (v ++ t).head? = some s := by
    cases v with
    | nil => intro h; cases h
    | cons a b => intro h; exact h
  have hget : ∀ {i : Nat} {x : Str}, v[i]? = some x → (v ++ t)[i]? = some x := by
    intro i x hx
    rw [List.getElem?_append_left (List.getElem?_eq_some_iff.1 hx).1]
    exact hx
  cases q with
  | translate i => exact hhead h
  | ctxt c i => exact hhead h
  | plural i p n => obtain ⟨x, hx, hs⟩ := h; exact ⟨x, hget hx, hs⟩
  | ctxtPlural c i p n => obtain ⟨x, hx, hs⟩ := h; exact ⟨x, hget hx, hs⟩

/-- Lookups that do not look at the rule. -/
theorem Mgr.says_rule {q : Query} (hq : q.isPlural = false) {v : List Str} {r r' : PluralForms} {s : Str} (h : Says q v r s) : Says q v r' s := by
  cases q with
  | translate i => exact h
  | ctxt c i => exact h
  | plural i p n => cases hq
  | ctxtPlural c i p n => cases hq

/-- A lookup through a reference that logs nothing. -/
theorem Mgr.ask_silent {f : Nat} {p : DictId} {q : Query} {m : Manager} {s : Str} (h : ask f p q m = .ok s m) :
    ∃ d, m.heap.get? p = some d ∧ q.on m.heap.get? f d m.log = .ok s m.log := by
  unfold ask at h
  cases hd : m.heap.get? p with
  | none => rw [hd] at h; cases h
  | some d =>
    rw [hd] at h
    refine ⟨d, rfl, ?_⟩
    dsimp only at h
    cases hr : q.on m.heap.get? f d m.log with
    | ok r log =>
      rw [hr] at h
      injection h with h1 h2
      have := congrArg Manager.log h2
      rw [h1, show log = m.log from this]
    | _ => rw [hr] at h; cases h

theorem Mgr.ask_said {f : Nat} {p : DictId} {q : Query} {m : Manager} {s : Str} {d : Dictionary} (hd : m.heap.get? p = some d)
    (h : q.on m.heap.get? f d m.log = .ok s m.log) : ask f p q m = .ok s m := by
  unfold ask
  rw [hd]
  dsimp only
  rw [h]

/-! ### C98: directories of lowest priority -/

/-- C98 in full: after a directory has been added with the lowest priority, every lookup that was answered (without a message) from the
dictionary of the language is answered as before. -/
def C98_Statement : Prop :=
  ∀ (cs : Str) (k k1 k2 k3 : Manager) (env env' : Env) (n n' : Nat) (l : Language) (p r : DictId) (dir : Str), Reach cs k →
    getDictionaryFor env n l k = .ok p k1 → k.heap.get? p = none →
    dir ∉ k.searchPath → Call.Leads env' (.addDirectory dir false) k1 k2 →
    getDictionaryFor env n' l k2 = .ok r k3 →
    ∀ (q : Query) (s : Str) (i j : Nat), ask i p q k1 = .ok s k1 → ask (j + 1) r q k3 = .ok s k3

/-- Two managers with the same charset, the second with more directories at the end of its search path. -/
theorem Mgr.more_dirs {k k' m m' : Manager} (hk : Mgr.Inv k) (hm : Mgr.Inv m) {env : Env} {n n' : Nat} {l : Language} {p r : DictId}
    (hg : getDictionaryFor env n l k = .ok p k') (hp : k.heap.get? p = none) (hg' : getDictionaryFor env n' l m = .ok r m')
    (hr : m.heap.get? r = none) (hcs : m.charset = k.charset) (more : List Str) (hpath : m.searchPath = k.searchPath ++ more) :
    ∃ d d', k'.heap.get? p = some d ∧ m'.heap.get? r = some d' ∧ (∀ key, Kept (d.lookup key) (d'.lookup key)) ∧
      (∀ key, d.lookup key = none → d'.lookup key = (pathEff env l k.charset more (Dictionary.init k.charset)).lookup key) ∧
      ((pathEff env l k.charset more (Dictionary.init k.charset)).pluralForms = .undefined → d.pluralForms = d'.pluralForms) := by
  obtain ⟨d, h1, h2, _⟩ := new_ok hk hg hp
  obtain ⟨d', h1', h2', _⟩ := new_ok hm hg' hr
  rw [hcs, hpath, pathEff_append] at h2'
  refine ⟨d, d', h1, h1', ?_, ?_, ?_⟩
  · intro key
    rw [← lookup_unlinked d, ← lookup_unlinked d', h2, h2']
    refine kept_path _ _ _ _ _ ?_
    intro v hv
    rw [init_lookup] at hv
    cases hv
  · intro key hn
    rw [← lookup_unlinked d, h2] at hn
    rw [← lookup_unlinked d', h2', untouched_path _ _ _ _ _ hn]
  · intro hu
    show (unlinked d).pluralForms = (unlinked d').pluralForms
    rw [h2, h2']
    exact rule_path _ _ _ _ hu.symm

/-- What adding a directory leaves to the next load. -/
theorem Mgr.after_adding {k k1 k2 : Manager} (hI : Mgr.Inv k1) (hgr : Grow k k1) {env' : Env} {dir : Str} (hdir : dir ∉ k.searchPath)
    (hadd : Call.Leads env' (.addDirectory dir false) k1 k2) :
    Mgr.Inv k2 ∧ k2.charset = k.charset ∧ k2.searchPath = k.searchPath ++ [dir] ∧ k2.dictionaries = [] ∧ ∀ x, k2.heap.get? x ≠ none → x = 0 := by
  have hdir' : dir ∉ k1.searchPath := by rw [hgr.path]; exact hdir
  obtain ⟨hd, _, hI2, hc, hh⟩ := changes_cleared hI (c := .addDirectory dir false) hdir' hadd
  have hcs := congrArg Config.charset hc
  have hpa := congrArg Config.path hc
  dsimp only [Call.configure, config] at hcs hpa
  rw [if_neg hdir'] at hcs hpa
  exact ⟨hI2, hcs.trans hgr.charset, by rw [← hgr.path]; exact hpa, hd, hh⟩

theorem Mgr.loaded_new {env : Env} {n : Nat} {l : Language} {m m' : Manager} {r : DictId} (h : Mgr.Inv m)
    (hd : m.dictionaries = []) (hg : getDictionaryFor env n l m = .ok r m') : m.heap.get? r = none := by
  have hm : m.dictionaries.get? l = none := by rw [hd]; rfl
  obtain ⟨_, hr, _⟩ := miss_ok h hg hm
  rw [hr]
  exact h.heap_lt _ (Nat.le_refl _)

theorem Mgr.get_grow {env : Env} {n : Nat} {l : Language} {m m' : Manager} {p : DictId} (h : Mgr.Inv m)
    (hg : getDictionaryFor env n l m = .ok p m') (hn : m.dictionaries.get? l = none) : Mgr.Inv m' ∧ Grow m m' := by
  have hl := (miss_ok h hg hn).1
  have hP := getFor_post env n l m hl h
  rw [hg] at hP
  exact ⟨hP.1, hP.2.1⟩

/-- C98, what holds.  Load a language, add a directory with the lowest priority and load the language again: every lookup without a number
that was answered without a message is answered as before; every lookup with a number too, if the new directory declares no plural rule.
(Missing: lookups with a number if it does declare one; see `C98_false`.) -/
theorem C98_only_adds_partial (cs : Str) (k k1 k2 k3 : Manager) (env env' : Env) (n n' : Nat) (l : Language) (p r : DictId) (dir : Str)
    (hr : Reach cs k) (hg : getDictionaryFor env n l k = .ok p k1) (hp : k.heap.get? p = none)
    (hdir : dir ∉ k.searchPath) (hadd : Call.Leads env' (.addDirectory dir false) k1 k2) (hg' : getDictionaryFor env n' l k2 = .ok r k3)
    (q : Query) (hq : q.isPlural = true → ∃ e, AloneGives env l k.charset dir e ∧ e.pluralForms = .undefined)
    (s : Str) (i j : Nat) (hs : ask i p q k1 = .ok s k1) : ask (j + 1) r q k3 = .ok s k3 := by
  have hI := reach_inv hr
  obtain ⟨hI1, hgr⟩ := get_grow hI hg (new_miss hI hg hp)
  obtain ⟨hI2, hcs, hpath, hd0, _⟩ := after_adding hI1 hgr hdir hadd
  obtain ⟨d, d', h1, h2, h3, _, h5⟩ := more_dirs hI hI2 hg hp hg' (loaded_new hI2 hd0 hg') hcs [dir] hpath
  obtain ⟨x, hx, ho⟩ := ask_silent hs
  rw [h1] at hx
  cases hx
  obtain ⟨v, hv, hsay⟩ := silent_says ho
  obtain ⟨w, hw, hpre⟩ := h3 _ v hv
  refine ask_said h2 (says_silent hw ?_)
  cases hb : q.isPlural with
  | false => exact says_rule hb (says_longer hpre hsay)
  | true =>
    obtain ⟨e, he, hu⟩ := hq hb
    rw [← h5 ?_]
    · exact says_longer hpre hsay
    · have := alone_eff he
      show ((dirEff env l k.charset dir).applyTo (Dictionary.init k.charset)).pluralForms = _
      rw [← this]
      exact hu

/-- C98.  What is new comes from the new directory: a message that had no strings has now those that the directory alone gives it. -/
theorem C98_new_ones (cs : Str) (k k1 k2 k3 : Manager) (env env' : Env) (n n' : Nat) (l : Language) (p r : DictId) (dir : Str)
    (hr : Reach cs k) (hg : getDictionaryFor env n l k = .ok p k1) (hp : k.heap.get? p = none)
    (hdir : dir ∉ k.searchPath) (hadd : Call.Leads env' (.addDirectory dir false) k1 k2) (hg' : getDictionaryFor env n' l k2 = .ok r k3)
    (e : Dictionary) (he : AloneGives env l k.charset dir e) :
    ∃ d d', k1.heap.get? p = some d ∧ k3.heap.get? r = some d' ∧
      ∀ ctxt msgid, (stored d ctxt msgid = none → stored d' ctxt msgid = stored e ctxt msgid) ∧
        ∀ v, stored d ctxt msgid = some v → ∃ w, stored d' ctxt msgid = some w ∧ v <+: w := by
  have hI := reach_inv hr
  obtain ⟨hI1, hgr⟩ := get_grow hI hg (new_miss hI hg hp)
  obtain ⟨hI2, hcs, hpath, hd0, _⟩ := after_adding hI1 hgr hdir hadd
  obtain ⟨d, d', h1, h2, h3, h4, _⟩ := more_dirs hI hI2 hg hp hg' (loaded_new hI2 hd0 hg') hcs [dir] hpath
  refine ⟨d, d', h1, h2, ?_⟩
  intro ctxt msgid
  refine ⟨?_, ?_⟩
  · intro hn
    rw [stored_lookup] at hn ⊢
    rw [h4 _ hn, stored_lookup, ← lookup_unlinked e, alone_eff he]
    rfl
  · intro v hv
    rw [stored_lookup] at hv
    obtain ⟨w, hw, hp⟩ := h3 _ v hv
    exact ⟨w, by rw [stored_lookup]; exact hw, hp⟩

/-! ### A small world -/

/-- `hi` has German and Austrian files, `lo` too. -/
def addOs : OS where
  listing p :=
    if p = b!"hi" then some [b!"de_AT.po", b!"de.po"]
    else if p = b!"lo" then some [b!"de.po", b!"de_AT.po"]
    else if p = b!"norule" then some [b!"de.po"]
    else none
  content f :=
    if f = b!"hi/de.po" then some (b!"msgid \"\"\nmsgstr \"Plural-Forms: nplurals=2; plural=(n != 1);\\n\"\n\n" ++
      b!"msgid \"file\"\nmsgid_plural \"files\"\nmsgstr[0] \"Datei\"\nmsgstr[1] \"Dateien\"\n\nmsgid \"dog\"\nmsgstr \"Hund\"\n")
    else if f = b!"hi/de_AT.po" then some b!"msgid \"potato\"\nmsgstr \"Erdapfel\"\n"
    else if f = b!"lo/de.po" then some (b!"msgid \"\"\nmsgstr \"Plural-Forms: nplurals=2; plural=(n > 1);\\n\"\n\n" ++
      b!"msgid \"dog\"\nmsgstr \"Koeter\"\n\nmsgid \"cat\"\nmsgstr \"Katze\"\n")
    else if f = b!"lo/de_AT.po" then some b!"msgid \"dog\"\nmsgstr \"Wauwau\"\n"
    else if f = b!"norule/de.po" then some b!"msgid \"file\"\nmsgid_plural \"files\"\nmsgstr[0] \"x\"\nmsgstr[1] \"y\"\n\nmsgid \"cat\"\nmsgstr \"Katze\"\n"
    else none

/-- The world with these files. -/
def addEnv : Env := ⟨.c, demoLib, false, unixFileSystem addOs, 300⟩

/-- Load a language from `hi`, look up, add a directory, load again, look up: both answers, and whether they were silent. -/
def addScript (dir : Str) (l : Language) (q : Query) : Option ((Str × Bool) × (Str × Bool)) :=
  match (getDictionaryFor addEnv 300 l (newManager ⟨[b!"hi"], b!"UTF-8", true⟩)) with
  | .ok p k1 => match ask 10 p q k1, addDirectory dir false k1 with
    | .ok s k1', .ok _ k2 => match getDictionaryFor addEnv 300 l k2 with
      | .ok r k3 => match ask 10 r q k3 with
        | .ok s' k3' => some ((s, k1'.log.length == k1.log.length), (s', k3'.log.length == k3.log.length))
        | _ => none
      | _ => none
    | _, _ => none
  | _ => none

-- "dog" stays, and so does "files" when the new directory has no rule; "cat" is new
example : addScript b!"lo" deLang (.translate b!"dog") = some ((b!"Hund", true), (b!"Hund", true)) ∧
    addScript b!"norule" deLang (.plural b!"file" b!"files" 0) = some ((b!"Dateien", true), (b!"Dateien", true)) ∧
    addScript b!"norule" deLang (.translate b!"cat") = some ((b!"cat", false), (b!"Katze", true)) := by
  decide +kernel

/-- A run of `addScript` is one that C98 is about. -/
theorem addScript_run {dir : Str} {l : Language} {q : Query} {s s' : Str} {b b' : Bool} (hdir : dir ≠ b!"hi") (h : addScript dir l q = some ((s, b), (s', b'))) :
    ∃ k k1 k1' k2 k3 k3' p r, Reach b!"UTF-8" k ∧ getDictionaryFor addEnv 300 l k = .ok p k1 ∧ k.heap.get? p = none ∧ dir ∉ k.searchPath ∧
      Call.Leads addEnv (.addDirectory dir false) k1 k2 ∧ getDictionaryFor addEnv 300 l k2 = .ok r k3 ∧
      ask 10 p q k1 = .ok s k1' ∧ ask 10 r q k3 = .ok s' k3' ∧ (b = true → k1' = k1) := by
  have hk : Reach b!"UTF-8" (newManager ⟨[b!"hi"], b!"UTF-8", true⟩) := script_reach (calls := [.addDirectory b!"hi" false]) (by decide +kernel)
  unfold addScript at h
  cases h1 : getDictionaryFor addEnv 300 l (newManager ⟨[b!"hi"], b!"UTF-8", true⟩) with
  | ok p k1 =>
    rw [h1] at h
    dsimp only at h
    cases h2 : ask 10 p q k1 with
    | ok x k1' =>
      rw [h2] at h
      cases h3 : addDirectory dir false k1 with
      | ok u k2 =>
        rw [h3] at h
        dsimp only at h
        cases h4 : getDictionaryFor addEnv 300 l k2 with
        | ok r k3 =>
          rw [h4] at h
          dsimp only at h
          cases h5 : ask 10 r q k3 with
          | ok y k3' =>
            rw [h5] at h
            simp only [Option.some.injEq, Prod.mk.injEq] at h
            obtain ⟨⟨e1, e2⟩, e3, _⟩ := h
            subst e1; subst e3
            refine ⟨_, k1, k1', k2, k3, k3', p, r, hk, h1, ?_, ?_, ?_, h4, h2, h5, ?_⟩
            · exact loaded_new (reach_inv hk) rfl h1
            · simpa [newManager] using hdir
            · refine .inl ⟨.done, ?_⟩
              show (addDirectory dir false >>= fun _ => Prog.pure Answer.done) k1 = _
              rw [prog_bind, bind_apply, h3]
              rfl
            · intro hb
              rw [hb] at e2
              obtain ⟨hI1, _⟩ := get_grow (reach_inv hk) h1 rfl
              have hd : ∃ d, k1.heap.get? p = some d := by
                cases hx : k1.heap.get? p with
                | none => unfold ask at h2; rw [hx] at h2; cases h2
                | some d => exact ⟨d, rfl⟩
              obtain ⟨d, hd⟩ := hd
              rcases ask_ok hI1 10 hd q with ⟨z, lg, h, hpre⟩ | ⟨h, _⟩
              · rw [h2] at h
                injection h with _ h
                subst h
                have hlen : lg.length = k1.log.length := by simpa using e2
                have hll : k1.log = lg := hpre.eq_of_length hlen.symm
                rw [← hll]
              · rw [h2] at h; cases h
          | _ => rw [h5] at h; cases h
        | _ => rw [h4] at h; cases h
      | _ => rw [h3] at h; cases h
    | _ => rw [h2] at h; cases h
  | _ => rw [h1] at h; cases h

/-- C98 is false of this code: `hi/de.po` declares `n != 1`; adding `lo`, which declares `n > 1`, turns "Dateien" into "Datei" (C51). -/
theorem C98_false : ¬ C98_Statement := by
  intro h
  obtain ⟨k, k1, k1', k2, k3, k3', p, r, h1, h2, h3, h4, h5, h6, h7, h8, h9⟩ :=
    addScript_run (dir := b!"lo") (l := deLang) (q := .plural b!"file" b!"files" 0) (s := b!"Dateien") (s' := b!"Datei") (b := true) (b' := true)
      (by decide) (by decide +kernel)
  rw [h9 rfl] at h7
  have := h _ k k1 k2 k3 addEnv addEnv 300 300 deLang p r b!"lo" h1 h2 h3 h4 h5 h6 _ _ 10 9 h7
  rw [h8] at this
  injection this with this
  exact absurd this (by decide)

/-- C98 cannot be widened to the answers of the fallback: "dog" is answered from `hi/de.po`; adding `lo` with the lowest priority, it is
answered from `lo/de_AT.po`. -/
theorem C98_fallback_changes : ∃ k k1 k1' k2 k3 k3' p r, Reach b!"UTF-8" k ∧ getDictionaryFor addEnv 300 atLang k = .ok p k1 ∧
    k.heap.get? p = none ∧ b!"lo" ∉ k.searchPath ∧ Call.Leads addEnv (.addDirectory b!"lo" false) k1 k2 ∧
    getDictionaryFor addEnv 300 atLang k2 = .ok r k3 ∧
    ask 10 p (.translate b!"dog") k1 = .ok b!"Hund" k1' ∧ ask 10 r (.translate b!"dog") k3 = .ok b!"Wauwau" k3' := by
  obtain ⟨k, k1, k1', k2, k3, k3', p, r, h1, h2, h3, h4, h5, h6, h7, h8, _⟩ :=
    addScript_run (dir := b!"lo") (l := atLang) (q := .translate b!"dog") (s := b!"Hund") (s' := b!"Wauwau") (b := false) (b' := true)
      (by decide) (by decide +kernel)
  exact ⟨k, k1, k1', k2, k3, k3', p, r, h1, h2, h3, h4, h5, h6, h7, h8⟩

end Tgt
