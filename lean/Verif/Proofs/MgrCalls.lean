import Verif.Proofs.Dict
import Verif.Proofs.MgrInv
/-
Every call keeps the invariant.
-/
namespace Tgt.Mgr
open Spec Manager POParser

/-- The values of a cache. -/
def vals (t : AMap Language DictId) : List DictId := t.map Prod.snd

theorem vals_nodup {m : Manager} (h : Inv m) : (vals m.dictionaries).Nodup := by
  have h1 : m.dictionaries.Pairwise (fun a b => a.1 ≠ b.1) := List.pairwise_map.1 h.keysD
  refine List.pairwise_map.2 (h1.imp_of_mem ?_)
  intro a b ha hb hne he
  obtain ⟨k, v⟩ := a
  obtain ⟨k', v'⟩ := b
  dsimp only at he hne
  subst he
  exact hne (h.inj k k' v (AMap.get?_of_mem h.keysD ha) (AMap.get?_of_mem h.keysD hb))

theorem mem_vals {m : Manager} (h : Inv m) (p : DictId) : p ∈ vals m.dictionaries ↔ ∃ L, m.dictionaries.get? L = some p := by
  unfold vals
  simp only [List.mem_map]
  constructor
  · rintro ⟨⟨L, q⟩, hm, rfl⟩; exact ⟨L, AMap.get?_of_mem h.keysD hm⟩
  · rintro ⟨L, hp⟩; exact ⟨(L, p), AMap.get?_mem hp, rfl⟩

theorem deleteAll_ok (t : AMap Language DictId) : ∀ m : Manager, (vals t).Nodup → (∀ p ∈ vals t, ∃ d, m.heap.get? p = some d) →
    m.heap.keys.Nodup → ∃ h', deleteAll t m = .ok () { m with heap := h', freed := (vals t).reverse ++ m.freed } ∧
      h'.keys.Nodup ∧ ∀ p, h'.get? p = if p ∈ vals t then none else m.heap.get? p := by
  induction t with
  | nil => intro m _ _ hk; exact ⟨m.heap, rfl, hk, fun p => by simp [vals]⟩
  | cons x t ih =>
    intro m hn hl hk
    obtain ⟨L, q⟩ := x
    have hn' : q ∉ vals t ∧ (vals t).Nodup := by simpa [vals] using hn
    obtain ⟨d, hd⟩ := hl q (by simp [vals])
    have hk' : (m.heap.erase q).keys.Nodup := by rw [AMap.keys_erase]; exact hk.erase _
    have hg := AMap.get?_erase hk q
    obtain ⟨h', h1, h2, h3⟩ := ih { m with heap := m.heap.erase q, freed := q :: m.freed } hn'.2
      (by
        intro p hp
        obtain ⟨e, he⟩ := hl p (by simp [vals] at hp ⊢; exact .inr hp)
        refine ⟨e, ?_⟩
        show (m.heap.erase q).get? p = some e
        rw [hg, if_neg]
        · exact he
        · rintro rfl; exact hn'.1 hp) hk'
    refine ⟨h', ?_, h2, ?_⟩
    · rw [deleteAll, prog_bind, bind_apply]
      unfold deleteDict
      rw [hd]
      dsimp only
      rw [h1]
      simp [vals]
    · intro p
      rw [h3 p]
      show (if p ∈ vals t then none else (m.heap.erase q).get? p) = _
      rw [hg]
      have : p ∈ vals ((L, q) :: t) ↔ p = q ∨ p ∈ vals t := by simp [vals]
      by_cases hp : p ∈ vals t
      · rw [if_pos hp, if_pos (this.2 (.inr hp))]
      · rw [if_neg hp]
        by_cases hq : q = p
        · rw [if_pos hq, if_pos (this.2 (.inl hq.symm))]
        · rw [if_neg hq, if_neg]
          intro h; rcases this.1 h with h | h
          · exact hq h.symm
          · exact hp h

/-- Deleting all cached dictionaries. -/
theorem deleteAll_inv {m : Manager} (h : Inv m) : ∃ h' fr, deleteAll m.dictionaries m = .ok () { m with heap := h', freed := fr } ∧
    h'.keys.Nodup ∧ (∀ p, h'.get? p = if p = 0 then m.heap.get? 0 else none) ∧ fr.Nodup ∧
    (∀ p, p ∈ fr ↔ 1 ≤ p ∧ p < m.nextId) := by
  obtain ⟨h', h1, h2, h3⟩ := deleteAll_ok m.dictionaries m (vals_nodup h)
    (by
      intro p hp
      obtain ⟨L, hL⟩ := (mem_vals h p).1 hp
      obtain ⟨_, _, d, hd, _⟩ := h.cached L p hL
      exact ⟨d, hd⟩) h.heapK
  have h0 : (0 : DictId) ∉ vals m.dictionaries := by
    intro hp
    obtain ⟨L, hL⟩ := (mem_vals h 0).1 hp
    exact (h.cached L 0 hL).2.1 rfl
  refine ⟨h', _, h1, h2, ?_, ?_, ?_⟩
  · intro p
    rw [h3 p]
    by_cases hp0 : p = 0
    · subst hp0; rw [if_neg h0, if_pos rfl]
    · rw [if_neg hp0]
      split
      · rfl
      · rename_i hp
        cases hd : m.heap.get? p with
        | none => rfl
        | some d =>
          rcases (h.live p d hd).2 with e | e
          · exact absurd e hp0
          · exact absurd ((mem_vals h p).2 e) hp
  · refine List.nodup_append.2 ⟨?_, h.freedN, ?_⟩
    · exact (List.reverse_perm _).nodup_iff.2 (vals_nodup h)
    · intro p hp q hq e
      subst e
      rw [List.mem_reverse] at hp
      obtain ⟨L, hL⟩ := (mem_vals h p).1 hp
      obtain ⟨_, _, d, hd, _⟩ := h.cached L p hL
      have := ((h.freedIff p).1 hq).2.2
      rw [hd] at this; cases this
  · intro p
    rw [List.mem_append, List.mem_reverse, h.freedIff p]
    constructor
    · rintro (hp | ⟨a, b, _⟩)
      · obtain ⟨L, hL⟩ := (mem_vals h p).1 hp
        obtain ⟨_, h5, d, hd, _⟩ := h.cached L p hL
        exact ⟨by omega, (h.live p d hd).1⟩
      · exact ⟨a, b⟩
    · rintro ⟨a, b⟩
      cases hd : m.heap.get? p with
      | none => exact .inr ⟨a, b, rfl⟩
      | some d =>
        rcases (h.live p d hd).2 with e | e
        · omega
        · exact .inl ((mem_vals h p).2 e)

/-- A manager whose cache has been cleared. -/
structure Cleared (m m' : Manager) : Prop where
  path : m'.searchPath = m.searchPath
  charset : m'.charset = m.charset
  fuzzy : m'.useFuzzy = m.useFuzzy
  lang : m'.currentLanguage = m.currentLanguage
  dicts : m'.dictionaries = []
  cur : m'.currentDict = none
  next : m'.nextId = m.nextId
  log : m'.log = m.log
  heap : ∀ p, m'.heap.get? p = if p = 0 then m.heap.get? 0 else none

theorem clearCache_ok {m : Manager} (h : Inv m) : ∃ m', clearCache m = .ok () m' ∧ Inv m' ∧ Cleared m m' := by
  obtain ⟨h', fr, h1, h2, h3, h4, h5⟩ := deleteAll_inv h
  obtain ⟨d0, e1, e2⟩ := h.empty
  refine ⟨{ m with heap := h', freed := fr, dictionaries := [], currentDict := none }, ?_, ?_,
    ⟨rfl, rfl, rfl, rfl, rfl, rfl, rfl, rfl, h3⟩⟩
  · unfold clearCache
    simp only [prog_bind, bind_apply, Prog.get, h1, Prog.modify]
  · refine ⟨h.path, by simp [AMap.keys], by simp [AMap.get?], by simp [AMap.get?], ⟨d0, ?_, e2⟩, h2, ?_, h4, ?_, by simp⟩
    · show h'.get? 0 = _
      rw [h3, if_pos rfl]; exact e1
    · intro p d hd
      have hd' : h'.get? p = some d := hd
      clear hd
      rw [h3] at hd'
      split at hd'
      · rename_i e; subst e; exact ⟨(h.live 0 d hd').1, .inl rfl⟩
      · cases hd'
    · intro p
      show p ∈ fr ↔ 1 ≤ p ∧ p < m.nextId ∧ h'.get? p = none
      rw [h5, h3]
      constructor
      · rintro ⟨a, b⟩; exact ⟨a, b, by rw [if_neg (by omega)]⟩
      · rintro ⟨a, b, _⟩; exact ⟨a, b⟩

/-! ### The calls -/

/-- What is true after a call that came back. -/
def After (m : Manager) (c : Call) (m' : Manager) : Prop :=
  Inv m' ∧ (c.configures = false → Grow m m' ∧ ∀ q, q < m.nextId → c.changes? ≠ some q → m'.heap.get? q = m.heap.get? q) ∧
    (c.changes? ≠ some 0 → m'.heap.get? 0 = m.heap.get? 0) ∧ config m' = c.configure (config m)

/-- What a call can do. -/
def CallPost (env : Env) (c : Call) (m : Manager) : Res Manager Answer → Prop
  | .ok _ m' => After m c m'
  | .exn _ m' => After m c m'
  | .poError _ => False
  | .fault f => FaultOk env.lib f ∨ (f = .assertFailed ∧ c = .getDictionaryFor none) ∨
      (f = .useAfterFree ∧ ∃ id, c.target? = some id ∧ m.heap.get? id = none)
  | .diverge => True

theorem Inv.config {m' : Manager} (h : Inv m') (hd : m'.dictionaries = []) (hc : m'.currentDict = none) (p : List Str) (hp : p.Nodup) (cs : Str) (uf : Bool) :
    Inv { m' with searchPath := p, charset := cs, useFuzzy := uf } := by
  refine ⟨hp, h.keysD, h.inj, ?_, h.empty, h.heapK, h.live, h.freedN, h.freedIff, ?_⟩
  · intro L q hq
    have hq : m'.dictionaries.get? L = some q := hq
    rw [hd] at hq; cases hq
  · intro q hq
    have hq : m'.currentDict = some q := hq
    rw [hc] at hq; cases hq

theorem setCharset_ok {m : Manager} (h : Inv m) (cs : Str) : ∃ m', setCharset cs m = .ok () { m' with charset := cs } ∧ Cleared m m' ∧ Inv { m' with charset := cs } := by
  obtain ⟨m', h1, h2, h3⟩ := clearCache_ok h
  refine ⟨m', ?_, h3, h2.config h3.dicts h3.cur m'.searchPath h2.path cs m'.useFuzzy⟩
  unfold setCharset
  simp only [prog_bind, bind_apply, h1, Prog.modify]

theorem setUseFuzzy_ok {m : Manager} (h : Inv m) (b : Bool) : ∃ m', setUseFuzzy b m = .ok () { m' with useFuzzy := b } ∧ Cleared m m' ∧ Inv { m' with useFuzzy := b } := by
  obtain ⟨m', h1, h2, h3⟩ := clearCache_ok h
  refine ⟨m', ?_, h3, h2.config h3.dicts h3.cur m'.searchPath h2.path m'.charset b⟩
  unfold setUseFuzzy
  simp only [prog_bind, bind_apply, h1, Prog.modify]

/-- The search path after adding a directory. -/
def addPath (p : Str) (prec : Bool) (path : List Str) : List Str := if prec then p :: path else path ++ [p]

theorem addDirectory_known {m : Manager} {p : Str} (hp : p ∈ m.searchPath) (prec : Bool) : addDirectory p prec m = .ok () m := by
  unfold addDirectory
  simp only [prog_bind, bind_apply, Prog.get, if_pos hp, Prog.pure]

theorem addDirectory_ok {m : Manager} (h : Inv m) {p : Str} (hp : p ∉ m.searchPath) (prec : Bool) :
    ∃ m', addDirectory p prec m = .ok () { m' with searchPath := addPath p prec m.searchPath } ∧ Cleared m m' ∧ Inv { m' with searchPath := addPath p prec m.searchPath } := by
  obtain ⟨m', h1, h2, h3⟩ := clearCache_ok h
  have hn : (addPath p prec m.searchPath).Nodup := by
    unfold addPath
    cases prec with
    | true => exact List.nodup_cons.2 ⟨hp, h.path⟩
    | false =>
      simp only [Bool.false_eq_true, if_false]
      refine List.nodup_append.2 ⟨h.path, by simp, ?_⟩
      intro a ha b hb e
      simp at hb
      subst hb; subst e
      exact hp ha
  refine ⟨m', ?_, h3, h2.config h3.dicts h3.cur _ hn m'.charset m'.useFuzzy⟩
  unfold addDirectory
  simp only [prog_bind, bind_apply, Prog.get, if_neg hp, h1, Prog.modify, h3.path]
  rfl

theorem removeDirectory_unknown {m : Manager} {p : Str} (hp : p ∉ m.searchPath) : removeDirectory p m = .ok () m := by
  unfold removeDirectory
  simp only [prog_bind, bind_apply, Prog.get, if_neg hp, Prog.pure]

theorem removeDirectory_ok {m : Manager} (h : Inv m) {p : Str} (hp : p ∈ m.searchPath) :
    ∃ m', removeDirectory p m = .ok () { m' with searchPath := m.searchPath.erase p } ∧ Cleared m m' ∧ Inv { m' with searchPath := m.searchPath.erase p } := by
  obtain ⟨m', h1, h2, h3⟩ := clearCache_ok h
  refine ⟨m', ?_, h3, h2.config h3.dicts h3.cur _ (h.path.erase p) m'.charset m'.useFuzzy⟩
  unfold removeDirectory
  simp only [prog_bind, bind_apply, Prog.get, if_pos hp, h1, Prog.modify, h3.path]

theorem setLanguage_inv {m : Manager} (h : Inv m) (l : Language) : ∃ m', setLanguage l m = .ok () m' ∧ Inv m' ∧ Grow m m' ∧
    m'.currentLanguage = l ∧ m'.heap = m.heap := by
  unfold setLanguage
  by_cases hc : m.currentLanguage ≠ l
  · rw [if_pos hc]
    refine ⟨_, rfl, ⟨h.path, h.keysD, h.inj, h.cached, h.empty, h.heapK, h.live, h.freedN, h.freedIff, by simp⟩, ?_, rfl, rfl⟩
    exact ⟨rfl, rfl, rfl, rfl, Nat.le_refl _, fun _ _ h => h, List.prefix_refl _⟩
  · rw [if_neg hc]
    exact ⟨m, rfl, h, .refl m, by simpa using hc, rfl⟩

theorem getLanguages_state (env : Env) (dirs : List Str) : ∀ (acc : List Language) (m : Manager),
    (∃ l, collectDirs env dirs acc m = .ok l m) ∨ ∃ w, collectDirs env dirs acc m = .exn w m := by
  induction dirs with
  | nil => intro acc m; exact .inl ⟨acc, rfl⟩
  | cons d t ih =>
    intro acc m
    unfold collectDirs
    cases env.fs.openDirectory d with
    | error w => exact .inr ⟨w, rfl⟩
    | ok files => exact ih _ m

/-- A lookup only logs, and never meets a dangling pointer, on a live dictionary of a sound manager. -/
theorem translateIn_ok {m : Manager} (f : Nat) : ∀ (d : Dictionary) (e : Entries) (msgid : Str) (log : List Diag),
    (d.hasFallback = true → ∃ q d', d.fallback = some q ∧ m.heap.get? q = some d' ∧ d'.hasFallback = false) →
    (∃ r log', Dictionary.translateIn m.heap.get? f d e msgid log = .ok r log' ∧ log <+: log') ∨
      (Dictionary.translateIn m.heap.get? f d e msgid log = .diverge ∧ f ≤ 1 ∧ (f = 1 → d.hasFallback = true)) := by
  induction f with
  | zero => intro d e msgid log _; exact .inr ⟨rfl, by omega, by omega⟩
  | succ f ih =>
    intro d e msgid log hd
    have miss : (∃ r log', (fun log => let log := log ++ [Diag.couldntTranslate msgid]
          if d.hasFallback then
            match d.fallback with
            | none => (.fault .nullDeref : Res (List Diag) Str)
            | some p =>
              match m.heap.get? p with
              | none => .fault .useAfterFree
              | some d' => Dictionary.translateIn m.heap.get? f d' d'.entries msgid log
          else .ok msgid log) log = .ok r log' ∧ log <+: log') ∨
        ((fun log => let log := log ++ [Diag.couldntTranslate msgid]
          if d.hasFallback then
            match d.fallback with
            | none => (.fault .nullDeref : Res (List Diag) Str)
            | some p =>
              match m.heap.get? p with
              | none => .fault .useAfterFree
              | some d' => Dictionary.translateIn m.heap.get? f d' d'.entries msgid log
          else .ok msgid log) log = .diverge ∧ f + 1 ≤ 1 ∧ (f + 1 = 1 → d.hasFallback = true)) := by
      dsimp only
      by_cases hf : d.hasFallback = true
      · obtain ⟨q, d', h1, h2, h3⟩ := hd hf
        rw [if_pos hf, h1]
        dsimp only
        rw [h2]
        dsimp only
        rcases ih d' d'.entries msgid (log ++ [.couldntTranslate msgid]) (by intro hx; rw [h3] at hx; cases hx) with ⟨r, l', hr, hp⟩ | ⟨hr, hl, hx⟩
        · exact .inl ⟨r, l', hr, (List.prefix_append _ _).trans hp⟩
        · have : f ≠ 1 := by intro e; have := hx e; rw [h3] at this; cases this
          exact .inr ⟨hr, by omega, fun _ => hf⟩
      · rw [if_neg hf]
        exact .inl ⟨_, _, rfl, List.prefix_append _ _⟩
    rw [Dictionary.translateIn]
    cases e.get? msgid with
    | none => exact miss
    | some v =>
      cases v with
      | nil => exact miss
      | cons s t => exact .inl ⟨s, log, rfl, List.prefix_refl _⟩

/-- The fallback of a live dictionary is live and has no fallback itself. -/
theorem Inv.fallback {m : Manager} (h : Inv m) {p : DictId} {d : Dictionary} (hd : m.heap.get? p = some d) (hf : d.hasFallback = true) :
    ∃ L q d', m.dictionaries.get? L = some p ∧ L.getCountry ≠ [] ∧ d.fallback = some q ∧ m.dictionaries.get? (baseOf L) = some q ∧
      m.heap.get? q = some d' ∧ d'.hasFallback = false := by
  rcases (h.live p d hd).2 with e | ⟨L, hL⟩
  · subst e
    obtain ⟨d0, h1, h2, _⟩ := h.empty
    rw [hd] at h1; cases h1
    rw [h2] at hf; cases hf
  · obtain ⟨h0, _, d1, h1, _, h2⟩ := h.cached L p hL
    rw [hd] at h1; cases h1
    rcases h2 with ⟨h2, _⟩ | ⟨_, h3, q, h4, h5⟩
    · rw [h2] at hf; cases hf
    · obtain ⟨_, _, d', h6, _, h7⟩ := h.cached _ q h5
      refine ⟨L, q, d', hL, h3, h4, h5, h6, ?_⟩
      rcases h7 with ⟨h7, _⟩ | ⟨_, h8, _⟩
      · exact h7
      · exact absurd (base_defined h0).2 h8

theorem query_ok {m : Manager} (h : Inv m) (f : Nat) {p : DictId} {d : Dictionary} (hd : m.heap.get? p = some d) (q : Query) (log : List Diag) :
    (∃ r log', q.on m.heap.get? f d log = .ok r log' ∧ log <+: log') ∨ (q.on m.heap.get? f d log = .diverge ∧ f ≤ 1) := by
  have hfb : d.hasFallback = true → ∃ q d', d.fallback = some q ∧ m.heap.get? q = some d' ∧ d'.hasFallback = false := by
    intro hf
    obtain ⟨L, q, d', _, _, h1, _, h2, h3⟩ := h.fallback hd hf
    exact ⟨q, d', h1, h2, h3⟩
  cases q with
  | translate i =>
    rcases translateIn_ok f d d.entries i log hfb with h | ⟨h, hl, _⟩
    · exact .inl h
    · exact .inr ⟨h, hl⟩
  | plural i pl n => exact .inl ⟨_, _, rfl, List.prefix_append _ _⟩
  | ctxtPlural c i pl n => exact .inl ⟨_, _, rfl, List.prefix_append _ _⟩
  | ctxt c i =>
    unfold Query.on Dictionary.translateCtxt
    dsimp only
    cases d.ctxtEntries.get? c with
    | none => exact .inl ⟨_, _, rfl, List.prefix_append _ _⟩
    | some e =>
      rcases translateIn_ok f d e i log hfb with h | ⟨h, hl, _⟩
      · exact .inl h
      · exact .inr ⟨h, hl⟩

theorem ask_ok {m : Manager} (h : Inv m) (f : Nat) {p : DictId} {d : Dictionary} (hd : m.heap.get? p = some d) (q : Query) :
    (∃ r log, ask f p q m = .ok r { m with log := log } ∧ m.log <+: log) ∨ (ask f p q m = .diverge ∧ f ≤ 1) := by
  unfold ask
  rw [hd]
  dsimp only
  rcases query_ok h f hd q m.log with ⟨r, l, hr, hp⟩ | ⟨hr, hf⟩
  · rw [hr]; exact .inl ⟨r, l, rfl, hp⟩
  · rw [hr]; exact .inr ⟨rfl, hf⟩

theorem onDict_ok {m : Manager} (h : Inv m) {p : DictId} {d : Dictionary} (hd : m.heap.get? p = some d) (f : Dictionary → Dictionary × List Diag)
    (hf : Like d (f d).1) : ∃ m', onDict p f m = .ok () m' ∧ Inv m' ∧ Grow m m' ∧ ∀ q, p ≠ q → m'.heap.get? q = m.heap.get? q := by
  refine ⟨put m p ((f d).1, m.log ++ (f d).2), ?_, h.put hd hf, put_grow _ _ _ (List.prefix_append _ _),
    fun q hq => AMap.get?_set_ne _ _ hq⟩
  unfold onDict
  rw [hd]
  rfl

theorem getDictionary_post (env : Env) {m : Manager} (h : Inv m) :
    (∃ p m', getDictionary env m = .ok p m' ∧ Inv m' ∧ Grow m m' ∧ Frame m m') ∨
    (∃ w m', getDictionary env m = .exn w m' ∧ Inv m' ∧ Grow m m' ∧ Frame m m') ∨
    (∃ f, getDictionary env m = .fault f ∧ FaultOk env.lib f) ∨ getDictionary env m = .diverge := by
  unfold getDictionary
  simp only [prog_bind, bind_apply, Prog.get]
  cases hc : m.currentDict with
  | some p => exact .inl ⟨p, m, rfl, h, .refl m, fun _ _ => rfl⟩
  | none =>
    dsimp only
    by_cases hl : m.currentLanguage.isDefined = true
    · rw [if_pos hl]
      have hp := getFor_post env env.fuel m.currentLanguage m hl h
      rw [bind_apply]
      cases hr : getDictionaryFor env env.fuel m.currentLanguage m with
      | ok p m' =>
        rw [hr] at hp
        obtain ⟨h1, h2, h3, h4, h5, h6⟩ := hp
        refine .inl ⟨p, { m' with currentDict := some p }, rfl, ?_, ?_, h6⟩
        · refine ⟨h1.path, h1.keysD, h1.inj, h1.cached, h1.empty, h1.heapK, h1.live, h1.freedN, h1.freedIff, ?_⟩
          intro q hq
          have hq : some p = some q := hq
          cases hq
          show m'.currentLanguage.isDefined = true ∧ m'.dictionaries.get? m'.currentLanguage = some p
          rw [h4]
          exact ⟨hl, h5⟩
        · exact ⟨h2.path, h2.charset, h2.fuzzy, h2.freed, h2.next, h2.keeps, h2.log⟩
      | exn w m' => rw [hr] at hp; exact .inr (.inl ⟨w, m', rfl, hp.1, hp.2.1, hp.2.2.2.2.2⟩)
      | poError m' => rw [hr] at hp; exact hp.elim
      | fault f => rw [hr] at hp; exact .inr (.inr (.inl ⟨f, rfl, hp⟩))
      | diverge => exact .inr (.inr (.inr rfl))
    · rw [if_neg hl]
      exact .inl ⟨_, m, rfl, h, .refl m, fun _ _ => rfl⟩

theorem after_quiet {m m' : Manager} {c : Call} (h0 : Inv m) (h : Inv m') (hg : Grow m m') (hf : Frame m m') (hc : ∀ k, c.configure k = k) :
    After m c m' := by
  refine ⟨h, fun _ => ⟨hg, fun q hq _ => hf q hq⟩, fun _ => hf 0 h0.next_pos, ?_⟩
  rw [hc]
  unfold config
  rw [hg.path, hg.charset, hg.fuzzy]

theorem after_conf {m m' m'' : Manager} {c : Call} (hc : c.configures = true) (hcl : Cleared m m') (h : Inv m'') (hh : m''.heap = m'.heap)
    (hk : config m'' = c.configure (config m)) : After m c m'' := by
  refine ⟨h, (fun h' => by rw [hc] at h'; cases h'), fun _ => ?_, hk⟩
  rw [hh, hcl.heap, if_pos rfl]

theorem after_same {m : Manager} {c : Call} (h : Inv m) (hk : c.configure (config m) = config m) : After m c m :=
  ⟨h, fun _ => ⟨.refl m, fun _ _ _ => rfl⟩, fun _ => rfl, hk.symm⟩

/-- Every call keeps the invariant. -/
theorem call_post (env : Env) (c : Call) {m : Manager} (h : Inv m) : CallPost env c m (c.run env m) := by
  cases c with
  | getDictionary =>
    unfold Call.run
    simp only [prog_bind, bind_apply]
    rcases getDictionary_post env h with ⟨p, m', hr, h1, h2, h3⟩ | ⟨w, m', hr, h1, h2, h3⟩ | ⟨f, hr, hf⟩ | hr
    · rw [hr]; exact after_quiet h h1 h2 h3 (fun _ => rfl)
    · rw [hr]; exact after_quiet h h1 h2 h3 (fun _ => rfl)
    · rw [hr]; exact .inl hf
    · rw [hr]; trivial
  | getDictionaryFor l =>
    unfold Call.run
    simp only [prog_bind, bind_apply]
    cases l with
    | none =>
      cases hf : env.fuel with
      | zero => trivial
      | succ n => exact .inr (.inl ⟨rfl, rfl⟩)
    | some i =>
      have hp := getFor_post env env.fuel (some i) m rfl h
      cases hr : Manager.getDictionaryFor env env.fuel (some i) m with
      | ok p m' => rw [hr] at hp; exact after_quiet h hp.1 hp.2.1 hp.2.2.2.2.2 (fun _ => rfl)
      | exn w m' => rw [hr] at hp; exact after_quiet h hp.1 hp.2.1 hp.2.2.2.2.2 (fun _ => rfl)
      | poError m' => rw [hr] at hp; exact hp.elim
      | fault f => rw [hr] at hp; exact .inl hp
      | diverge => trivial
  | getLanguages =>
    unfold Call.run Manager.getLanguages
    simp only [prog_bind, bind_apply, Prog.get]
    rcases getLanguages_state env m.searchPath [] m with ⟨l, hr⟩ | ⟨w, hr⟩
    · rw [hr]; exact after_same h rfl
    · rw [hr]; exact after_same h rfl
  | setLanguage l =>
    unfold Call.run
    obtain ⟨m', hr, h1, h2, _, h3⟩ := setLanguage_inv h l
    simp only [prog_bind, bind_apply, hr]
    exact after_quiet h h1 h2 (fun q _ => by rw [h3]) (fun _ => rfl)
  | getLanguage => exact after_same h rfl
  | getUseFuzzy => exact after_same h rfl
  | setCharset s =>
    unfold Call.run
    obtain ⟨m', hr, hc, h2⟩ := setCharset_ok h s
    simp only [prog_bind, bind_apply, hr]
    refine after_conf rfl hc h2 rfl ?_
    simp [config, Call.configure, hc.path, hc.fuzzy]
  | setUseFuzzy b =>
    unfold Call.run
    obtain ⟨m', hr, hc, h2⟩ := setUseFuzzy_ok h b
    simp only [prog_bind, bind_apply, hr]
    refine after_conf rfl hc h2 rfl ?_
    simp [config, Call.configure, hc.path, hc.charset]
  | addDirectory p b =>
    unfold Call.run
    by_cases hp : p ∈ m.searchPath
    · simp only [prog_bind, bind_apply, addDirectory_known hp]
      refine after_same h ?_
      cases b <;> simp [Call.configure, config, hp]
    · obtain ⟨m', hr, hc, h2⟩ := addDirectory_ok h hp b
      simp only [prog_bind, bind_apply, hr]
      refine after_conf rfl hc h2 rfl ?_
      cases b <;> simp [config, Call.configure, hc.charset, hc.fuzzy, hp, addPath]
  | removeDirectory p =>
    unfold Call.run
    by_cases hp : p ∈ m.searchPath
    · obtain ⟨m', hr, hc, h2⟩ := removeDirectory_ok h hp
      simp only [prog_bind, bind_apply, hr]
      refine after_conf rfl hc h2 rfl ?_
      simp only [config, Call.configure, hc.charset, hc.fuzzy, h.path.erase_eq_filter]
      congr 1
      apply List.filter_congr
      intro x _
      by_cases e : x = p <;> simp [e]
    · simp only [prog_bind, bind_apply, removeDirectory_unknown hp]
      refine after_same h ?_
      simp only [Call.configure, config]
      congr 1
      apply List.filter_eq_self.2
      intro x hx
      simp
      rintro rfl
      exact hp hx
  | add id a =>
    unfold Call.run
    cases hd : m.heap.get? id with
    | none =>
      simp only [prog_bind, bind_apply, onDict, hd]
      exact .inr (.inr ⟨rfl, id, rfl, hd⟩)
    | some d =>
      obtain ⟨m', hr, h1, h2, h3⟩ := onDict_ok h hd (fun d => a.apply d) (like_apply a d)
      simp only [prog_bind, bind_apply, hr]
      refine ⟨h1, fun _ => ⟨h2, fun q _ hq => h3 q (fun e => hq (by rw [← e]; rfl))⟩, fun hq => h3 0 (fun e => hq (by rw [← e]; rfl)), ?_⟩
      simp [config, Call.configure, h2.path, h2.charset, h2.fuzzy]
  | setPluralForms id p =>
    unfold Call.run
    cases hd : m.heap.get? id with
    | none =>
      simp only [prog_bind, bind_apply, onDict, hd]
      exact .inr (.inr ⟨rfl, id, rfl, hd⟩)
    | some d =>
      obtain ⟨m', hr, h1, h2, h3⟩ := onDict_ok h hd (fun d => (d.setPluralForms p, [])) ⟨rfl, rfl, rfl⟩
      simp only [prog_bind, bind_apply, hr]
      refine ⟨h1, fun _ => ⟨h2, fun q _ hq => h3 q (fun e => hq (by rw [← e]; rfl))⟩, fun hq => h3 0 (fun e => hq (by rw [← e]; rfl)), ?_⟩
      simp [config, Call.configure, h2.path, h2.charset, h2.fuzzy]
  | ask id q =>
    unfold Call.run
    cases hd : m.heap.get? id with
    | none =>
      simp only [prog_bind, bind_apply, Manager.ask, hd]
      exact .inr (.inr ⟨rfl, id, rfl, hd⟩)
    | some d =>
      rcases ask_ok h env.fuel hd q with ⟨r, l, hr, hp⟩ | ⟨hr, _⟩
      · simp only [prog_bind, bind_apply, hr]
        exact after_quiet h (h.log l) ⟨rfl, rfl, rfl, rfl, Nat.le_refl _, fun _ _ h => h, hp⟩ (fun _ _ => rfl) (fun _ => rfl)
      · simp only [prog_bind, bind_apply, hr]
        trivial

theorem leads_after {env : Env} {c : Call} {m m' : Manager} (h : Inv m) (hl : c.Leads env m m') : After m c m' := by
  have hp := call_post env c h
  rcases hl with ⟨a, hr⟩ | ⟨w, hr⟩ | hr
  · rw [hr] at hp; exact hp
  · rw [hr] at hp; exact hp
  · rw [hr] at hp; exact hp.elim

theorem hist_inv {calls : List Call} {m m' : Manager} (h : Inv m) (hs : History m calls m') : Inv m' := by
  induction hs with
  | nil => exact h
  | snoc _ hl ih => exact (leads_after ih hl).1

theorem hist_config {calls : List Call} {m m' : Manager} (h : Inv m) (hs : History m calls m') : config m' = configured (config m) calls := by
  induction hs with
  | nil => rfl
  | snoc h1 hl ih =>
    rw [(leads_after (hist_inv h h1) hl).2.2.2, ih]
    simp [configured]

theorem hist_grow {calls : List Call} {m m' : Manager} (h : Inv m) (hs : History m calls m') (hP : ∀ c ∈ calls, c.configures = false) : Grow m m' := by
  induction hs with
  | nil => exact .refl m
  | snoc h1 hl ih =>
    exact (ih (fun c hc => hP c (List.mem_append_left _ hc))).trans ((leads_after (hist_inv h h1) hl).2.1 (hP _ (by simp))).1

theorem hist_frame {calls : List Call} {m m' : Manager} (h : Inv m) (hs : History m calls m') (hP : ∀ c ∈ calls, c.configures = false)
    (q : DictId) (hq : q < m.nextId) (hc : ∀ c ∈ calls, c.changes? ≠ some q) : m'.heap.get? q = m.heap.get? q := by
  induction hs with
  | nil => rfl
  | @snoc cs _ _ _ _ h1 hl ih =>
    have hP' : ∀ c ∈ cs, c.configures = false := fun c hc => hP c (List.mem_append_left _ hc)
    rw [((leads_after (hist_inv h h1) hl).2.1 (hP _ (by simp))).2 q (Nat.lt_of_lt_of_le hq (hist_grow h h1 hP').next) (hc _ (by simp)),
      ih hP' (fun c hx => hc c (List.mem_append_left _ hx))]

theorem hist_empty {calls : List Call} {m m' : Manager} (h : Inv m) (hs : History m calls m') (hc : ∀ c ∈ calls, c.changes? ≠ some 0) :
    m'.heap.get? 0 = m.heap.get? 0 := by
  induction hs with
  | nil => rfl
  | snoc h1 hl ih =>
    rw [(leads_after (hist_inv h h1) hl).2.2.1 (hc _ (by simp)), ih (fun c hx => hc c (List.mem_append_left _ hx))]

theorem reach_inv {cs : Str} {m : Manager} (h : Reach cs m) : Inv m := by
  obtain ⟨calls, h⟩ := h
  exact hist_inv (inv_init cs) h

end Tgt.Mgr
