import Verif.Proofs.Mgr
/-
The invariant of a `DictionaryManager`.
-/
namespace Tgt

namespace AMap
variable {κ ν : Type} [DecidableEq κ]

theorem keys_erase (m : AMap κ ν) (k : κ) : (m.erase k).keys = m.keys.erase k := by
  induction m with
  | nil => rfl
  | cons x t ih =>
    obtain ⟨k', v⟩ := x
    unfold erase keys
    by_cases h : k' = k
    · subst h; simp
    · rw [if_neg h, List.map_cons, List.map_cons, List.erase_cons_tail (by simpa using h)]
      congr 1

theorem get?_erase {m : AMap κ ν} (hn : m.keys.Nodup) (k k' : κ) :
    (m.erase k).get? k' = if k = k' then none else m.get? k' := by
  induction m with
  | nil => simp [erase, get?]
  | cons x t ih =>
    obtain ⟨a, v⟩ := x
    have hn' : a ∉ keys t ∧ (keys t).Nodup := by simpa [keys] using hn
    unfold erase
    by_cases h : a = k
    · rw [if_pos h]
      subst h
      by_cases h2 : a = k'
      · subst h2
        rw [if_pos rfl]
        exact get?_eq_none_iff.2 hn'.1
      · rw [if_neg h2, get?, if_neg h2]
    · rw [if_neg h, get?, ih hn'.2]
      by_cases h2 : k = k'
      · subst h2; rw [if_neg h, if_pos rfl, if_pos rfl]
      · rw [if_neg h2, if_neg h2, get?]

end AMap

namespace Mgr
open Spec Manager POParser

/-- The bare language. -/
def baseOf (l : Language) : Language := Language.fromSpec l.getLanguage [] []

theorem base_facts : ∀ i : Fin 241, (baseOf (some i)).isDefined = true ∧ (baseOf (some i)).getCountry = [] ∧
    (baseOf (some i)).getModifier = [] ∧ (baseOf (some i)).getLanguage = Language.getLanguage (some i) := by
  decide +kernel

theorem base_defined {l : Language} (h : l.isDefined = true) : (baseOf l).isDefined = true ∧ (baseOf l).getCountry = [] := by
  cases l with
  | none => cases h
  | some i => exact ⟨(base_facts i).1, (base_facts i).2.1⟩

/-- What a cached dictionary's fallback may be. -/
def FB (m : Manager) (l : Language) (d : Dictionary) : Prop :=
  (d.hasFallback = false ∧ d.fallback = none) ∨
  (d.hasFallback = true ∧ l.getCountry ≠ [] ∧ ∃ q, d.fallback = some q ∧ m.dictionaries.get? (baseOf l) = some q)

/-- The invariant. -/
structure Inv (m : Manager) : Prop where
  path : m.searchPath.Nodup
  keysD : m.dictionaries.keys.Nodup
  inj : ∀ L L' p, m.dictionaries.get? L = some p → m.dictionaries.get? L' = some p → L = L'
  cached : ∀ L p, m.dictionaries.get? L = some p → L.isDefined = true ∧ p ≠ 0 ∧
    ∃ d, m.heap.get? p = some d ∧ d.charset = m.charset ∧ FB m L d
  empty : ∃ d, m.heap.get? 0 = some d ∧ d.hasFallback = false ∧ d.fallback = none
  heapK : m.heap.keys.Nodup
  live : ∀ p d, m.heap.get? p = some d → p < m.nextId ∧ (p = 0 ∨ ∃ L, m.dictionaries.get? L = some p)
  freedN : m.freed.Nodup
  freedIff : ∀ p, p ∈ m.freed ↔ 1 ≤ p ∧ p < m.nextId ∧ m.heap.get? p = none
  cur : ∀ p, m.currentDict = some p → m.currentLanguage.isDefined = true ∧ m.dictionaries.get? m.currentLanguage = some p

/-- Loading and lookups only add dictionaries. -/
structure Grow (m m' : Manager) : Prop where
  path : m'.searchPath = m.searchPath
  charset : m'.charset = m.charset
  fuzzy : m'.useFuzzy = m.useFuzzy
  freed : m'.freed = m.freed
  next : m.nextId ≤ m'.nextId
  keeps : ∀ L p, m.dictionaries.get? L = some p → m'.dictionaries.get? L = some p
  log : m.log <+: m'.log

theorem Grow.refl (m : Manager) : Grow m m := ⟨rfl, rfl, rfl, rfl, Nat.le_refl _, fun _ _ h => h, List.prefix_refl _⟩

theorem Grow.trans {a b c : Manager} (h : Grow a b) (h' : Grow b c) : Grow a c :=
  ⟨h'.path.trans h.path, h'.charset.trans h.charset, h'.fuzzy.trans h.fuzzy, h'.freed.trans h.freed,
    Nat.le_trans h.next h'.next, fun L p hp => h'.keeps L p (h.keeps L p hp), h.log.trans h'.log⟩

theorem inv_init (cs : Str) : Inv (Manager.init cs) where
  path := by simp [Manager.init]
  keysD := by simp [Manager.init, AMap.keys]
  inj := by simp [Manager.init, AMap.get?]
  cached := by simp [Manager.init, AMap.get?]
  empty := ⟨_, rfl, rfl, rfl⟩
  heapK := by simp [Manager.init, AMap.keys]
  live := by
    intro p d h
    by_cases hp : p = 0
    · subst hp; exact ⟨by simp [Manager.init], .inl rfl⟩
    · simp [Manager.init, AMap.get?, emptyDict, Ne.symm hp] at h
  freedN := by simp [Manager.init]
  freedIff := by
    intro p
    simp [Manager.init]
    omega
  cur := by simp [Manager.init]

/-- New contents for a dictionary. -/
theorem Inv.put {m : Manager} (h : Inv m) {id : DictId} {d : Dictionary} (hd : m.heap.get? id = some d) {x : DL} (hx : Like d x.1) :
    Inv (put m id x) := by
  have hg : ∀ p e, (m.heap.set id x.1).get? p = some e → ∃ e0, m.heap.get? p = some e0 ∧ Like e0 e := by
    intro p e he
    rw [AMap.get?_set] at he
    split at he
    · rename_i hp
      subst hp
      cases he
      exact ⟨d, hd, hx⟩
    · exact ⟨e, he, .refl e⟩
  have hs : ∀ p e0, m.heap.get? p = some e0 → ∃ e, (m.heap.set id x.1).get? p = some e ∧ Like e0 e := by
    intro p e0 he
    rw [AMap.get?_set]
    split
    · rename_i hp
      subst hp
      rw [hd] at he
      cases he
      exact ⟨_, rfl, hx⟩
    · exact ⟨e0, he, .refl e0⟩
  refine ⟨h.path, h.keysD, h.inj, ?_, ?_, AMap.nodup_set h.heapK _ _, ?_, h.freedN, ?_, h.cur⟩
  · intro L p hp
    obtain ⟨h1, h2, e0, h3, h4, h5⟩ := h.cached L p hp
    obtain ⟨e, h6, h7⟩ := hs p e0 h3
    refine ⟨h1, h2, e, h6, h7.1.trans h4, ?_⟩
    unfold FB
    rw [h7.2.1, h7.2.2]
    exact h5
  · obtain ⟨e0, h1, h2, h3⟩ := h.empty
    obtain ⟨e, h4, h5⟩ := hs 0 e0 h1
    exact ⟨e, h4, h5.2.1.trans h2, h5.2.2.trans h3⟩
  · intro p e he
    obtain ⟨e0, h1, _⟩ := hg p e he
    exact h.live p e0 h1
  · intro p
    show p ∈ m.freed ↔ 1 ≤ p ∧ p < m.nextId ∧ (Mgr.put m id x).heap.get? p = none
    rw [h.freedIff p]
    have : (Mgr.put m id x).heap.get? p = none ↔ m.heap.get? p = none := by
      constructor
      · intro hn
        cases hp : m.heap.get? p with
        | none => rfl
        | some e0 =>
          obtain ⟨e, h4, _⟩ := hs p e0 hp
          have : (Mgr.put m id x).heap.get? p = some e := h4
          rw [this] at hn; cases hn
      · intro hn
        cases hp : (Mgr.put m id x).heap.get? p with
        | none => rfl
        | some e =>
          obtain ⟨e0, h4, _⟩ := hg p e hp
          rw [h4] at hn; cases hn
    rw [this]

theorem put_grow (m : Manager) (id : DictId) (x : DL) (h : m.log <+: x.2) : Grow m (put m id x) :=
  ⟨rfl, rfl, rfl, rfl, Nat.le_refl _, fun _ _ h => h, h⟩

theorem Inv.log {m : Manager} (h : Inv m) (l : List Diag) : Inv { m with log := l } :=
  ⟨h.path, h.keysD, h.inj, h.cached, h.empty, h.heapK, h.live, h.freedN, h.freedIff, h.cur⟩

/-- `newDict`. -/
def fresh (l : Language) (m : Manager) : Manager :=
  { m with heap := m.heap.set m.nextId (Dictionary.init m.charset), nextId := m.nextId + 1, dictionaries := m.dictionaries.set l m.nextId }

theorem Inv.heap_lt {m : Manager} (h : Inv m) (p : DictId) (hp : m.nextId ≤ p) : m.heap.get? p = none := by
  cases hd : m.heap.get? p with
  | none => rfl
  | some d => have := (h.live p d hd).1; omega

theorem Inv.next_pos {m : Manager} (h : Inv m) : 0 < m.nextId := by
  obtain ⟨d, hd, _⟩ := h.empty
  exact (h.live 0 d hd).1

theorem Inv.fresh {m : Manager} (h : Inv m) {l : Language} (hl : l.isDefined = true) (hn : m.dictionaries.get? l = none) : Inv (fresh l m) := by
  have hnew := h.heap_lt m.nextId (Nat.le_refl _)
  have hpos := h.next_pos
  have hgetD : ∀ L, (m.dictionaries.set l m.nextId).get? L = if l = L then some m.nextId else m.dictionaries.get? L :=
    fun L => AMap.get?_set _ _ _ _
  have hgetH : ∀ p, (m.heap.set m.nextId (Dictionary.init m.charset)).get? p = if m.nextId = p then some (Dictionary.init m.charset) else m.heap.get? p :=
    fun L => AMap.get?_set _ _ _ _
  have hc : ∀ L p, m.dictionaries.get? L = some p → p < m.nextId := by
    intro L p hp
    obtain ⟨_, _, d, hd, _⟩ := h.cached L p hp
    exact (h.live p d hd).1
  refine ⟨h.path, AMap.nodup_set h.keysD _ _, ?_, ?_, ?_, AMap.nodup_set h.heapK _ _, ?_, h.freedN, ?_, ?_⟩
  · intro L L' p h1 h2
    have h1 : (m.dictionaries.set l m.nextId).get? L = some p := h1
    have h2 : (m.dictionaries.set l m.nextId).get? L' = some p := h2
    rw [hgetD] at h1 h2
    split at h1 <;> split at h2
    · rename_i a b; rw [← a, ← b]
    · cases h1; have := hc _ _ h2; omega
    · cases h2; have := hc _ _ h1; omega
    · exact h.inj L L' p h1 h2
  · intro L p hp0
    have hp : (m.dictionaries.set l m.nextId).get? L = some p := hp0
    clear hp0
    rw [hgetD] at hp
    split at hp
    · rename_i e
      subst e
      cases hp
      refine ⟨hl, by omega, Dictionary.init m.charset, ?_, rfl, .inl ⟨rfl, rfl⟩⟩
      show (m.heap.set m.nextId (Dictionary.init m.charset)).get? m.nextId = _
      rw [hgetH, if_pos rfl]
    · obtain ⟨h1, h2, d, h3, h4, h5⟩ := h.cached L p hp
      refine ⟨h1, h2, d, ?_, h4, ?_⟩
      · show (m.heap.set m.nextId (Dictionary.init m.charset)).get? p = _
        rw [hgetH, if_neg (by have := hc _ _ hp; omega)]
        exact h3
      · rcases h5 with h5 | ⟨h5, h6, q, h7, h8⟩
        · exact .inl h5
        · refine .inr ⟨h5, h6, q, h7, ?_⟩
          show (m.dictionaries.set l m.nextId).get? (baseOf L) = some q
          rw [hgetD, if_neg]
          · exact h8
          · intro e; rw [← e, hn] at h8; cases h8
  · obtain ⟨d, h1, h2⟩ := h.empty
    refine ⟨d, ?_, h2⟩
    show (m.heap.set m.nextId (Dictionary.init m.charset)).get? 0 = _
    rw [hgetH, if_neg (by omega)]
    exact h1
  · intro p d hd
    have hd : (m.heap.set m.nextId (Dictionary.init m.charset)).get? p = some d := hd
    rw [hgetH] at hd
    show p < m.nextId + 1 ∧ (p = 0 ∨ ∃ L, (m.dictionaries.set l m.nextId).get? L = some p)
    split at hd
    · rename_i e
      subst e
      exact ⟨by omega, .inr ⟨l, by rw [hgetD, if_pos rfl]⟩⟩
    · obtain ⟨h1, h2⟩ := h.live p d hd
      refine ⟨by omega, ?_⟩
      rcases h2 with h2 | ⟨L, h2⟩
      · exact .inl h2
      · refine .inr ⟨L, ?_⟩
        rw [hgetD, if_neg]
        · exact h2
        · intro e; rw [← e, hn] at h2; cases h2
  · intro p
    show p ∈ m.freed ↔ 1 ≤ p ∧ p < m.nextId + 1 ∧ (m.heap.set m.nextId (Dictionary.init m.charset)).get? p = none
    rw [h.freedIff p, hgetH]
    by_cases e : m.nextId = p
    · rw [if_pos e]; subst e; simp
    · rw [if_neg e]
      constructor
      · rintro ⟨h1, h2, h3⟩; exact ⟨h1, by omega, h3⟩
      · rintro ⟨h1, h2, h3⟩; exact ⟨h1, by omega, h3⟩
  · intro p hp
    obtain ⟨h1, h2⟩ := h.cur p hp
    refine ⟨h1, ?_⟩
    show (m.dictionaries.set l m.nextId).get? m.currentLanguage = some p
    rw [hgetD, if_neg]
    · exact h2
    · intro e; rw [← e, hn] at h2; cases h2

theorem fresh_grow {m : Manager} {l : Language} (hn : m.dictionaries.get? l = none) : Grow m (fresh l m) := by
  refine ⟨rfl, rfl, rfl, rfl, Nat.le_succ _, ?_, List.prefix_refl _⟩
  intro L p hp
  show (m.dictionaries.set l m.nextId).get? L = some p
  rw [AMap.get?_set, if_neg]
  · exact hp
  · intro e; rw [← e, hn] at hp; cases hp

theorem fresh_get (m : Manager) (l : Language) : (fresh l m).dictionaries.get? l = some m.nextId := AMap.get?_set_self _ _ _
theorem fresh_heap (m : Manager) (l : Language) : (fresh l m).heap.get? m.nextId = some (Dictionary.init m.charset) := AMap.get?_set_self _ _ _

/-- `addFallback`. -/
theorem Inv.addFallback {m : Manager} (h : Inv m) {l : Language} {id fb : DictId} {d : Dictionary}
    (h1 : m.dictionaries.get? l = some id) (h2 : m.dictionaries.get? (baseOf l) = some fb) (hc : l.getCountry ≠ [])
    (hd : m.heap.get? id = some d) :
    Inv { m with heap := m.heap.set id (d.addFallback (some fb)) } := by
  have hgetH : ∀ p, (m.heap.set id (d.addFallback (some fb))).get? p = if id = p then some (d.addFallback (some fb)) else m.heap.get? p :=
    fun L => AMap.get?_set _ _ _ _
  obtain ⟨hl, hid, d0, hd0, hcs, _⟩ := h.cached l id h1
  rw [hd] at hd0
  cases hd0
  refine ⟨h.path, h.keysD, h.inj, ?_, ?_, AMap.nodup_set h.heapK _ _, ?_, h.freedN, ?_, h.cur⟩
  · intro L p hp
    by_cases e : id = p
    · subst e
      have := h.inj l L id h1 hp
      subst this
      refine ⟨hl, hid, d.addFallback (some fb), ?_, hcs, .inr ⟨rfl, hc, fb, rfl, h2⟩⟩
      show (m.heap.set id _).get? id = _
      rw [hgetH, if_pos rfl]
    · obtain ⟨a1, a2, d1, a3, a4, a5⟩ := h.cached L p hp
      refine ⟨a1, a2, d1, ?_, a4, a5⟩
      show (m.heap.set id _).get? p = _
      rw [hgetH, if_neg e]; exact a3
  · obtain ⟨e, h4, h5⟩ := h.empty
    refine ⟨e, ?_, h5⟩
    show (m.heap.set id _).get? 0 = _
    rw [hgetH, if_neg hid]; exact h4
  · intro p e he
    have he : (m.heap.set id (d.addFallback (some fb))).get? p = some e := he
    rw [hgetH] at he
    split at he
    · rename_i e'; subst e'; exact h.live id d hd
    · exact h.live p e he
  · intro p
    rw [h.freedIff p]
    show _ ↔ 1 ≤ p ∧ p < m.nextId ∧ (m.heap.set id (d.addFallback (some fb))).get? p = none
    rw [hgetH]
    by_cases e : id = p
    · subst e; rw [if_pos rfl, hd]; simp
    · rw [if_neg e]

/-! ### `get_dictionary(language)` -/

/-- Dictionaries that existed before are untouched. -/
def Frame (m m' : Manager) : Prop := ∀ q, q < m.nextId → m'.heap.get? q = m.heap.get? q

/-- What `get_dictionary(l)` can do. -/
def Post (env : Env) (l : Language) (m : Manager) : Res Manager DictId → Prop
  | .ok p m' => Inv m' ∧ Grow m m' ∧ m'.currentDict = m.currentDict ∧ m'.currentLanguage = m.currentLanguage ∧ m'.dictionaries.get? l = some p ∧ Frame m m'
  | .exn _ m' => Inv m' ∧ Grow m m' ∧ m'.currentDict = m.currentDict ∧ m'.currentLanguage = m.currentLanguage ∧ (∃ p, m'.dictionaries.get? l = some p) ∧ Frame m m'
  | .poError _ => False
  | .fault f => FaultOk env.lib f
  | .diverge => True

/-- `get_dictionary(l)` if `l` is not cached. -/
theorem getFor_miss (env : Env) (f : Nat) (l : Language) (m : Manager) (hl : l.isDefined = true)
    (hn : m.dictionaries.get? l = none) :
    getDictionaryFor env (f + 1) l m
      = match (dirs1 env l m.searchPath.reverse (Dictionary.init m.charset, m.log)).mapS (put (fresh l m) m.nextId) with
        | .ok _ m1 =>
          if l.getCountry = [] then .ok m.nextId m1
          else match getDictionaryFor env f (baseOf l) m1 with
            | .ok fb m2 => (Manager.addFallback m.nextId fb >>= fun _ => Prog.pure m.nextId) m2
            | .poError m2 => .poError m2
            | .exn w m2 => .exn w m2
            | .fault e => .fault e
            | .diverge => .diverge
        | .poError m1 => .poError m1
        | .exn w m1 => .exn w m1
        | .fault e => .fault e
        | .diverge => .diverge := by
  rw [getDictionaryFor, if_neg (by simp [hl])]
  simp only [prog_bind, bind_apply, Prog.get, hn]
  have h1 : newDict l m = .ok m.nextId (fresh l m) := rfl
  rw [h1]
  dsimp only
  have h2 := loadDirs_eq env m.nextId hl m.searchPath.reverse (fresh l m) _ (fresh_heap m l)
  have h3 : (fresh l m).log = m.log := rfl
  rw [h3] at h2
  rw [h2]
  cases (dirs1 env l m.searchPath.reverse (Dictionary.init m.charset, m.log)).mapS (put (fresh l m) m.nextId) with
  | ok a m1 =>
    dsimp only
    by_cases hc : l.getCountry = []
    · rw [if_pos hc]
      simp [hc, Prog.pure]
    · rw [if_neg hc]
      have hc' : (!l.getCountry.isEmpty) = true := by simpa using hc
      rw [hc']
      simp only [if_true]
      rw [bind_apply]
      have hb : Language.fromSpec l.getLanguage [] [] = baseOf l := rfl
      rw [hb]
      cases getDictionaryFor env f (baseOf l) m1 with
      | ok fb m2 => rfl
      | _ => rfl
  | _ => rfl

theorem getFor_hit (env : Env) (f : Nat) (l : Language) (m : Manager) (hl : l.isDefined = true) {p : DictId}
    (hn : m.dictionaries.get? l = some p) : getDictionaryFor env (f + 1) l m = .ok p m := by
  rw [getDictionaryFor, if_neg (by simp [hl])]
  simp only [prog_bind, bind_apply, Prog.get, hn]
  rfl

theorem put_fresh_frame (l : Language) (m : Manager) (x : DL) : Frame m (put (fresh l m) m.nextId x) := by
  intro q hq
  show ((m.heap.set m.nextId (Dictionary.init m.charset)).set m.nextId x.1).get? q = _
  rw [AMap.get?_set_ne _ _ (by omega), AMap.get?_set_ne _ _ (by omega)]

theorem getFor_post (env : Env) (f : Nat) : ∀ (l : Language) (m : Manager), l.isDefined = true → Inv m →
    Post env l m (getDictionaryFor env f l m) := by
  induction f with
  | zero => intro l m _ _; trivial
  | succ f ih =>
    intro l m hl h
    cases hn : m.dictionaries.get? l with
    | some p => rw [getFor_hit env f l m hl hn]; exact ⟨h, .refl m, rfl, rfl, hn, fun _ _ => rfl⟩
    | none =>
      rw [getFor_miss env f l m hl hn]
      have hs := sane_dirs1 env l m.searchPath.reverse (Dictionary.init m.charset, m.log)
      cases hx : dirs1 env l m.searchPath.reverse (Dictionary.init m.charset, m.log) with
      | ok a x =>
        rw [hx] at hs
        simp only [Res.mapS]
        have hI := (h.fresh hl hn).put (fresh_heap m l) hs.1
        have hG : Grow m (put (fresh l m) m.nextId x) := (fresh_grow hn).trans (put_grow _ _ _ hs.2)
        have hget : (put (fresh l m) m.nextId x).dictionaries.get? l = some m.nextId := fresh_get m l
        have hF : Frame m (put (fresh l m) m.nextId x) := put_fresh_frame l m x
        by_cases hc : l.getCountry = []
        · rw [if_pos hc]; exact ⟨hI, hG, rfl, rfl, hget, hF⟩
        · rw [if_neg hc]
          have hb := ih (baseOf l) _ (base_defined hl).1 hI
          cases hr : getDictionaryFor env f (baseOf l) (put (fresh l m) m.nextId x) with
          | ok fb m2 =>
            rw [hr] at hb
            obtain ⟨i2, g2, c2, l2, b2, f2⟩ := hb
            have hget2 := g2.keeps _ _ hget
            obtain ⟨_, _, d2, hd2, _⟩ := i2.cached _ _ hget2
            dsimp only
            rw [prog_bind, bind_apply]
            unfold Manager.addFallback
            rw [hd2]
            dsimp only
            refine ⟨i2.addFallback hget2 b2 hc hd2, ?_, c2, l2, hget2, ?_⟩
            · have hG2 := hG.trans g2
              exact ⟨hG2.path, hG2.charset, hG2.fuzzy, hG2.freed, hG2.next, hG2.keeps, hG2.log⟩
            · intro q hq
              show (m2.heap.set m.nextId _).get? q = _
              rw [AMap.get?_set_ne _ _ (by omega), f2 q (Nat.lt_succ_of_lt hq), hF q hq]
          | exn w m2 => rw [hr] at hb; exact ⟨hb.1, hG.trans hb.2.1, hb.2.2.1, hb.2.2.2.1, ⟨_, hb.2.1.keeps _ _ hget⟩, fun q hq => by rw [hb.2.2.2.2.2 q (Nat.lt_succ_of_lt hq), hF q hq]⟩
          | poError m2 => rw [hr] at hb; exact hb.elim
          | fault e => rw [hr] at hb; exact hb
          | diverge => trivial
      | exn w x =>
        rw [hx] at hs
        exact ⟨(h.fresh hl hn).put (fresh_heap m l) hs.1, (fresh_grow hn).trans (put_grow _ _ _ hs.2), rfl, rfl, ⟨_, fresh_get m l⟩, put_fresh_frame l m x⟩
      | poError x => rw [hx] at hs; exact hs.elim
      | fault e => rw [hx] at hs; exact hs
      | diverge => trivial

end Mgr
end Tgt
