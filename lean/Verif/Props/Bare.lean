import Verif.Spec.Bare
import Verif.Props.Touching
import Verif.Props.ManagerLoad
import Verif.Props.Language
/-
A language without files of its own is answered like the bare language: C105.
-/
namespace Tgt
open Spec Manager Mgr POParser

namespace Bare

theorem bare_some (i : Fin 241) : (bare (some i)).isDefined = true ∧ (bare (some i)).getCountry = [] ∧ (bare (some i)).getModifier = [] ∧
    (bare (some i)).getLanguage = Language.getLanguage (some i) := base_facts i

theorem bare_bare {l : Language} (hl : l.isDefined = true) : bare (bare l) = bare l := by
  cases l with
  | none => cases hl
  | some i =>
    show Language.fromSpec (bare (some i)).getLanguage [] [] = _
    rw [(bare_some i).2.2.2]
    rfl

theorem fileScore_denoted (ct : CType) (l : Language) (f : Str) :
    fileScore ct l f = match denoted ct f with | some L => Language.match l L | none => 0 := by
  unfold fileScore denoted
  split
  · cases convertFilename2Language ct f <;> rfl
  · rfl

theorem score_step {a b c : Triple} (h1 : a.1 = b.1) (h2 : a.1 = c.1) (hc : rank a.2.1 b.2.1 ≤ rank a.2.1 c.2.1) (hm : rank a.2.2 b.2.2 ≤ rank a.2.2 c.2.2)
    (hs : rank a.2.1 b.2.1 < rank a.2.1 c.2.1 ∨ rank a.2.2 b.2.2 < rank a.2.2 c.2.2) : score a b < score a c := by
  unfold score
  rw [if_neg (fun h => h h1), if_neg (fun h => h h2)]
  have b1 := Lang.rank_le a.2.1 b.2.1
  have b2 := Lang.rank_le a.2.1 c.2.1
  have b3 := Lang.rank_le a.2.2 b.2.2
  have b4 := Lang.rank_le a.2.2 c.2.2
  generalize rank a.2.1 b.2.1 = x at *
  generalize rank a.2.1 c.2.1 = y at *
  generalize rank a.2.2 b.2.2 = z at *
  generalize rank a.2.2 c.2.2 = w at *
  have : (x = 0 ∨ x = 1 ∨ x = 2) ∧ (y = 0 ∨ y = 1 ∨ y = 2) ∧ (z = 0 ∨ z = 1 ∨ z = 2) ∧ (w = 0 ∨ w = 1 ∨ w = 2) := by omega
  obtain ⟨rfl | rfl | rfl, rfl | rfl | rfl, rfl | rfl | rfl, rfl | rfl | rfl⟩ := this <;> first | decide | omega

/-- A part that is not the wanted one fits less than none, or as well if it is none itself. -/
theorem rank_own {w x : Str} (h : w ≠ [] → x ≠ w) : rank w x ≤ rank w [] ∧ (x ≠ [] → rank w x < rank w []) := by
  unfold rank
  by_cases hw : w = []
  · subst hw
    by_cases hx : x = []
    · subst hx; exact ⟨Nat.le_refl _, fun h => absurd rfl h⟩
    · rw [if_neg (Ne.symm hx), if_pos (.inl rfl), if_pos rfl]
      exact ⟨by omega, fun _ => by omega⟩
  · have hx := h hw
    rw [if_neg (Ne.symm hx), if_neg hw, if_pos (Or.inr rfl)]
    by_cases hx0 : x = []
    · rw [if_pos (.inr hx0)]
      exact ⟨Nat.le_refl _, fun h => absurd hx0 h⟩
    · rw [if_neg (by rintro (e | e); exact hw e; exact hx0 e)]
      exact ⟨by omega, fun _ => by omega⟩

/-- Files for the bare language fit best, and better than all others. -/
theorem plain_best {l : Language} (hl : l.isDefined = true) {L : Language} (hlang : L.getLanguage = l.getLanguage) (hc : l.getCountry ≠ [] → L.getCountry ≠ l.getCountry)
    (hm : l.getModifier ≠ [] → L.getModifier ≠ l.getModifier) (hn : L ≠ bare l) : Language.match l L < Language.match l (bare l) := by
  cases l with
  | none => cases hl
  | some i =>
    obtain ⟨_, b1, b2, b3⟩ := bare_some i
    rw [C05_match_is_score, C05_match_is_score]
    obtain ⟨c1, c2⟩ := rank_own hc
    obtain ⟨m1, m2⟩ := rank_own hm
    refine score_step hlang.symm b3.symm ?_ ?_ ?_
    · show rank _ L.getCountry ≤ rank _ (bare (some i)).getCountry
      rw [b1]; exact c1
    · show rank _ L.getModifier ≤ rank _ (bare (some i)).getModifier
      rw [b2]; exact m1
    · show rank _ L.getCountry < rank _ (bare (some i)).getCountry ∨ rank _ L.getModifier < rank _ (bare (some i)).getModifier
      rw [b1, b2]
      by_cases h1 : L.getCountry = []
      · by_cases h2 : L.getModifier = []
        · exact absurd (Lang.triple_inj (by unfold Language.triple; rw [b1, b2, b3, h1, h2, hlang])) hn
        · exact .inr (m2 h2)
      · exact .inl (c2 h1)

theorem score_zero {l L : Language} (h : L.getLanguage ≠ l.getLanguage) : Language.match l L = 0 := (C05_match_range l L).1.2 (Ne.symm h)

theorem score_bare_pos {l : Language} (hl : l.isDefined = true) : 0 < Language.match l (bare l) := by
  cases l with
  | none => cases hl
  | some i =>
    rcases Nat.eq_zero_or_pos (Language.match (some i) (bare (some i))) with h | h
    · exact absurd (bare_some i).2.2.2.symm ((C05_match_range _ _).1.1 h)
    · exact h

/-- The first file for the bare language. -/
def FirstPlain (ct : CType) (l : Language) (files : List Str) (f : Str) : Prop :=
  ∃ before after, files = before ++ f :: after ∧ denoted ct f = some (bare l) ∧ ∀ x ∈ before, denoted ct x ≠ some (bare l)

theorem best_plain {ct : CType} {l : Language} {files : List Str} (hl : l.isDefined = true) (hp : ∃ f ∈ files, denoted ct f = some (bare l))
    (h : ∀ f ∈ files, ∀ L, denoted ct f = some L → L.getLanguage = l.getLanguage →
      (l.getCountry ≠ [] → L.getCountry ≠ l.getCountry) ∧ (l.getModifier ≠ [] → L.getModifier ≠ l.getModifier)) (f : Str) :
    BestFile ct l files f ↔ FirstPlain ct l files f := by
  have top : ∀ x, denoted ct x = some (bare l) → fileScore ct l x = Language.match l (bare l) := by
    intro x hx; rw [fileScore_denoted, hx]
  have less : ∀ x ∈ files, denoted ct x ≠ some (bare l) → fileScore ct l x < Language.match l (bare l) := by
    intro x hx hn
    rw [fileScore_denoted]
    cases hd : denoted ct x with
    | none => exact score_bare_pos hl
    | some L =>
      dsimp only
      by_cases hlang : L.getLanguage = l.getLanguage
      · obtain ⟨h1, h2⟩ := h x hx L hd hlang
        exact plain_best hl hlang h1 h2 (fun e => hn (by rw [hd, e]))
      · rw [score_zero hlang]; exact score_bare_pos hl
  have le : ∀ x ∈ files, fileScore ct l x ≤ Language.match l (bare l) := by
    intro x hx
    by_cases hd : denoted ct x = some (bare l)
    · exact Nat.le_of_eq (top x hd)
    · exact Nat.le_of_lt (less x hx hd)
  constructor
  · rintro ⟨before, after, hfs, h0, hb, ha⟩
    have hmem : f ∈ files := by rw [hfs]; simp
    have hpl : denoted ct f = some (bare l) := by
      apply Classical.byContradiction
      intro hn
      have hlt := less f hmem hn
      obtain ⟨g, hg, hgd⟩ := hp
      rw [hfs] at hg
      rcases List.mem_append.1 hg with hg | hg
      · have := hb g hg; rw [top g hgd] at this; omega
      · rcases List.mem_cons.1 hg with e | hg
        · subst e; exact hn hgd
        · have := ha g hg; rw [top g hgd] at this; omega
    refine ⟨before, after, hfs, hpl, ?_⟩
    intro x hx hxd
    have := hb x hx
    rw [top x hxd, top f hpl] at this
    omega
  · rintro ⟨before, after, hfs, hpl, hb⟩
    refine ⟨before, after, hfs, by rw [top f hpl]; exact score_bare_pos hl, ?_, ?_⟩
    · intro x hx
      rw [top f hpl]
      exact less x (by rw [hfs]; exact List.mem_append_left _ hx) (hb x hx)
    · intro x hx
      rw [top f hpl]
      exact le x (by rw [hfs]; simp [hx])

theorem bare_def {l : Language} (hl : l.isDefined = true) : (bare l).isDefined = true ∧ (bare l).getCountry = [] ∧ (bare l).getModifier = [] ∧
    (bare l).getLanguage = l.getLanguage := by
  cases l with
  | none => cases hl
  | some i => exact bare_some i

/-- The best file for the language is the best file for the bare language. -/
theorem same_best {ct : CType} {l : Language} {files : List Str} (hl : l.isDefined = true) (h : NothingOwn ct l files) (f : Str) :
    BestFile ct l files f ↔ BestFile ct (bare l) files f := by
  obtain ⟨d1, d2, d3, d4⟩ := bare_def hl
  rcases h with h | ⟨h1, h2⟩
  · have z : ∀ l', l'.getLanguage = l.getLanguage → ¬ BestFile ct l' files f := by
      rintro l' hl' ⟨before, after, hfs, h0, _⟩
      rw [fileScore_denoted] at h0
      cases hd : denoted ct f with
      | none => rw [hd] at h0; exact Nat.lt_irrefl 0 h0
      | some L =>
        rw [hd] at h0
        dsimp only at h0
        rw [score_zero (by rw [hl']; exact h f (by rw [hfs]; simp) L hd)] at h0
        omega
    exact ⟨fun hb => absurd hb (z l rfl), fun hb => absurd hb (z _ d4)⟩
  · rw [best_plain hl h1 h2 f]
    have e := best_plain (ct := ct) (l := bare l) (files := files) d1 (by rw [bare_bare hl]; exact h1)
      (fun _ _ _ _ _ => ⟨fun e => absurd d2 e, fun e => absurd d3 e⟩) f
    rw [e]
    unfold FirstPlain
    rw [bare_bare hl]

theorem dir_same {env : Env} {l : Language} {dir : Str} {d d' : Dictionary} (hl : l.isDefined = true)
    (h : ∀ files, env.fs.openDirectory dir = .ok files → NothingOwn env.ct l files) (hd : DirLoads env l dir d d') : DirLoads env (bare l) dir d d' := by
  cases hd with
  | nothing ho hn =>
    refine .nothing ho (Classical.byContradiction fun hc => ?_)
    obtain ⟨f, hf⟩ := (C49_best_unique env.ct (bare l) _).2.2 hc
    exact (C49_best_unique env.ct l _).2.1 ⟨f, (same_best hl (h _ ho) f).2 hf⟩ hn
  | unopened ho hb hs => exact .unopened ho ((same_best hl (h _ ho) _).1 hb) hs
  | parsed ho hb hs hp => exact .parsed ho ((same_best hl (h _ ho) _).1 hb) hs hp

theorem path_same {env : Env} {l : Language} (hl : l.isDefined = true) {path : List Str} {d d' : Dictionary} (h : NothingOwnIn env l path)
    (hp : PathLoads env l path d d') : PathLoads env (bare l) path d d' := by
  induction hp with
  | nil => exact .nil
  | cons h1 h2 ih => exact .cons (ih (fun dir hd => h dir (List.mem_cons_of_mem _ hd))) (dir_same hl (h _ (List.mem_cons_self ..)) h2)

theorem dir_det {env : Env} {l : Language} {dir : Str} {d d1 d2 : Dictionary} (h1 : DirLoads env l dir d d1) (h2 : DirLoads env l dir d d2) : d1 = d2 := by
  have uniq := fun files f g => (C49_best_unique env.ct l files).1 f g
  have none' := fun files f (hb : BestFile env.ct l files f) => (C49_best_unique env.ct l files).2.1 ⟨f, hb⟩
  cases h1 with
  | nothing ho hn =>
    cases h2 with
    | nothing _ _ => rfl
    | unopened ho' hb hs => rfl
    | parsed ho' hb hs hp => rw [ho] at ho'; cases ho'; exact absurd hn (none' _ _ hb)
  | unopened ho hb hs =>
    cases h2 with
    | nothing _ _ => rfl
    | unopened ho' hb' hs' => rfl
    | parsed ho' hb' hs' hp =>
      rw [ho] at ho'; cases ho'
      rw [uniq _ _ _ hb' hb] at hs'
      exact absurd hs' (hs _)
  | parsed ho hb hs hp =>
    cases h2 with
    | nothing ho' hn => rw [ho] at ho'; cases ho'; exact absurd hn (none' _ _ hb)
    | unopened ho' hb' hs' =>
      rw [ho] at ho'; cases ho'
      rw [uniq _ _ _ hb hb'] at hs
      exact absurd hs (hs' _)
    | parsed ho' hb' hs' hp' =>
      rw [ho] at ho'; cases ho'
      have e := uniq _ _ _ hb hb'
      subst e
      rw [hs] at hs'; cases hs'
      rw [hp] at hp'; cases hp'; rfl

theorem path_det {env : Env} {l : Language} {path : List Str} {d d1 d2 : Dictionary} (h1 : PathLoads env l path d d1) (h2 : PathLoads env l path d d2) : d1 = d2 := by
  induction h1 generalizing d2 with
  | nil => cases h2; rfl
  | cons h3 h4 ih =>
    cases h2 with
    | cons h5 h6 =>
      have := ih h5
      subst this
      exact dir_det h4 h6

/-- What a new dictionary for a country falls back to, if that is new too. -/
theorem miss_base {env : Env} {n : Nat} {l : Language} {m m' : Manager} {p : DictId} (h : Inv m) (hg : getDictionaryFor env n l m = .ok p m')
    (hn : m.dictionaries.get? l = none) (hc : l.getCountry ≠ []) (hb : m.dictionaries.get? (bare l) = none) :
    ∃ d q e, m'.heap.get? p = some d ∧ d.hasFallback = true ∧ d.fallback = some q ∧ m'.heap.get? q = some e ∧ p ≠ q ∧
      PathLoads env (bare l) m.searchPath (Dictionary.init m.charset) (unlinked e) ∧
      unlinked e = pathEff env (bare l) m.charset m.searchPath (Dictionary.init m.charset) := by
  cases n with
  | zero => cases hg
  | succ f =>
    have hl : l.isDefined = true := by
      cases hd : l.isDefined with
      | true => rfl
      | false => rw [getDictionaryFor, if_pos (by simp [hd])] at hg; cases hg
    rw [getFor_miss env f l m hl hn, dirs1_log] at hg
    have hs := sane_dirs1 env l m.searchPath.reverse (Dictionary.init m.charset, [])
    cases hx : dirs1 env l m.searchPath.reverse (Dictionary.init m.charset, []) with
    | ok a x =>
      obtain ⟨dx, lx⟩ := x
      rw [hx] at hs hg
      have hl1 : Like (Dictionary.init m.charset) dx := hs.1
      dsimp only [Res.mapS] at hg
      rw [if_neg hc] at hg
      have hI : Inv (put (fresh l m) m.nextId (dx, m.log ++ lx)) := (h.fresh hl hn).put (fresh_heap m l) hl1
      have hpost := getFor_post env f (baseOf l) _ (base_defined hl).1 hI
      cases hr : getDictionaryFor env f (baseOf l) (put (fresh l m) m.nextId (dx, m.log ++ lx)) with
      | ok fb m2 =>
        rw [hr] at hpost hg
        obtain ⟨i2, g2, c2, l2, b2, f2⟩ := hpost
        have hh : (put (fresh l m) m.nextId (dx, m.log ++ lx)).heap.get? m.nextId = some dx := AMap.get?_set_self _ _ _
        have hd2 : m2.heap.get? m.nextId = some dx := by
          rw [f2 m.nextId (Nat.lt_succ_self _)]; exact hh
        have hn2 : (put (fresh l m) m.nextId (dx, m.log ++ lx)).dictionaries.get? (baseOf l) = none := by
          show (m.dictionaries.set l m.nextId).get? (baseOf l) = none
          rw [AMap.get?_set_ne _ _ (base_ne hl hc)]
          exact hb
        obtain ⟨_, hid, y, e, hy, he, hu, _⟩ := miss_ok hI hr hn2
        have hne : m.nextId ≠ fb := by
          rw [hid]
          exact Nat.ne_of_lt (Nat.lt_succ_self _)
        dsimp only at hg
        rw [prog_bind, bind_apply] at hg
        unfold Manager.addFallback at hg
        rw [hd2] at hg
        dsimp only [Prog.pure] at hg
        cases hg
        refine ⟨dx.addFallback (some fb), fb, e, AMap.get?_set_self _ _ _, rfl, rfl, ?_, hne, ?_⟩
        · show (m2.heap.set m.nextId _).get? fb = some e
          rw [AMap.get?_set_ne _ _ hne]; exact he
        · rw [hu]
          exact ⟨(path1_ok hy).2, (path1_ok hy).1⟩
      | _ => rw [hr] at hg; cases hg
    | _ => rw [hx] at hg; cases hg

/-- The dictionary is not in the manager yet: it was never asked for, or the configuration has changed since. -/
theorem not_there {env : Env} {n : Nat} {l l' : Language} {m m' : Manager} {p q : DictId} (h : Inv m) (hg : getDictionaryFor env n l m = .ok p m')
    (hl : l.isDefined = true) (hq : m'.dictionaries.get? l' = some q) (hn : m.heap.get? q = none) : m.dictionaries.get? l' = none := by
  have hpost := getFor_post env n l m hl h
  rw [hg] at hpost
  cases hc : m.dictionaries.get? l' with
  | none => rfl
  | some r =>
    have := hpost.2.1.keeps l' r hc
    rw [hq] at this; cases this
    obtain ⟨_, _, d, hd, _⟩ := h.cached l' q hc
    rw [hn] at hd; cases hd

end Bare

open Bare

/-- C105, in full: this is false. -/
def C105_Statement : Prop :=
  ∀ (cs cs' : Str) (m m1 k k1 : Manager) (env : Env) (n n' : Nat) (l : Language) (p q : DictId) (f : Nat) (x : Query),
    Reach cs m → Reach cs' k → getDictionaryFor env n l m = .ok p m1 → getDictionaryFor env n' (bare l) k = .ok q k1 →
    (m.heap.get? p = none ∧ ∀ d fb, m1.heap.get? p = some d → d.fallback = some fb → m.heap.get? fb = none) → k.heap.get? q = none →
    k.searchPath = m.searchPath → k.charset = m.charset → NothingOwnIn env l m.searchPath →
    (reply (f + 2) m1 p x).map Prod.fst = (reply (f + 2) k1 q x).map Prod.fst

/-- C105.  If nowhere in the search path anything is made for the country or modifier of a language, a new dictionary for it has the same contents as one for
the bare language (what it falls back to, if it has a country, is such a dictionary). -/
theorem C105_same_contents (cs cs' : Str) (m m1 k k1 : Manager) (env : Env) (n n' : Nat) (l : Language) (p q : DictId) (hr : Reach cs m) (hr' : Reach cs' k)
    (hg : getDictionaryFor env n l m = .ok p m1) (hg' : getDictionaryFor env n' (bare l) k = .ok q k1)
    (hp : m.heap.get? p = none) (hq : k.heap.get? q = none)
    (hpath : k.searchPath = m.searchPath) (hcs : k.charset = m.charset) (hown : NothingOwnIn env l m.searchPath) :
    ∃ d e, m1.heap.get? p = some d ∧ k1.heap.get? q = some e ∧ unlinked d = unlinked e ∧ e.fallback = none ∧
      (l.getCountry = [] → d.fallback = none) ∧
      (l.getCountry ≠ [] → (∀ fb, d.fallback = some fb → m.heap.get? fb = none) → d.hasFallback = true ∧
        ∃ fb e', d.fallback = some fb ∧ m1.heap.get? fb = some e' ∧ unlinked e' = unlinked e) := by
  have h := reach_inv hr
  have h' := reach_inv hr'
  obtain ⟨d, hd, _, hload⟩ := new_ok h hg hp
  obtain ⟨e, he, _, hload'⟩ := new_ok h' hg' hq
  have hl : l.isDefined = true := (miss_ok h hg (new_miss h hg hp)).1
  have hlb := bare_def hl
  rw [hpath, hcs] at hload'
  have hI1 : Inv m1 := by have := getFor_post env n l m hl h; rw [hg] at this; exact this.1
  have hmine : m1.dictionaries.get? l = some p := by have := getFor_post env n l m hl h; rw [hg] at this; exact this.2.2.2.2.1
  have hI2 : Inv k1 := by have := getFor_post env n' (bare l) k hlb.1 h'; rw [hg'] at this; exact this.1
  have hbase : k1.dictionaries.get? (bare l) = some q := by have := getFor_post env n' (bare l) k hlb.1 h'; rw [hg'] at this; exact this.2.2.2.2.1
  have hnf : ∀ {m : Manager} {L : Language} {p : DictId} {d : Dictionary}, Inv m → m.dictionaries.get? L = some p → m.heap.get? p = some d → L.getCountry = [] → d.fallback = none := by
    intro m L p d hI hL hd hc
    obtain ⟨_, _, d', hd', _, hfb⟩ := hI.cached L p hL
    rw [hd] at hd'; cases hd'
    rcases hfb with ⟨_, hfb⟩ | ⟨_, hfb, _⟩
    · exact hfb
    · exact absurd hc hfb
  refine ⟨d, e, hd, he, path_det (path_same hl hown hload) hload', hnf hI2 hbase he hlb.2.1, hnf hI1 hmine hd, ?_⟩
  intro hc hfbn
  have hfall : d.hasFallback = true ∧ ∃ q', d.fallback = some q' ∧ m1.dictionaries.get? (baseOf l) = some q' := by
    obtain ⟨_, _, x, d0, _, hd0, _, hfb⟩ := miss_ok h hg (new_miss h hg hp)
    rw [hd] at hd0; cases hd0
    exact hfb hc
  obtain ⟨_, q', hq', hfd⟩ := hfall
  obtain ⟨d1, fb, e', hd1, h1, h2, h3, _, h5, _⟩ := miss_base h hg (new_miss h hg hp) hc (not_there h hg hl hfd (hfbn q' hq'))
  rw [hd] at hd1; cases hd1
  exact ⟨h1, fb, e', h2, h3, path_det h5 hload'⟩

theorem Bare.lookup_unl (d : Dictionary) (k : Option Str × Str) : (unlinked d).lookup k = d.lookup k := rfl

theorem Bare.same_answers {m1 k1 : Manager} {l : Language} {p q : DictId} {d e : Dictionary} (hI1 : Inv m1) (hI2 : Inv k1)
    (hd : m1.heap.get? p = some d) (he : k1.heap.get? q = some e) (hu : unlinked d = unlinked e) (hef : e.fallback = none)
    (hnc : l.getCountry = [] → d.fallback = none)
    (hco : l.getCountry ≠ [] → ∃ fb e', d.fallback = some fb ∧ m1.heap.get? fb = some e' ∧ unlinked e' = unlinked e) (f : Nat) (x : Query)
    (hx : l.getCountry = [] ∨ ∀ c i, x = .ctxt c i → ∃ e v, k1.heap.get? q = some e ∧ stored e (some c) i = some v ∧ v ≠ []) :
    (reply (f + 2) m1 p x).map Prod.fst = (reply (f + 2) k1 q x).map Prod.fst := by
  have hlook : ∀ key, d.lookup key = e.lookup key := fun key => by rw [← lookup_unl d, ← lookup_unl e, hu]
  have hrule : d.pluralForms = e.pluralForms := congrArg (fun d => d.pluralForms) hu
  have hctx : d.ctxtEntries = e.ctxtEntries := congrArg (fun d => d.ctxtEntries) hu
  -- what is passed on finds the same
  have hpass : ∀ i, e.lookup (none, i) = none ∨ (e.lookup (none, i)).bind List.head? = none → (passed m1 d i).1 = i := by
    intro i hi
    have hi : (e.lookup (none, i)).bind List.head? = none := by
      rcases hi with hi | hi
      · rw [hi]; rfl
      · exact hi
    unfold passed
    cases hfb : d.fallback with
    | none => rfl
    | some fb =>
      by_cases hc : l.getCountry = []
      · rw [hnc hc] at hfb; cases hfb
      · obtain ⟨fb', e', h1, h2, h3⟩ := hco hc
        rw [hfb] at h1; cases h1
        dsimp only
        rw [h2]
        dsimp only [Option.bind_some]
        rw [← lookup_unl e', h3, lookup_unl, hi]
  have hpassE : ∀ i, (passed k1 e i).1 = i := by
    intro i; unfold passed; rw [hef]
  cases x with
  | translate i =>
    rw [reply_singular hI1 hd f _ rfl, reply_singular hI2 he f _ rfl]
    show some (told m1 d none i).1 = some (told k1 e none i).1
    unfold told
    rw [hlook]
    cases hs : (e.lookup (none, i)).bind List.head? with
    | some s => rfl
    | none =>
      show some (passed m1 d i).1 = some (passed k1 e i).1
      rw [hpass i (.inr hs), hpassE]
  | ctxt c i =>
    rw [reply_singular hI1 hd f _ rfl, reply_singular hI2 he f _ rfl]
    show some (told m1 d (some c) i).1 = some (told k1 e (some c) i).1
    unfold told
    rw [hlook]
    cases hs : (e.lookup (some c, i)).bind List.head? with
    | some s => rfl
    | none =>
      rcases hx with hx | hx
      · dsimp only
        rw [hctx]
        have : (passed m1 d i).1 = i := by unfold passed; rw [hnc hx]
        split
        · rw [this, hpassE]
        · rfl
      · obtain ⟨e2, v, h1, h2, h3⟩ := hx c i rfl
        rw [he] at h1; cases h1
        rw [stored_lookup] at h2
        rw [h2] at hs
        cases v with
        | nil => exact absurd rfl h3
        | cons a t => cases hs
  | plural i pl n =>
    have e1 := reply_plural hd (f + 2) (.plural i pl n)
    have e2 := reply_plural he (f + 2) (.plural i pl n)
    dsimp only at e1 e2
    rw [e1, e2, hlook, hrule]
  | ctxtPlural c i pl n =>
    have e1 := reply_plural hd (f + 2) (.ctxtPlural c i pl n)
    have e2 := reply_plural he (f + 2) (.ctxtPlural c i pl n)
    dsimp only at e1 e2
    rw [e1, e2, hlook, hrule]

/-- C105.  And so it answers all lookups without context and all lookups with a number in the same way, and those in a context if the message has a
translation in it, or if the language has no country. -/
theorem C105_same_answers_partial (cs cs' : Str) (m m1 k k1 : Manager) (env : Env) (n n' : Nat) (l : Language) (p q : DictId) (f : Nat) (x : Query)
    (hr : Reach cs m) (hr' : Reach cs' k) (hg : getDictionaryFor env n l m = .ok p m1) (hg' : getDictionaryFor env n' (bare l) k = .ok q k1)
    (hp : m.heap.get? p = none ∧ ∀ d fb, m1.heap.get? p = some d → d.fallback = some fb → m.heap.get? fb = none) (hq : k.heap.get? q = none)
    (hpath : k.searchPath = m.searchPath) (hcs : k.charset = m.charset) (hown : NothingOwnIn env l m.searchPath)
    (hx : l.getCountry = [] ∨ ∀ c i, x = .ctxt c i → ∃ e v, k1.heap.get? q = some e ∧ stored e (some c) i = some v ∧ v ≠ []) :
    (reply (f + 2) m1 p x).map Prod.fst = (reply (f + 2) k1 q x).map Prod.fst := by
  obtain ⟨d, e, hd, he, hu, hef, hnc, hco⟩ := C105_same_contents cs cs' m m1 k k1 env n n' l p q hr hr' hg hg' hp.1 hq hpath hcs hown
  have h := reach_inv hr
  have h' := reach_inv hr'
  have hl : l.isDefined = true := (miss_ok h hg (new_miss h hg hp.1)).1
  have hI1 : Inv m1 := by have := getFor_post env n l m hl h; rw [hg] at this; exact this.1
  have hI2 : Inv k1 := by have := getFor_post env n' (bare l) k (bare_def hl).1 h'; rw [hg'] at this; exact this.1
  exact Bare.same_answers hI1 hI2 hd he hu hef hnc (fun hc => (hco hc (fun fb hfb => hp.2 d fb hd hfb)).2) f x hx

/-! ### A case -/

/-- A directory with German, Swiss and French files. -/
def Bare.menuOs : OS where
  listing p := if p = b!"menu" then some [b!"de_CH.po", b!"fr.po", b!"de.po"] else none
  content f :=
    if f = b!"menu/de.po" then some b!"msgctxt \"menu\"\nmsgid \"open\"\nmsgstr \"Oeffnen\"\n\nmsgid \"close\"\nmsgstr \"Schliessen\"\n"
    else if f = b!"menu/de_CH.po" then some b!"msgid \"close\"\nmsgstr \"Zuemache\"\n"
    else none

/-- The world with these files. -/
def Bare.menuEnv : Env := ⟨.c, demoLib, false, unixFileSystem menuOs, 300⟩

/-- `NothingOwn`, checked. -/
def Bare.ownCheck (ct : CType) (l : Language) (files : List Str) : Bool :=
  files.any (fun f => decide (denoted ct f = some (bare l))) &&
  files.all (fun f => match denoted ct f with
    | none => true
    | some L => decide (L.getLanguage = l.getLanguage → (l.getCountry ≠ [] → L.getCountry ≠ l.getCountry) ∧ (l.getModifier ≠ [] → L.getModifier ≠ l.getModifier)))

theorem Bare.own_of_check {ct : CType} {l : Language} {files : List Str} (h : ownCheck ct l files = true) : NothingOwn ct l files := by
  unfold ownCheck at h
  rw [Bool.and_eq_true, List.any_eq_true, List.all_eq_true] at h
  obtain ⟨⟨g, hg, hgd⟩, h2⟩ := h
  refine .inr ⟨⟨g, hg, of_decide_eq_true hgd⟩, ?_⟩
  intro f hf L hL
  have := h2 f hf
  rw [hL] at this
  exact of_decide_eq_true this

/-- Nothing in this directory is made for Austria. -/
theorem Bare.menu_own : NothingOwnIn menuEnv atLang [b!"menu"] := by
  intro dir hd files ho
  rw [List.mem_singleton] at hd
  subst hd
  have : files = [b!"de_CH.po", b!"fr.po", b!"de.po"] := by
    have e : menuEnv.fs.openDirectory b!"menu" = .ok [b!"de_CH.po", b!"fr.po", b!"de.po"] := by rfl
    rw [e] at ho; cases ho; rfl
  rw [this]
  exact own_of_check (by decide +kernel)

theorem Bare.menu_reach : Reach b!"UTF-8" (newManager ⟨[b!"menu"], b!"UTF-8", true⟩) :=
  script_reach (calls := [.addDirectory b!"menu" false]) (by decide +kernel)

/-- The answers to a query in Austrian and in German. -/
theorem Bare.menu_run (x : Query) (s t : Str)
    (h : (getDictionaryFor menuEnv 300 atLang (newManager ⟨[b!"menu"], b!"UTF-8", true⟩)).test
      (fun p m1 => decide (p = 1) && decide ((m1.heap.get? 1).bind (·.fallback) = some 2) && decide ((reply 2 m1 1 x).map Prod.fst = some s)) = true)
    (h' : (getDictionaryFor menuEnv 300 deLang (newManager ⟨[b!"menu"], b!"UTF-8", true⟩)).test
      (fun p m1 => decide (p = 1) && decide ((reply 2 m1 1 x).map Prod.fst = some t)) = true) :
    ∃ m1 k1, getDictionaryFor menuEnv 300 atLang (newManager ⟨[b!"menu"], b!"UTF-8", true⟩) = .ok 1 m1 ∧
      getDictionaryFor menuEnv 300 (bare atLang) (newManager ⟨[b!"menu"], b!"UTF-8", true⟩) = .ok 1 k1 ∧
      (m1.heap.get? 1).bind (·.fallback) = some 2 ∧ (reply 2 m1 1 x).map Prod.fst = some s ∧ (reply 2 k1 1 x).map Prod.fst = some t := by
  obtain ⟨p, m1, hg, h1⟩ := ok_of_test h
  obtain ⟨q, k1, hg', h2⟩ := ok_of_test h'
  simp only [Bool.and_eq_true, decide_eq_true_eq] at h1 h2
  obtain ⟨⟨rfl, h3⟩, h4⟩ := h1
  obtain ⟨rfl, h5⟩ := h2
  have e : bare atLang = deLang := by decide +kernel
  rw [e]
  exact ⟨m1, k1, hg, hg', h3, h4, h5⟩

/-- C105 is false of this code for lookups in a context: "close" in the context "menu" has no translation; in German the message comes back, in Austrian (with
exactly the same file) the translation of "close" without context. -/
theorem C105_false : ¬ C105_Statement := by
  intro h
  obtain ⟨m1, k1, hg, hg', hfb, hs, ht⟩ := menu_run (.ctxt b!"menu" b!"close") b!"Schliessen" b!"close" (by decide +kernel) (by decide +kernel)
  have := h _ _ _ m1 _ k1 menuEnv 300 300 atLang 1 1 0 (.ctxt b!"menu" b!"close") menu_reach menu_reach hg hg'
    ⟨rfl, by
      intro d fb hd hf
      rw [hd] at hfb
      rw [show d.fallback = some 2 from hfb] at hf
      cases hf
      rfl⟩ rfl rfl rfl menu_own
  rw [hs, ht] at this
  revert this; decide

/-- The same manager meets the hypotheses of `C105_same_answers_partial`, and the answer is from the file in both languages. -/
example : ∃ m1 k1, getDictionaryFor menuEnv 300 atLang (newManager ⟨[b!"menu"], b!"UTF-8", true⟩) = .ok 1 m1 ∧
      getDictionaryFor menuEnv 300 (bare atLang) (newManager ⟨[b!"menu"], b!"UTF-8", true⟩) = .ok 1 k1 ∧ (m1.heap.get? 1).bind (·.fallback) = some 2 ∧
      (reply 2 m1 1 (.translate b!"close")).map Prod.fst = some b!"Schliessen" ∧ (reply 2 k1 1 (.translate b!"close")).map Prod.fst = some b!"Schliessen" :=
  menu_run _ _ _ (by decide +kernel) (by decide +kernel)

end Tgt
