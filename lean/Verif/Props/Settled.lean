import Verif.Spec.Settled
import Verif.Props.Twice
/-
The files and the configuration decide: C109.
-/
namespace Tgt
open Spec Manager Mgr POParser

namespace Settled

/-- The dictionary is what loading the language from the search path gives. -/
def Loads (env : Env) (l : Language) (cs : Str) (path : List Str) (d : Dictionary) : Prop :=
  ∃ x, dirs1 env l path.reverse (Dictionary.init cs, []) = .ok () x ∧ unlinked d = x.1

/-- All dictionaries are. -/
def Fed (env : Env) (m : Manager) : Prop :=
  Inv m ∧ ∀ L p, m.dictionaries.get? L = some p → ∃ d, m.heap.get? p = some d ∧ Loads env L m.charset m.searchPath d ∧
    (L.getCountry ≠ [] → ∃ q, d.fallback = some q ∧ m.dictionaries.get? (baseOf L) = some q)

theorem entries (env : Env) (n : Nat) : ∀ (l : Language) (m m' : Manager) (p : DictId), Inv m → getDictionaryFor env n l m = .ok p m' →
    ∀ L q, m'.dictionaries.get? L = some q → m.dictionaries.get? L = some q ∨
      ∃ d, m'.heap.get? q = some d ∧ Loads env L m.charset m.searchPath d ∧
        (L.getCountry ≠ [] → ∃ r, d.fallback = some r ∧ m'.dictionaries.get? (baseOf L) = some r) := by
  induction n with
  | zero => intro l m m' p h hg; cases hg
  | succ n ih =>
    intro l m m' p h hg L q hL
    have hl : l.isDefined = true := by
      cases hd : l.isDefined with
      | true => rfl
      | false => rw [getDictionaryFor, if_pos (by simp [hd])] at hg; cases hg
    cases hn : m.dictionaries.get? l with
    | some r =>
      rw [getFor_hit env n l m hl hn] at hg
      cases hg
      exact .inl hL
    | none =>
      by_cases he : L = l
      · subst he
        have hpost := getFor_post env (n + 1) L m hl h
        rw [hg] at hpost
        have hq := hpost.2.2.2.2.1
        rw [hL] at hq; cases hq
        obtain ⟨_, _, x, d, hx, hd, hu, hfb⟩ := miss_ok h hg hn
        exact .inr ⟨d, hd, ⟨x, hx, hu⟩, fun hc => (hfb hc).2⟩
      · rw [getFor_miss env n l m hl hn, dirs1_log] at hg
        have hs := sane_dirs1 env l m.searchPath.reverse (Dictionary.init m.charset, [])
        cases hx : dirs1 env l m.searchPath.reverse (Dictionary.init m.charset, []) with
        | ok a x =>
          obtain ⟨dx, lx⟩ := x
          rw [hx] at hs hg
          have hl1 : Like (Dictionary.init m.charset) dx := hs.1
          dsimp only [Res.mapS] at hg
          by_cases hc : l.getCountry = []
          · rw [if_pos hc] at hg
            cases hg
            have : (m.dictionaries.set l m.nextId).get? L = some q := hL
            rw [AMap.get?_set_ne _ _ (Ne.symm he)] at this
            exact .inl this
          · rw [if_neg hc] at hg
            have hI : Inv (put (fresh l m) m.nextId (dx, m.log ++ lx)) := (h.fresh hl hn).put (fresh_heap m l) hl1
            have hpost := getFor_post env n (baseOf l) _ (base_defined hl).1 hI
            cases hr : getDictionaryFor env n (baseOf l) (put (fresh l m) m.nextId (dx, m.log ++ lx)) with
            | ok fb m2 =>
              rw [hr] at hpost hg
              obtain ⟨i2, g2, c2, l2, b2, f2⟩ := hpost
              have hh : (put (fresh l m) m.nextId (dx, m.log ++ lx)).heap.get? m.nextId = some dx := AMap.get?_set_self _ _ _
              have hd2 : m2.heap.get? m.nextId = some dx := by
                rw [f2 m.nextId (Nat.lt_succ_self _)]; exact hh
              have hmine : m2.dictionaries.get? l = some m.nextId := g2.keeps _ _ (fresh_get m l)
              dsimp only at hg
              rw [prog_bind, bind_apply] at hg
              unfold Manager.addFallback at hg
              rw [hd2] at hg
              dsimp only [Prog.pure] at hg
              cases hg
              have hL2 : m2.dictionaries.get? L = some q := hL
              rcases ih (baseOf l) _ m2 fb hI hr L q hL2 with h1 | ⟨d, h1, h2, h3⟩
              · have : (m.dictionaries.set l m.nextId).get? L = some q := h1
                rw [AMap.get?_set_ne _ _ (Ne.symm he)] at this
                exact .inl this
              · refine .inr ⟨d, ?_, h2, h3⟩
                show (m2.heap.set m.nextId _).get? q = some d
                rw [AMap.get?_set_ne _ _ (fun e : m.nextId = q => he (i2.inj _ _ _ hL2 (by rw [← e]; exact hmine)))]
                exact h1
            | _ => rw [hr] at hg; cases hg
        | _ => rw [hx] at hg; cases hg

theorem fed_get {env : Env} {n : Nat} {l : Language} {m m' : Manager} {p : DictId} (h : Fed env m) (hg : getDictionaryFor env n l m = .ok p m') : Fed env m' := by
  have hl : l.isDefined = true := by
    cases n with
    | zero => cases hg
    | succ n =>
      cases hd : l.isDefined with
      | true => rfl
      | false => rw [getDictionaryFor, if_pos (by simp [hd])] at hg; cases hg
  have hpost := getFor_post env n l m hl h.1
  rw [hg] at hpost
  obtain ⟨i1, g1, _, _, _, f1⟩ := hpost
  refine ⟨i1, fun L q hL => ?_⟩
  rw [g1.charset, g1.path]
  rcases entries env n l m m' p h.1 hg L q hL with h1 | h1
  · obtain ⟨d, hd, hx, hf⟩ := h.2 L q h1
    refine ⟨d, ?_, hx, fun hc => ?_⟩
    · rw [f1 q (h.1.live q d hd).1]; exact hd
    · obtain ⟨r, h2, h3⟩ := hf hc
      exact ⟨r, h2, g1.keeps _ _ h3⟩
  · exact h1

theorem fed_empty {env : Env} {m : Manager} (h : Inv m) (hd : m.dictionaries = []) : Fed env m :=
  ⟨h, fun L p hL => by rw [hd] at hL; cases hL⟩

theorem fed_same {env : Env} {m m' : Manager} (h : Fed env m) (hi : Inv m') (h1 : m'.dictionaries = m.dictionaries) (h2 : m'.heap = m.heap)
    (h3 : m'.charset = m.charset) (h4 : m'.searchPath = m.searchPath) : Fed env m' := by
  refine ⟨hi, ?_⟩
  rw [h1, h2, h3, h4]
  exact h.2

theorem fed_call {env : Env} {m m' : Manager} {c : Call} {a : Answer} (h : Fed env m) (hc : c.changes? = none) (hr : c.run env m = .ok a m') : Fed env m' := by
  have hi : Inv m' := (leads_after h.1 (.inl ⟨a, hr⟩)).1
  have hch : c.Changes m → Fed env m' := fun hx => fed_empty hi (changes_cleared h.1 hx (.inl ⟨a, hr⟩)).1
  cases c with
  | getDictionary =>
    unfold Call.run Manager.getDictionary at hr
    simp only [prog_bind, bind_apply, Prog.get] at hr
    cases hcur : m.currentDict with
    | some p => rw [hcur] at hr; dsimp only [Prog.pure] at hr; cases hr; exact h
    | none =>
      rw [hcur] at hr
      dsimp only at hr
      cases hl : m.currentLanguage.isDefined with
      | false => simp only [hl, Bool.false_eq_true, if_false, Prog.pure] at hr; cases hr; exact h
      | true =>
        simp only [hl, if_true, bind_apply] at hr
        cases hg : getDictionaryFor env env.fuel m.currentLanguage m with
        | ok p m1 =>
          rw [hg] at hr
          simp only [Prog.modify, Prog.pure] at hr
          cases hr
          exact fed_same (fed_get h hg) hi rfl rfl rfl rfl
        | _ => rw [hg] at hr; cases hr
  | getDictionaryFor l =>
    unfold Call.run at hr
    simp only [prog_bind, bind_apply] at hr
    cases hg : getDictionaryFor env env.fuel l m with
    | ok p m1 => rw [hg] at hr; cases hr; exact fed_get h hg
    | _ => rw [hg] at hr; cases hr
  | getLanguages =>
    unfold Call.run Manager.getLanguages at hr
    simp only [prog_bind, bind_apply, Prog.get] at hr
    rcases getLanguages_state env m.searchPath [] m with ⟨l, hx⟩ | ⟨w, hx⟩ <;> rw [hx] at hr <;> cases hr
    exact h
  | setLanguage l =>
    have hs : Manager.setLanguage l m = .ok () (if m.currentLanguage = l then m else { m with currentLanguage := l, currentDict := none }) := by
      unfold Manager.setLanguage
      by_cases hx : m.currentLanguage = l
      · rw [if_neg (fun h => h hx), if_pos hx]
      · rw [if_pos hx, if_neg hx]
    unfold Call.run at hr
    simp only [prog_bind, bind_apply, hs] at hr
    by_cases hx : m.currentLanguage = l
    · rw [if_pos hx] at hr; cases hr; exact h
    · rw [if_neg hx] at hr; cases hr
      exact fed_same h hi rfl rfl rfl rfl
  | getLanguage => cases hr; exact h
  | getUseFuzzy => cases hr; exact h
  | setCharset s => exact hch trivial
  | setUseFuzzy b => exact hch trivial
  | addDirectory p b =>
    by_cases hp : p ∈ m.searchPath
    · unfold Call.run at hr
      simp only [prog_bind, bind_apply, addDirectory_known hp] at hr
      cases hr; exact h
    · exact hch hp
  | removeDirectory p =>
    by_cases hp : p ∈ m.searchPath
    · exact hch hp
    · unfold Call.run at hr
      simp only [prog_bind, bind_apply, removeDirectory_unknown hp] at hr
      cases hr; exact h
  | add id a => cases hc
  | setPluralForms id p => cases hc
  | ask id q =>
    unfold Call.run at hr
    cases hd : m.heap.get? id with
    | none =>
      simp only [prog_bind, bind_apply, Manager.ask, hd] at hr
      cases hr
    | some d =>
      rcases ask_ok h.1 env.fuel hd q with ⟨r, l, hx, _⟩ | ⟨hx, _⟩
      · simp only [prog_bind, bind_apply, hx] at hr
        cases hr
        exact fed_same h hi rfl rfl rfl rfl
      · simp only [prog_bind, bind_apply, hx] at hr
        cases hr

theorem fed {env : Env} {m : Manager} (h : Settled env m) : Fed env m := by
  induction h with
  | new cs => exact fed_empty (inv_init cs) rfl
  | changed hr hc hl =>
    obtain ⟨h1, _, h2, _⟩ := changes_cleared (reach_inv hr) hc hl
    exact fed_empty h2 h1
  | called _ hc hr ih => exact fed_call ih hc hr

theorem loads_unique {env : Env} {l : Language} {cs : Str} {path : List Str} {d e : Dictionary} (h : Loads env l cs path d) (h' : Loads env l cs path e) :
    unlinked d = unlinked e := by
  obtain ⟨x, h1, h2⟩ := h
  obtain ⟨y, h3, h4⟩ := h'
  rw [h1] at h3; cases h3
  rw [h2, h4]

end Settled
open Settled

/-- C109.  What two managers answer in the same world depends only on how they are configured: with the same search path and charset, lookups on the dictionaries they
return for a language have the same answers and messages - whatever else they were asked for, in whatever order, and however they came to be configured so. -/
theorem C109_same (env : Env) (m m1 k k1 : Manager) (n n' : Nat) (l : Language) (p q : DictId) (hm : Settled env m) (hk : Settled env k)
    (hpath : k.searchPath = m.searchPath) (hcs : k.charset = m.charset)
    (hg : getDictionaryFor env n l m = .ok p m1) (hg' : getDictionaryFor env n' l k = .ok q k1) (f : Nat) (x : Query) :
    reply (f + 2) m1 p x = reply (f + 2) k1 q x := by
  have post : ∀ {n : Nat} {m m1 : Manager} {p : DictId}, Fed env m → getDictionaryFor env n l m = .ok p m1 →
      Fed env m1 ∧ m1.searchPath = m.searchPath ∧ m1.charset = m.charset ∧ m1.dictionaries.get? l = some p := by
    intro n m m1 p h hg
    have hf := fed_get h hg
    have hl : l.isDefined = true := by
      cases n with
      | zero => cases hg
      | succ n =>
        cases hd : l.isDefined with
        | true => rfl
        | false => rw [getDictionaryFor, if_pos (by simp [hd])] at hg; cases hg
    have hpost := getFor_post env n l m hl h.1
    rw [hg] at hpost
    exact ⟨hf, hpost.2.1.path, hpost.2.1.charset, hpost.2.2.2.2.1⟩
  obtain ⟨f1, p1, c1, g1⟩ := post (fed hm) hg
  obtain ⟨f2, p2, c2, g2⟩ := post (fed hk) hg'
  obtain ⟨d, hd, ld, fd⟩ := f1.2 l p g1
  obtain ⟨e, he, le, fe⟩ := f2.2 l q g2
  rw [p1, c1] at ld
  rw [p2, c2, hpath, hcs] at le
  refine Twice.same_all f1.1 f2.1 hd he (loads_unique ld le) ?_ f x
  by_cases hc : l.getCountry = []
  · have none : ∀ {m : Manager} {p : DictId} {d : Dictionary}, Inv m → m.dictionaries.get? l = some p → m.heap.get? p = some d → d.fallback = none := by
      intro m p d hI hL hd
      obtain ⟨_, _, d', hd', _, hfb⟩ := hI.cached l p hL
      rw [hd] at hd'; cases hd'
      rcases hfb with ⟨_, hfb⟩ | ⟨_, hfb, _⟩
      · exact hfb
      · exact absurd hc hfb
    exact .inl ⟨none f1.1 g1 hd, none f2.1 g2 he⟩
  · obtain ⟨r, h1, h2⟩ := fd hc
    obtain ⟨s, h3, h4⟩ := fe hc
    obtain ⟨d', hd', ld', _⟩ := f1.2 _ r h2
    obtain ⟨e', he', le', _⟩ := f2.2 _ s h4
    rw [p1, c1] at ld'
    rw [p2, c2, hpath, hcs] at le'
    exact .inr ⟨r, s, d', e', h1, h3, hd', he', loads_unique ld' le'⟩

theorem Settled.returns (env : Env) (m m1 k : Manager) (n : Nat) (l : Language) (p : DictId) (hm : Settled env m) (hk : Settled env k)
    (hgo : ∀ l', l' = l ∨ l' = baseOf l → (∃ x, dirs1 env l' m.searchPath.reverse (Dictionary.init m.charset, []) = .ok () x) →
      ∃ x, dirs1 env l' k.searchPath.reverse (Dictionary.init k.charset, []) = .ok () x) (hg : getDictionaryFor env (n + 2) l m = .ok p m1) :
    ∃ q k1, getDictionaryFor env (n + 2) l k = .ok q k1 := by
  have hl : l.isDefined = true := by
    cases hd : l.isDefined with
    | true => rfl
    | false => rw [getDictionaryFor, if_pos (by simp [hd])] at hg; cases hg
  have f1 := fed_get (fed hm) hg
  have hpost := getFor_post env (n + 2) l m hl (fed hm).1
  rw [hg] at hpost
  obtain ⟨_, g, _, _, g1, _⟩ := hpost
  obtain ⟨d, _, ⟨x, hx, _⟩, fd⟩ := f1.2 l p g1
  rw [g.path, g.charset] at hx
  obtain ⟨x, hx⟩ := hgo l (.inl rfl) ⟨x, hx⟩
  have hI := (fed hk).1
  cases hn : k.dictionaries.get? l with
  | some q => exact ⟨q, k, getFor_hit env _ l k hl hn⟩
  | none =>
    obtain ⟨dx, lx⟩ := x
    have hs := sane_dirs1 env l k.searchPath.reverse (Dictionary.init k.charset, [])
    rw [hx] at hs
    have hl1 : Like (Dictionary.init k.charset) dx := hs.1
    rw [getFor_miss env _ l k hl hn, dirs1_log, hx]
    dsimp only [Res.mapS]
    by_cases hc : l.getCountry = []
    · rw [if_pos hc]; exact ⟨_, _, rfl⟩
    · rw [if_neg hc]
      obtain ⟨r, _, h2⟩ := fd hc
      obtain ⟨_, _, ⟨y, hy, _⟩, _⟩ := f1.2 _ r h2
      rw [g.path, g.charset] at hy
      obtain ⟨y, hy⟩ := hgo _ (.inr rfl) ⟨y, hy⟩
      have hI1 : Inv (put (fresh l k) k.nextId (dx, k.log ++ lx)) := (hI.fresh hl hn).put (fresh_heap k l) hl1
      have hb : ∃ fb k2, getDictionaryFor env (n + 1) (baseOf l) (put (fresh l k) k.nextId (dx, k.log ++ lx)) = .ok fb k2 := by
        cases hn2 : (put (fresh l k) k.nextId (dx, k.log ++ lx)).dictionaries.get? (baseOf l) with
        | some fb => exact ⟨fb, _, getFor_hit env _ _ _ (base_defined hl).1 hn2⟩
        | none =>
          rw [getFor_miss env _ _ _ (base_defined hl).1 hn2, dirs1_log]
          rw [show dirs1 env (baseOf l) (put (fresh l k) k.nextId (dx, k.log ++ lx)).searchPath.reverse
            (Dictionary.init (put (fresh l k) k.nextId (dx, k.log ++ lx)).charset, []) = .ok () y from hy]
          dsimp only [Res.mapS]
          rw [if_pos (base_defined hl).2]
          exact ⟨_, _, rfl⟩
      obtain ⟨fb, k2, hb⟩ := hb
      have hp2 := getFor_post env (n + 1) (baseOf l) _ (base_defined hl).1 hI1
      rw [hb] at hp2 ⊢
      have hh : (put (fresh l k) k.nextId (dx, k.log ++ lx)).heap.get? k.nextId = some dx := AMap.get?_set_self _ _ _
      have hd2 : k2.heap.get? k.nextId = some dx := by
        rw [hp2.2.2.2.2.2 k.nextId (Nat.lt_succ_self _)]; exact hh
      dsimp only
      rw [prog_bind, bind_apply]
      unfold Manager.addFallback
      rw [hd2]
      exact ⟨_, _, rfl⟩

/-- C109.  And if one of them returns, so does the other. -/
theorem C109_both (env : Env) (m m1 k : Manager) (n : Nat) (l : Language) (p : DictId) (hm : Settled env m) (hk : Settled env k)
    (hpath : k.searchPath = m.searchPath) (hcs : k.charset = m.charset) (hg : getDictionaryFor env (n + 2) l m = .ok p m1) :
    ∃ q k1, getDictionaryFor env (n + 2) l k = .ok q k1 :=
  Settled.returns env m m1 k n l p hm hk (fun l' _ h => by rw [hpath, hcs]; exact h) hg

theorem Settled.reply_cur (m : Manager) (c : Option DictId) (f : Nat) (p : DictId) (x : Query) : reply f { m with currentDict := c } p x = reply f m p x := by
  unfold reply ask
  dsimp only
  cases m.heap.get? p with
  | none => rfl
  | some d =>
    dsimp only
    cases x.on m.heap.get? f d [] with
    | _ => rfl

theorem Settled.current {env : Env} {m m1 : Manager} {p : DictId} (hm : Settled env m) (hl : m.currentLanguage.isDefined = true) (hg : getDictionary env m = .ok p m1) :
    ∃ n m2, getDictionaryFor env n m.currentLanguage m = .ok p m2 ∧ ∀ f x, reply f m1 p x = reply f m2 p x := by
  cases hc : m.currentDict with
  | some q =>
    have : getDictionary env m = .ok q m := by
      unfold getDictionary
      simp only [prog_bind, bind_apply, Prog.get, hc, Prog.pure]
    rw [this] at hg
    cases hg
    exact ⟨1, m, getFor_hit env 0 _ m hl ((fed hm).1.cur p hc).2, fun _ _ => rfl⟩
  | none =>
    unfold getDictionary at hg
    simp only [prog_bind, bind_apply, Prog.get, hc, hl, if_true] at hg
    cases hr : getDictionaryFor env env.fuel m.currentLanguage m with
    | ok q m2 =>
      rw [hr] at hg
      simp only [Prog.modify, Prog.pure] at hg
      cases hg
      exact ⟨_, m2, hr, fun f x => Settled.reply_cur m2 _ f p x⟩
    | _ => rw [hr] at hg; cases hg

/-- C109.  The current language is part of the configuration in the same sense: with the same search path, charset and language set, the dictionaries of
`get_dictionary()` answer alike - whenever and however often the language was changed before, and whether or not the dictionary has been asked for yet. -/
theorem C109_current (env : Env) (m m1 k k1 : Manager) (p q : DictId) (hm : Settled env m) (hk : Settled env k)
    (hpath : k.searchPath = m.searchPath) (hcs : k.charset = m.charset) (hcur : k.currentLanguage = m.currentLanguage) (hl : m.currentLanguage.isDefined = true)
    (hg : getDictionary env m = .ok p m1) (hg' : getDictionary env k = .ok q k1) (f : Nat) (x : Query) :
    reply (f + 2) m1 p x = reply (f + 2) k1 q x := by
  obtain ⟨n, m2, h1, e1⟩ := Settled.current hm hl hg
  obtain ⟨n', k2, h2, e2⟩ := Settled.current hk (by rw [hcur]; exact hl) hg'
  rw [hcur] at h2
  rw [e1, e2]
  exact C109_same env m m2 k k2 n n' m.currentLanguage p q hm hk hpath hcs h1 h2 f x

/-- C109.  And they are the same as those of `get_dictionary(language)`. -/
theorem C109_named (env : Env) (m m1 k k1 : Manager) (n : Nat) (p q : DictId) (hm : Settled env m) (hk : Settled env k)
    (hpath : k.searchPath = m.searchPath) (hcs : k.charset = m.charset) (hl : m.currentLanguage.isDefined = true)
    (hg : getDictionary env m = .ok p m1) (hg' : getDictionaryFor env n m.currentLanguage k = .ok q k1) (f : Nat) (x : Query) :
    reply (f + 2) m1 p x = reply (f + 2) k1 q x := by
  obtain ⟨n', m2, h1, e1⟩ := Settled.current hm hl hg
  rw [e1]
  exact C109_same env m m2 k k1 n' n m.currentLanguage p q hm hk hpath hcs h1 hg' f x

/-! ### Directories that count for nothing, or are there twice, in managers that have been used -/

namespace Settled
open Twice Bare

theorem held {env : Env} {n : Nat} {l : Language} {m m1 : Manager} {p : DictId} (hm : Settled env m) (hg : getDictionaryFor env n l m = .ok p m1) :
    l.isDefined = true ∧ Inv m1 ∧ Held env l m.charset m.searchPath m1 p := by
  have hf := fed_get (fed hm) hg
  have hl : l.isDefined = true := by
    cases n with
    | zero => cases hg
    | succ n =>
      cases hd : l.isDefined with
      | true => rfl
      | false => rw [getDictionaryFor, if_pos (by simp [hd])] at hg; cases hg
  have hpost := getFor_post env n l m hl (fed hm).1
  rw [hg] at hpost
  obtain ⟨_, g, _, _, g1, _⟩ := hpost
  obtain ⟨d, hd, ⟨x, hx, hu⟩, fd⟩ := hf.2 l p g1
  rw [g.path, g.charset] at hx
  refine ⟨hl, hf.1, d, hd, hu.trans (path1_ok hx).1, ?_, ?_⟩
  · intro hc
    obtain ⟨_, _, d', hd', _, hfb⟩ := hf.1.cached l p g1
    rw [hd] at hd'; cases hd'
    rcases hfb with ⟨_, hfb⟩ | ⟨_, hfb, _⟩
    · exact hfb
    · exact absurd hc hfb
  · intro hc
    obtain ⟨r, h1, h2⟩ := fd hc
    obtain ⟨e, he, ⟨y, hy, hv⟩, _⟩ := hf.2 _ r h2
    rw [g.path, g.charset] at hy
    exact ⟨r, e, h1, he, hv.trans (path1_ok hy).1⟩

theorem files1_unserved {env : Env} {l : Language} {dir : Str} {files : List Str} (hf : ∀ f ∈ files, ∀ L, denoted env.ct f = some L → L.getLanguage ≠ l.getLanguage)
    (x : DL) : files1 env l dir files x = .ok () (x.1, x.2 ++ scanLog env.ct files) := by
  have hn : NoFile env.ct l files := by
    intro f hm
    rw [fileScore_denoted]
    cases hd : denoted env.ct f with
    | none => rfl
    | some L => exact score_zero (hf f hm L hd)
  unfold files1
  rcases best_cases env.ct l files with ⟨_, h2⟩ | ⟨h1, _⟩
  · rw [if_pos h2]
  · exact absurd hn ((C49_best_unique env.ct l files).2.1 ⟨_, h1⟩)

theorem dirs1_filter {env : Env} {l : Language} {S : Str → Bool} (hS : ∀ dir, S dir = false → Unserved env l dir) (dirs : List Str) : ∀ d : Dictionary,
    (dirs1 env l dirs (d, [])).mapS Prod.fst = (dirs1 env l (dirs.filter S) (d, [])).mapS Prod.fst := by
  induction dirs with
  | nil => intro d; rfl
  | cons dir t ih =>
    intro d
    have aside : ∀ (ds : List Str) (y : DL), (dirs1 env l ds y).mapS Prod.fst = (dirs1 env l ds (y.1, [])).mapS Prod.fst := by
      intro ds y
      rw [show dirs1 env l ds y = dirs1 env l ds (y.1, y.2) from rfl, dirs1_log, Res.mapS_mapS]
    cases hs : S dir with
    | false =>
      rw [List.filter_cons_of_neg (by simp [hs]), ← ih d]
      obtain ⟨files, ho, hf⟩ := hS dir hs
      rw [dirs1, ho]
      dsimp only
      rw [bind_apply, files1_unserved hf]
      exact aside t _
    | true =>
      rw [List.filter_cons_of_pos hs, dirs1, dirs1]
      cases env.fs.openDirectory dir with
      | error w => rfl
      | ok files =>
        dsimp only
        rw [bind_apply, bind_apply]
        cases files1 env l dir files (d, []) with
        | ok a y => dsimp only; rw [aside, aside (t.filter S)]; exact ih y.1
        | _ => rfl

theorem ok_filter {env : Env} {l : Language} {S : Str → Bool} (hS : ∀ dir, S dir = false → Unserved env l dir) {path path' : List Str} (hpath : path'.filter S = path.filter S)
    (d : Dictionary) (h : ∃ x, dirs1 env l path.reverse (d, []) = .ok () x) : ∃ x, dirs1 env l path'.reverse (d, []) = .ok () x := by
  obtain ⟨x, hx⟩ := h
  have h1 := dirs1_filter hS path.reverse d
  have h2 := dirs1_filter hS path'.reverse d
  rw [List.filter_reverse] at h1 h2
  rw [hpath, ← h1, hx] at h2
  cases hy : dirs1 env l path'.reverse (d, []) with
  | ok a y => exact ⟨y, rfl⟩
  | _ => rw [hy] at h2; cases h2

end Settled

/-- C106.  The same for managers that have been used before, for other languages, in whatever order. -/
theorem C106_settled (env : Env) (m m1 k k1 : Manager) (n n' : Nat) (l : Language) (p q : DictId) (hm : Settled env m) (hk : Settled env k) (hcs : k.charset = m.charset)
    (S : Str → Bool) (hS : ∀ dir, S dir = false → Unserved env l dir) (hpath : k.searchPath.filter S = m.searchPath.filter S)
    (hg : getDictionaryFor env n l m = .ok p m1) (hg' : getDictionaryFor env n' l k = .ok q k1) (f : Nat) (x : Query) :
    reply (f + 2) m1 p x = reply (f + 2) k1 q x := by
  obtain ⟨hl, h1, h2⟩ := held hm hg
  obtain ⟨_, h3, h4⟩ := held hk hg'
  rw [hcs] at h4
  exact Twice.held_unserved hl h1 h3 h2 h4 S hS hpath f x

/-- C106.  And such directories do not decide whether `get_dictionary` returns. -/
theorem C106_returns (env : Env) (m m1 k : Manager) (n : Nat) (l : Language) (p : DictId) (hm : Settled env m) (hk : Settled env k) (hcs : k.charset = m.charset)
    (S : Str → Bool) (hS : ∀ dir, S dir = false → Unserved env l dir) (hpath : k.searchPath.filter S = m.searchPath.filter S)
    (hg : getDictionaryFor env (n + 2) l m = .ok p m1) : ∃ q k1, getDictionaryFor env (n + 2) l k = .ok q k1 := by
  have hl := (held hm hg).1
  refine Settled.returns env m m1 k n l p hm hk ?_ hg
  have hSb : ∀ dir, S dir = false → Unserved env (baseOf l) dir := by
    intro dir hs
    obtain ⟨files, ho, h⟩ := hS dir hs
    exact ⟨files, ho, fun f hf L hL => by rw [show (baseOf l).getLanguage = l.getLanguage from (Bare.bare_def hl).2.2.2]; exact h f hf L hL⟩
  rintro l' (rfl | rfl) h
  · rw [hcs]; exact Settled.ok_filter hS hpath _ h
  · rw [hcs]; exact Settled.ok_filter hSb hpath _ h

/-- C107.  The same for managers that have been used before. -/
theorem C107_settled_partial (env : Env) (m m1 k k1 : Manager) (n n' : Nat) (l : Language) (p q : DictId) (dir dir' : Str) (a b c : List Str) (hm : Settled env m)
    (hk : Settled env k) (hcs : k.charset = m.charset) (hd : SameDir env dir dir') (hmp : m.searchPath = a ++ dir :: b ++ dir' :: c) (hkp : k.searchPath = a ++ dir :: b ++ c)
    (hg : getDictionaryFor env n l m = .ok p m1) (hg' : getDictionaryFor env n' l k = .ok q k1) (f : Nat) (x : Query) :
    (Query.counts x = false → reply (f + 2) m1 p x = reply (f + 2) k1 q x) ∧
    ((∀ y ∈ b, ∃ e, AloneGives env l m.charset y e ∧ e.pluralForms = .undefined) →
      (reply (f + 2) m1 p x).map Prod.fst = (reply (f + 2) k1 q x).map Prod.fst) := by
  obtain ⟨hl, h1, h2⟩ := held hm hg
  obtain ⟨_, h3, h4⟩ := held hk hg'
  rw [hmp] at h2
  rw [hkp, hcs] at h4
  exact Twice.held_twice h1 h3 hd h2 h4 f x

/-! ### A case -/

/-! ### Countries without files, in managers that have been used -/

namespace Settled
open Twice Bare

theorem own_same {env : Env} {l : Language} {m m1 k k1 : Manager} {n n' : Nat} {p q : DictId} (hm : Settled env m) (hk : Settled env k)
    (hg : getDictionaryFor env n l m = .ok p m1) (hg' : getDictionaryFor env n' (bare l) k = .ok q k1)
    (hpath : k.searchPath = m.searchPath) (hcs : k.charset = m.charset) (hown : NothingOwnIn env l m.searchPath) :
    Inv m1 ∧ Inv k1 ∧ ∃ d e, m1.heap.get? p = some d ∧ k1.heap.get? q = some e ∧ unlinked d = unlinked e ∧ e.fallback = none ∧
      (l.getCountry = [] → d.fallback = none) ∧
      (l.getCountry ≠ [] → ∃ fb e', d.fallback = some fb ∧ m1.heap.get? fb = some e' ∧ unlinked e' = unlinked e) := by
  obtain ⟨hl, hI, d, hd, hu, hn, hc⟩ := held hm hg
  obtain ⟨hlb, hI', e, he, hv, hn', _⟩ := held hk hg'
  rw [hpath, hcs] at hv
  have hpl : PathLoads env l m.searchPath (Dictionary.init m.charset) (unlinked d) := by
    have hf := fed_get (fed hm) hg
    have hpost := getFor_post env n l m hl (fed hm).1
    rw [hg] at hpost
    obtain ⟨d', hd', ⟨x, hx, hux⟩, _⟩ := hf.2 l p hpost.2.2.2.2.1
    rw [hd] at hd'; cases hd'
    rw [hpost.2.1.path, hpost.2.1.charset] at hx
    rw [hux]
    exact (path1_ok hx).2
  have hql : PathLoads env (bare l) m.searchPath (Dictionary.init m.charset) (unlinked e) := by
    have hf := fed_get (fed hk) hg'
    have hpost := getFor_post env n' (bare l) k hlb (fed hk).1
    rw [hg'] at hpost
    obtain ⟨d', hd', ⟨x, hx, hux⟩, _⟩ := hf.2 _ q hpost.2.2.2.2.1
    rw [he] at hd'; cases hd'
    rw [hpost.2.1.path, hpost.2.1.charset, hpath, hcs] at hx
    rw [hux]
    exact (path1_ok hx).2
  refine ⟨hI, hI', d, e, hd, he, path_det (path_same hl hown hpl) hql, hn' (bare_def hl).2.1, hn, ?_⟩
  intro h
  obtain ⟨fb, e', h1, h2, h3⟩ := hc h
  exact ⟨fb, e', h1, h2, h3.trans hv.symm⟩

end Settled

/-- C105.  The same of managers in use: whatever they have been asked for since they were configured (all in the same world, and nobody has added anything by hand), the
dictionary for a language nothing is made for has the contents of the one for the bare language. -/
theorem C105_settled_contents (env : Env) (m m1 k k1 : Manager) (n n' : Nat) (l : Language) (p q : DictId) (hm : Settled env m) (hk : Settled env k)
    (hg : getDictionaryFor env n l m = .ok p m1) (hg' : getDictionaryFor env n' (bare l) k = .ok q k1)
    (hpath : k.searchPath = m.searchPath) (hcs : k.charset = m.charset) (hown : NothingOwnIn env l m.searchPath) :
    ∃ d e, m1.heap.get? p = some d ∧ k1.heap.get? q = some e ∧ unlinked d = unlinked e ∧ e.fallback = none ∧
      (l.getCountry = [] → d.fallback = none) ∧
      (l.getCountry ≠ [] → ∃ fb e', d.fallback = some fb ∧ m1.heap.get? fb = some e' ∧ unlinked e' = unlinked e) :=
  (Settled.own_same hm hk hg hg' hpath hcs hown).2.2

/-- C105.  And answers as it does, except, if the language has a country, lookups in a context of messages that have no translation there. -/
theorem C105_settled_partial (env : Env) (m m1 k k1 : Manager) (n n' : Nat) (l : Language) (p q : DictId) (f : Nat) (x : Query) (hm : Settled env m)
    (hk : Settled env k) (hg : getDictionaryFor env n l m = .ok p m1) (hg' : getDictionaryFor env n' (bare l) k = .ok q k1)
    (hpath : k.searchPath = m.searchPath) (hcs : k.charset = m.charset) (hown : NothingOwnIn env l m.searchPath)
    (hx : l.getCountry = [] ∨ ∀ c i, x = .ctxt c i → ∃ e v, k1.heap.get? q = some e ∧ stored e (some c) i = some v ∧ v ≠ []) :
    (reply (f + 2) m1 p x).map Prod.fst = (reply (f + 2) k1 q x).map Prod.fst := by
  obtain ⟨hI, hI', d, e, hd, he, hu, hef, hnc, hco⟩ := Settled.own_same hm hk hg hg' hpath hcs hown
  exact Bare.same_answers hI hI' hd he hu hef hnc hco f x hx


/-! ### Directories of lowest priority, in managers that have been used -/

namespace Settled
open Twice

theorem rule_undefined {env : Env} {l : Language} {cs : Str} (path : List Str)
    (h : ∀ b ∈ path, ((dirEff env l cs b).applyTo (Dictionary.init cs)).pluralForms = .undefined) :
    (pathEff env l cs path (Dictionary.init cs)).pluralForms = .undefined := by
  induction path with
  | nil => rfl
  | cons b t ih =>
    have ih := ih (fun x hx => h x (List.mem_cons_of_mem _ hx))
    show ((dirEff env l cs b).applyTo (pathEff env l cs t (Dictionary.init cs))).pluralForms = _
    have e : ∀ x : Dictionary, ((dirEff env l cs b).applyTo x).pluralForms =
      if x.pluralForms.isDefined then x.pluralForms else (dirEff env l cs b).rule.getD x.pluralForms := fun _ => rfl
    have hb := h b List.mem_cons_self
    rw [e] at hb ⊢
    rw [ih]
    exact hb

theorem more_settled {env : Env} {l : Language} {m m1 k k1 : Manager} {n n' : Nat} {p q : DictId} (hm : Settled env m) (hk : Settled env k)
    (hg : getDictionaryFor env n l m = .ok p m1) (hg' : getDictionaryFor env n' l k = .ok q k1) (hcs : k.charset = m.charset)
    (more : List Str) (hpath : k.searchPath = m.searchPath ++ more) :
    ∃ d d', m1.heap.get? p = some d ∧ k1.heap.get? q = some d' ∧ (∀ key, Kept (d.lookup key) (d'.lookup key)) ∧
      (∀ key, d.lookup key = none → d'.lookup key = (pathEff env l m.charset more (Dictionary.init m.charset)).lookup key) ∧
      ((pathEff env l m.charset more (Dictionary.init m.charset)).pluralForms = .undefined → d.pluralForms = d'.pluralForms) := by
  obtain ⟨_, _, d, h1, h2, _⟩ := held hm hg
  obtain ⟨_, _, d', h1', h2', _⟩ := held hk hg'
  rw [hcs, hpath, pathEff_append] at h2'
  refine ⟨d, d', h1, h1', ?_, ?_, ?_⟩
  · intro key
    rw [← lookup_unlinked d, ← lookup_unlinked d', h2, h2']
    refine kept_path _ _ _ _ _ ?_
    intro v hv
    rw [init_lookup] at hv
    cases hv
  · intro key hn
    rw [← lookup_unlinked d, h2] at hn
    rw [← lookup_unlinked d', h2', untouched_path _ _ _ _ _ hn]
  · intro hu
    show (unlinked d).pluralForms = (unlinked d').pluralForms
    rw [h2, h2']
    exact rule_path _ _ _ _ hu.symm

end Settled

/-- C98.  The same of any two managers, new or in use in the same world, one of which has more directories (any number) behind those of the other: what the other answers from
the dictionary of the language, without a message, the first answers in the same way; with a number, if none of the directories behind gives a plural rule. -/
theorem C98_settled_partial (env : Env) (m m1 k k1 : Manager) (n n' : Nat) (l : Language) (p q : DictId) (more : List Str) (hm : Settled env m) (hk : Settled env k)
    (hcs : k.charset = m.charset) (hpath : k.searchPath = m.searchPath ++ more)
    (hg : getDictionaryFor env n l m = .ok p m1) (hg' : getDictionaryFor env n' l k = .ok q k1) (x : Query)
    (hx : x.isPlural = true → ∀ dir ∈ more, ∃ e, AloneGives env l m.charset dir e ∧ e.pluralForms = .undefined)
    (s : Str) (i j : Nat) (hs : ask i p x m1 = .ok s m1) : ask (j + 1) q x k1 = .ok s k1 := by
  obtain ⟨d, d', h1, h2, h3, _, h5⟩ := Settled.more_settled hm hk hg hg' hcs more hpath
  obtain ⟨y, hy, ho⟩ := ask_silent hs
  rw [h1] at hy
  cases hy
  obtain ⟨v, hv, hsay⟩ := silent_says ho
  obtain ⟨w, hw, hpre⟩ := h3 _ v hv
  refine ask_said h2 (says_silent hw ?_)
  cases hb : x.isPlural with
  | false => exact says_rule hb (says_longer hpre hsay)
  | true =>
    rw [← h5 (Settled.rule_undefined more ?_)]
    · exact says_longer hpre hsay
    · intro dir hd
      obtain ⟨e, he, hu⟩ := hx hb dir hd
      rw [← alone_eff he]
      exact hu

/-- C98.  And what the first knows beyond the other are exactly the messages a manager with only the directories behind would know, with the same translations. -/
theorem C98_settled_new (env : Env) (m m1 k k1 b b1 : Manager) (n n' n'' : Nat) (l : Language) (p q r : DictId) (more : List Str) (hm : Settled env m) (hk : Settled env k)
    (hb : Settled env b) (hcs : k.charset = m.charset) (hbc : b.charset = m.charset) (hpath : k.searchPath = m.searchPath ++ more) (hbp : b.searchPath = more)
    (hg : getDictionaryFor env n l m = .ok p m1) (hg' : getDictionaryFor env n' l k = .ok q k1) (hg'' : getDictionaryFor env n'' l b = .ok r b1) :
    ∃ d d' e, m1.heap.get? p = some d ∧ k1.heap.get? q = some d' ∧ b1.heap.get? r = some e ∧
      ∀ ctxt msgid, (stored d ctxt msgid = none → stored d' ctxt msgid = stored e ctxt msgid) ∧
        ∀ v, stored d ctxt msgid = some v → ∃ w, stored d' ctxt msgid = some w ∧ v <+: w := by
  obtain ⟨d, d', h1, h2, h3, h4, _⟩ := Settled.more_settled hm hk hg hg' hcs more hpath
  obtain ⟨_, _, e, he, hu, _⟩ := Settled.held hb hg''
  rw [hbc, hbp] at hu
  refine ⟨d, d', e, h1, h2, he, ?_⟩
  intro ctxt msgid
  refine ⟨?_, ?_⟩
  · intro hn
    rw [stored_lookup] at hn ⊢
    rw [h4 _ hn, stored_lookup, ← lookup_unlinked e, hu]
  · intro v hv
    rw [stored_lookup] at hv
    obtain ⟨w, hw, hp⟩ := h3 _ v hv
    exact ⟨w, by rw [stored_lookup]; exact hw, hp⟩


/-- Calls that return normally, one after the other. -/
def Settled.calls (env : Env) : Manager → List Call → Option Manager
  | m, [] => some m
  | m, c :: t => match c.run env m with
    | .ok _ m' => calls env m' t
    | _ => none

theorem Settled.of_calls {env : Env} (cs : List Call) (hc : ∀ c ∈ cs, c.changes? = none) : ∀ {m m' : Manager}, Settled env m → Settled.calls env m cs = some m' → Settled env m' := by
  induction cs with
  | nil => intro m m' h hr; cases hr; exact h
  | cons c t ih =>
    intro m m' h hr
    unfold Settled.calls at hr
    cases hx : c.run env m with
    | ok a m1 =>
      rw [hx] at hr
      exact ih (fun c hc' => hc c (List.mem_cons_of_mem _ hc')) (.called h (hc c (List.mem_cons_self ..)) hx) hr
    | _ => rw [hx] at hr; cases hr

/-- A manager that was asked for other languages before. -/
def Settled.busy : List Call := [.setCharset b!"UTF-8", .addDirectory b!"lo" false, .getDictionaryFor deLang, .addDirectory b!"hi" true, .setLanguage deLang, .getDictionary,
  .getLanguages, .addDirectory b!"hi" false]

/-- One that was not. -/
def Settled.idle : List Call := [.addDirectory b!"hi" false, .addDirectory b!"lo" false]

-- the managers are settled and configured alike, both have a dictionary for de_AT, and the lookup is answered
example : ∃ m k m1 k1 p q, Settled addEnv m ∧ Settled addEnv k ∧ k.searchPath = m.searchPath ∧ k.charset = m.charset ∧ m.dictionaries ≠ [] ∧ k.dictionaries = [] ∧
    getDictionaryFor addEnv 300 atLang m = .ok p m1 ∧ getDictionaryFor addEnv 300 atLang k = .ok q k1 ∧ p ≠ q ∧
    (reply 2 m1 p (.translate b!"cat")).map Prod.fst = some b!"Katze" := by
  have h : (match Settled.calls addEnv (.init b!"UTF-8") Settled.busy, Settled.calls addEnv (.init b!"UTF-8") Settled.idle with
      | some m, some k => decide (k.searchPath = m.searchPath) && decide (k.charset = m.charset) && !m.dictionaries.isEmpty && k.dictionaries.isEmpty &&
        (match getDictionaryFor addEnv 300 atLang m, getDictionaryFor addEnv 300 atLang k with
        | .ok p m1, .ok q _ => p != q && decide ((reply 2 m1 p (.translate b!"cat")).map Prod.fst = some b!"Katze")
        | _, _ => false)
      | _, _ => false) = true := by decide +kernel
  cases hm : Settled.calls addEnv (.init b!"UTF-8") Settled.busy with
  | none => rw [hm] at h; cases h
  | some m =>
    cases hk : Settled.calls addEnv (.init b!"UTF-8") Settled.idle with
    | none => rw [hm, hk] at h; cases h
    | some k =>
      rw [hm, hk] at h
      dsimp only at h
      cases hg : getDictionaryFor addEnv 300 atLang m with
      | ok p m1 =>
        cases hg' : getDictionaryFor addEnv 300 atLang k with
        | ok q k1 =>
          rw [hg, hg'] at h
          simp only [Bool.and_eq_true, decide_eq_true_eq, bne_iff_ne, Bool.not_eq_true', List.isEmpty_eq_false_iff, List.isEmpty_iff] at h
          obtain ⟨⟨⟨⟨h1, h2⟩, h3⟩, h4⟩, h5, h6⟩ := h
          exact ⟨m, k, m1, k1, p, q, Settled.of_calls _ (by decide) (.new _) hm, Settled.of_calls _ (by decide) (.new _) hk, h1, h2, h3, h4, hg, hg', h5, h6⟩
        | _ => rw [hg, hg'] at h; simp at h
      | _ => rw [hg] at h; simp at h

/-- A manager with a directory of French files, asked for French and German before. -/
def Settled.mixed : List Call := [.addDirectory b!"lo" false, .addDirectory b!"fr" true, .addDirectory b!"hi" true, .getDictionaryFor deLang, .getLanguages]

-- for C106_settled and C106_returns: one with a directory of French files in between, one without
example : ∃ m k m1 k1 p q, Settled Twice.linkEnv m ∧ Settled Twice.linkEnv k ∧ m.searchPath = [b!"hi", b!"fr", b!"lo"] ∧ k.searchPath = [b!"hi", b!"lo"] ∧
    k.searchPath.filter (· != b!"fr") = m.searchPath.filter (· != b!"fr") ∧ (∀ dir, (dir != b!"fr") = false → Unserved Twice.linkEnv atLang dir) ∧ k.charset = m.charset ∧
    getDictionaryFor Twice.linkEnv 300 atLang m = .ok p m1 ∧ getDictionaryFor Twice.linkEnv 300 atLang k = .ok q k1 ∧
    (reply 2 m1 p (.translate b!"cat")).map Prod.fst = some b!"Katze" := by
  have h : (match Settled.calls Twice.linkEnv (.init b!"UTF-8") Settled.mixed, Settled.calls Twice.linkEnv (.init b!"UTF-8") Settled.idle with
      | some m, some k => decide (m.searchPath = [b!"hi", b!"fr", b!"lo"]) && decide (k.searchPath = [b!"hi", b!"lo"]) && decide (k.charset = m.charset) &&
        (match getDictionaryFor Twice.linkEnv 300 atLang m, getDictionaryFor Twice.linkEnv 300 atLang k with
        | .ok p m1, .ok _ _ => decide ((reply 2 m1 p (.translate b!"cat")).map Prod.fst = some b!"Katze")
        | _, _ => false)
      | _, _ => false) = true := by decide +kernel
  cases hm : Settled.calls Twice.linkEnv (.init b!"UTF-8") Settled.mixed with
  | none => rw [hm] at h; cases h
  | some m =>
    cases hk : Settled.calls Twice.linkEnv (.init b!"UTF-8") Settled.idle with
    | none => rw [hm, hk] at h; cases h
    | some k =>
      rw [hm, hk] at h
      dsimp only at h
      cases hg : getDictionaryFor Twice.linkEnv 300 atLang m with
      | ok p m1 =>
        cases hg' : getDictionaryFor Twice.linkEnv 300 atLang k with
        | ok q k1 =>
          rw [hg, hg'] at h
          simp only [Bool.and_eq_true, decide_eq_true_eq] at h
          obtain ⟨⟨⟨h1, h2⟩, h3⟩, h4⟩ := h
          refine ⟨m, k, m1, k1, p, q, Settled.of_calls _ (by decide) (.new _) hm, Settled.of_calls _ (by decide) (.new _) hk, h1, h2, by rw [h1, h2]; decide, ?_, h3, hg, hg', h4⟩
          intro dir hd
          have : dir = b!"fr" := by simpa using hd
          subst this
          exact Twice.fr_unserved
        | _ => rw [hg, hg'] at h; simp at h
      | _ => rw [hg] at h; simp at h

/-- Managers with the menu directory, used in different ways before. -/
def Settled.eaten : List Call := [.addDirectory b!"menu" false, .getDictionaryFor deLang, .getLanguages]

/-- The other. -/
def Settled.eaten2 : List Call := [.addDirectory b!"menu" false, .getDictionaryFor atLang]

-- for C105_settled_partial: Austrian after German in one manager, German after Austrian in the other
example : ∃ m k m1 k1 p q, Settled Bare.menuEnv m ∧ Settled Bare.menuEnv k ∧ m.dictionaries ≠ [] ∧ k.dictionaries ≠ [] ∧ k.searchPath = m.searchPath ∧ k.charset = m.charset ∧
    NothingOwnIn Bare.menuEnv atLang m.searchPath ∧
    getDictionaryFor Bare.menuEnv 300 atLang m = .ok p m1 ∧ getDictionaryFor Bare.menuEnv 300 (bare atLang) k = .ok q k1 ∧
    (reply 2 m1 p (.translate b!"close")).map Prod.fst = some b!"Schliessen" := by
  have h : (match Settled.calls Bare.menuEnv (.init b!"UTF-8") Settled.eaten, Settled.calls Bare.menuEnv (.init b!"UTF-8") Settled.eaten2 with
      | some m, some k => decide (m.searchPath = [b!"menu"]) && decide (k.searchPath = [b!"menu"]) && decide (k.charset = m.charset) && !m.dictionaries.isEmpty && !k.dictionaries.isEmpty &&
        (match getDictionaryFor Bare.menuEnv 300 atLang m, getDictionaryFor Bare.menuEnv 300 (bare atLang) k with
        | .ok p m1, .ok _ _ => decide ((reply 2 m1 p (.translate b!"close")).map Prod.fst = some b!"Schliessen")
        | _, _ => false)
      | _, _ => false) = true := by decide +kernel
  cases hm : Settled.calls Bare.menuEnv (.init b!"UTF-8") Settled.eaten with
  | none => rw [hm] at h; cases h
  | some m =>
    cases hk : Settled.calls Bare.menuEnv (.init b!"UTF-8") Settled.eaten2 with
    | none => rw [hm, hk] at h; cases h
    | some k =>
      rw [hm, hk] at h
      dsimp only at h
      cases hg : getDictionaryFor Bare.menuEnv 300 atLang m with
      | ok p m1 =>
        cases hg' : getDictionaryFor Bare.menuEnv 300 (bare atLang) k with
        | ok q k1 =>
          rw [hg, hg'] at h
          simp only [Bool.and_eq_true, decide_eq_true_eq, Bool.not_eq_true', List.isEmpty_eq_false_iff] at h
          obtain ⟨⟨⟨⟨⟨h1, h2⟩, h3⟩, h4⟩, h5⟩, h6⟩ := h
          exact ⟨m, k, m1, k1, p, q, Settled.of_calls _ (by decide) (.new _) hm, Settled.of_calls _ (by decide) (.new _) hk, h4, h5, by rw [h1, h2], h3,
            by rw [h1]; exact Bare.menu_own, hg, hg', h6⟩
        | _ => rw [hg, hg'] at h; simp at h
      | _ => rw [hg] at h; simp at h

/-- A manager with `hi`, asked for Austrian before. -/
def Settled.fewer : List Call := [.addDirectory b!"hi" false, .getDictionaryFor atLang]

/-- One with `norule` behind it. -/
def Settled.more : List Call := [.addDirectory b!"norule" false, .getLanguages, .addDirectory b!"hi" true, .getDictionaryFor deLang]

-- for C98_settled_partial: "files" is answered silently from `hi` by the first, and `norule` gives no rule
example : ∃ m k m1 k1 p q, Settled addEnv m ∧ Settled addEnv k ∧ k.charset = m.charset ∧ k.searchPath = m.searchPath ++ [b!"norule"] ∧
    getDictionaryFor addEnv 300 deLang m = .ok p m1 ∧ getDictionaryFor addEnv 300 deLang k = .ok q k1 ∧
    ask 2 p (.plural b!"file" b!"files" 0) m1 = .ok b!"Dateien" m1 ∧
    (∃ e, AloneGives addEnv deLang m.charset b!"norule" e ∧ e.pluralForms = .undefined) := by
  have h : (match Settled.calls addEnv (.init b!"UTF-8") Settled.fewer, Settled.calls addEnv (.init b!"UTF-8") Settled.more with
      | some m, some k => decide (k.charset = m.charset) && decide (m.charset = b!"UTF-8") && decide (k.searchPath = m.searchPath ++ [b!"norule"]) &&
        (match getDictionaryFor addEnv 300 deLang m, getDictionaryFor addEnv 300 deLang k with
        | .ok p m1, .ok _ _ => decide (ask 2 p (.plural b!"file" b!"files" 0) m1 = .ok b!"Dateien" m1)
        | _, _ => false)
      | _, _ => false) = true := by decide +kernel
  have h0 : (getDictionaryFor addEnv addEnv.fuel deLang (newManager ⟨[b!"norule"], b!"UTF-8", true⟩)).test
      (fun p m1 => decide ((m1.heap.get? p).map (·.pluralForms) = some .undefined)) = true := by decide +kernel
  obtain ⟨r, b1, hb, hb1⟩ := ok_of_test h0
  cases hm : Settled.calls addEnv (.init b!"UTF-8") Settled.fewer with
  | none => rw [hm] at h; cases h
  | some m =>
    cases hk : Settled.calls addEnv (.init b!"UTF-8") Settled.more with
    | none => rw [hm, hk] at h; cases h
    | some k =>
      rw [hm, hk] at h
      dsimp only at h
      cases hg : getDictionaryFor addEnv 300 deLang m with
      | ok p m1 =>
        cases hg' : getDictionaryFor addEnv 300 deLang k with
        | ok q k1 =>
          rw [hg, hg'] at h
          simp only [Bool.and_eq_true, decide_eq_true_eq] at h hb1
          obtain ⟨⟨⟨h1, h2⟩, h3⟩, h4⟩ := h
          refine ⟨m, k, m1, k1, p, q, Settled.of_calls _ (by decide) (.new _) hm, Settled.of_calls _ (by decide) (.new _) hk, h1, h3, hg, hg', h4, ?_⟩
          cases he : b1.heap.get? r with
          | none => rw [he] at hb1; cases hb1
          | some e =>
            rw [he] at hb1
            exact ⟨e, ⟨r, b1, by rw [h2]; exact hb, he⟩, by simpa using hb1⟩
        | _ => rw [hg, hg'] at h; simp at h
      | _ => rw [hg] at h; simp at h

/-- A manager that had another language before. -/
def Settled.switched : List Call := [.setLanguage atLang, .addDirectory b!"hi" false, .addDirectory b!"lo" false, .getDictionary, .setLanguage deLang]

-- for C109_current and C109_named: one has its current dictionary already, the other not
example : ∃ m k m1 k1 p q, Settled addEnv m ∧ Settled addEnv k ∧ k.searchPath = m.searchPath ∧ k.charset = m.charset ∧ k.currentLanguage = m.currentLanguage ∧
    m.currentLanguage.isDefined = true ∧ m.dictionaries ≠ [] ∧ k.dictionaries ≠ [] ∧ k.currentDict = none ∧ getDictionary addEnv m = .ok p m1 ∧ getDictionary addEnv k = .ok q k1 ∧
    (reply 2 m1 p (.translate b!"cat")).map Prod.fst = some b!"Katze" := by
  have h : (match Settled.calls addEnv (.init b!"UTF-8") Settled.busy, Settled.calls addEnv (.init b!"UTF-8") Settled.switched with
      | some m, some k => decide (k.searchPath = m.searchPath) && decide (k.charset = m.charset) && decide (k.currentLanguage = m.currentLanguage) && m.currentLanguage.isDefined &&
        !m.dictionaries.isEmpty && !k.dictionaries.isEmpty && decide (k.currentDict = none) &&
        (match getDictionary addEnv m, getDictionary addEnv k with
        | .ok p m1, .ok _ _ => decide ((reply 2 m1 p (.translate b!"cat")).map Prod.fst = some b!"Katze")
        | _, _ => false)
      | _, _ => false) = true := by decide +kernel
  cases hm : Settled.calls addEnv (.init b!"UTF-8") Settled.busy with
  | none => rw [hm] at h; cases h
  | some m =>
    cases hk : Settled.calls addEnv (.init b!"UTF-8") Settled.switched with
    | none => rw [hm, hk] at h; cases h
    | some k =>
      rw [hm, hk] at h
      dsimp only at h
      cases hg : getDictionary addEnv m with
      | ok p m1 =>
        cases hg' : getDictionary addEnv k with
        | ok q k1 =>
          rw [hg, hg'] at h
          simp only [Bool.and_eq_true, decide_eq_true_eq, Bool.not_eq_true', List.isEmpty_eq_false_iff] at h
          obtain ⟨⟨⟨⟨⟨⟨⟨h1, h2⟩, h3⟩, h4⟩, h5⟩, h6⟩, h7⟩, h8⟩ := h
          exact ⟨m, k, m1, k1, p, q, Settled.of_calls _ (by decide) (.new _) hm, Settled.of_calls _ (by decide) (.new _) hk, h1, h2, h3, h4, h5, h6, h7, hg, hg', h8⟩
        | _ => rw [hg, hg'] at h; simp at h
      | _ => rw [hg] at h; simp at h

end Tgt
