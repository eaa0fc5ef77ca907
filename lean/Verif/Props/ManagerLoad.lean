import Verif.Proofs.MgrLoad
import Verif.Props.Manager
import Verif.Props.Dictionary
/-
What `get_dictionary(L)` loads: C46, C49, C50, C51, C52, C53, C55, C57.
-/
namespace Tgt
open Spec Manager Mgr POParser

/-! ### C46: configuration changes invalidate -/

theorem Mgr.changes_cleared {m m1 : Manager} (h : Inv m) {c : Call} (hc : c.Changes m) {env : Env} (hl : c.Leads env m m1) :
    m1.dictionaries = [] ∧ m1.currentDict = none ∧ Inv m1 ∧ config m1 = c.configure (config m) ∧ ∀ p, m1.heap.get? p ≠ none → p = 0 := by
  have hk := (leads_after h hl).2.2.2
  have hI := (leads_after h hl).1
  have key : ∀ {mx my : Manager}, Cleared m mx → my.dictionaries = mx.dictionaries → my.currentDict = mx.currentDict → my.heap = mx.heap → m1 = my →
      m1.dictionaries = [] ∧ m1.currentDict = none ∧ Inv m1 ∧ config m1 = c.configure (config m) ∧ ∀ p, m1.heap.get? p ≠ none → p = 0 := by
    rintro mx my hcl h1 h2 h3 rfl
    refine ⟨h1.trans hcl.dicts, h2.trans hcl.cur, hI, hk, ?_⟩
    intro p hp
    rw [h3, hcl.heap] at hp
    apply Classical.byContradiction
    intro e
    rw [if_neg e] at hp
    exact hp rfl
  cases c with
  | setCharset s =>
    obtain ⟨m', hr, hcl, h2⟩ := setCharset_ok h s
    refine key (my := { m' with charset := s }) hcl rfl rfl rfl ?_
    rcases hl with ⟨a, hx⟩ | ⟨w, hx⟩ | hx <;> unfold Call.run at hx <;> simp only [prog_bind, bind_apply, hr] at hx <;> cases hx
    rfl
  | setUseFuzzy b =>
    obtain ⟨m', hr, hcl, h2⟩ := setUseFuzzy_ok h b
    refine key (my := { m' with useFuzzy := b }) hcl rfl rfl rfl ?_
    rcases hl with ⟨a, hx⟩ | ⟨w, hx⟩ | hx <;> unfold Call.run at hx <;> simp only [prog_bind, bind_apply, hr] at hx <;> cases hx
    rfl
  | addDirectory p b =>
    obtain ⟨m', hr, hcl, h2⟩ := addDirectory_ok h hc b
    refine key (my := { m' with searchPath := addPath p b m.searchPath }) hcl rfl rfl rfl ?_
    rcases hl with ⟨a, hx⟩ | ⟨w, hx⟩ | hx <;> unfold Call.run at hx <;> simp only [prog_bind, bind_apply, hr] at hx <;> cases hx
    rfl
  | removeDirectory p =>
    obtain ⟨m', hr, hcl, h2⟩ := removeDirectory_ok h hc
    refine key (my := { m' with searchPath := m.searchPath.erase p }) hcl rfl rfl rfl ?_
    rcases hl with ⟨a, hx⟩ | ⟨w, hx⟩ | hx <;> unfold Call.run at hx <;> simp only [prog_bind, bind_apply, hr] at hx <;> cases hx
    rfl
  | _ => exact hc.elim

/-- C46.  After a call that changes the configuration, whatever was loaded before, `get_dictionary(L)` does what it does on a
brand-new manager with the new configuration: the same contents (of the dictionary and of its fallback), the same exception, the same messages. -/
theorem C46_loads_afresh (cs : Str) (m m1 : Manager) (hr : Reach cs m) (c : Call) (hc : c.Changes m) (env0 : Env) (hl : c.Leads env0 m m1)
    (env : Env) (n : Nat) (l : Language) :
    Alike l m1 (getDictionaryFor env n l m1)
      (newManager (c.configure (config m))) (getDictionaryFor env n l (newManager (c.configure (config m)))) := by
  obtain ⟨h1, _, _, h2, _⟩ := changes_cleared (reach_inv hr) hc hl
  rw [← h2]
  cases hd : l.isDefined with
  | true =>
    refine shows_alike (c := cold env n l m1.searchPath m1.charset) ?_ ?_
    · exact cold_shows env n l hd m1 (by rw [h1]; rfl) (by rw [h1]; rfl)
    · exact cold_shows env n l hd (newManager (config m1)) rfl rfl
  | false =>
    cases n with
    | zero => trivial
    | succ n =>
      rw [getDictionaryFor, if_pos (by simp [hd])]
      rfl

/-- C46.  And nothing that was loaded before is in use any more: all dictionaries but the empty one are gone, and `get_dictionary()` asks for
the current language again. -/
theorem C46_nothing_kept (cs : Str) (m m1 : Manager) (hr : Reach cs m) (c : Call) (hc : c.Changes m) (env0 : Env) (hl : c.Leads env0 m m1) :
    (∀ p, p ≠ emptyDict → m1.heap.get? p = none) ∧
    ∀ env, m1.currentLanguage.isDefined = true → getDictionary env m1 = match getDictionaryFor env env.fuel m1.currentLanguage m1 with
      | .ok p m2 => .ok p { m2 with currentDict := some p }
      | r => r := by
  obtain ⟨_, h2, _, _, h5⟩ := changes_cleared (reach_inv hr) hc hl
  refine ⟨?_, ?_⟩
  · intro p hp
    cases hg : m1.heap.get? p with
    | none => rfl
    | some d => exact absurd (h5 p (by rw [hg]; simp)) hp
  · intro env hd
    unfold getDictionary
    simp only [prog_bind, bind_apply, Prog.get, h2]
    rw [if_pos hd, bind_apply]
    cases getDictionaryFor env env.fuel m1.currentLanguage m1 <;> rfl

-- the directory added last changes what is found
example : scriptAsk [.addDirectory b!"lo" false, .getDictionaryFor deLang, .addDirectory b!"hi" true, .getDictionaryFor deLang] 2 (.translate b!"dog") = some b!"Hund" ∧
    scriptAsk [.addDirectory b!"lo" false, .getDictionaryFor deLang] 1 (.translate b!"dog") = some b!"Koeter" := by
  decide +kernel

/-! ### C49: the best file of each directory -/

/-- C49.  When `get_dictionary(L)` creates a dictionary, its contents are what loading exactly the best file of each directory of the
search path gives (`PathLoads`). -/
theorem C49_best_files (cs : Str) (m m' : Manager) (hr : Reach cs m) (env : Env) (n : Nat) (l : Language) (p : DictId)
    (hg : getDictionaryFor env n l m = .ok p m') (hp : m.heap.get? p = none) :
    ∃ d, m'.heap.get? p = some d ∧ PathLoads env l m.searchPath (Dictionary.init m.charset) (unlinked d) := by
  obtain ⟨d, h1, _, h2⟩ := new_ok (reach_inv hr) hg hp
  exact ⟨d, h1, h2⟩

/-- C49.  The best file is unique, and there is one unless no file serves the language. -/
theorem C49_best_unique (ct : CType) (l : Language) (files : List Str) :
    (∀ f g, BestFile ct l files f → BestFile ct l files g → f = g) ∧
    ((∃ f, BestFile ct l files f) ↔ ¬ NoFile ct l files) := by
  refine ⟨?_, ?_, ?_⟩
  · rintro f g ⟨b1, a1, e1, p1, x1, y1⟩ ⟨b2, a2, e2, p2, x2, y2⟩
    rw [e1] at e2
    have hf : f ∈ b2 ∨ f = g ∨ f ∈ a2 := by
      have : f ∈ b2 ++ g :: a2 := by rw [← e2]; simp
      simpa using this
    have hg : g ∈ b1 ∨ g = f ∨ g ∈ a1 := by
      have : g ∈ b1 ++ f :: a1 := by rw [e2]; simp
      simpa using this
    have hle1 : fileScore ct l f ≤ fileScore ct l g := by
      rcases hf with h | h | h
      · exact Nat.le_of_lt (x2 f h)
      · rw [h]; exact Nat.le_refl _
      · exact y2 f h
    have hle2 : fileScore ct l g ≤ fileScore ct l f := by
      rcases hg with h | h | h
      · exact Nat.le_of_lt (x1 g h)
      · rw [h]; exact Nat.le_refl _
      · exact y1 g h
    have hfb : f ∉ b2 := fun h => by have := x2 f h; omega
    have hgb : g ∉ b1 := fun h => by have := x1 g h; omega
    rcases List.append_eq_append_iff.1 e2 with ⟨t, h1, h2⟩ | ⟨t, h1, h2⟩
    · cases t with
      | nil => simp at h2; exact h2.1
      | cons a t =>
        simp only [List.cons_append, List.cons.injEq] at h2
        exact absurd (by rw [h1, ← h2.1]; simp) hfb
    · cases t with
      | nil => simp at h2; exact h2.1.symm
      | cons a t =>
        simp only [List.cons_append, List.cons.injEq] at h2
        exact absurd (by rw [h1, ← h2.1]; simp) hgb
  · rintro ⟨f, b, a, e, h, _⟩ hn
    have := hn f (by rw [e]; simp)
    omega
  · intro hn
    rcases scan_best ct l files with ⟨h, _⟩ | ⟨f, h, _⟩
    · exact absurd h hn
    · exact ⟨f, h⟩

-- de_AT is served by de_at.po, de by de.po, and nothing serves fr
example : BestFile .c atLang [b!"README", b!"xx.po", b!"de_at.po", b!"de.po"] b!"de_at.po" ∧
    BestFile .c deLang [b!"README", b!"xx.po", b!"de_at.po", b!"de.po"] b!"de.po" ∧
    NoFile .c (Language.fromEnv b!"fr") [b!"README", b!"xx.po", b!"de_at.po", b!"de.po"] := by
  refine ⟨⟨[b!"README", b!"xx.po"], [b!"de.po"], ?_⟩, ⟨[b!"README", b!"xx.po", b!"de_at.po"], [], ?_⟩, ?_⟩
  · decide +kernel
  · decide +kernel
  · unfold NoFile; decide +kernel

/-! ### C50: directory priority -/

/-- C50.  If the dictionary of the language in directory `dir` alone has the translation `s` for a message (without or with context), and the
directories before it in the search path have none, then the dictionary that the manager creates translates the message to `s`. -/
theorem C50_priority (cs : Str) (m m' : Manager) (hr : Reach cs m) (env : Env) (n : Nat) (l : Language) (p : DictId)
    (hg : getDictionaryFor env n l m = .ok p m') (hp : m.heap.get? p = none)
    (before after : List Str) (dir : Str) (hpath : m.searchPath = before ++ dir :: after) (ctxt : Option Str) (msgid s : Str)
    (hb : ∀ b ∈ before, ∃ e, AloneGives env l m.charset b e ∧ stored e ctxt msgid = none)
    (e : Dictionary) (he : AloneGives env l m.charset dir e) (hs : (stored e ctxt msgid).bind List.head? = some s) (k : Nat) :
    ask (k + 1) p (lookupOf ctxt msgid) m' = .ok s m' := by
  obtain ⟨d, h1, h2, _⟩ := new_ok (reach_inv hr) hg hp
  have hd : (stored d ctxt msgid).bind List.head? = some s := by
    rw [stored_lookup, ← lookup_unlinked, h2, hpath, pathEff_append, pathEff_none]
    · show (((dirEff env l m.charset dir).applyTo (pathEff env l m.charset after _)).lookup (ctxt, msgid)).bind List.head? = _
      have ha := alone_eff he
      rw [stored_lookup, ← lookup_unlinked, ha] at hs
      rw [eff_some (cs := m.charset) ?_]
      · exact hs
      · intro hn; rw [hn] at hs; cases hs
    · intro b hbm
      obtain ⟨e', hb1, hb2⟩ := hb b hbm
      rw [← alone_eff hb1, lookup_unlinked, ← stored_lookup]
      exact hb2
  unfold ask
  rw [h1]
  cases ctxt with
  | none =>
    have hd : (d.entries.get? msgid).bind List.head? = some s := hd
    cases hv : d.entries.get? msgid with
    | none => rw [hv] at hd; cases hd
    | some v =>
      rw [hv] at hd
      cases v with
      | nil => cases hd
      | cons a t =>
        cases hd
        simp only [lookupOf, Query.on, Dictionary.translate, Dict.translateIn_hit _ _ _ _ _ _ _ hv]
  | some c =>
    have hd : ((d.ctxtEntries.get? c).bind (fun e => e.get? msgid)).bind List.head? = some s := hd
    cases hc : d.ctxtEntries.get? c with
    | none => rw [hc] at hd; cases hd
    | some en =>
      rw [hc] at hd
      simp only [Option.bind_some] at hd
      cases hv : en.get? msgid with
      | none => rw [hv] at hd; cases hd
      | some v =>
        rw [hv] at hd
        cases v with
        | nil => cases hd
        | cons a t =>
          cases hd
          simp only [lookupOf, Query.on, Dictionary.translateCtxt, hc, Dict.translateIn_hit _ _ _ _ _ _ _ hv]

/-- C50.  A message that directory `dir` alone does not have is what the other directories make of it: leaving `dir` out does not change its
strings. -/
theorem C50_others (cs cs' : Str) (m m' k k' : Manager) (hr : Reach cs m) (hk : Reach cs' k) (env : Env) (n n' : Nat) (l : Language) (p q : DictId)
    (hg : getDictionaryFor env n l m = .ok p m') (hp : m.heap.get? p = none)
    (hg' : getDictionaryFor env n' l k = .ok q k') (hq : k.heap.get? q = none) (hcs : k.charset = m.charset)
    (before after : List Str) (dir : Str) (hpath : m.searchPath = before ++ dir :: after) (hpath' : k.searchPath = before ++ after)
    (ctxt : Option Str) (msgid : Str) (e : Dictionary) (he : AloneGives env l m.charset dir e) (hs : stored e ctxt msgid = none) :
    ∃ d d', m'.heap.get? p = some d ∧ k'.heap.get? q = some d' ∧ stored d ctxt msgid = stored d' ctxt msgid := by
  obtain ⟨d, h1, h2, _⟩ := new_ok (reach_inv hr) hg hp
  obtain ⟨d', h1', h2', _⟩ := new_ok (reach_inv hk) hg' hq
  refine ⟨d, d', h1, h1', ?_⟩
  rw [stored_lookup, stored_lookup, ← lookup_unlinked d, ← lookup_unlinked d', h2, h2', hpath, hpath', hcs, pathEff_append, pathEff_append]
  have hcong : ∀ (path : List Str) (x y : Dictionary), x.lookup (ctxt, msgid) = y.lookup (ctxt, msgid) →
      (pathEff env l m.charset path x).lookup (ctxt, msgid) = (pathEff env l m.charset path y).lookup (ctxt, msgid) := by
    intro path x y hxy
    induction path with
    | nil => exact hxy
    | cons b t ih =>
      show ((dirEff env l m.charset b).applyTo _).lookup _ = ((dirEff env l m.charset b).applyTo _).lookup _
      rw [lookup_applyTo, lookup_applyTo]
      exact lookup_addAll_congr _ _ _ _ ih
  refine hcong before _ _ ?_
  show ((dirEff env l m.charset dir).applyTo (pathEff env l m.charset after _)).lookup _ = _
  rw [eff_none (cs := m.charset)]
  rw [← alone_eff he, lookup_unlinked, ← stored_lookup]
  exact hs

-- "dog" is translated by hi and lo, "cat" by lo only
example : scriptAsk [.addDirectory b!"hi" false, .addDirectory b!"lo" false, .getDictionaryFor deLang] 1 (.translate b!"dog") = some b!"Hund" ∧
    scriptAsk [.addDirectory b!"lo" false, .addDirectory b!"hi" false, .getDictionaryFor deLang] 1 (.translate b!"dog") = some b!"Koeter" ∧
    scriptAsk [.addDirectory b!"hi" false, .addDirectory b!"lo" false, .getDictionaryFor deLang] 1 (.translate b!"cat") = some b!"Katze" := by
  decide +kernel

/-! ### C51: plural rules and directory priority -/

/-- C51 in full: the rule is that of the highest-priority directory that declares one. -/
def C51_Statement : Prop :=
  ∀ (cs : Str) (m m' : Manager) (env : Env) (n : Nat) (l : Language) (p : DictId) (d : Dictionary), Reach cs m →
    getDictionaryFor env n l m = .ok p m' → m.heap.get? p = none → m'.heap.get? p = some d →
    ∀ (before after : List Str) (dir : Str), m.searchPath = before ++ dir :: after →
      (∀ b ∈ before, ∃ e, AloneGives env l m.charset b e ∧ e.pluralForms = .undefined) →
      ∀ e, AloneGives env l m.charset dir e → e.pluralForms.isDefined = true → d.pluralForms = e.pluralForms

/-- C51, what holds instead: the rule is that of the *lowest*-priority directory that declares one; if no directory declares one there is none. -/
theorem C51_lowest_priority_wins_partial (cs : Str) (m m' : Manager) (hr : Reach cs m) (env : Env) (n : Nat) (l : Language) (p : DictId)
    (hg : getDictionaryFor env n l m = .ok p m') (hp : m.heap.get? p = none) :
    ∃ d, m'.heap.get? p = some d ∧
      (∀ (before after : List Str) (dir : Str) (e : Dictionary), m.searchPath = before ++ dir :: after →
        (∀ a ∈ after, ∃ e, AloneGives env l m.charset a e ∧ e.pluralForms = .undefined) →
        AloneGives env l m.charset dir e → e.pluralForms.isDefined = true → d.pluralForms = e.pluralForms) ∧
      ((∀ a ∈ m.searchPath, ∃ e, AloneGives env l m.charset a e ∧ e.pluralForms = .undefined) → d.pluralForms = .undefined) := by
  obtain ⟨d, h1, h2, _⟩ := new_ok (reach_inv hr) hg hp
  have hu : ∀ x : Dictionary, (unlinked x).pluralForms = x.pluralForms := fun _ => rfl
  have hal : ∀ {path : List Str}, (∀ a ∈ path, ∃ e, AloneGives env l m.charset a e ∧ e.pluralForms = .undefined) →
      ∀ b ∈ path, ((dirEff env l m.charset b).applyTo (Dictionary.init m.charset)).pluralForms = .undefined := by
    intro path ha b hb
    obtain ⟨e', hb1, hb2⟩ := ha b hb
    rw [← alone_eff hb1]
    exact hb2
  refine ⟨d, h1, ?_, ?_⟩
  · intro before after dir e hpath ha he hd
    have hr0 := pathEff_rule_none after (hal ha) (Dictionary.init m.charset) rfl
    have hae := alone_eff he
    have hre : e.pluralForms = (dirEff env l m.charset dir).rule.getD .undefined := by
      rw [← init_rule _ m.charset, ← hae]; rfl
    have hmid : (pathEff env l m.charset (dir :: after) (Dictionary.init m.charset)).pluralForms = e.pluralForms := by
      show ((dirEff env l m.charset dir).applyTo (pathEff env l m.charset after _)).pluralForms = _
      unfold Effect.applyTo
      dsimp only
      rw [hr0, if_neg (by simp [PluralForms.isDefined, PluralForms.undefined]), hre]
    rw [← hu d, h2, hpath, pathEff_append, pathEff_rule_keeps _ _ (by rw [hmid]; exact hd), hmid]
  · intro ha
    rw [← hu d, h2]
    exact pathEff_rule_none _ (hal ha) _ rfl

/-- A normal return that satisfies a test. -/
def Res.test {α : Type} (P : α → Manager → Bool) : Res Manager α → Bool
  | .ok p m' => P p m'
  | _ => false

theorem ok_of_test {α : Type} {r : Res Manager α} {P : α → Manager → Bool} (h : r.test P = true) : ∃ p m', r = .ok p m' ∧ P p m' = true := by
  cases r with
  | ok p m' => exact ⟨p, m', rfl, h⟩
  | _ => cases h

/-- C51 is false of this code: `hi` comes first and declares `n != 1`, but the rule is `n > 1` of `lo`. -/
theorem C51_false : ¬ C51_Statement := by
  intro h
  obtain ⟨m0, h0, hx⟩ : ∃ m0, script (.init b!"UTF-8") [.addDirectory b!"hi" false, .addDirectory b!"lo" false] = some m0 ∧
      (m0.searchPath = [b!"hi", b!"lo"] ∧ m0.charset = b!"UTF-8" ∧ m0.heap.get? 1 = none ∧
      (getDictionaryFor demoEnv 300 deLang m0).test
        (fun p m' => p == 1 && ((m'.heap.get? 1).map (fun d => d.pluralForms.getPlural 0) == some 0)) = true) := of_any (by decide +kernel)
  obtain ⟨hpath, hcs, hnew, hx⟩ := hx
  obtain ⟨p, m', hg, hx⟩ := ok_of_test hx
  obtain ⟨q, k, hg', hy⟩ : ∃ p m', getDictionaryFor demoEnv demoEnv.fuel deLang (newManager ⟨[b!"hi"], b!"UTF-8", true⟩) = .ok p m' ∧
      ((m'.heap.get? p).map (fun d => d.pluralForms.getPlural 0 == 1 && d.pluralForms.isDefined) == some true) = true :=
    ok_of_test (by decide +kernel)
  simp only [Bool.and_eq_true, beq_iff_eq] at hx hy
  obtain ⟨hp1, hx⟩ := hx
  subst hp1
  cases hd : m'.heap.get? 1 with
  | none => rw [hd] at hx; cases hx
  | some d =>
    cases he : k.heap.get? q with
    | none => rw [he] at hy; cases hy
    | some e =>
      rw [hd] at hx
      rw [he] at hy
      simp only [Option.map_some, Option.some.injEq, Bool.and_eq_true, beq_iff_eq] at hx hy
      have := h _ m0 m' demoEnv 300 deLang 1 d (script_reach h0) hg hnew hd [] [b!"lo"] b!"hi" hpath (by simp) e
        ⟨q, k, by rw [hcs]; exact hg', he⟩ hy.2
      rw [this] at hx
      omega

/-! ### C52: country dictionaries fall back to the language -/

/-- C52.  The dictionary that `get_dictionary` creates for a language with a country has as its fallback the very object that `get_dictionary`
returns (from then on, in any world) for the bare language; a message it does not have is looked up there. -/
theorem C52_falls_back (cs : Str) (m m' : Manager) (hr : Reach cs m) (env : Env) (n : Nat) (l : Language) (p : DictId)
    (hg : getDictionaryFor env n l m = .ok p m') (hp : m.heap.get? p = none) (hc : l.getCountry ≠ []) :
    ∃ d q e, m'.heap.get? p = some d ∧ m'.heap.get? q = some e ∧
      (∀ env' n', getDictionaryFor env' (n' + 1) (Language.fromSpec l.getLanguage [] []) m' = .ok q m') ∧
      ∀ msgid, (stored d none msgid).bind List.head? = none → ∀ k,
        ask (k + 2) p (.translate msgid) m' = .ok (((stored e none msgid).bind List.head?).getD msgid)
          { m' with log := m'.log ++ [.couldntTranslate msgid] ++
            (if (stored e none msgid).bind List.head? = none then [.couldntTranslate msgid] else []) } := by
  have hI := reach_inv hr
  obtain ⟨hl, _, x, d, _, hd, _, hf⟩ := miss_ok hI hg (new_miss hI hg hp)
  obtain ⟨hf1, q, hq, hb⟩ := hf hc
  have hP := getFor_post env n l m hl hI
  rw [hg] at hP
  have hI' := hP.1
  obtain ⟨hbd, _, e, he, _, hfe⟩ := hI'.cached _ _ hb
  have hfe' : e.hasFallback = false := by
    rcases hfe with h | ⟨_, h, _⟩
    · exact h.1
    · exact absurd (base_defined hl).2 h
  refine ⟨d, q, e, hd, he, fun env' n' => getFor_hit env' n' _ m' hbd hb, ?_⟩
  intro msgid hs k
  have hs : (d.entries.get? msgid).bind List.head? = none := hs
  unfold ask
  rw [hd]
  have e1 : (Query.translate msgid).on m'.heap.get? (k + 2) d m'.log
      = Dictionary.translateIn m'.heap.get? (k + 1) e e.entries msgid (m'.log ++ [.couldntTranslate msgid]) :=
    Dict.translateIn_fallback _ (k + 1) d e q d.entries msgid hs hf1 hq he m'.log
  dsimp only
  rw [e1]
  cases hv : (e.entries.get? msgid).bind List.head? with
  | none =>
    rw [Dict.translateIn_miss _ _ _ _ _ hv hfe']
    have : (stored e none msgid).bind List.head? = none := hv
    rw [this]
    rfl
  | some s =>
    have : (stored e none msgid).bind List.head? = some s := hv
    rw [this]
    cases hw : e.entries.get? msgid with
    | none => rw [hw] at hv; cases hv
    | some v =>
      rw [hw] at hv
      cases v with
      | nil => cases hv
      | cons a t =>
        cases hv
        rw [Dict.translateIn_hit _ _ _ _ _ _ _ hw]
        simp

/-- C52.  In every history the fallback chains have length at most one: no fallback has a fallback. -/
theorem C52_chain_at_most_one (cs : Str) (m : Manager) (hr : Reach cs m) (p q : DictId) (d e : Dictionary) (hd : m.heap.get? p = some d)
    (hq : d.fallback = some q) (he : m.heap.get? q = some e) : e.hasFallback = false ∧ e.fallback = none := by
  have h := reach_inv hr
  have hne : ∀ {x : Dictionary} {r : DictId}, m.heap.get? r = some x → x.hasFallback = false → x.fallback = none := by
    intro x r hx hf
    rcases (h.live r x hx).2 with e' | ⟨L, hL⟩
    · subst e'
      obtain ⟨d0, h1, _, h2⟩ := h.empty
      rw [hx] at h1; cases h1; exact h2
    · obtain ⟨_, _, d1, h1, _, h2⟩ := h.cached L r hL
      rw [hx] at h1; cases h1
      rcases h2 with h2 | ⟨h2, _⟩
      · exact h2.2
      · rw [hf] at h2; cases h2
  cases hf : d.hasFallback with
  | false => rw [hne hd hf] at hq; cases hq
  | true =>
    obtain ⟨L, q', d', _, _, h1, _, h2, h3⟩ := h.fallback hd hf
    rw [hq] at h1
    cases h1
    rw [he] at h2
    cases h2
    exact ⟨h3, hne he h3⟩

/-- C52.  Lookups through any live dictionary of a manager end, with recursion depth at most two. -/
theorem C52_lookups_end (cs : Str) (m : Manager) (hr : Reach cs m) (p : DictId) (hp : m.heap.get? p ≠ none) (q : Query) (n : Nat) (hn : 2 ≤ n) :
    ∃ s log, ask n p q m = .ok s { m with log := log } := by
  cases hd : m.heap.get? p with
  | none => exact absurd hd hp
  | some d =>
    rcases ask_ok (reach_inv hr) n hd q with ⟨r, l, h, _⟩ | ⟨_, h⟩
    · exact ⟨r, l, h⟩
    · omega

end Tgt
