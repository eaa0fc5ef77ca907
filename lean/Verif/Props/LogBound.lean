import Verif.Spec.LogBound
import Verif.Props.Size
import Verif.Props.Messages
import Verif.Proofs.Memory
/-
How many messages a call may log: C103.
-/
namespace Tgt
open Spec Manager Mgr POParser

/-- At most `k` messages more than `l`. -/
def Upto (k : Nat) (l l' : List Diag) : Prop := ∃ new, l' = l ++ new ∧ new.length ≤ k

theorem Upto.refl (k : Nat) (l : List Diag) : Upto k l l := ⟨[], by simp, Nat.zero_le _⟩

theorem Upto.trans {a b : Nat} {l1 l2 l3 : List Diag} (h1 : Upto a l1 l2) (h2 : Upto b l2 l3) : Upto (a + b) l1 l3 := by
  obtain ⟨n1, e1, k1⟩ := h1
  obtain ⟨n2, e2, k2⟩ := h2
  exact ⟨n1 ++ n2, by rw [e2, e1, List.append_assoc], by rw [List.length_append]; omega⟩

theorem Upto.mono {a b : Nat} {l1 l2 : List Diag} (h : Upto a l1 l2) (hab : a ≤ b) : Upto b l1 l2 := by
  obtain ⟨n1, e1, k1⟩ := h
  exact ⟨n1, e1, by omega⟩

/-- However it ends, at most `k` messages. -/
def Few {σ α : Type} (log : σ → List Diag) (k : Nat) (l : List Diag) : Res σ α → Prop
  | .ok _ y | .exn _ y | .poError y => Upto k l (log y)
  | _ => True

theorem few_parse1 (env : Env) (pofile : Str) (s : Stream) (n : Nat) (hs : s = .failed ∨ ∃ t, s = .ofBytes t ∧ Terminated t ∧ t.length ≤ n) (x : DL) :
    Few Prod.snd (n + 2) x.2 (parse1 env pofile s x) := by
  have key : ∀ d, (observe (run (cfgOf env pofile) s x.1)).dict? = some d → (observe (run (cfgOf env pofile) s x.1)).log.length ≤ n := by
    intro d hd
    rcases hs with rfl | ⟨t, rfl, ht, hl⟩
    · rcases run_obs_mono (cfgOf env pofile) .failed x.1 ((cfgOf env pofile).fuel + 1) (by omega) (by show 0 < _; omega) with h' | h'
      · rw [h'] at hd; cases hd
      · rw [h']; exact Nat.zero_le _
    · exact Nat.le_trans (C97_messages _ t ht _ _ hd) hl
  unfold parse1
  cases hr : run (cfgOf env pofile) s x.1 with
  | ok a st => rw [hr] at key; exact ⟨st.log, rfl, Nat.le_trans (key _ rfl) (by omega)⟩
  | exn w st =>
    rw [hr] at key
    refine ⟨st.log ++ [.parseFailure pofile, .parseFailureWhat w], by simp, ?_⟩
    have := key _ rfl
    rw [List.length_append]
    exact Nat.add_le_add_right this 2
  | poError st => rw [hr] at key; exact ⟨st.log, rfl, Nat.le_trans (key _ rfl) (by omega)⟩
  | fault f => trivial
  | diverge => trivial

theorem few_file1 (env : Env) (dir f : Str) (n : Nat)
    (hs : ∀ st, env.fs.openFile (dir ++ b!"/" ++ f) = .stream st → st = .failed ∨ ∃ t, st = .ofBytes t ∧ Terminated t ∧ t.length ≤ n) (x : DL) :
    Few Prod.snd (n + 2) x.2 (file1 env dir f x) := by
  unfold file1
  cases ho : env.fs.openFile (dir ++ b!"/" ++ f) with
  | throws w => exact ⟨_, rfl, by show 2 ≤ n + 2; omega⟩
  | null => exact ⟨_, rfl, by show 1 ≤ n + 2; omega⟩
  | stream s => exact few_parse1 env _ s n (hs s ho) x

theorem scanLog_le (ct : CType) (files : List Str) : (scanLog ct files).length ≤ files.length := by
  induction files with
  | nil => exact Nat.le_refl _
  | cons f t ih =>
    unfold scanLog
    split
    · simp only [List.length_cons]; omega
    · simp only [List.length_cons]; omega

theorem few_files1 (env : Env) (l : Language) (dir : Str) (files : List Str) (n : Nat)
    (hs : ∀ f st, env.fs.openFile (dir ++ b!"/" ++ f) = .stream st → st = .failed ∨ ∃ t, st = .ofBytes t ∧ Terminated t ∧ t.length ≤ n) (x : DL) :
    Few Prod.snd (files.length + n + 2) x.2 (files1 env l dir files x) := by
  have h1 : Upto files.length x.2 (x.2 ++ scanLog env.ct files) := ⟨_, rfl, scanLog_le env.ct files⟩
  unfold files1
  split
  · exact h1.mono (by omega)
  · have h2 := few_file1 env dir (files.foldl (scanStep env.ct l) ([], 0)).1 n (hs _) (x.1, x.2 ++ scanLog env.ct files)
    cases hr : file1 env dir (files.foldl (scanStep env.ct l) ([], 0)).1 (x.1, x.2 ++ scanLog env.ct files) <;> rw [hr] at h2 <;>
      first | trivial | exact (h1.trans h2).mono (by omega)

theorem few_dirs1 (env : Env) (l : Language) (names size : Str → Nat) : ∀ (dirs : List Str) (_ : Holds env dirs names size) (x : DL),
    Few Prod.snd (searchMost dirs names size) x.2 (dirs1 env l dirs x) := by
  intro dirs
  induction dirs with
  | nil => intro _ x; exact .refl _ _
  | cons dir t ih =>
    intro hh x
    have hsum : searchMost (dir :: t) names size = names dir + size dir + 2 + searchMost t names size := by simp [searchMost]
    obtain ⟨h1, h2⟩ := hh dir List.mem_cons_self
    rw [hsum]
    unfold dirs1
    cases ho : env.fs.openDirectory dir with
    | error w => exact .refl _ _
    | ok files =>
      have h3 := few_files1 env l dir files (size dir) h2 x
      have h4 := h1 files ho
      dsimp only
      rw [bind_apply]
      cases hr : files1 env l dir files x with
      | ok a y =>
        rw [hr] at h3
        have h5 := ih (fun d hd => hh d (List.mem_cons_of_mem _ hd)) y
        cases hr2 : dirs1 env l t y <;> dsimp only <;> rw [hr2] at h5 ⊢ <;> first | trivial | exact (Upto.trans h3 h5).mono (by omega)
      | exn w y => rw [hr] at h3; exact Upto.mono h3 (by omega)
      | poError y => rw [hr] at h3; exact Upto.mono h3 (by omega)
      | fault f => trivial
      | diverge => trivial

theorem searchMost_reverse (path : List Str) (names size : Str → Nat) : searchMost path.reverse names size = searchMost path names size := by
  unfold searchMost
  rw [List.map_reverse, List.sum_reverse]

theorem few_path (env : Env) (l : Language) (names size : Str → Nat) (path : List Str) (hh : Holds env path names size) (x : DL) :
    Few Prod.snd (searchMost path names size) x.2 (dirs1 env l path.reverse x) := by
  have := few_dirs1 env l names size path.reverse (fun d hd => hh d (List.mem_reverse.1 hd)) x
  rwa [searchMost_reverse] at this

theorem few_base (env : Env) (names size : Str → Nat) (f : Nat) (l : Language) (hl : l.isDefined = true) (hc : l.getCountry = []) (m : Manager)
    (hh : Holds env m.searchPath names size) :
    Few Manager.log (if (m.dictionaries.get? l).isSome then 0 else searchMost m.searchPath names size) m.log (getDictionaryFor env f l m) := by
  cases f with
  | zero => trivial
  | succ f =>
    cases hn : m.dictionaries.get? l with
    | some p => rw [getFor_hit env f l m hl hn]; exact .refl _ _
    | none =>
      rw [getFor_miss env f l m hl hn]
      have h1 := few_path env l names size m.searchPath hh (Dictionary.init m.charset, m.log)
      cases hr : dirs1 env l m.searchPath.reverse (Dictionary.init m.charset, m.log) <;> rw [hr] at h1 <;> dsimp only [Res.mapS] <;>
        first | trivial | (rw [if_pos hc]; exact h1) | exact h1

theorem few_getFor (env : Env) (names size : Str → Nat) (f : Nat) (l : Language) (hl : l.isDefined = true) (m : Manager)
    (hh : Holds env m.searchPath names size) :
    Few Manager.log (searches m l * searchMost m.searchPath names size) m.log (getDictionaryFor env f l m) := by
  cases f with
  | zero => trivial
  | succ f =>
    cases hn : m.dictionaries.get? l with
    | some p => rw [getFor_hit env f l m hl hn]; exact .refl _ _
    | none =>
      rw [getFor_miss env f l m hl hn]
      have h1 := few_path env l names size m.searchPath hh (Dictionary.init m.charset, m.log)
      have hk : searchMost m.searchPath names size ≤ searches m l * searchMost m.searchPath names size := by
        refine Nat.le_mul_of_pos_left _ ?_
        unfold searches
        rw [if_neg (by simp [hn])]
        split <;> omega
      cases hr : dirs1 env l m.searchPath.reverse (Dictionary.init m.charset, m.log) with
      | ok a x =>
        rw [hr] at h1
        dsimp only [Res.mapS]
        by_cases hc : l.getCountry = []
        · rw [if_pos hc]; exact Upto.mono h1 hk
        · rw [if_neg hc]
          have hb := base_defined hl
          have h2 := few_base env names size f (baseOf l) hb.1 hb.2 (put (fresh l m) m.nextId x) hh
          have hg : (put (fresh l m) m.nextId x).dictionaries.get? (baseOf l) = m.dictionaries.get? (baseOf l) := by
            show (m.dictionaries.set l m.nextId).get? (baseOf l) = _
            rw [AMap.get?_set, if_neg (base_ne hl hc)]
          rw [hg] at h2
          have hs : searchMost m.searchPath names size + (if (m.dictionaries.get? (baseOf l)).isSome then 0 else searchMost m.searchPath names size)
              ≤ searches m l * searchMost m.searchPath names size := by
            unfold searches baseOf
            rw [if_neg (show ¬ (m.dictionaries.get? l).isSome = true by simp [hn])]
            by_cases hx : (m.dictionaries.get? (Language.fromSpec l.getLanguage [] [])).isSome
            · rw [if_pos hx, if_pos (.inr hx)]; omega
            · rw [if_neg hx, if_neg (fun h => h.elim hc hx)]; omega
          cases hr2 : getDictionaryFor env f (baseOf l) (put (fresh l m) m.nextId x) with
          | ok fb m2 =>
            rw [hr2] at h2
            dsimp only
            rw [prog_bind, bind_apply]
            unfold Manager.addFallback
            cases hd : m2.heap.get? m.nextId with
            | none => trivial
            | some d => exact (Upto.trans h1 h2).mono hs
          | exn w m2 => rw [hr2] at h2; exact (Upto.trans h1 h2).mono hs
          | poError m2 => rw [hr2] at h2; exact (Upto.trans h1 h2).mono hs
          | fault e => trivial
          | diverge => trivial
      | exn w x => rw [hr] at h1; exact Upto.mono h1 hk
      | poError x => rw [hr] at h1; exact Upto.mono h1 hk
      | fault e => trivial
      | diverge => trivial

theorem keys_length {κ ν : Type} (m : AMap κ ν) : m.keys.length = m.length := by simp [AMap.keys]

theorem plural_few (d : Dictionary) (e : Entries) (i p : Str) (n : Int) : (d.translatePluralIn e i p n).2.length ≤ e.length + 2 := by
  unfold Dictionary.translatePluralIn
  split
  · dsimp only
    split
    · exact Nat.le_add_left _ _
    · split <;> exact Nat.zero_le _
  · simp only [List.length_append, List.length_map, keys_length, List.length_cons, List.length_nil]
    omega

theorem translateIn_alone (heap : DictId → Option Dictionary) (d : Dictionary) (hd : d.hasFallback = false) (e : Entries) (i : Str) (f : Nat) (log : List Diag) :
    Few id 1 log (Dictionary.translateIn heap f d e i log) := by
  cases f with
  | zero => trivial
  | succ f =>
    unfold Dictionary.translateIn
    have miss : Few id 1 log (if d.hasFallback then match d.fallback with
        | none => (.fault .nullDeref : Res (List Diag) Str)
        | some p => match heap p with
          | none => .fault .useAfterFree
          | some d' => Dictionary.translateIn heap f d' d'.entries i (log ++ [.couldntTranslate i])
        else .ok i (log ++ [.couldntTranslate i])) := by
      rw [if_neg (by simp [hd])]
      exact ⟨_, rfl, Nat.le_refl _⟩
    rcases e.get? i with _ | _ | ⟨s, t⟩
    · exact miss
    · exact miss
    · exact Upto.refl _ _

theorem translateIn_few {m : Manager} (h : Inv m) {p : DictId} {d : Dictionary} (hp : m.heap.get? p = some d) (e : Entries) (i : Str) (f : Nat) (log : List Diag) :
    Few id (if d.hasFallback then 2 else 1) log (Dictionary.translateIn m.heap.get? f d e i log) := by
  cases hf : d.hasFallback with
  | false => exact translateIn_alone _ d hf e i f log
  | true =>
    have hfb : ∃ q d', d.fallback = some q ∧ m.heap.get? q = some d' ∧ d'.hasFallback = false := by
      rcases (h.live p d hp).2 with rfl | ⟨L, hL⟩
      · obtain ⟨d0, h1, h2, _⟩ := h.empty
        rw [hp] at h1; cases h1
        rw [hf] at h2; cases h2
      · obtain ⟨hdef, _, d0, h1, _, h2⟩ := h.cached L p hL
        rw [hp] at h1; cases h1
        rcases h2 with ⟨h2, _⟩ | ⟨_, _, q, hq, hL2⟩
        · rw [hf] at h2; cases h2
        · obtain ⟨_, _, d', h3, _, h4⟩ := h.cached _ q hL2
          refine ⟨q, d', hq, h3, ?_⟩
          rcases h4 with ⟨h4, _⟩ | ⟨_, h4, _⟩
          · exact h4
          · exact absurd (base_defined hdef).2 h4
    obtain ⟨q, d', hq, hd', hn⟩ := hfb
    cases f with
    | zero => trivial
    | succ f =>
      unfold Dictionary.translateIn
      have miss : Few id 2 log (if d.hasFallback then match d.fallback with
          | none => (.fault .nullDeref : Res (List Diag) Str)
          | some p => match m.heap.get? p with
            | none => .fault .useAfterFree
            | some d' => Dictionary.translateIn m.heap.get? f d' d'.entries i (log ++ [.couldntTranslate i])
          else .ok i (log ++ [.couldntTranslate i])) := by
        rw [if_pos hf, hq]
        dsimp only
        rw [hd']
        dsimp only
        have h1 : Upto 1 log (log ++ [.couldntTranslate i]) := ⟨_, rfl, Nat.le_refl _⟩
        have h2 := translateIn_alone m.heap.get? d' hn d'.entries i f (log ++ [.couldntTranslate i])
        cases hr : Dictionary.translateIn m.heap.get? f d' d'.entries i (log ++ [.couldntTranslate i]) <;> rw [hr] at h2 <;>
          first | trivial | exact h1.trans h2
      rcases e.get? i with _ | _ | ⟨s, t⟩
      · exact miss
      · exact miss
      · exact Upto.refl _ _

theorem query_few {m : Manager} (h : Inv m) {p : DictId} {d : Dictionary} (hp : m.heap.get? p = some d) (q : Query) (f : Nat) (log : List Diag) :
    Few id (Spec.Query.most d q) log (q.on m.heap.get? f d log) := by
  cases q with
  | translate i => exact translateIn_few h hp d.entries i f log
  | ctxt c i =>
    show Few id _ log (Dictionary.translateCtxt m.heap.get? f d c i log)
    unfold Dictionary.translateCtxt
    cases d.ctxtEntries.get? c with
    | some e => exact translateIn_few h hp e i f log
    | none => exact ⟨_, rfl, by show 1 ≤ if d.hasFallback = true then 2 else 1; split <;> omega⟩
  | plural i p n => exact ⟨_, rfl, plural_few d d.entries i p n⟩
  | ctxtPlural c i p n =>
    refine ⟨_, rfl, ?_⟩
    show (Dictionary.translateCtxtPlural d c i p n).2.length ≤ ((d.ctxtEntries.get? c).getD []).length + 2
    unfold Dictionary.translateCtxtPlural
    cases d.ctxtEntries.get? c with
    | some e => exact plural_few d e i p n
    | none => exact Nat.le_add_left 1 1

theorem add_few (a : Add) (d : Dictionary) : (a.apply d).2.length ≤ 1 := by
  rw [Mem.apply_log]
  cases a with
  | singular c i s =>
    dsimp only [Dictionary.addSingularVec]
    split
    · exact Nat.zero_le _
    · split
      · exact Nat.le_refl _
      · exact Nat.zero_le _
  | plural c i p v =>
    dsimp only [Dictionary.addPluralVec]
    split
    · exact Nat.zero_le _
    · split
      · exact Nat.le_refl _
      · exact Nat.zero_le _

theorem leads_few {env : Env} {c : Call} {m m' : Manager} {k : Nat} (h : Few Manager.log k m.log (c.run env m)) (hl : c.Leads env m m') : Upto k m.log m'.log := by
  rcases hl with ⟨a, hr⟩ | ⟨w, hr⟩ | hr <;> rw [hr] at h <;> exact h

/-- C103.  No call logs more than it has reason to.  Setters, `get_languages` and `set_plural_forms` say nothing; an addition one message at
most; a lookup two (one without fallback), and a plural one a list of what there is; `get_dictionary` at most one message for each name and
each byte of a file in each directory of the search path, and two for each file, for each search that is needed. -/
theorem C103_log (cs : Str) (m m' : Manager) (hr : Reach cs m) (env : Env) (names size : Str → Nat) (hh : Holds env m.searchPath names size) (c : Call)
    (hl : c.Leads env m m') : ∃ new, m'.log = m.log ++ new ∧ new.length ≤ c.most m (searchMost m.searchPath names size) := by
  have h := reach_inv hr
  refine leads_few ?_ hl
  have key : ∀ {m' : Manager}, m'.log = m.log → Few (α := Answer) Manager.log 0 m.log (.ok .done m') := fun e => ⟨[], by simpa using e, Nat.le_refl _⟩
  cases c with
  | getDictionary =>
    unfold Call.run Manager.getDictionary
    simp only [prog_bind, bind_apply, Prog.get]
    cases m.currentDict with
    | some p => exact .refl _ _
    | none =>
      dsimp only
      by_cases hd : m.currentLanguage.isDefined = true
      · rw [if_pos hd, bind_apply]
        have h1 := few_getFor env names size env.fuel m.currentLanguage hd m hh
        cases hx : getDictionaryFor env env.fuel m.currentLanguage m <;> rw [hx] at h1 <;> first | trivial | exact h1
      · rw [if_neg hd]; exact .refl _ _
  | getDictionaryFor l =>
    unfold Call.run
    simp only [prog_bind, bind_apply]
    by_cases hd : l.isDefined = true
    · have h1 := few_getFor env names size env.fuel l hd m hh
      cases hx : getDictionaryFor env env.fuel l m <;> rw [hx] at h1 <;> first | trivial | exact h1
    · cases env.fuel with
      | zero => trivial
      | succ n => rw [getDictionaryFor, if_pos (by simp [hd])]; trivial
  | getLanguages =>
    unfold Call.run Manager.getLanguages
    simp only [prog_bind, bind_apply, Prog.get]
    rcases getLanguages_state env m.searchPath [] m with ⟨l, hr⟩ | ⟨w, hr⟩
    · rw [hr]; exact .refl _ _
    · rw [hr]; exact .refl _ _
  | setLanguage l =>
    show Few Manager.log 0 m.log (Prog.bind (Manager.setLanguage l) (fun _ => Prog.pure Answer.done) m)
    rw [bind_apply]
    unfold Manager.setLanguage
    by_cases e : m.currentLanguage ≠ l
    · rw [if_pos e]; exact Upto.refl _ _
    · rw [if_neg e]; exact Upto.refl _ _
  | getLanguage => exact .refl _ _
  | getUseFuzzy => exact .refl _ _
  | setCharset s =>
    unfold Call.run
    obtain ⟨m1, hr, hc, _⟩ := setCharset_ok h s
    simp only [prog_bind, bind_apply, hr]
    exact key hc.log
  | setUseFuzzy b =>
    unfold Call.run
    obtain ⟨m1, hr, hc, _⟩ := setUseFuzzy_ok h b
    simp only [prog_bind, bind_apply, hr]
    exact key hc.log
  | addDirectory p b =>
    unfold Call.run
    by_cases hp : p ∈ m.searchPath
    · simp only [prog_bind, bind_apply, addDirectory_known hp]
      exact .refl _ _
    · obtain ⟨m1, hr, hc, _⟩ := addDirectory_ok h hp b
      simp only [prog_bind, bind_apply, hr]
      exact key hc.log
  | removeDirectory p =>
    unfold Call.run
    by_cases hp : p ∈ m.searchPath
    · obtain ⟨m1, hr, hc, _⟩ := removeDirectory_ok h hp
      simp only [prog_bind, bind_apply, hr]
      exact key hc.log
    · simp only [prog_bind, bind_apply, removeDirectory_unknown hp]
      exact .refl _ _
  | add id a =>
    unfold Call.run
    cases hd : m.heap.get? id with
    | none => simp only [prog_bind, bind_apply, onDict, hd]; trivial
    | some d =>
      simp only [prog_bind, bind_apply, onDict, hd]
      exact ⟨_, rfl, add_few a d⟩
  | setPluralForms id p =>
    unfold Call.run
    cases hd : m.heap.get? id with
    | none => simp only [prog_bind, bind_apply, onDict, hd]; trivial
    | some d =>
      simp only [prog_bind, bind_apply, onDict, hd]
      exact ⟨[], rfl, Nat.le_refl _⟩
  | ask id q =>
    unfold Call.run
    cases hd : m.heap.get? id with
    | none => simp only [prog_bind, bind_apply, Manager.ask, hd]; trivial
    | some d =>
      have h1 := query_few h hd q env.fuel m.log
      have e : Call.most m (searchMost m.searchPath names size) (.ask id q) = Spec.Query.most d q := by unfold Call.most; dsimp only; rw [hd]
      rw [e]
      simp only [prog_bind, bind_apply, Manager.ask, hd]
      cases hx : q.on m.heap.get? env.fuel d m.log <;> rw [hx] at h1 <;> first | trivial | exact h1

/-- C103.  So what a language logs is said once: asked again, `get_dictionary` is silent. -/
theorem C103_once (cs : Str) (m m1 m2 : Manager) (hr : Reach cs m) (env env' : Env) (n n' : Nat) (l : Language) (p q : DictId)
    (h1 : getDictionaryFor env n l m = .ok p m1) (h2 : getDictionaryFor env' n' l m1 = .ok q m2) : q = p ∧ m2.log = m1.log := by
  have hl : l.isDefined = true := by
    cases n with
    | zero => cases h1
    | succ n =>
      cases hd : l.isDefined with
      | true => rfl
      | false => rw [getDictionaryFor, if_pos (by simp [hd])] at h1; cases h1
  have hp := getFor_post env n l m hl (reach_inv hr)
  rw [h1] at hp
  cases n' with
  | zero => cases h2
  | succ n' =>
    rw [getFor_hit env' n' l m1 hl hp.2.2.2.2.1] at h2
    cases h2
    exact ⟨rfl, rfl⟩

theorem demo_holds : Holds demoEnv [b!"hi", b!"lo"] (fun _ => 4) (fun _ => 200) := by
  intro dir hd
  refine ⟨?_, ?_⟩
  · intro files hf
    revert hf
    simp only [List.mem_cons, List.not_mem_nil, or_false] at hd
    rcases hd with rfl | rfl
    · intro hf
      have : (demoEnv.fs.openDirectory b!"hi") = .ok [b!"README", b!"xx.po", b!"de_at.po", b!"de.po"] := rfl
      rw [this] at hf; injection hf with hf; subst hf; exact Nat.le_refl _
    · intro hf
      have : (demoEnv.fs.openDirectory b!"lo") = .ok [b!"de.po"] := rfl
      rw [this] at hf; injection hf with hf; subst hf; decide
  · intro f st hst
    have key : ∀ g, (∃ t, demoOs.content g = some t) → ∃ t, demoOs.content g = some t ∧ Terminated t ∧ t.length ≤ 200 := by
      rintro g ⟨t, ht⟩
      refine ⟨t, ht, ?_⟩
      unfold demoOs at ht
      dsimp only at ht
      split at ht
      · injection ht with ht; subst ht; decide +kernel
      · split at ht
        · injection ht with ht; subst ht; decide +kernel
        · split at ht
          · injection ht with ht; subst ht; decide +kernel
          · cases ht
    unfold demoEnv unixFileSystem at hst
    dsimp only at hst
    cases hc : demoOs.content (dir ++ b!"/" ++ f) with
    | none => rw [hc] at hst; injection hst with hst; exact .inl hst.symm
    | some t =>
      obtain ⟨t', h1, h2, h3⟩ := key _ ⟨t, hc⟩
      rw [hc] at hst h1
      injection h1 with h1; subst h1
      injection hst with hst
      exact .inr ⟨t, hst.symm, h2, h3⟩

-- Austrian German is searched for twice; the second time round there is nothing to search for
example : ∃ m0 m, script (.init b!"UTF-8") [.addDirectory b!"hi" false, .addDirectory b!"lo" false] = some m0 ∧
    script m0 [.getDictionaryFor atLang] = some m ∧ Reach b!"UTF-8" m0 ∧ m0.searchPath = [b!"hi", b!"lo"] ∧ searches m0 atLang = 2 ∧ searches m atLang = 0 ∧
    m.log.length = 7 := by
  have h0 : (script (.init b!"UTF-8") [.addDirectory b!"hi" false, .addDirectory b!"lo" false]).any (fun m0 => (script m0 [.getDictionaryFor atLang]).any (fun m =>
      decide (m0.searchPath = [b!"hi", b!"lo"] ∧ searches m0 atLang = 2 ∧ searches m atLang = 0 ∧ m.log.length = 7))) = true := by decide +kernel
  cases h1 : script (.init b!"UTF-8") [.addDirectory b!"hi" false, .addDirectory b!"lo" false] with
  | none => rw [h1] at h0; cases h0
  | some m0 =>
    rw [h1] at h0
    obtain ⟨m, h2, h3⟩ := of_any (P := fun m => m0.searchPath = [b!"hi", b!"lo"] ∧ searches m0 atLang = 2 ∧ searches m atLang = 0 ∧ m.log.length = 7) h0
    exact ⟨m0, m, rfl, h2, script_reach h1, h3⟩

end Tgt
