import Verif.Props.Messages
import Verif.Props.Programs
import Verif.Props.ManagerMore
/-
C69 …: the commands of tinygettext_test that use a `DictionaryManager`, and the end of every run.
-/
namespace Tgt
open Spec POParser Po Program Mgr Manager

namespace Progs

/-- A program with the default callbacks. -/
abbrev mk (m : Manager) (os : List Out) : Proc := ⟨.default .standard, m, os⟩

/-- Messages as the default callback writes them. -/
def logOut (ds : List Diag) : List Out := ds.map (fun d => LogFn.standard.call d.text)

theorem stdout_nil : stdout [] = [] := rfl
theorem stderr_nil : stderr [] = [] := rfl
theorem stdout_out (t : Str) : stdout [.out t] = t := List.append_nil t
theorem stderr_out (t : Str) : stderr [.out t] = [] := rfl
theorem stdout_logOut (ds : List Diag) : stdout (logOut ds) = [] := stdout_log ds
theorem stderr_logOut (ds : List Diag) : stderr (logOut ds) = defaultLog ds := stderr_log ds

/-- A call on the manager that adds `ds` to its log. -/
theorem call_ok {α : Type} {f : M α} {m0 m : Manager} {os : List Out} {a : α} {ds : List Diag} (h : f m0 = .ok a m) (hl : m.log = m0.log ++ ds) :
    call f (mk m0 os) = .ok a (mk m (os ++ logOut ds)) := by
  unfold call
  rw [h]
  dsimp only
  rw [hl, List.drop_left, deliver_all (show All .standard ⟨.default .standard, m, os⟩ from rfl)]
  rfl

theorem call_exn {α : Type} {f : M α} {m0 m : Manager} {os : List Out} {w : Str} {ds : List Diag} (h : f m0 = .exn w m) (hl : m.log = m0.log ++ ds) :
    call f (mk m0 os) = .exn w (mk m (os ++ logOut ds)) := by
  unfold call
  rw [h]
  dsimp only
  rw [hl, List.drop_left, deliver_all (show All .standard ⟨.default .standard, m, os⟩ from rfl)]
  rfl

theorem call_quiet {α : Type} {f : M α} {m0 m : Manager} {os : List Out} {a : α} (h : f m0 = .ok a m) (hl : m.log = m0.log) :
    call f (mk m0 os) = .ok a (mk m os) := by
  rw [call_ok (ds := []) h (by simpa using hl)]
  simp [logOut]

/-- Destruction never fails. -/
theorem call_destroy {m : Manager} (os : List Out) (hi : Inv m) : ∃ m', call Manager.destroy (mk m os) = .ok () (mk m' os) := by
  obtain ⟨h', fr, h1, _⟩ := deleteAll_inv hi
  exact ⟨{ m with heap := h', freed := fr }, call_quiet (by unfold Manager.destroy; simp only [prog_bind, bind_apply, Prog.get, h1]) rfl⟩

/-- The manager of `language-dir` and `directory` after `add_directory`. -/
def dirMgr (dir : Str) : Manager := { Manager.init b!"UTF-8" with searchPath := [dir] }

theorem inv_dirMgr (dir : Str) : Inv (dirMgr dir) :=
  reach_inv (cs := b!"UTF-8") ⟨[.addDirectory dir false], .snoc (calls := []) (env := demoEnv) .nil (.inl ⟨.done, by rfl⟩)⟩

theorem reach_dirMgr (dir : Str) : Reach b!"UTF-8" (dirMgr dir) :=
  ⟨[.addDirectory dir false], .snoc (calls := []) (env := demoEnv) .nil (.inl ⟨.done, by rfl⟩)⟩

theorem inv_langMgr (dir : Str) (l : Language) : Inv { dirMgr dir with currentLanguage := l } := by
  have h := inv_dirMgr dir
  exact ⟨h.path, h.keysD, h.inj, h.cached, h.empty, h.heapK, h.live, h.freedN, h.freedIff, fun p hp => by cases hp⟩

theorem call_addDirectory (dir : Str) (os : List Out) :
    call (Manager.addDirectory dir false) (mk (.init b!"UTF-8") os) = .ok () (mk (dirMgr dir) os) := call_quiet (by rfl) (by rfl)

theorem start_eq : start = mk (.init b!"UTF-8") [] := rfl

theorem exits_of {y : Sys} {name : Str} {args : List Str} {code : Nat} {p : Proc} (h : branch y name args start = .ok code p) :
    Exits (tinygettextTest y name args start) code p.output := by
  unfold Exits tinygettextTest
  rw [h]
  exact ⟨p, rfl, rfl⟩

theorem exits_exn {y : Sys} {name : Str} {args : List Str} {w : Str} {p : Proc} (h : branch y name args start = .exn w p) :
    Exits (tinygettextTest y name args start) 0 (p.output ++ [.out (b!"Exception: " ++ w ++ [10])]) := by
  unfold Exits tinygettextTest
  rw [h]
  exact ⟨_, rfl, rfl⟩

end Progs
open Progs

/-! ### C69: the commands with a manager -/

/-- C69.  `directory DIR MESSAGE LANG` with a language that does not exist says so and exits with status 1, whatever is in the
directory. -/
theorem C69_unknown_language (y : Sys) (name dir msg lang : Str) (h : (Language.fromName y.ct lang).isDefined = false) :
    Shows (tinygettextTest y name [b!"directory", dir, msg, lang] start) 1 (b!"Unknown language: " ++ lang ++ [10]) [] := by
  have hb : branch y name [b!"directory", dir, msg, lang] start =
      .ok 1 (mk (dirMgr dir) [.out (b!"Unknown language: " ++ lang ++ [10])]) := by
    show directory y dir msg (some lang) start = _
    unfold directory withManager
    rw [start_eq]
    simp only [prog_bind, bind_apply, call_addDirectory dir]
    have : chooseLanguage y (some lang) (mk (dirMgr dir) []) = .ok false (mk (dirMgr dir) [.out (b!"Unknown language: " ++ lang ++ [10])]) := by
      unfold chooseLanguage
      dsimp only
      rw [h]
      rfl
    rw [this]
    rfl
  exact ⟨_, exits_of hb, by simp [stdout], by simp [stderr]⟩

namespace Progs

/-- What `directory` writes before it asks for the dictionary. -/
def headOut (dir msg : Str) (l : Language) : List Out :=
  [] ++ [.out (b!"Directory:   '" ++ dir ++ b!"'" ++ [10])] ++ [.out (b!"Message:     '" ++ msg ++ b!"'" ++ [10])] ++
  [.out (b!"Language:    '" ++ l.str ++ b!"' (name: '" ++ l.getName ++ b!"', language: '" ++ l.getLanguage ++ b!"', country: '" ++ l.getCountry ++
    b!"', modifier: '" ++ l.getModifier ++ b!"')" ++ [10])] ++ [.out b!"Translation: '"]

theorem stdout_headOut (dir msg : Str) (l : Language) : stdout (headOut dir msg l) = directoryHead dir msg l := by
  unfold headOut directoryHead
  simp only [stdout_append, stdout_out, List.nil_append]

theorem stderr_headOut (dir msg : Str) (l : Language) : stderr (headOut dir msg l) = [] := rfl

/-- The end of `directory`. -/
def directoryEnd (y : Sys) (msg : Str) : Main (Option Nat) := do
  let d ← call (Manager.getDictionary (Program.env y))
  let t ← call (Manager.ask y.fuel d (.translate msg))
  printLine (t ++ b!"'")
  Prog.pure none

/-- `directory`, up to `get_dictionary`. -/
theorem directory_prefix {y : Sys} {dir msg : Str} {lang : Option Str} {l : Language}
    (hl : (lang = none ∧ l = none) ∨ ∃ s, lang = some s ∧ l = Language.fromName y.ct s ∧ l.isDefined = true) :
    directory y dir msg lang start = withManager (fun _ => directoryEnd y msg (mk { dirMgr dir with currentLanguage := l } (headOut dir msg l))) start := by
  unfold directory withManager directoryEnd
  rw [start_eq]
  simp only [prog_bind, bind_apply, call_addDirectory dir]
  have hset : call (Manager.setLanguage l) (mk (dirMgr dir) []) = .ok () (mk { dirMgr dir with currentLanguage := l } []) := by
    have hs : Manager.setLanguage l (dirMgr dir) = .ok () { dirMgr dir with currentLanguage := l } := by
      unfold Manager.setLanguage
      split
      · rfl
      · rename_i hn
        have : l = none := Classical.byContradiction (fun h => hn (fun e => h e.symm))
        rw [this]; rfl
    exact call_quiet hs rfl
  have hknown : chooseLanguage y lang (mk (dirMgr dir) []) = .ok true (mk { dirMgr dir with currentLanguage := l } []) := by
    rcases hl with ⟨rfl, rfl⟩ | ⟨s, rfl, rfl, hd⟩
    · rfl
    · unfold chooseLanguage
      dsimp only
      rw [if_pos hd]
      simp only [prog_bind, bind_apply]
      rw [hset]
      rfl
  rw [hknown]
  dsimp only
  simp only [Bool.not_true, Bool.false_eq_true, if_false, bind_apply, printLine, print]
  rw [call_quiet (f := Manager.getLanguage) rfl rfl]
  rfl

/-- What `directory` does, given what the calls on the manager do. -/
theorem directory_run {y : Sys} {name dir msg : Str} {lang : Option Str} {l : Language}
    (hl : (lang = none ∧ l = none) ∨ ∃ s, lang = some s ∧ l = Language.fromName y.ct s ∧ l.isDefined = true)
    {d : DictId} {m1 m2 : Manager} {t : Str}
    (h1 : Manager.getDictionary (Program.env y) { dirMgr dir with currentLanguage := l } = .ok d m1)
    (h2 : Manager.ask y.fuel d (.translate msg) m1 = .ok t m2) (hg : m1.log <+: m2.log) (hi : Inv m2) :
    ∃ p, branch y name ([b!"directory", dir, msg] ++ lang.toList) start = .ok 0 p ∧
      stdout p.output = directoryHead dir msg l ++ t ++ b!"'" ++ [10] ∧ stderr p.output = defaultLog m2.log := by
  have hb : branch y name ([b!"directory", dir, msg] ++ lang.toList) = directory y dir msg lang := by cases lang <;> rfl
  rw [hb, directory_prefix hl]
  unfold withManager directoryEnd
  simp only [prog_bind, bind_apply]
  rw [call_ok (ds := m1.log) h1 rfl]
  dsimp only
  obtain ⟨ds, hds⟩ := hg
  rw [call_ok (ds := ds) h2 hds.symm]
  dsimp only [Prog.pure, printLine, print]
  obtain ⟨m3, h3⟩ := call_destroy (headOut dir msg l ++ logOut m1.log ++ logOut ds ++ [.out (t ++ b!"'" ++ [10])]) hi
  rw [h3]
  refine ⟨_, rfl, ?_, ?_⟩
  · simp only [stdout_append, stdout_logOut, stdout_out, List.nil_append, stdout_headOut, List.append_assoc]
  · simp only [stderr_append, stderr_logOut, stderr_out, List.nil_append, List.append_nil, stderr_headOut]
    rw [← hds]
    simp [defaultLog]

/-- `directory` when `get_dictionary` throws. -/
theorem directory_throws {y : Sys} {name dir msg w : Str} {lang : Option Str} {l : Language}
    (hl : (lang = none ∧ l = none) ∨ ∃ s, lang = some s ∧ l = Language.fromName y.ct s ∧ l.isDefined = true) {m1 : Manager}
    (h1 : Manager.getDictionary (Program.env y) { dirMgr dir with currentLanguage := l } = .exn w m1) (hi : Inv m1) :
    ∃ p, branch y name ([b!"directory", dir, msg] ++ lang.toList) start = .exn w p ∧
      stdout p.output = directoryHead dir msg l ∧ stderr p.output = defaultLog m1.log := by
  have hb : branch y name ([b!"directory", dir, msg] ++ lang.toList) = directory y dir msg lang := by cases lang <;> rfl
  rw [hb, directory_prefix hl]
  unfold withManager directoryEnd
  simp only [prog_bind, bind_apply]
  rw [call_exn (ds := m1.log) h1 rfl]
  dsimp only
  obtain ⟨m3, h3⟩ := call_destroy (headOut dir msg l ++ logOut m1.log) hi
  rw [h3]
  refine ⟨_, rfl, ?_, ?_⟩
  · simp only [stdout_append, stdout_logOut, List.append_nil, stdout_headOut]
  · simp only [stderr_append, stderr_logOut, List.nil_append, stderr_headOut]

theorem mem_path {dir : Str} {y : Sys} {r : PluralForms} {l : Language} {c : Option Catalogue} (h : Installed (Program.env y) l dir c)
    (hg : ∀ k, c = some k → k.Good (Program.env y) b!"UTF-8" r) : Offers (Program.env y) b!"UTF-8" r l [dir] [(dir, c)] := by
  refine ⟨rfl, ?_, ?_⟩
  · intro x hx
    simp only [List.mem_cons, List.not_mem_nil, or_false] at hx
    subst hx; exact h
  · intro x hx k hk
    simp only [List.mem_cons, List.not_mem_nil, or_false] at hx
    subst hx; exact hg k hk

theorem first_one {dir : Str} {c : Option Catalogue} {k : Catalogue} (hc : c = some k) {m : Message} (hm : m ∈ k.messages) : First [(dir, c)] m := by
  subst hc
  exact ⟨[], dir, k, [], rfl, hm, fun x hx => by cases hx⟩

theorem lacks_one {dir : Str} {c : Option Catalogue} {msgid : Str} (h : ∀ k, c = some k → ¬ k.Has none msgid) : Lacks [(dir, c)] none msgid := by
  intro x hx k hk
  simp only [List.mem_cons, List.not_mem_nil, or_false] at hx
  subst hx; exact h k hk

/-- `get_dictionary()` for the current language. -/
theorem getDictionary_cur {e : Env} {m m' : Manager} {p : DictId} (hn : m.currentDict = none) (hl : m.currentLanguage.isDefined = true)
    (h : getDictionaryFor e e.fuel m.currentLanguage m = .ok p m') : getDictionary e m = .ok p { m' with currentDict := some p } := by
  unfold getDictionary
  simp only [prog_bind, bind_apply, Prog.get, hn, hl, if_true, h, Prog.modify, Prog.pure]

theorem getDictionary_exn {e : Env} {m m' : Manager} {w : Str} (hn : m.currentDict = none) (hl : m.currentLanguage.isDefined = true)
    (h : getDictionaryFor e e.fuel m.currentLanguage m = .exn w m') : getDictionary e m = .exn w m' := by
  unfold getDictionary
  simp only [prog_bind, bind_apply, Prog.get, hn, hl, if_true, h]

theorem getFor_unlisted {y : Sys} {dir w : Str} {l : Language} (hf : (Program.env y).fs.openDirectory dir = .error w) (hd : l.isDefined = true)
    (hfuel : 0 < y.fuel) : ∃ m', getDictionaryFor (Program.env y) (Program.env y).fuel l { dirMgr dir with currentLanguage := l } = .exn w m' ∧ m'.log = [] := by
  obtain ⟨k, hk⟩ : ∃ k, y.fuel = k + 1 := ⟨y.fuel - 1, by omega⟩
  have := getFor_miss (Program.env y) k l { dirMgr dir with currentLanguage := l } hd rfl
  rw [show (Program.env y).fuel = k + 1 from hk, this]
  have hd1 : ∀ x, dirs1 (Program.env y) l [dir] x = .exn w x := by
    intro x
    unfold dirs1
    rw [hf]
    rfl
  have hd2 : ∀ x, dirs1 (Program.env y) l ({ dirMgr dir with currentLanguage := l } : Manager).searchPath.reverse x = .exn w x := hd1
  rw [hd2]
  exact ⟨_, rfl, rfl⟩

theorem ask_cur {m : Manager} {n : Nat} {p : DictId} {q : Query} {t : Str} {log : List Diag} (c : Option DictId)
    (h : ask n p q m = .ok t { m with log := log }) : ask n p q { m with currentDict := c } = .ok t { m with currentDict := c, log := log } := by
  unfold ask at h ⊢
  dsimp only
  cases hd : m.heap.get? p with
  | none => rw [hd] at h; cases h
  | some d =>
    rw [hd] at h
    dsimp only at h ⊢
    cases ho : q.on m.heap.get? n d m.log with
    | ok r l =>
      rw [ho] at h
      dsimp only at h ⊢
      injection h with h1 h2
      have : l = log := congrArg Manager.log h2
      rw [h1, this]
    | _ => rw [ho] at h; cases h

/-- `directory` with a language whose dictionary is loaded and has an answer. -/
theorem directory_shows {y : Sys} {name dir msg lang : Str} (hd : (Language.fromName y.ct lang).isDefined = true) {p : DictId} {m' : Manager} {t : Str} {log : List Diag}
    (h1 : getDictionaryFor (Program.env y) y.fuel (Language.fromName y.ct lang) { dirMgr dir with currentLanguage := Language.fromName y.ct lang } = .ok p m')
    (h2 : ask y.fuel p (.translate msg) m' = .ok t { m' with log := log }) (hg : m'.log <+: log) :
    ∃ err, Shows (tinygettextTest y name [b!"directory", dir, msg, lang] start) 0
      (directoryHead dir msg (Language.fromName y.ct lang) ++ t ++ b!"'" ++ [10]) err := by
  have hI := inv_langMgr dir (Language.fromName y.ct lang)
  have hg1 := getDictionary_cur (e := Program.env y) (m := { dirMgr dir with currentLanguage := Language.fromName y.ct lang }) rfl hd h1
  have hI1 : Inv { m' with currentDict := some p } := by
    rcases getDictionary_post (Program.env y) hI with ⟨p', m1, hr, h, _⟩ | ⟨w, m1, hr, _⟩ | ⟨f, hr, _⟩ | hr
    · rw [hg1] at hr; cases hr; exact h
    · rw [hg1] at hr; cases hr
    · rw [hg1] at hr; cases hr
    · rw [hg1] at hr; cases hr
  obtain ⟨q, hq, ho, _⟩ := directory_run (name := name) (msg := msg) (.inr ⟨lang, rfl, rfl, hd⟩) hg1 (ask_cur (some p) h2) hg
    (hI1.log log)
  exact ⟨_, _, exits_of hq, ho, rfl⟩

end Progs

/-- C69.  `directory DIR MESSAGE` without a language: the message is printed as it is, whatever is in the directory. -/
theorem C69_no_language (y : Sys) (name dir msg : Str) (hf : 0 < y.fuel) :
    Shows (tinygettextTest y name [b!"directory", dir, msg] start) 0 (directoryHead dir msg none ++ msg ++ b!"'" ++ [10])
      (b!"tinygettext: Couldn't translate: " ++ msg ++ [10]) := by
  obtain ⟨k, hk⟩ : ∃ k, y.fuel = k + 1 := ⟨y.fuel - 1, by omega⟩
  obtain ⟨p, hp, h1, h2⟩ := directory_run (y := y) (name := name) (dir := dir) (msg := msg) (lang := none) (l := none) (.inl ⟨rfl, rfl⟩)
    (d := 0) (m1 := dirMgr dir) (m2 := { dirMgr dir with log := [.couldntTranslate msg] }) (t := msg) rfl (by rw [hk]; rfl)
    ⟨[.couldntTranslate msg], rfl⟩ ((inv_dirMgr dir).log _)
  refine ⟨_, exits_of hp, h1, ?_⟩
  rw [h2]
  simp [defaultLog, Diag.text]

/-- C69.  `directory DIR MESSAGE LANG` for a language without country for which the best file in the directory is a catalogue in
UTF-8: a (singular) message of the catalogue is printed as translated there, any other message as it is. -/
theorem C69_translated (y : Sys) (name dir lang : Str) (l : Language) (hl : Language.fromName y.ct lang = l) (hd : l.isDefined = true) (hco : l.getCountry = [])
    (c : Catalogue) (r : PluralForms) (hi : Installed (Program.env y) l dir (some c)) (hg : c.Good (Program.env y) b!"UTF-8" r) :
    (∀ m ∈ c.messages, m.ctxt = none → m.plural = none →
      ∃ err, Shows (tinygettextTest y name [b!"directory", dir, m.msgid, lang] start) 0 (directoryHead dir m.msgid l ++ m.strs.headD [] ++ b!"'" ++ [10]) err) ∧
    ∀ msgid, ¬ c.Has none msgid →
      ∃ err, Shows (tinygettextTest y name [b!"directory", dir, msgid, lang] start) 0 (directoryHead dir msgid l ++ msgid ++ b!"'" ++ [10]) err := by
  subst hl
  obtain ⟨k, hk⟩ : ∃ k, y.fuel = k + 1 := ⟨y.fuel - 1, by have := hg.fuel; have : _ ≤ y.fuel := this; omega⟩
  have ho := mem_path hi (fun k hk => by cases hk; exact hg)
  obtain ⟨p, m', h1, h2, h3⟩ := empty_translated { dirMgr dir with currentLanguage := Language.fromName y.ct lang } rfl (Program.env y) k _ hd hco r _ ho
  rw [← hk] at h1
  constructor
  · intro m hm hcx hp
    have := (h2 m (first_one rfl hm)).1 hp k
    rw [← hk, hcx] at this
    exact directory_shows hd h1 (log := m'.log) this ⟨[], by simp⟩
  · intro msgid hm
    have := h3 none msgid (lacks_one (fun k hk => by cases hk; exact hm)) k
    rw [← hk] at this
    exact directory_shows hd h1 this ⟨_, rfl⟩

/-- C69.  The same for a language with a country: what the country's catalogue lacks is looked up in the catalogue of the bare
language. -/
theorem C69_translated_country (y : Sys) (name dir lang : Str) (l : Language) (hl : Language.fromName y.ct lang = l) (hd : l.isDefined = true)
    (hco : l.getCountry ≠ []) (c base : Catalogue) (r r' : PluralForms)
    (hi : Installed (Program.env y) l dir (some c)) (hg : c.Good (Program.env y) b!"UTF-8" r)
    (hb : Installed (Program.env y) (Language.fromSpec l.getLanguage [] []) dir (some base)) (hgb : base.Good (Program.env y) b!"UTF-8" r') :
    (∀ m ∈ c.messages, m.ctxt = none → m.plural = none →
      ∃ err, Shows (tinygettextTest y name [b!"directory", dir, m.msgid, lang] start) 0 (directoryHead dir m.msgid l ++ m.strs.headD [] ++ b!"'" ++ [10]) err) ∧
    (∀ m ∈ base.messages, m.ctxt = none → m.plural = none → ¬ c.Has none m.msgid →
      ∃ err, Shows (tinygettextTest y name [b!"directory", dir, m.msgid, lang] start) 0 (directoryHead dir m.msgid l ++ m.strs.headD [] ++ b!"'" ++ [10]) err) ∧
    ∀ msgid, ¬ c.Has none msgid → ¬ base.Has none msgid →
      ∃ err, Shows (tinygettextTest y name [b!"directory", dir, msgid, lang] start) 0 (directoryHead dir msgid l ++ msgid ++ b!"'" ++ [10]) err := by
  subst hl
  obtain ⟨k, hk⟩ : ∃ k, y.fuel = k + 2 := ⟨y.fuel - 2, by have := hg.fuel; have : _ ≤ y.fuel := this; omega⟩
  have ho := mem_path hi (fun k hk => by cases hk; exact hg)
  have ho' := mem_path hb (fun k hk => by cases hk; exact hgb)
  have hI := inv_langMgr dir (Language.fromName y.ct lang)
  obtain ⟨p, m', h1, h2, h3, h4⟩ := empty_translated_country { dirMgr dir with currentLanguage := Language.fromName y.ct lang } hI rfl
    (Program.env y) k _ hd hco r r' _ _ ho ho'
  rw [← hk] at h1
  refine ⟨?_, ?_, ?_⟩
  · intro m hm hcx hp
    have := (h2 m (first_one rfl hm)).1 hp (k + 1)
    rw [show k + 1 + 1 = y.fuel from hk.symm, hcx] at this
    exact directory_shows hd h1 (log := m'.log) this ⟨[], by simp⟩
  · intro m hm hcx hp hn
    have := h3 m (first_one rfl hm) hcx hp (lacks_one (fun k hk => by cases hk; exact hn)) k
    rw [← hk] at this
    exact directory_shows hd h1 this ⟨_, rfl⟩
  · intro msgid hn hn'
    obtain ⟨log, h⟩ := h4 msgid (lacks_one (fun k hk => by cases hk; exact hn)) (lacks_one (fun k hk => by cases hk; exact hn')) k
    rw [← hk] at h
    refine directory_shows hd h1 h ?_
    have hP := getFor_post (Program.env y) y.fuel _ _ hd hI
    rw [h1] at hP
    unfold ask at h
    cases hh : m'.heap.get? p with
    | none => rw [hh] at h; cases h
    | some d =>
      have := ask_ok hP.1 y.fuel hh (.translate msgid)
      unfold ask at this
      rw [h] at this
      rcases this with ⟨r, lg, h5, h6⟩ | ⟨h5, _⟩
      · injection h5 with _ h5
        have : log = lg := congrArg Manager.log h5
        rw [this]; exact h6
      · cases h5

/-- C69.  `language-dir DIR`: if the directory can be listed, the number of languages for which it has a file, and the description of
each of them once; nothing else. -/
theorem C69_language_dir (y : Sys) (name dir : Str) (files : List Str) (hf : y.os.listing dir = some files) :
    ∃ (ls : List Language) (number : Str), ls.Nodup ∧
      (∀ l, l ∈ ls ↔ ∃ f ∈ files, b!".po" <:+ f ∧ l = Language.fromEnv (f.take (f.length - 3))) ∧ Decimal ls.length number ∧
      Shows (tinygettextTest y name [b!"language-dir", dir] start) 0
        (b!"Number of languages: " ++ number ++ [10] ++ ls.flatMap (fun l => description l ++ [10])) [] := by
  have hopen : (Program.env y).fs.openDirectory dir = .ok files := by
    show (match y.os.listing dir with | some l => Except.ok l | none => _) = _
    rw [hf]
  obtain ⟨ls, h1, h2, h3⟩ := C55_languages_partial b!"UTF-8" (dirMgr dir) (reach_dirMgr dir) (Program.env y) (by
    intro d hd
    rw [show d = dir by simpa [dirMgr] using hd]
    exact ⟨files, hopen⟩)
  refine ⟨ls, decimal ls.length, h2, ?_, decimal_spec _, ?_⟩
  · intro l
    rw [h3]
    constructor
    · rintro ⟨d, hd, fs, ho, f, hf1, hf2, hf3⟩
      rw [show d = dir by simpa [dirMgr] using hd, hopen] at ho
      cases ho
      exact ⟨f, hf1, hf2, hf3⟩
    · rintro ⟨f, hf1, hf2, hf3⟩
      exact ⟨dir, by simp [dirMgr], files, hopen, f, hf1, hf2, hf3⟩
  · have hb : ∃ p, branch y name [b!"language-dir", dir] start = .ok 0 p ∧
        p.output = [.out (b!"Number of languages: " ++ decimal ls.length ++ [10])] ++ ls.flatMap (fun l => langOut l ++ [.out [10]]) := by
      show ∃ p, languageDir y dir start = .ok 0 p ∧ _
      unfold languageDir withManager
      rw [start_eq]
      simp only [prog_bind, bind_apply, call_addDirectory dir]
      rw [call_quiet h1 rfl]
      dsimp only [printLine, print]
      have hw := fun os => writes_describeAll ls (mk (dirMgr dir) os) rfl
      rw [hw]
      dsimp only [Prog.pure]
      obtain ⟨m3, h4⟩ := call_destroy (m := dirMgr dir) ([] ++ [.out (b!"Number of languages: " ++ decimal ls.length ++ [10])] ++
        ls.flatMap (fun l => langOut l ++ [.out [10]])) (inv_dirMgr dir)
      rw [h4]
      exact ⟨_, rfl, rfl⟩
    obtain ⟨p, hp, ho⟩ := hb
    refine ⟨_, exits_of hp, ?_, ?_⟩
    · rw [ho, stdout_append, stdout_out]
      congr 1
      clear h1 h2 h3 hp ho
      induction ls with
      | nil => rfl
      | cons l t ih =>
        rw [List.flatMap_cons, stdout_append, ih, stdout_append, stdout_langOut]
        rfl
    · rw [ho, stderr_append, stderr_out]
      clear h1 h2 h3 hp ho
      induction ls with
      | nil => rfl
      | cons l t ih =>
        rw [List.flatMap_cons, stderr_append, stderr_append]
        exact ih

/-- C69.  If the directory cannot be listed, both commands (the second with a language) print the exception of the file system. -/
theorem C69_cannot_list (y : Sys) (name dir w : Str) (hf : (Program.env y).fs.openDirectory dir = .error w) (hfuel : 0 < y.fuel) :
    Shows (tinygettextTest y name [b!"language-dir", dir] start) 0 (b!"Exception: " ++ w ++ [10]) [] ∧
    ∀ msg lang, (Language.fromName y.ct lang).isDefined = true →
      Shows (tinygettextTest y name [b!"directory", dir, msg, lang] start) 0
        (directoryHead dir msg (Language.fromName y.ct lang) ++ (b!"Exception: " ++ w ++ [10])) [] := by
  constructor
  · have h1 : getLanguages (Program.env y) (dirMgr dir) = .exn w (dirMgr dir) := by
      unfold getLanguages
      simp only [prog_bind, bind_apply, Prog.get]
      show collectDirs (Program.env y) [dir] [] (dirMgr dir) = _
      unfold collectDirs
      rw [hf]
      rfl
    have hb : ∃ p, branch y name [b!"language-dir", dir] start = .exn w p ∧ p.output = [] := by
      show ∃ p, languageDir y dir start = .exn w p ∧ _
      unfold languageDir withManager
      rw [start_eq]
      simp only [prog_bind, bind_apply, call_addDirectory dir]
      rw [call_exn (ds := []) h1 (by simp)]
      dsimp only
      obtain ⟨m3, h4⟩ := call_destroy (m := dirMgr dir) ([] ++ logOut []) (inv_dirMgr dir)
      rw [h4]
      exact ⟨_, rfl, rfl⟩
    obtain ⟨p, hp, ho⟩ := hb
    refine ⟨_, exits_exn hp, ?_, ?_⟩
    · rw [ho, stdout_append, stdout_out]; rfl
    · rw [ho]; rfl
  · intro msg lang hd
    have hI := inv_langMgr dir (Language.fromName y.ct lang)
    obtain ⟨m', h1, hlog⟩ := getFor_unlisted hf hd hfuel
    have h2 := getDictionary_exn (e := Program.env y) (m := { dirMgr dir with currentLanguage := Language.fromName y.ct lang }) rfl hd h1
    have hI' : Inv m' := by
      rcases getDictionary_post (Program.env y) hI with ⟨p', m1, hr, h, _⟩ | ⟨w, m1, hr, h, _⟩ | ⟨f, hr, _⟩ | hr
      · rw [h2] at hr; cases hr
      · rw [h2] at hr; cases hr; exact h
      · rw [h2] at hr; cases hr
      · rw [h2] at hr; cases hr
    obtain ⟨p, hp, ho1, ho2⟩ := directory_throws (name := name) (msg := msg) (.inr ⟨lang, rfl, rfl, hd⟩) h2 hI'
    refine ⟨_, exits_exn hp, ?_, ?_⟩
    · rw [stdout_append, ho1, stdout_out]
    · rw [stderr_append, ho2, hlog]; rfl

/-! ### The hypotheses are met -/

/-- What the directory `lo` of `demoSys` holds. -/
theorem demoSys_lo : Installed (Program.env demoSys) deLang b!"lo" (some catLo) ∧ Installed (Program.env demoSys) atLang b!"lo" (some catAt) :=
  ⟨.catalogue (files := [b!"de.po", b!"de_AT.po"]) (f := b!"de.po") rfl ⟨[], [b!"de_AT.po"], by decide +kernel⟩ rfl,
    .catalogue (files := [b!"de.po", b!"de_AT.po"]) (f := b!"de_AT.po") rfl ⟨[b!"de.po"], [], by decide +kernel⟩ rfl⟩

example : ∃ err, Shows (tinygettextTest demoSys b!"t" [b!"directory", b!"lo", b!"dog", b!"de"] start) 0
    (directoryHead b!"lo" b!"dog" deLang ++ b!"Koeter" ++ b!"'" ++ [10]) err :=
  (C69_translated demoSys b!"t" b!"lo" b!"de" deLang (by decide +kernel) (by decide +kernel) (by decide +kernel) catLo catRule demoSys_lo.1
    (demoSys_good catLo (by simp))).1 ⟨none, b!"dog", none, [b!"Koeter"]⟩ (by simp [catLo]) rfl rfl

example : ∃ err, Shows (tinygettextTest demoSys b!"t" [b!"directory", b!"lo", b!"potato", b!"de_AT"] start) 0
    (directoryHead b!"lo" b!"potato" atLang ++ b!"Erdäpfel" ++ b!"'" ++ [10]) err :=
  (C69_translated_country demoSys b!"t" b!"lo" b!"de_AT" atLang (by decide +kernel) (by decide +kernel) (by decide +kernel) catAt catLo catRule catRule demoSys_lo.2
    (demoSys_good catAt (by simp)) (by rw [show Language.fromSpec atLang.getLanguage [] [] = deLang by decide +kernel]; exact demoSys_lo.1)
    (demoSys_good catLo (by simp))).1 ⟨none, b!"potato", none, [b!"Erdäpfel"]⟩ (by simp [catAt]) rfl rfl

-- by running it
example : seen (tinygettextTest demoSys b!"t" [b!"directory", b!"lo", b!"dog", b!"de_AT"] start) =
    some (0, [.out b!"Directory:   'lo'\n", .out b!"Message:     'dog'\n",
      .out b!"Language:    'de_AT' (name: 'German (Austria)', language: 'de', country: 'AT', modifier: '')\n", .out b!"Translation: '",
      .err b!"tinygettext: Couldn't translate: dog\n", .out b!"Koeter'\n"]) := by decide +kernel
example : seen (tinygettextTest demoSys b!"t" [b!"directory", b!"lo", b!"dog", b!"xx"] start) = some (1, [.out b!"Unknown language: xx\n"]) := by decide +kernel
example : seen (tinygettextTest demoSys b!"t" [b!"directory", b!"no", b!"dog", b!"de"] start) =
    some (0, [.out b!"Directory:   'no'\n", .out b!"Message:     'dog'\n",
      .out b!"Language:    'de' (name: 'German', language: 'de', country: '', modifier: '')\n", .out b!"Translation: '",
      .out b!"Exception: filesystem error: directory iterator cannot open directory\n"]) := by decide +kernel
example : seen (tinygettextTest demoSys b!"t" [b!"language-dir", b!"hi"] start) =
    some (0, [.out b!"Number of languages: 2\n", .out b!"Env:       de\n", .out b!"Name:      German\n", .out b!"Language:  de\n", .out b!"Country:   \n",
      .out b!"Modifier:  \n", .out b!"\n", .out b!"Env:       fr\n", .out b!"Name:      French\n", .out b!"Language:  fr\n", .out b!"Country:   \n",
      .out b!"Modifier:  \n", .out b!"\n"]) := by decide +kernel

end Tgt
