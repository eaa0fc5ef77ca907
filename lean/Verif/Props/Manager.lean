import Verif.Proofs.MgrCalls
/-
The dictionary manager as a state machine: C44, C45, C47, C48, C54, C56.
-/
namespace Tgt
open Spec Manager Mgr POParser

/-! ### A small world for examples -/

/-- Two directories: `hi` has a German file with a plural rule, an Austrian one and junk; `lo` has a German one. -/
def demoOs : OS where
  listing p :=
    if p = b!"hi" then some [b!"README", b!"xx.po", b!"de_at.po", b!"de.po"]
    else if p = b!"lo" then some [b!"de.po"]
    else none
  content f :=
    if f = b!"hi/de.po" then some (b!"msgid \"\"\nmsgstr \"Plural-Forms: nplurals=2; plural=(n != 1);\\n\"\n\n" ++
      b!"msgid \"dog\"\nmsgstr \"Hund\"\n\nmsgid \"potato\"\nmsgstr \"Kartoffel\"\n")
    else if f = b!"hi/de_at.po" then some b!"msgid \"potato\"\nmsgstr \"Erdapfel\"\n"
    else if f = b!"lo/de.po" then some (b!"msgid \"\"\nmsgstr \"Plural-Forms: nplurals=2; plural=(n > 1);\\n\"\n\n" ++
      b!"msgid \"dog\"\nmsgstr \"Koeter\"\n\n#, fuzzy\nmsgid \"cat\"\nmsgstr \"Katze\"\n")
    else none

/-- The world with these files. -/
def demoEnv : Env := ⟨.c, demoLib, false, unixFileSystem demoOs, 300⟩

/-- German. -/
def deLang : Language := Language.fromEnv b!"de"
/-- Austrian German. -/
def atLang : Language := Language.fromEnv b!"de_AT"

/-- Run some calls in the small world and keep what the last one answered. -/
def script (m : Manager) : List Call → Option Manager
  | [] => some m
  | c :: t => match c.run demoEnv m with
    | .ok _ m' => script m' t
    | .exn _ m' => script m' t
    | _ => none

/-- What a dictionary says after some calls on a new manager. -/
def scriptAsk (calls : List Call) (p : DictId) (q : Query) : Option Str :=
  match script (.init b!"UTF-8") calls with
  | some m => match ask 10 p q m with
    | .ok s _ => some s
    | _ => none
  | none => none

theorem of_any {α : Type} {o : Option α} {P : α → Prop} [DecidablePred P] (h : o.any (fun x => decide (P x)) = true) :
    ∃ x, o = some x ∧ P x := by
  cases o with
  | none => cases h
  | some x => exact ⟨x, rfl, by simpa using h⟩

theorem script_history (calls : List Call) : ∀ {m0 m m' : Manager} {cs : List Call}, History m0 cs m → script m calls = some m' →
    History m0 (cs ++ calls) m' := by
  induction calls with
  | nil => intro m0 m m' cs h hs; cases hs; simpa using h
  | cons c t ih =>
    intro m0 m m' cs h hs
    unfold script at hs
    have hcons : cs ++ c :: t = (cs ++ [c]) ++ t := by simp
    cases hr : c.run demoEnv m with
    | ok a m1 => rw [hr] at hs; rw [hcons]; exact ih (.snoc h (.inl ⟨a, hr⟩)) hs
    | exn w m1 => rw [hr] at hs; rw [hcons]; exact ih (.snoc h (.inr (.inl ⟨w, hr⟩))) hs
    | _ => rw [hr] at hs; cases hs

theorem script_reach {calls : List Call} {m : Manager} (h : script (.init b!"UTF-8") calls = some m) : Reach b!"UTF-8" m :=
  ⟨calls, by have := script_history calls .nil h; simpa using this⟩

/-! ### C44: the current dictionary -/

/-- C44.  As long as `get_language()` is undefined, `get_dictionary()` returns the empty dictionary and changes nothing. -/
theorem C44_no_language (cs : Str) (m : Manager) (hr : Reach cs m) (h : getLanguage m = .ok none m) (env : Env) :
    getDictionary env m = .ok emptyDict m := by
  have hl : m.currentLanguage = none := by
    unfold Manager.getLanguage at h
    injection h
  unfold getDictionary
  simp only [prog_bind, bind_apply, Prog.get]
  cases hc : m.currentDict with
  | some p => have := ((reach_inv hr).cur p hc).1; rw [hl] at this; cases this
  | none =>
    dsimp only
    rw [if_neg (by rw [hl]; simp [Language.isDefined])]
    rfl

/-- C44.  The empty dictionary is never deleted, and it is empty unless the user himself adds something to it. -/
theorem C44_empty_is_empty (cs : Str) (calls : List Call) (m : Manager) (h : History (.init cs) calls m)
    (hc : ∀ c ∈ calls, c.changes? ≠ some emptyDict) : m.heap.get? emptyDict = some (.init b!"UTF-8") :=
  (hist_empty (inv_init cs) h hc).trans rfl

/-- C44.  After `set_language(L)`, `get_dictionary()` does what `get_dictionary(L)` does: it returns the same object
and loads the same, or fails in the same way. -/
theorem C44_current (cs : Str) (m : Manager) (hr : Reach cs m) (l : Language) (hl : l.isDefined = true) (m1 : Manager)
    (hs : setLanguage l m = .ok () m1) (env : Env) (hf : 0 < env.fuel) :
    getDictionary env m1 = match getDictionaryFor env env.fuel l m1 with
      | .ok p m2 => .ok p { m2 with currentDict := some p }
      | r => r := by
  obtain ⟨m', h1, h2, _, h3, _⟩ := setLanguage_inv (reach_inv hr) l
  rw [hs] at h1
  cases h1
  unfold getDictionary
  simp only [prog_bind, bind_apply, Prog.get]
  obtain ⟨n, hn⟩ : ∃ n, env.fuel = n + 1 := ⟨env.fuel - 1, by omega⟩
  cases hc : m1.currentDict with
  | some p =>
    have := (h2.cur p hc).2
    rw [h3] at this
    rw [hn, getFor_hit env n l m1 hl this]
    show Res.ok p m1 = Res.ok p { m1 with currentDict := some p }
    rw [← hc]
  | none =>
    dsimp only
    rw [if_pos (by rw [h3]; exact hl), h3, bind_apply]
    cases getDictionaryFor env env.fuel l m1 <;> rfl

/-- C44.  The object that `get_dictionary()` returned is the one `get_dictionary(L)` returns from then on. -/
theorem C44_same_object (cs : Str) (m m1 m2 : Manager) (hr : Reach cs m) (l : Language) (hl : l.isDefined = true)
    (hs : setLanguage l m = .ok () m1) (env : Env) (p : DictId) (hg : getDictionary env m1 = .ok p m2) (env' : Env) (n : Nat) :
    getDictionaryFor env' (n + 1) l m2 = .ok p m2 ∧ getDictionary env' m2 = .ok p m2 := by
  obtain ⟨m', h1, h2, _, h3, _⟩ := setLanguage_inv (reach_inv hr) l
  rw [hs] at h1
  cases h1
  unfold getDictionary at hg
  simp only [prog_bind, bind_apply, Prog.get] at hg
  have key : m2.currentDict = some p ∧ m2.dictionaries.get? l = some p := by
    cases hc : m1.currentDict with
    | some q =>
      rw [hc] at hg
      cases hg
      have := (h2.cur p hc).2
      rw [h3] at this
      exact ⟨hc, this⟩
    | none =>
      rw [hc] at hg
      dsimp only at hg
      rw [if_pos (by rw [h3]; exact hl), h3, bind_apply] at hg
      have hp := getFor_post env env.fuel l m1 hl h2
      cases hx : getDictionaryFor env env.fuel l m1 with
      | ok q m3 =>
        rw [hx] at hg hp
        cases hg
        exact ⟨rfl, hp.2.2.2.2.1⟩
      | _ => rw [hx] at hg; cases hg
  refine ⟨getFor_hit env' n l m2 hl key.2, ?_⟩
  unfold getDictionary
  simp only [prog_bind, bind_apply, Prog.get, key.1]
  rfl

example : scriptAsk [.addDirectory b!"hi" false, .setLanguage deLang, .getDictionary] 1 (.translate b!"dog") = some b!"Hund" := by
  decide +kernel

/-! ### C45: caching -/

/-- C45.  Once `get_dictionary(L)` has returned an object, every later `get_dictionary(L)` returns the very same object
and changes nothing, whatever the world is like by then (so it cannot have looked at any file), as long as only calls
that do not change the configuration were made in between (whether they returned or threw). -/
theorem C45_cached (cs : Str) (m m1 m2 : Manager) (hr : Reach cs m) (l : Language) (env env' : Env) (n n' : Nat) (p : DictId)
    (hg : getDictionaryFor env n l m = .ok p m1) (calls : List Call) (hs : History m1 calls m2)
    (hc : ∀ c ∈ calls, c.configures = false) : getDictionaryFor env' (n' + 1) l m2 = .ok p m2 := by
  have hl : l.isDefined = true := by
    cases n with
    | zero => cases hg
    | succ n =>
      rw [getDictionaryFor] at hg
      by_cases h : l.isDefined = true
      · exact h
      · rw [if_pos (by simp [h])] at hg; cases hg
  have hp := getFor_post env n l m hl (reach_inv hr)
  rw [hg] at hp
  exact getFor_hit env' n' l m2 hl ((hist_grow hp.1 hs hc).keeps l p hp.2.2.2.2.1)

/-- C45.  Neither do the contents of that object change, unless the user adds to it. -/
theorem C45_contents_kept (cs : Str) (m m1 m2 : Manager) (hr : Reach cs m) (l : Language) (hl : l.isDefined = true) (env : Env) (n : Nat) (p : DictId)
    (hg : getDictionaryFor env n l m = .ok p m1) (calls : List Call) (hs : History m1 calls m2)
    (hc : ∀ c ∈ calls, c.configures = false) (hp : ∀ c ∈ calls, c.changes? ≠ some p) : m2.heap.get? p = m1.heap.get? p := by
  have h := getFor_post env n l m hl (reach_inv hr)
  rw [hg] at h
  obtain ⟨_, _, d, hd, _⟩ := h.1.cached l p h.2.2.2.2.1
  exact hist_frame h.1 hs hc p (h.1.live p d hd).1 hp

/-- A world without any file. -/
def ruinedEnv : Env := { demoEnv with fs := unixFileSystem { listing := fun _ => none, content := fun _ => none } }

example : (match script (.init b!"UTF-8") [.addDirectory b!"hi" false, .getDictionaryFor atLang, .getLanguages, .add 2 (.singular none b!"x" b!"y")] with
    | some m1 => decide (getDictionaryFor ruinedEnv 1 atLang m1 = .ok 1 m1) && decide (getDictionaryFor ruinedEnv 1 deLang m1 = .ok 2 m1)
    | none => false) = true := by
  decide +kernel

/-! ### C47: no dangling dictionaries -/

/-- C47.  After any history: the current dictionary, every cached dictionary and the fallback of every existing dictionary
exist (have not been deleted), and so does the empty dictionary. -/
theorem C47_live (cs : Str) (m : Manager) (hr : Reach cs m) :
    m.heap.get? emptyDict ≠ none ∧
    (∀ p, m.currentDict = some p → m.heap.get? p ≠ none) ∧
    (∀ l p, m.dictionaries.get? l = some p → m.heap.get? p ≠ none) ∧
    (∀ p d, m.heap.get? p = some d → d.hasFallback = true → ∃ q, d.fallback = some q ∧ m.heap.get? q ≠ none) := by
  have h := reach_inv hr
  refine ⟨?_, ?_, ?_, ?_⟩
  · obtain ⟨d, hd, _⟩ := h.empty
    show m.heap.get? 0 ≠ none
    rw [hd]; simp
  · intro p hp
    obtain ⟨_, _, d, hd, _⟩ := h.cached _ p (h.cur p hp).2
    rw [hd]; simp
  · intro l p hp
    obtain ⟨_, _, d, hd, _⟩ := h.cached l p hp
    rw [hd]; simp
  · intro p d hd hf
    obtain ⟨_, q, d', _, _, h1, _, h2, _⟩ := h.fallback hd hf
    exact ⟨q, h1, by rw [h2]; simp⟩

/-- C47.  After any history, no call uses a deleted or null dictionary, except a call through a reference to a dictionary
that has been deleted. -/
theorem C47_no_dangling (cs : Str) (m : Manager) (hr : Reach cs m) (env : Env) (c : Call)
    (hc : ∀ id, c.target? = some id → m.heap.get? id ≠ none) :
    c.run env m ≠ .fault .useAfterFree ∧ c.run env m ≠ .fault .nullDeref := by
  have hp := call_post env c (reach_inv hr)
  constructor <;> intro h <;> rw [h] at hp
  · rcases hp with hp | ⟨hp, _⟩ | ⟨_, id, h1, h2⟩
    · rcases hp with hp | ⟨hp, _⟩ <;> cases hp
    · cases hp
    · exact hc id h1 h2
  · rcases hp with hp | ⟨hp, _⟩ | ⟨hp, _⟩
    · rcases hp with hp | ⟨hp, _⟩ <;> cases hp
    · cases hp
    · cases hp

/-- C47.  With a converter that behaves, the only crash that any call can cause, apart from a call through a dead reference or
`get_dictionary` of the undefined language, is the overflow of the line counter of a file. -/
theorem C47_no_crash (cs : Str) (m : Manager) (hr : Reach cs m) (env : Env) (hl : TameLib env.lib) (c : Call) (hd : c ≠ .getDictionaryFor none)
    (hc : ∀ id, c.target? = some id → m.heap.get? id ≠ none) (f : Fault) (h : c.run env m = .fault f) : f = .signedOverflow := by
  have hp := call_post env c (reach_inv hr)
  rw [h] at hp
  rcases hp with hp | ⟨_, hp⟩ | ⟨_, id, h1, h2⟩
  · rcases hp with hp | ⟨_, hp⟩
    · exact hp
    · exact absurd hl hp
  · exact absurd hp hd
  · exact absurd h2 (hc id h1)

/-- C47.  Destroying the manager after any history deletes what is left: then every dictionary that was ever created has
been deleted exactly once, and only the member `empty_dict` still exists. -/
theorem C47_deleted_once (cs : Str) (m : Manager) (hr : Reach cs m) :
    ∃ m', destroy m = .ok () m' ∧ m'.freed.Nodup ∧ (∀ p, p ∈ m'.freed ↔ 1 ≤ p ∧ p < m.nextId) ∧
      ∀ p, m'.heap.get? p ≠ none ↔ p = emptyDict := by
  obtain ⟨h', fr, h1, _, h3, h4, h5⟩ := deleteAll_inv (reach_inv hr)
  refine ⟨{ m with heap := h', freed := fr }, ?_, h4, h5, ?_⟩
  · unfold destroy
    simp only [prog_bind, bind_apply, Prog.get, h1]
  · intro p
    show h'.get? p ≠ none ↔ p = 0
    rw [h3]
    split
    · rename_i e
      subst e
      obtain ⟨d, hd, _⟩ := (reach_inv hr).empty
      rw [hd]; simp
    · rename_i e; simp [e]

example : ∃ m1, script (.init b!"UTF-8") [.addDirectory b!"hi" false, .getDictionaryFor atLang, .setCharset b!"ISO-8859-1", .getDictionaryFor deLang] = some m1 ∧
    (match destroy m1 with | .ok _ m' => some m'.freed | _ => none) = some [3, 2, 1] ∧ m1.nextId = 4 := by
  exact of_any (by decide +kernel)

/-! ### C48: the search path -/

/-- C48.  After any history the search path is what the calls say: `add_directory` of a known directory does nothing, of a new one appends it
(prepends it with precedence), `remove_directory` takes it out. -/
theorem C48_search_path (cs : Str) (calls : List Call) (m : Manager) (h : History (.init cs) calls m) :
    m.searchPath = (configured ⟨[], cs, true⟩ calls).path := by
  have := hist_config (inv_init cs) h
  exact congrArg Config.path this

/-- C48.  The search path never holds a directory twice. -/
theorem C48_no_duplicates (cs : Str) (m : Manager) (hr : Reach cs m) : m.searchPath.Nodup := (reach_inv hr).path

/-- C48.  Adding a new directory and removing it again, with any other calls in between that leave the configuration alone,
restores the search path; both calls always succeed. -/
theorem C48_remove_undoes_add (cs : Str) (m : Manager) (hr : Reach cs m) (p : Str) (b : Bool) (hp : p ∉ m.searchPath) :
    ∃ m1, addDirectory p b m = .ok () m1 ∧ p ∈ m1.searchPath ∧
      ∀ calls m2, History m1 calls m2 → (∀ c ∈ calls, c.configures = false) →
        ∃ m3, removeDirectory p m2 = .ok () m3 ∧ m3.searchPath = m.searchPath := by
  obtain ⟨m', h1, _, h3⟩ := addDirectory_ok (reach_inv hr) hp b
  refine ⟨_, h1, ?_, ?_⟩
  · show p ∈ addPath p b m.searchPath
    unfold addPath
    cases b <;> simp
  · intro calls m2 hs hc
    have hpath : m2.searchPath = addPath p b m.searchPath := (hist_grow h3 hs hc).path
    have hmem : p ∈ m2.searchPath := by
      rw [hpath]; unfold addPath; cases b <;> simp
    obtain ⟨m4, h4, _, _⟩ := removeDirectory_ok (hist_inv h3 hs) hmem
    refine ⟨_, h4, ?_⟩
    show m2.searchPath.erase p = m.searchPath
    rw [hpath]
    unfold addPath
    cases b with
    | true => simp
    | false =>
      simp only [Bool.false_eq_true, if_false]
      rw [List.erase_append_right _ hp]
      simp

example : ∃ m1, script (.init b!"UTF-8") [.addDirectory b!"a" false, .addDirectory b!"b" false, .addDirectory b!"c" true, .addDirectory b!"a" true,
    .removeDirectory b!"b", .removeDirectory b!"nope"] = some m1 ∧ m1.searchPath = [b!"c", b!"a"] := by
  exact of_any (by decide +kernel)

/-! ### C54: failures are cached -/

/-- C54 in full: after a `get_dictionary(L)` that threw, the next one tries again (at least: it does not succeed in a world in which
loading cannot succeed, because a directory of the search path cannot be listed). -/
def C54_Statement : Prop :=
  ∀ (cs : Str) (m m1 : Manager) (l : Language) (env : Env) (n : Nat) (w : Str), Reach cs m → l.isDefined = true →
    getDictionaryFor env n l m = .exn w m1 →
    ∀ (env' : Env) (n' : Nat) (p : DictId) (m2 : Manager), (∀ d ∈ m1.searchPath, ∃ e, env'.fs.openDirectory d = .error e) →
      getDictionaryFor env' n' l m1 ≠ .ok p m2

/-- C54 is false in *every* case: whenever `get_dictionary(L)` throws, the dictionary, loaded as far as it got, is in the cache, and every later
`get_dictionary(L)` returns it without looking at any file. -/
theorem C54_failure_is_cached (cs : Str) (m m1 : Manager) (l : Language) (hl : l.isDefined = true) (env : Env) (n : Nat) (w : Str) (hr : Reach cs m)
    (h : getDictionaryFor env n l m = .exn w m1) : ∃ p, ∀ (env' : Env) (n' : Nat), getDictionaryFor env' (n' + 1) l m1 = .ok p m1 := by
  have hp := getFor_post env n l m hl (reach_inv hr)
  rw [h] at hp
  obtain ⟨p, hp⟩ := hp.2.2.2.2.1
  exact ⟨p, fun env' n' => getFor_hit env' n' l m1 hl hp⟩

/-- C54 is false of this code. -/
theorem C54_false : ¬ C54_Statement := by
  intro h
  have hx : ∃ m0 m1 w, script (.init b!"UTF-8") [.addDirectory b!"nowhere" false] = some m0 ∧
      getDictionaryFor demoEnv 5 deLang m0 = .exn w m1 ∧ m1.searchPath = [b!"nowhere"] ∧ deLang.isDefined = true := by
    obtain ⟨m0, h0, h1⟩ : ∃ m0, script (.init b!"UTF-8") [.addDirectory b!"nowhere" false] = some m0 ∧
        (match getDictionaryFor demoEnv 5 deLang m0 with
        | .exn _ m1 => decide (m1.searchPath = [b!"nowhere"] ∧ deLang.isDefined = true)
        | _ => false) = true := of_any (by decide +kernel)
    cases hr : getDictionaryFor demoEnv 5 deLang m0 with
    | exn w m1 => rw [hr] at h1; exact ⟨m0, m1, w, h0, hr, by simpa using h1⟩
    | _ => rw [hr] at h1; cases h1
  obtain ⟨m0, m1, w, h1, h2, h3, hl⟩ := hx
  have hr := script_reach h1
  obtain ⟨p, hp⟩ := C54_failure_is_cached _ m0 m1 deLang hl demoEnv 5 w hr h2
  refine h _ m0 m1 deLang demoEnv 5 w hr hl h2 demoEnv 1 p m1 ?_ (hp demoEnv 0)
  intro d hd
  rw [h3] at hd
  simp only [List.mem_singleton] at hd
  subst hd
  exact ⟨_, rfl⟩

/-! ### C56: the charset -/

/-- C56.  After any history, the dictionary returned by `get_dictionary(L)` has the charset given to the latest `set_charset`
(or to the constructor if there was none). -/
theorem C56_charset (cs : Str) (calls : List Call) (m m' : Manager) (h : History (.init cs) calls m) (env : Env) (n : Nat) (l : Language)
    (hl : l.isDefined = true) (p : DictId) (hg : getDictionaryFor env n l m = .ok p m') :
    ∃ d, m'.heap.get? p = some d ∧ d.charset = (configured ⟨[], cs, true⟩ calls).charset := by
  have hi := hist_inv (inv_init cs) h
  have hp := getFor_post env n l m hl hi
  rw [hg] at hp
  obtain ⟨_, _, d, hd, hc, _⟩ := hp.1.cached l p hp.2.2.2.2.1
  refine ⟨d, hd, ?_⟩
  rw [hc, hp.2.1.charset]
  have := hist_config (inv_init cs) h
  exact congrArg Config.charset this

example : ∃ m1, script (.init b!"UTF-8") [.addDirectory b!"hi" false, .getDictionaryFor deLang, .setCharset b!"ISO-8859-1", .getDictionaryFor deLang] = some m1 ∧
    (m1.heap.get? 2).map (·.charset) = some b!"ISO-8859-1" ∧ m1.heap.get? 1 = none := by
  exact of_any (by decide +kernel)

end Tgt
