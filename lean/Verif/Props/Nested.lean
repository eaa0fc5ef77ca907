import Verif.Proofs.NestedQuiet
import Verif.Proofs.MgrLoad
import Verif.Props.Manager
/-
Log callbacks that call the manager (C92).
-/
namespace Tgt
open Spec Manager POParser Mgr Nested

/-! ### Callbacks that call nothing -/

/-- C92.  If the callback calls nothing, every call does exactly what it does without callbacks. -/
theorem C92_listening (env : Env) (hs : ShortFiles env) (n : Nat) (c : Call) (m : Manager) :
    Nested.call env listens (n + 1) c m = match c.run env m with
      | .ok a m' => .ok a m'
      | .poError m' => .exn b!"POParserError" m'
      | .exn w m' => .exn w m'
      | .fault f => .fault f
      | .diverge => .diverge := by
  have h := perform_quiet (say_quiet env n) hs c m
  unfold Nested.call
  rw [h]
  unfold lift
  cases c.run env m <;> rfl

/-! ### Callbacks that only ask -/

namespace Nested

theorem Broken.undisturbed {m m' : Manager} (h0 : Mgr.Inv m) (h : Broken m m') : Undisturbed m m' where
  config := by unfold Spec.config; rw [h.grow.path, h.grow.charset, h.grow.fuzzy]
  language := h.lang
  freed := h.grow.freed
  dictionaries := fun p d hd => by rw [h.frame p (h0.live p d hd).1]; exact hd
  cached := h.grow.keeps

theorem Full.complete {env : Env} {m : Manager} {l : Language} {p : DictId} (h : Full env m l p) : Complete env m l p := by
  obtain ⟨x, d, h1, h2, h3, h4⟩ := h
  obtain ⟨_, h5⟩ := path1_ok h1
  exact ⟨d, h2, by rw [h3]; exact h5, h4⟩

end Nested

/-- C92, the part that is true.  If the callback only asks, however deep these calls nest, then a call that asks (1) if it returns, has disturbed nothing, all
dictionaries that are new are complete, and the answer is the one the call gives without callbacks; (2) if it throws, has disturbed nothing, and a directory cannot be
listed; (3) it terminates the program only if a directory cannot be listed (the exception thrown to the callback leaves the destructor of the message); (4) there is no
undefined behaviour except for `msgstr[N]` numbers beyond `int`, and no failing assertion if converters behave. -/
theorem C92_asking_partial (cs : Str) (m : Manager) (hr : Reach cs m) (env : Env) (body : Body) (hb : OnlyAsks body) (n : Nat) (c : Call) (hc : c.Asks m) :
    match Nested.call env body n c m with
    | .ok a m' => Undisturbed m m' ∧ (∀ l p, m'.dictionaries.get? l = some p → m.dictionaries.get? l = none → Complete env m' l p) ∧ Answers env m m' c a
    | .exn _ m' => Undisturbed m m' ∧ Unlistable env m.searchPath
    | .terminated => Unlistable env m.searchPath
    | .fault f => f = .signedOverflow ∨ (f = .assertFailed ∧ ¬ TameLib env.lib)
    | .diverge => True := by
  have h0 := reach_inv hr
  have h := perform_keeps (say_asking (env := env) (path := m.searchPath) hb n) c h0 rfl hc
  unfold Nested.call
  cases hp : perform (Nested.say env body n) env c m with
  | ok a m' =>
    rw [hp] at h
    exact ⟨h.1.broken.undisturbed h0, fun l p h1 h2 => (h.1.news l p h1 h2).complete, h.2⟩
  | exn w m' => rw [hp] at h; exact ⟨h.1.undisturbed h0, h.2⟩
  | terminated => rw [hp] at h; exact h
  | fault f => rw [hp] at h; exact h
  | diverge => trivial

namespace Nested

theorem plain_ok {env : Env} {m : Manager} (f : Nat) {l : Language} (hl : l.isDefined = true) {x : DL} (hx : m.dictionaries.get? l = none →
      dirs1 env l m.searchPath.reverse (Dictionary.init m.charset, []) = .ok () x) (hb : l.getCountry = [] ∨ m.dictionaries.get? l ≠ none ∨ m.dictionaries.get? (baseOf l) ≠ none ∨
      ∃ y, dirs1 env (baseOf l) m.searchPath.reverse (Dictionary.init m.charset, []) = .ok () y) :
    ∃ p m', Manager.getDictionaryFor env (f + 2) l m = .ok p m' := by
  cases hn : m.dictionaries.get? l with
  | some p => exact ⟨p, m, getFor_hit env _ l m hl hn⟩
  | none =>
    rw [getFor_miss env (f + 1) l m hl hn, dirs1_log, hx hn]
    dsimp only [Res.mapS]
    by_cases hc : l.getCountry = []
    · rw [if_pos hc]; exact ⟨_, _, rfl⟩
    · rw [if_neg hc]
      obtain ⟨hbl, hbc⟩ := base_defined hl
      have hlink : ∀ (fb : DictId) (m2 : Manager) (d : Dictionary), m2.heap.get? m.nextId = some d →
          ∃ p m', (Manager.addFallback m.nextId fb >>= fun _ => Prog.pure m.nextId) m2 = .ok p m' := by
        intro fb m2 d hd
        refine ⟨m.nextId, { m2 with heap := m2.heap.set m.nextId (d.addFallback (some fb)) }, ?_⟩
        simp only [prog_bind, bind_apply]
        unfold Manager.addFallback
        rw [hd]; rfl
      have hne := base_ne hl hc
      cases hbn : m.dictionaries.get? (baseOf l) with
      | some q =>
        rw [getFor_hit env f (baseOf l) _ hbl (p := q)]
        · exact hlink _ _ _ (AMap.get?_set_self _ _ _)
        · show (m.dictionaries.set l m.nextId).get? (baseOf l) = _
          rw [AMap.get?_set_ne _ _ hne, hbn]
      | none =>
        rcases hb with hb | hb | hb | ⟨y, hy⟩
        · exact absurd hb hc
        · exact absurd hn hb
        · exact absurd hbn hb
        · rw [getFor_miss env f (baseOf l) _ hbl]
          · rw [dirs1_log, show (put (fresh l m) m.nextId (x.1, m.log ++ x.2)).searchPath = m.searchPath from rfl,
              show (put (fresh l m) m.nextId (x.1, m.log ++ x.2)).charset = m.charset from rfl, hy]
            dsimp only [Res.mapS]
            rw [if_pos hbc]
            refine hlink _ _ x.1 ?_
            show ((((m.heap.set m.nextId _).set m.nextId x.1).set (m.nextId + 1) _).set (m.nextId + 1) y.1).get? m.nextId = _
            rw [AMap.get?_set_ne _ _ (by omega), AMap.get?_set_ne _ _ (by omega), AMap.get?_set_self]
          · show (m.dictionaries.set l m.nextId).get? (baseOf l) = _
            rw [AMap.get?_set_ne _ _ hne, hbn]

theorem keeps_plain {env : Env} (hs : ShortFiles env) {f : Nat} {l : Language} (hl : l.isDefined = true) {m m0 : Manager} {p : DictId} (h0 : Mgr.Inv m)
    (hg : Manager.getDictionaryFor env f l m = .ok p m0) : Keeps env m m0 ∧ m0.dictionaries.get? l = some p := by
  have hb : OnlyAsks listens := by intro m as c h; cases h
  have hk := getFor_keeps (say_asking (env := env) (path := m.searchPath) hb 1) f (steady_const l) hl h0 rfl
  rw [getFor_quiet (say_quiet env 0) hs f (steady_const l)] at hk
  unfold lift at hk
  rw [hg] at hk
  exact hk

theorem same_for {env : Env} (hs : ShortFiles env) (hf : 2 ≤ env.fuel) {l : Language} (hl : l.isDefined = true) {m m' : Manager} {p : DictId} (h0 : Mgr.Inv m)
    (hk : Keeps env m m') (hp : m'.dictionaries.get? l = some p) :
    ∃ p0 m0, Manager.getDictionaryFor env env.fuel l m = .ok p0 m0 ∧ contents m' p = contents m0 p0 := by
  have hx : ∃ x, m.dictionaries.get? l = none → dirs1 env l m.searchPath.reverse (Dictionary.init m.charset, []) = .ok () x := by
    cases hn : m.dictionaries.get? l with
    | some q => exact ⟨(Dictionary.init m.charset, []), fun h => by cases h⟩
    | none =>
      obtain ⟨x, h1, _⟩ := full_contents (hk.news l p hp hn)
      rw [hk.grow.path, hk.grow.charset] at h1
      exact ⟨x, fun _ => h1⟩
  obtain ⟨x, hx⟩ := hx
  have hb : l.getCountry = [] ∨ m.dictionaries.get? l ≠ none ∨ m.dictionaries.get? (baseOf l) ≠ none ∨
      ∃ y, dirs1 env (baseOf l) m.searchPath.reverse (Dictionary.init m.charset, []) = .ok () y := by
    by_cases hc : l.getCountry = []
    · exact .inl hc
    · cases hn : m.dictionaries.get? l with
      | some q => exact .inr (.inl (by simp))
      | none =>
        cases hbn : m.dictionaries.get? (baseOf l) with
        | some q => exact .inr (.inr (.inl (by simp)))
        | none =>
          obtain ⟨_, _, _, _, _, h2⟩ := full_contents (hk.news l p hp hn)
          obtain ⟨_, q, _, h3⟩ := h2 hc
          obtain ⟨y, h4, _⟩ := full_contents (hk.news _ q h3 hbn)
          rw [hk.grow.path, hk.grow.charset] at h4
          exact .inr (.inr (.inr ⟨y, h4⟩))
  obtain ⟨p0, m0, hg⟩ := plain_ok (env.fuel - 2) hl hx hb
  rw [show env.fuel - 2 + 2 = env.fuel by omega] at hg
  refine ⟨p0, m0, hg, ?_⟩
  obtain ⟨hk0, hp0⟩ := keeps_plain hs hl h0 hg
  rw [keeps_view h0 hk hl hp, keeps_view h0 hk0 hl hp0]

end Nested

/-- C92.  If the callback only asks, a call for a dictionary that returns gives one with the same contents, and the same fallback contents, as the call would without
callbacks. -/
theorem C92_same_contents (cs : Str) (m : Manager) (hr : Reach cs m) (env : Env) (hs : ShortFiles env) (hf : 2 ≤ env.fuel) (body : Body) (hb : OnlyAsks body) (n : Nat)
    (c : Call) (hc : c.Asks m) (p : DictId) (m' : Manager) (h : Nested.call env body n c m = .ok (.dict p) m') :
    ∃ p0 m0 v, c.run env m = .ok (.dict p0) m0 ∧ contents m0 p0 = some v ∧ contents m' p = some v := by
  have h0 := reach_inv hr
  have hk := perform_keeps (say_asking (env := env) (path := m.searchPath) hb n) c h0 rfl hc
  unfold Nested.call at h
  rw [h] at hk
  obtain ⟨hk, ha⟩ := hk
  have some_view : ∀ l : Language, m'.dictionaries.get? l = some p → ∃ v, contents m' p = some v := by
    intro l hp
    obtain ⟨_, _, d, hd, _⟩ := hk.inv.cached l p hp
    unfold contents
    rw [hd]
    exact ⟨_, rfl⟩
  cases c with
  | getDictionaryFor l =>
    obtain ⟨q, e, hp⟩ := ha
    cases e
    obtain ⟨p0, m0, h1, h2⟩ := same_for hs hf hc h0 hk hp
    obtain ⟨v, hv⟩ := some_view l hp
    refine ⟨p0, m0, v, ?_, by rw [← h2]; exact hv, hv⟩
    unfold Call.run
    simp only [prog_bind, bind_apply, h1]
    rfl
  | getDictionary =>
    obtain ⟨q, e, h1, h2⟩ := ha
    cases e
    unfold Call.run
    simp only [prog_bind, bind_apply]
    cases hcur : m.currentDict with
    | some q =>
      obtain ⟨hl, hq⟩ := h0.cur q hcur
      have hp := h1 hl
      have hpq : q = p := by have := hk.grow.keeps _ _ hq; rw [hp] at this; cases this; rfl
      subst hpq
      obtain ⟨v, hv⟩ := some_view _ hp
      refine ⟨q, m, v, ?_, ?_, hv⟩
      · unfold Manager.getDictionary
        simp only [prog_bind, bind_apply, Prog.get, hcur]
        rfl
      · obtain ⟨_, _, d, hd, _⟩ := h0.cached _ q hq
        rw [← contents_old h0 hk.frame hd]; exact hv
    | none =>
      by_cases hl : m.currentLanguage.isDefined = true
      · have hp := h1 hl
        obtain ⟨p0, m0, h3, h4⟩ := same_for hs hf hl h0 hk hp
        obtain ⟨v, hv⟩ := some_view _ hp
        refine ⟨p0, { m0 with currentDict := some p0 }, v, ?_, ?_, hv⟩
        · unfold Manager.getDictionary
          simp only [prog_bind, bind_apply, Prog.get, hcur, hl, if_true, h3]
          rfl
        · show contents m0 p0 = some v
          rw [← h4]; exact hv
      · have hl' : m.currentLanguage.isDefined = false := by simpa using hl
        have e := h2 hl'
        subst e
        obtain ⟨d, hd, _, hfb⟩ := h0.empty
        have hd : m.heap.get? emptyDict = some d := hd
        refine ⟨emptyDict, m, (unlinked d, none), ?_, ?_, ?_⟩
        · unfold Manager.getDictionary
          simp only [prog_bind, bind_apply, Prog.get, hcur, hl', Bool.false_eq_true, if_false]
          rfl
        · unfold contents; rw [hd]; simp [hfb]
        · rw [contents_old h0 hk.frame hd]; unfold contents; rw [hd]; simp [hfb]
  | getLanguages | getLanguage | getUseFuzzy | ask =>
    obtain ⟨lg, e⟩ := ha
    refine absurd e ?_
    unfold Call.run
    simp only [prog_bind, bind_apply]
    intro e
    split at e <;> cases e
  | _ => exact hc.elim

/-! ### A small world -/

namespace Nested

/-- Two directories; one has a file of no language. -/
def talkOs : OS where
  listing p := if p = b!"hi" then some [b!"de.po", b!"fr.po"] else if p = b!"lo" then some [b!"xx.po", b!"de.po"] else none
  content f := if f = b!"hi/de.po" then some b!"msgid \"dog\"\nmsgstr \"Hund\"\n"
    else if f = b!"hi/fr.po" then some b!"msgid \"dog\"\nmsgstr \"chien\"\n"
    else if f = b!"lo/de.po" then some b!"msgid \"dog\"\nmsgstr \"Koeter\"\n" else none

def talkEnv : Env := ⟨.c, demoLib, false, unixFileSystem talkOs, 60⟩

def frLang : Language := Language.fromEnv b!"fr"

/-- A manager for these directories whose language is `de`. -/
def talkCalls : List Call := [.addDirectory b!"lo" false, .addDirectory b!"hi" true, .setLanguage deLang]

def talkManager : Manager := ((script (.init b!"UTF-8") talkCalls).getD (.init []))

theorem talkManager_reach : Reach b!"UTF-8" talkManager := by
  refine script_reach (calls := talkCalls) ?_
  decide +kernel

/-- A callback that makes one call. -/
def once (c : Call) : Body := fun _ answers => if answers.isEmpty then some c else none

theorem once_asks {c : Call} (h : ∀ m, c.Asks m) : OnlyAsks (once c) := by
  intro m as c' hc
  unfold once at hc
  split at hc
  · cases hc; exact h m
  · cases hc

theorem talk_short : ShortFiles talkEnv := by
  intro path s h
  have hall : ∀ f t, talkOs.content f = some t → t.length < 60 := by
    intro f t h
    unfold talkOs at h
    dsimp only at h
    split at h
    · cases h; decide +kernel
    · split at h
      · cases h; decide +kernel
      · split at h
        · cases h; decide +kernel
        · cases h
  have he : talkEnv.fs.openFile path = .stream s := h
  unfold talkEnv unixFileSystem at he
  dsimp only at he
  split at he
  · rename_i t ht
    cases he
    exact hall _ _ ht
  · cases he; decide +kernel

/-- What a call left. -/
def after (o : Out Answer) : Option (Answer × Manager) :=
  match o with
  | .ok a m => some (a, m)
  | _ => none

end Nested

example : ((Call.getDictionary).Asks talkManager ∧ OnlyAsks (once .getDictionary)) ∧
    (after (Nested.call talkEnv (once .getDictionary) 3 .getDictionary talkManager)).any (fun r => decide (r.1 = .dict 1) &&
      decide ((r.2.heap.get? 1).map (fun d => d.entries.get? b!"dog") = some (some [b!"Hund"]))) = true :=
  ⟨⟨trivial, once_asks fun _ => trivial⟩, by decide +kernel⟩

example : 2 ≤ talkEnv.fuel ∧ ShortFiles talkEnv ∧ OnlyAsks (once (.getDictionaryFor frLang)) ∧
    (after (Nested.call talkEnv (once (.getDictionaryFor frLang)) 3 .getDictionary talkManager)).any (fun r => decide (r.1 = .dict 1) &&
      decide (r.2.dictionaries = [(deLang, 1), (frLang, 2)])) = true :=
  ⟨by decide, talk_short, once_asks fun _ => rfl, by decide +kernel⟩

/-! ### Callbacks that do more -/

/-- C92 is false as it stands.  A callback that adds a directory while a dictionary is loaded makes the loop over the search path use an iterator that is no longer valid. -/
theorem C92_false : ¬ ∀ (cs : Str) (m : Manager), Reach cs m → ∀ (env : Env), TameLib env.lib → ∀ (body : Body) (n : Nat) (c : Call) (f : Fault),
    Nested.call env body n c m = .fault f → f = .signedOverflow := by
  intro h
  have := h b!"UTF-8" talkManager talkManager_reach talkEnv demoLib_tame (once (.addDirectory b!"more" true)) 3 .getDictionary .useAfterFree (by decide +kernel)
  cases this

/-- C92: a callback that sets the language while `get_dictionary()` loads.  The dictionary that is and stays cached for `de` has French texts. -/
theorem C92_mixed_up : ∃ m', Nested.call talkEnv (once (.setLanguage frLang)) 3 .getDictionary talkManager = .ok (.dict 1) m' ∧
    m'.dictionaries.get? deLang = some 1 ∧ (Manager.ask 9 1 (.translate b!"dog") m' = .ok b!"chien" m') ∧ m'.currentLanguage = frLang ∧ m'.currentDict = some 1 := by
  have h : (after (Nested.call talkEnv (once (.setLanguage frLang)) 3 .getDictionary talkManager)).any (fun r => decide (r.1 = .dict 1 ∧ r.2.dictionaries.get? deLang = some 1 ∧
      (Manager.ask 9 1 (.translate b!"dog") r.2 = .ok b!"chien" r.2) ∧ r.2.currentLanguage = frLang ∧ r.2.currentDict = some 1)) = true := by
    decide +kernel
  obtain ⟨⟨a, m'⟩, h1, h2, h3⟩ := of_any h
  dsimp only at h2 h3
  subst h2
  refine ⟨m', ?_, h3⟩
  cases hc : Nested.call talkEnv (once (.setLanguage frLang)) 3 .getDictionary talkManager with
  | ok a m => rw [hc] at h1; cases h1; rfl
  | _ => rw [hc] at h1; cases h1

/-- A dictionary that is its own fallback never answers for a message it does not have. -/
theorem Nested.self_diverges {heap : DictId → Option Dictionary} {p : DictId} {d : Dictionary} (hd : heap p = some d) (h1 : d.hasFallback = true) (h2 : d.fallback = some p)
    (i : Str) (hi : d.entries.get? i = none) (f : Nat) : ∀ log, Dictionary.translateIn heap f d d.entries i log = .diverge := by
  induction f with
  | zero => intro log; rfl
  | succ f ih =>
    intro log
    rw [Dictionary.translateIn, hi]
    simp only [h1, if_true, h2, hd]
    exact ih _

/-- C92: a callback that sets the language `de_AT` while `get_dictionary()` loads `de`.  The dictionary becomes its own fallback, and asking it for a message it does not
have never ends. -/
theorem C92_own_fallback : ∃ m', Nested.call talkEnv (once (.setLanguage atLang)) 3 .getDictionary talkManager = .ok (.dict 1) m' ∧
    ∀ fuel i, i ≠ b!"dog" → Manager.ask fuel 1 (.translate i) m' = .diverge := by
  have h : (after (Nested.call talkEnv (once (.setLanguage atLang)) 3 .getDictionary talkManager)).any (fun r => decide (r.1 = .dict 1 ∧
      r.2.heap.get? 1 = some { Dictionary.init b!"UTF-8" with entries := [(b!"dog", [b!"Hund"])], hasFallback := true, fallback := some 1 })) = true := by
    decide +kernel
  obtain ⟨⟨a, m'⟩, h1, h2, h3⟩ := of_any h
  dsimp only at h2 h3
  subst h2
  refine ⟨m', ?_, ?_⟩
  · cases hc : Nested.call talkEnv (once (.setLanguage atLang)) 3 .getDictionary talkManager with
    | ok a m => rw [hc] at h1; cases h1; rfl
    | _ => rw [hc] at h1; cases h1
  · intro fuel i hi
    unfold Manager.ask
    rw [h3]
    dsimp only
    have : Query.on m'.heap.get? fuel { Dictionary.init b!"UTF-8" with entries := [(b!"dog", [b!"Hund"])], hasFallback := true, fallback := some 1 } (.translate i) m'.log = .diverge := by
      refine Nested.self_diverges h3 rfl rfl i ?_ fuel m'.log
      simp only [AMap.get?]
      rw [if_neg (fun e => hi e.symm)]
    rw [this]

namespace Nested

/-- Adds an empty list of plural forms when it hears of a collision. -/
def empties : Body := fun m answers =>
  match m.log.getLast?, answers with
  | some (.collisionSingular ..), [] => some (.add 1 (.plural none b!"dog" b!"dogs" []))
  | _, _ => none

/-- Asks the dictionary of the current language when it hears of a collision, and writes down what it was told. -/
def curious : Body := fun m answers =>
  match m.log.getLast?, answers with
  | some (.collisionSingular ..), [] => some .getDictionary
  | _, [.dict p] => some (.ask p (.translate b!"dog"))
  | _, [.dict _, .text t] => some (.add emptyDict (.singular none b!"seen" t))
  | _, _ => none

/-- The manager of C92 with a directory that cannot be listed in front. -/
def brokenManager : Manager := ((script (.init b!"UTF-8") (talkCalls ++ [.addDirectory b!"gone" true])).getD (.init []))

end Nested

/-- C92: a callback that, on hearing of a collision, adds an empty list of plural forms for the same message, makes `add_translation` write behind the end of a vector. -/
theorem C92_writes_behind : Nested.call talkEnv empties 3 .getDictionary talkManager = .fault .outOfBounds := by decide +kernel

/-- C92: a callback gets the dictionary that is being loaded, and may be told what is overwritten later. -/
theorem C92_half_loaded : ∃ m', Nested.call talkEnv curious 4 .getDictionary talkManager = .ok (.dict 1) m' ∧
    (m'.heap.get? emptyDict).map (fun d => d.entries.get? b!"seen") = some (some [b!"Koeter"]) ∧ (m'.heap.get? 1).map (fun d => d.entries.get? b!"dog") = some (some [b!"Hund"]) := by
  have h : (after (Nested.call talkEnv curious 4 .getDictionary talkManager)).any (fun r => decide (r.1 = .dict 1 ∧
    (r.2.heap.get? emptyDict).map (fun d => d.entries.get? b!"seen") = some (some [b!"Koeter"]) ∧
    (r.2.heap.get? 1).map (fun d => d.entries.get? b!"dog") = some (some [b!"Hund"]))) = true := by
    decide +kernel
  obtain ⟨⟨a, m'⟩, h1, h2, h3⟩ := of_any h
  dsimp only at h2 h3
  subst h2
  refine ⟨m', ?_, h3⟩
  cases hc : Nested.call talkEnv curious 4 .getDictionary talkManager with
  | ok a m => rw [hc] at h1; cases h1; rfl
  | _ => rw [hc] at h1; cases h1

/-- C92: if a directory cannot be listed, a callback that asks for a dictionary during a load ends the program, where the same call outside of callbacks throws. -/
theorem C92_ends_the_program : OnlyAsks (once (.getDictionaryFor frLang)) ∧ Nested.call talkEnv (once (.getDictionaryFor frLang)) 3 .getDictionary brokenManager = .terminated ∧
    ∃ w m', Nested.call talkEnv listens 3 .getDictionary brokenManager = .exn w m' := by
  refine ⟨once_asks fun _ => rfl, by decide +kernel, ?_⟩
  have h : (match Nested.call talkEnv listens 3 .getDictionary brokenManager with | .exn _ _ => true | _ => false) = true := by decide +kernel
  cases hc : Nested.call talkEnv listens 3 .getDictionary brokenManager with
  | exn w m' => exact ⟨w, m', rfl⟩
  | _ => rw [hc] at h; cases h

end Tgt
