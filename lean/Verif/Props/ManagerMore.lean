import Verif.Proofs.MgrReturn
import Verif.Props.ManagerLoad
/-
C52 (histories), C53, C55, C57.
-/
namespace Tgt
open Spec Manager Mgr POParser

/-! ### C52, continued -/

/-- C52.  If no call of the history threw, *every* dictionary that `get_dictionary` returns for a language with a country (new or cached) has as
fallback the object that `get_dictionary` returns for the bare language. -/
theorem C52_always_partial (cs : Str) (calls : List Call) (m m' : Manager) (h : Smooth (.init cs) calls m) (env : Env) (n : Nat) (l : Language) (p : DictId)
    (hg : getDictionaryFor env n l m = .ok p m') (hc : l.getCountry ≠ []) :
    ∃ d q, m'.heap.get? p = some d ∧ d.hasFallback = true ∧ d.fallback = some q ∧
      ∀ env' n', getDictionaryFor env' (n' + 1) (Language.fromSpec l.getLanguage [] []) m' = .ok q m' := by
  have hI := hist_inv (inv_init cs) (smooth_history h)
  have hF := smooth_full (inv_init cs) (full_nil rfl) h
  have hl : l.isDefined = true := by
    cases l with
    | none => exact absurd rfl hc
    | some i => rfl
  have hP := getFor_post env n l m hl hI
  have hF' := full_getFor hI hl hF hg
  rw [hg] at hP
  obtain ⟨_, _, d, hd, _, hfb⟩ := hP.1.cached l p hP.2.2.2.2.1
  have hf := hF' l p d (by simp) hP.2.2.2.2.1 hd hc
  rcases hfb with ⟨h1, _⟩ | ⟨_, _, q, h1, h2⟩
  · rw [h1] at hf; cases hf
  · exact ⟨d, q, hd, hf, h1, fun env' n' => getFor_hit env' n' _ m' (base_defined hl).1 h2⟩

/-- C52 in full, also after exceptions. -/
def C52_Statement : Prop :=
  ∀ (cs : Str) (m m' : Manager) (env : Env) (n : Nat) (l : Language) (p : DictId) (d : Dictionary), Reach cs m →
    getDictionaryFor env n l m = .ok p m' → l.getCountry ≠ [] → m'.heap.get? p = some d → d.hasFallback = true

/-- C52 is false after an exception: the dictionary that was being loaded stays in the cache without fallback. -/
theorem C52_false : ¬ C52_Statement := by
  intro h
  obtain ⟨m0, h0, hx⟩ : ∃ m0, script (.init b!"UTF-8") [.addDirectory b!"nowhere" false, .getDictionaryFor atLang] = some m0 ∧
      (getDictionaryFor demoEnv 5 atLang m0).test (fun p m' => ((m'.heap.get? p).map (fun d => d.hasFallback) == some false) && !atLang.getCountry.isEmpty) = true :=
    of_any (by decide +kernel)
  obtain ⟨p, m', hg, hx⟩ := ok_of_test hx
  simp only [Bool.and_eq_true, beq_iff_eq] at hx
  cases hd : m'.heap.get? p with
  | none => rw [hd] at hx; cases hx.1
  | some d =>
    rw [hd] at hx
    have := h _ m0 m' demoEnv 5 atLang p d (script_reach h0) hg (by intro e; rw [e] at hx; simp at hx) hd
    simp [this] at hx

-- "dog" is only in de.po; the Austrian dictionary finds it there
example : scriptAsk [.addDirectory b!"hi" false, .getDictionaryFor atLang] 1 (.translate b!"dog") = some b!"Hund" ∧
    scriptAsk [.addDirectory b!"hi" false, .getDictionaryFor atLang] 1 (.translate b!"potato") = some b!"Erdapfel" := by
  decide +kernel

/-! ### C53: `use_fuzzy` -/

/-- C53 in full: with `use_fuzzy` off, a message that parsing the best files without fuzzy entries does not store is not stored. -/
def C53_Statement : Prop :=
  ∀ (cs : Str) (m m' : Manager) (env : Env) (n : Nat) (l : Language) (p : DictId) (d : Dictionary) (msgid : Str), Reach cs m →
    getUseFuzzy m = .ok false m → getDictionaryFor env n l m = .ok p m' → m.heap.get? p = none → m'.heap.get? p = some d →
    (∀ dir ∈ m.searchPath, ∀ files f s e, env.fs.openDirectory dir = .ok files → BestFile env.ct l files f →
      env.fs.openFile (dir ++ b!"/" ++ f) = .stream s →
      (observe (POParser.run ⟨env.ct, env.lib, env.pedantic, dir ++ b!"/" ++ f, false, env.fuel⟩ s (.init m.charset))).dict? = some e →
      stored e none msgid = none) →
    stored d none msgid = none

/-- C53, what holds instead: the flag is remembered but has no influence at all on `get_dictionary`. -/
theorem C53_flag_ignored_partial (env : Env) (b : Bool) (n : Nat) : ∀ (l : Language) (m : Manager),
    getDictionaryFor env n l { m with useFuzzy := b } = (getDictionaryFor env n l m).mapS (fun m' => { m' with useFuzzy := b }) := by
  induction n with
  | zero => intro l m; rfl
  | succ n ih =>
    intro l m
    cases hl : l.isDefined with
    | false => rw [getDictionaryFor, if_pos (by simp [hl])]; rfl
    | true =>
      cases hn : m.dictionaries.get? l with
      | some q => rw [getFor_hit env n l m hl hn, getFor_hit env n l { m with useFuzzy := b } hl hn]; rfl
      | none =>
        rw [getFor_miss env n l m hl hn, getFor_miss env n l { m with useFuzzy := b } hl hn]
        show (match (dirs1 env l m.searchPath.reverse (Dictionary.init m.charset, m.log)).mapS (put (fresh l { m with useFuzzy := b }) m.nextId) with
          | .ok _ m1 => _ | .poError m1 => _ | .exn w m1 => _ | .fault e => _ | .diverge => _) = _
        cases dirs1 env l m.searchPath.reverse (Dictionary.init m.charset, m.log) with
        | ok a x =>
          dsimp only [Res.mapS]
          by_cases hc : l.getCountry = []
          · rw [if_pos hc, if_pos hc]; rfl
          · rw [if_neg hc, if_neg hc]
            have e : put (fresh l { m with useFuzzy := b }) m.nextId x = { put (fresh l m) m.nextId x with useFuzzy := b } := rfl
            rw [e, ih]
            cases getDictionaryFor env n (baseOf l) (put (fresh l m) m.nextId x) with
            | ok fb m2 =>
              dsimp only [Res.mapS]
              simp only [prog_bind, bind_apply]
              unfold Manager.addFallback
              dsimp only
              cases m2.heap.get? m.nextId <;> rfl
            | _ => rfl
        | _ => rfl

/-- C53 is false of this code. -/
theorem C53_false : ¬ C53_Statement := by
  intro h
  obtain ⟨m0, h0, hx⟩ : ∃ m0, script (.init b!"UTF-8") [.setUseFuzzy false, .addDirectory b!"lo" false] = some m0 ∧
      (m0.searchPath = [b!"lo"] ∧ m0.charset = b!"UTF-8" ∧ m0.heap.get? 1 = none ∧ m0.useFuzzy = false ∧
      (getDictionaryFor demoEnv 5 deLang m0).test (fun p m' => p == 1 && ((m'.heap.get? 1).map (fun d => d.entries.get? b!"cat") == some (some [b!"Katze"]))) = true) :=
    of_any (by decide +kernel)
  obtain ⟨hpath, hcs, hnew, hfz, hx⟩ := hx
  obtain ⟨p, m', hg, hx⟩ := ok_of_test hx
  simp only [Bool.and_eq_true, beq_iff_eq] at hx
  obtain ⟨hp1, hx⟩ := hx
  subst hp1
  cases hd : m'.heap.get? 1 with
  | none => rw [hd] at hx; cases hx
  | some d =>
    rw [hd] at hx
    simp only [Option.map_some, Option.some.injEq] at hx
    have := h _ m0 m' demoEnv 5 deLang 1 d b!"cat" (script_reach h0) (by unfold getUseFuzzy; rw [hfz]) hg hnew hd ?_
    · have e : stored d none b!"cat" = some [b!"Katze"] := hx
      rw [e] at this; cases this
    · intro dir hdir files f s e ho hb hf he
      rw [hpath] at hdir
      simp only [List.mem_singleton] at hdir
      subst hdir
      have ho' : demoEnv.fs.openDirectory b!"lo" = .ok [b!"de.po"] := rfl
      rw [ho'] at ho
      cases ho
      have hfe : f = b!"de.po" := by
        obtain ⟨b, a, e, _⟩ := hb
        cases b with
        | nil => simp at e; exact e.1.symm
        | cons x t => simp at e
      subst hfe
      rw [hcs] at he
      have hs : demoEnv.fs.openFile (b!"lo" ++ b!"/" ++ b!"de.po") = .stream (.ofBytes (b!"msgid \"\"\nmsgstr \"Plural-Forms: nplurals=2; plural=(n > 1);\\n\"\n\n" ++
          b!"msgid \"dog\"\nmsgstr \"Koeter\"\n\n#, fuzzy\nmsgid \"cat\"\nmsgstr \"Katze\"\n")) := by decide +kernel
      rw [hs] at hf
      cases hf
      have : ((observe (POParser.run ⟨demoEnv.ct, demoEnv.lib, demoEnv.pedantic, b!"lo" ++ b!"/" ++ b!"de.po", false, demoEnv.fuel⟩
          (.ofBytes (b!"msgid \"\"\nmsgstr \"Plural-Forms: nplurals=2; plural=(n > 1);\\n\"\n\n" ++
          b!"msgid \"dog\"\nmsgstr \"Koeter\"\n\n#, fuzzy\nmsgid \"cat\"\nmsgstr \"Katze\"\n")) (.init b!"UTF-8"))).dict?.map (fun e => stored e none b!"cat")) = some none := by
        decide +kernel
      rw [he] at this
      simpa using this

/-! ### C55: the available languages -/

/-- C55 in full: the languages are the defined ones that the `.po` files denote for `get_dictionary`. -/
def C55_Statement : Prop :=
  ∀ (cs : Str) (m m' : Manager) (env : Env) (ls : List Language), Reach cs m → getLanguages env m = .ok ls m' →
    ls.Nodup ∧ ∀ l, l ∈ ls ↔ l.isDefined = true ∧ ∃ dir ∈ m.searchPath, ∃ files, env.fs.openDirectory dir = .ok files ∧ ∃ f ∈ files, denoted env.ct f = some l

/-- C55, what holds in general: if all directories can be listed the call returns exactly the languages (the undefined one included) of the names of the
`.po` files, with the name taken as it is; it returns each once, and changes nothing. -/
theorem C55_languages_partial (cs : Str) (m : Manager) (_hr : Reach cs m) (env : Env) (hd : ∀ dir ∈ m.searchPath, ∃ files, env.fs.openDirectory dir = .ok files) :
    ∃ ls, getLanguages env m = .ok ls m ∧ ls.Nodup ∧
      ∀ l, l ∈ ls ↔ ∃ dir ∈ m.searchPath, ∃ files, env.fs.openDirectory dir = .ok files ∧
        ∃ f ∈ files, b!".po" <:+ f ∧ l = Language.fromEnv (f.take (f.length - 3)) := by
  unfold getLanguages
  simp only [prog_bind, bind_apply, Prog.get]
  rcases collectDirs_spec env m.searchPath [] m List.Pairwise.nil with ⟨l, h1, h2, _, h4⟩ | ⟨w, _, dir, h2, h3⟩
  · refine ⟨l, h1, ?_, fun x => by rw [h4 x]; simp⟩
    refine List.Pairwise.imp ?_ h2
    rintro a b hab rfl
    rw [before_irrefl] at hab; cases hab
  · obtain ⟨files, hf⟩ := hd dir h2
    rw [hf] at h3; cases h3

/-- C55.  The result does not depend on the order of directories or files: two managers (in two worlds) whose search paths list the same files
return the same list. -/
theorem C55_order_independent (cs cs' : Str) (m k m' k' : Manager) (_hr : Reach cs m) (_hk : Reach cs' k) (env env' : Env) (ls ls' : List Language)
    (h : getLanguages env m = .ok ls m') (h' : getLanguages env' k = .ok ls' k')
    (hs : ∀ f, (∃ dir ∈ m.searchPath, ∃ files, env.fs.openDirectory dir = .ok files ∧ f ∈ files) ↔
      ∃ dir ∈ k.searchPath, ∃ files, env'.fs.openDirectory dir = .ok files ∧ f ∈ files) : ls = ls' := by
  have key : ∀ {env : Env} {m m' : Manager} {ls : List Language}, getLanguages env m = .ok ls m' → Sorted ls ∧
      ∀ x, x ∈ ls ↔ ∃ f, (∃ dir ∈ m.searchPath, ∃ files, env.fs.openDirectory dir = .ok files ∧ f ∈ files) ∧ b!".po" <:+ f ∧ x = Language.fromEnv (f.take (f.length - 3)) := by
    intro env m m' ls h
    unfold getLanguages at h
    simp only [prog_bind, bind_apply, Prog.get] at h
    rcases collectDirs_spec env m.searchPath [] m List.Pairwise.nil with ⟨l, h1, h2, _, h4⟩ | ⟨w, h1, _⟩
    · rw [h1] at h
      cases h
      refine ⟨h2, ?_⟩
      intro x
      rw [h4]
      constructor
      · rintro (h | ⟨d, a, fs, b, f, c, e⟩)
        · cases h
        · exact ⟨f, ⟨d, a, fs, b, c⟩, e⟩
      · rintro ⟨f, ⟨d, a, fs, b, c⟩, e⟩
        exact .inr ⟨d, a, fs, b, f, c, e⟩
    · rw [h1] at h; cases h
  obtain ⟨a1, a2⟩ := key h
  obtain ⟨b1, b2⟩ := key h'
  refine sorted_ext ls ls' a1 b1 ?_
  intro x
  rw [a2, b2]
  constructor
  · rintro ⟨f, hf, e⟩; exact ⟨f, (hs f).1 hf, e⟩
  · rintro ⟨f, hf, e⟩; exact ⟨f, (hs f).2 hf, e⟩

/-- C55.  The full statement holds when every `.po` file name is that of a known language with the country (if any) in capitals already. -/
theorem C55_canonical_names (cs : Str) (m : Manager) (hr : Reach cs m) (env : Env)
    (hd : ∀ dir ∈ m.searchPath, ∃ files, env.fs.openDirectory dir = .ok files)
    (hn : ∀ dir ∈ m.searchPath, ∀ files, env.fs.openDirectory dir = .ok files → ∀ f ∈ files, b!".po" <:+ f →
      denoted env.ct f = some (Language.fromEnv (f.take (f.length - 3))) ∧ (Language.fromEnv (f.take (f.length - 3))).isDefined = true) :
    ∃ ls, getLanguages env m = .ok ls m ∧ ls.Nodup ∧
      ∀ l, l ∈ ls ↔ l.isDefined = true ∧ ∃ dir ∈ m.searchPath, ∃ files, env.fs.openDirectory dir = .ok files ∧ ∃ f ∈ files, denoted env.ct f = some l := by
  obtain ⟨ls, h1, h2, h3⟩ := C55_languages_partial cs m hr env hd
  refine ⟨ls, h1, h2, ?_⟩
  intro l
  rw [h3]
  constructor
  · rintro ⟨dir, a, files, b, f, c, e, rfl⟩
    obtain ⟨n1, n2⟩ := hn dir a files b f c e
    exact ⟨n2, dir, a, files, b, f, c, n1⟩
  · rintro ⟨_, dir, a, files, b, f, c, e⟩
    by_cases hs : b!".po" <:+ f
    · obtain ⟨n1, _⟩ := hn dir a files b f c hs
      rw [n1] at e
      cases e
      exact ⟨dir, a, files, b, f, c, hs, rfl⟩
    · unfold denoted at e
      rw [if_neg hs] at e
      cases e

/-- C55 is false of this code: `xx.po` makes the undefined language appear. -/
theorem C55_false : ¬ C55_Statement := by
  intro h
  obtain ⟨m0, h0, hx⟩ : ∃ m0, script (.init b!"UTF-8") [.addDirectory b!"hi" false] = some m0 ∧
      (getLanguages demoEnv m0).test (fun ls _ => ls.contains none) = true := of_any (by decide +kernel)
  obtain ⟨ls, m', hg, hx⟩ := ok_of_test hx
  have := ((h _ m0 m' demoEnv ls (script_reach h0) hg).2 none).1 (by simpa using hx)
  exact absurd this.1 (by decide)

/-! ### C57: failing files -/

/-- C57.  If all directories of the search path can be listed and the parses of the best files come to an end (normally or by an exception),
`get_dictionary` returns normally, whichever files cannot be opened. -/
theorem C57_returns (cs : Str) (m : Manager) (hr : Reach cs m) (env : Env) (n : Nat) (hn : 2 ≤ n) (l : Language) (hl : l.isDefined = true)
    (hd : ∀ dir ∈ m.searchPath, ∃ files, env.fs.openDirectory dir = .ok files)
    (hp : ∀ l', l' = l ∨ l' = Language.fromSpec l.getLanguage [] [] → ∀ dir ∈ m.searchPath, ∀ files f s, env.fs.openDirectory dir = .ok files →
      BestFile env.ct l' files f → env.fs.openFile (dir ++ b!"/" ++ f) = .stream s → ∀ d, (parseFile env (dir ++ b!"/" ++ f) s d).Ended) :
    ∃ p m', getDictionaryFor env n l m = .ok p m' := by
  obtain ⟨k, rfl⟩ : ∃ k, n = k + 2 := ⟨n - 2, by omega⟩
  exact getFor_returns (reach_inv hr) hl ⟨hd, fun dir h1 files f s h2 h3 h4 => hp l (.inl rfl) dir h1 files f s h2 h3 h4⟩
    ⟨hd, fun dir h1 files f s h2 h3 h4 => hp _ (.inr rfl) dir h1 files f s h2 h3 h4⟩

/-- C57.  The only exceptions that leave `get_dictionary` are those of listing a directory of the search path. -/
theorem C57_only_listing_throws (m m' : Manager) (env : Env) (n : Nat) (l : Language) (hl : l.isDefined = true) (w : Str)
    (h : getDictionaryFor env n l m = .exn w m') : ∃ dir ∈ m.searchPath, env.fs.openDirectory dir = .error w :=
  getFor_exn n hl h

theorem Mgr.dirEff_unreadable {env : Env} {l : Language} {cs dir : Str} (h : Unreadable env l dir) : dirEff env l cs dir = ⟨[], none⟩ := by
  obtain ⟨files, f, ho, hb, hf⟩ := h
  unfold dirEff
  rw [ho]
  dsimp only
  rcases best_cases env.ct l files with ⟨h1, h2⟩ | ⟨h1, h2⟩
  · rw [if_pos h2]
  · rw [if_neg (by rw [h2]; simp)]
    have := (C49_best_unique env.ct l files).1 f _ hb h1
    rw [← this]
    rcases hf with hf | ⟨w, hf⟩ | hf
    · rw [hf]
    · rw [hf]
    · rw [hf]
      exact peff_failed _ _

/-- C57.  A best file that cannot be opened (null, an exception, or a stream in failed state) contributes nothing and disturbs nothing: the
dictionary is the same as without that directory. -/
theorem C57_unreadable (cs cs' : Str) (m m' k k' : Manager) (hr : Reach cs m) (hk : Reach cs' k) (env : Env) (n n' : Nat) (l : Language) (p q : DictId)
    (hg : getDictionaryFor env n l m = .ok p m') (hp : m.heap.get? p = none)
    (hg' : getDictionaryFor env n' l k = .ok q k') (hq : k.heap.get? q = none) (hcs : k.charset = m.charset)
    (before after : List Str) (dir : Str) (hpath : m.searchPath = before ++ dir :: after) (hpath' : k.searchPath = before ++ after)
    (hu : ∃ files f, env.fs.openDirectory dir = .ok files ∧ BestFile env.ct l files f ∧
      (env.fs.openFile (dir ++ b!"/" ++ f) = .null ∨ (∃ w, env.fs.openFile (dir ++ b!"/" ++ f) = .throws w) ∨
        env.fs.openFile (dir ++ b!"/" ++ f) = .stream .failed)) :
    ∃ d d', m'.heap.get? p = some d ∧ k'.heap.get? q = some d' ∧ unlinked d = unlinked d' := by
  obtain ⟨d, h1, h2, _⟩ := new_ok (reach_inv hr) hg hp
  obtain ⟨d', h1', h2', _⟩ := new_ok (reach_inv hk) hg' hq
  refine ⟨d, d', h1, h1', ?_⟩
  rw [h2, h2', hpath, hpath', hcs, pathEff_append, pathEff_append]
  congr 1
  show (dirEff env l m.charset dir).applyTo _ = _
  rw [dirEff_unreadable hu, applyTo_none]
  rfl

/-- A world in which `bad/de.po` makes the parser throw after one entry, `gone/de.po` cannot be opened, and `lo` is as before. -/
def badOs : OS where
  listing p := if p = b!"bad" then some [b!"de.po"] else if p = b!"gone" then some [b!"de.po"] else demoOs.listing p
  content f :=
    if f = b!"bad/de.po" then some (b!"msgid \"a\"\nmsgstr \"A\"\n\nmsgid \"\"\nmsgstr \"Content-Type: text/plain; charset=nonsense\\n\"\n\nmsgid \"b\"\nmsgstr \"B\"\n")
    else demoOs.content f

-- everything else is there, and what came before the exception too
example : ((getDictionaryFor { demoEnv with fs := unixFileSystem badOs } 3 deLang (newManager ⟨[b!"bad", b!"gone", b!"lo"], b!"UTF-8", true⟩)).test
    (fun p m' => (m'.heap.get? p).map (fun d => (d.entries.get? b!"a", d.entries.get? b!"b", d.entries.get? b!"dog")) == some (some [b!"A"], none, some [b!"Koeter"]))) = true := by
  decide +kernel

end Tgt
