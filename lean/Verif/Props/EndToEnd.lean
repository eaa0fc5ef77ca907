import Verif.Proofs.Catalogue
import Verif.Props.ManagerLoad
/-
C62: what is written in installed catalogues is what lookups return.
-/
namespace Tgt
open Spec Manager Mgr POParser Po

namespace Mgr

theorem like_instEff (r : PluralForms) (cs : Str) (i : Installation) : Like (Dictionary.init cs) (instEff r i (Dictionary.init cs)) := by
  induction i with
  | nil => exact ⟨rfl, rfl, rfl⟩
  | cons x i ih =>
    show Like _ (catEff r x (instEff r i _))
    unfold catEff
    cases x.2 with
    | none => exact ih
    | some c =>
      have := like_applyTo (⟨c.messages.map Message.add, some r⟩ : Effect) (instEff r i (Dictionary.init cs))
      exact ⟨this.1.trans ih.1, this.2.1.trans ih.2.1, this.2.2.trans ih.2.2⟩

/-- Lookups that find something. -/
theorem translated_of {r : PluralForms} {m : Message} {p : DictId} {s : Manager} {d : Dictionary} (hd : s.heap.get? p = some d)
    (hr : d.pluralForms = r) {old : List Str} (hl : d.lookup (m.ctxt, m.msgid) = some (m.add.newVec old)) : Translated r m p s := by
  have hctx : ∀ x v, m.ctxt = some x → d.lookup (m.ctxt, m.msgid) = some v → ∃ e, d.ctxtEntries.get? x = some e ∧ e.get? m.msgid = some v := by
    intro x v hx h
    rw [hx] at h
    unfold Dictionary.lookup at h
    dsimp only at h
    split at h
    · rename_i e he; exact ⟨e, he, h⟩
    · cases h
  refine ⟨?_, ?_⟩
  · intro hp k
    have hv : m.add.newVec old = m.strs.headD [] :: old.tail := by unfold Message.add; rw [hp]; rfl
    rw [hv] at hl
    unfold ask
    rw [hd]
    dsimp only
    cases hc : m.ctxt with
    | none =>
      rw [hc] at hl
      have hl : d.entries.get? m.msgid = some (m.strs.headD [] :: old.tail) := hl
      simp only [lookupOf, Query.on, Dictionary.translate, Dict.translateIn_hit _ _ _ _ _ _ _ hl]
    | some x =>
      obtain ⟨e, he, hv⟩ := hctx x _ hc hl
      simp only [lookupOf, Query.on, Dictionary.translateCtxt, he, Dict.translateIn_hit _ _ _ _ _ _ _ hv]
  · intro q hp k n t ht hne
    have hv : m.add.newVec old = m.strs := by unfold Message.add; rw [hp]; rfl
    rw [hv] at hl
    have hP : ∀ e : Entries, e.get? m.msgid = some m.strs → d.translatePluralIn e m.msgid q n = (t, []) := by
      intro e he
      unfold Dictionary.translatePluralIn
      rw [he]
      dsimp only
      rw [hr, ht]
      dsimp only
      rw [if_pos (by simpa using hne)]
    unfold ask
    rw [hd]
    dsimp only
    cases hc : m.ctxt with
    | none =>
      rw [hc] at hl
      simp only [pluralLookupOf, Query.on, Dictionary.translatePlural, hP _ hl, List.append_nil]
    | some x =>
      obtain ⟨e, he, hv⟩ := hctx x _ hc hl
      simp only [pluralLookupOf, Query.on, Dictionary.translateCtxtPlural, he, hP _ hv, List.append_nil]

theorem first_good {env : Env} {cs : Str} {r : PluralForms} {l : Language} {path : List Str} {i : Installation} (h : Offers env cs r l path i)
    {m : Message} (hm : First i m) : ∃ x ∈ i, ∃ c, x.2 = some c := by
  obtain ⟨before, dir, c, after, rfl, hmc, _⟩ := hm
  exact ⟨(dir, some c), by simp, c, rfl⟩

/-- A dictionary that holds what an installation offers. -/
theorem translated_inst {env : Env} {cs : Str} {r : PluralForms} {l : Language} {path : List Str} {i : Installation} (h : Offers env cs r l path i)
    {m : Message} (hm : First i m) {s : Manager} {p : DictId} {d : Dictionary} (hd : s.heap.get? p = some d)
    (hu : unlinked d = instEff r i (Dictionary.init cs)) : Translated r m p s := by
  have hx := first_good h hm
  obtain ⟨old, ho⟩ := instEff_first (r := r) hm (fun x hx c hc => (h.good x hx c hc).distinct) (Dictionary.init cs)
  rw [← hu, lookup_unlinked] at ho
  refine translated_of hd ?_ ho
  have hpf : (unlinked d).pluralForms = d.pluralForms := rfl
  rw [← hpf, hu]
  exact instEff_defined r i _ (by intro h; cases h) hx

theorem instEff_none {r : PluralForms} {cs : Str} {i : Installation} {ctxt : Option Str} {msgid : Str} (h : Lacks i ctxt msgid)
    {d : Dictionary} (hu : unlinked d = instEff r i (Dictionary.init cs)) : stored d ctxt msgid = none := by
  rw [stored_lookup, ← lookup_unlinked, hu, instEff_lacks i h]
  exact init_lookup cs _

end Mgr

/-- A manager with an empty cache. -/
theorem Mgr.empty_translated (m : Manager) (h1 : m.dictionaries = [])
    (env : Env) (n : Nat) (l : Language) (hdef : l.isDefined = true) (hco : l.getCountry = []) (r : PluralForms) (i : Installation)
    (hi : Offers env m.charset r l m.searchPath i) :
    ∃ p m', getDictionaryFor env (n + 1) l m = .ok p m' ∧
      (∀ msg, First i msg → Translated r msg p m') ∧
      ∀ ctxt msgid, Lacks i ctxt msgid → ∀ k, ask (k + 1) p (lookupOf ctxt msgid) m' = .ok msgid { m' with log := m'.log ++ [.couldntTranslate msgid] } := by
  have hn : m.dictionaries.get? l = none := by rw [h1]; rfl
  obtain ⟨lg, hload⟩ := offers_load hi m.log
  have hlike := like_instEff r m.charset i
  have hg := getFor_miss env n l m hdef hn
  rw [hload] at hg
  dsimp only [Res.mapS] at hg
  rw [if_pos hco] at hg
  refine ⟨_, _, hg, ?_, ?_⟩
  · intro msg hmsg
    exact translated_inst hi hmsg (AMap.get?_set_self _ _ _) (unlinked_like hlike)
  · intro ctxt msgid hlk k
    have hs := instEff_none (r := r) (cs := m.charset) hlk (unlinked_like hlike)
    have hh : (put (fresh l m) m.nextId (instEff r i (Dictionary.init m.charset), lg)).heap.get? m.nextId = some (instEff r i (Dictionary.init m.charset)) :=
      AMap.get?_set_self _ _ _
    have hf : (instEff r i (Dictionary.init m.charset)).hasFallback = false := hlike.2.1
    unfold ask
    rw [hh]
    dsimp only
    cases ctxt with
    | none =>
      have hs : (instEff r i (Dictionary.init m.charset)).entries.get? msgid = none := hs
      simp only [lookupOf, Query.on, Dictionary.translate]
      rw [Dict.translateIn_miss _ _ _ _ _ (by rw [hs]; rfl) hf]
    | some x =>
      have hs : ((instEff r i (Dictionary.init m.charset)).ctxtEntries.get? x).bind (fun e => e.get? msgid) = none := hs
      simp only [lookupOf, Query.on, Dictionary.translateCtxt]
      cases hx : (instEff r i (Dictionary.init m.charset)).ctxtEntries.get? x with
      | none => rfl
      | some e =>
        rw [hx] at hs
        dsimp only
        rw [Dict.translateIn_miss _ _ _ _ _ (by rw [show e.get? msgid = none from hs]; rfl) hf]

/-- A manager with an empty cache. -/
theorem Mgr.empty_translated_country (m : Manager) (hI : Inv m) (h1 : m.dictionaries = [])
    (env : Env) (n : Nat) (l : Language) (hdef : l.isDefined = true) (hco : l.getCountry ≠ []) (r r' : PluralForms) (i j : Installation)
    (hi : Offers env m.charset r l m.searchPath i)
    (hj : Offers env m.charset r' (Language.fromSpec l.getLanguage [] []) m.searchPath j) :
    ∃ p m', getDictionaryFor env (n + 2) l m = .ok p m' ∧
      (∀ msg, First i msg → Translated r msg p m') ∧
      (∀ msg, First j msg → msg.ctxt = none → msg.plural = none → Lacks i none msg.msgid → ∀ k,
        ask (k + 2) p (.translate msg.msgid) m' = .ok (msg.strs.headD []) { m' with log := m'.log ++ [.couldntTranslate msg.msgid] }) ∧
      ∀ msgid, Lacks i none msgid → Lacks j none msgid → ∀ k, ∃ log, ask (k + 2) p (.translate msgid) m' = .ok msgid { m' with log := log } := by
  have hn : m.dictionaries.get? l = none := by rw [h1]; rfl
  have hbase : baseOf l = Language.fromSpec l.getLanguage [] [] := rfl
  obtain ⟨lg0, hload0⟩ := offers_load hi []
  have hs := cold_shows env (n + 2) l hdef m hn (by rw [h1]; rfl)
  unfold cold at hs
  dsimp only at hs
  rw [hload0] at hs
  dsimp only at hs
  rw [if_neg hco] at hs
  obtain ⟨lg4, hload4⟩ := offers_load hj lg0
  rw [hbase, hload4] at hs
  dsimp only at hs
  cases hres : getDictionaryFor env (n + 2) l m with
  | ok p m' =>
    obtain ⟨_, hp, x, d, hx, hd, hu, hfb⟩ := miss_ok hI hres hn
    obtain ⟨hf1, q, hq, hbq⟩ := hfb hco
    have hP := getFor_post env (n + 2) l m hdef hI
    rw [hres] at hP
    have hI' := hP.1
    obtain ⟨hbd, _, e, he, _, hfe⟩ := hI'.cached _ _ hbq
    have hfe' : e.hasFallback = false := by
      rcases hfe with h | ⟨_, h, _⟩
      · exact h.1
      · exact absurd (base_defined hdef).2 h
    rw [hload0] at hx
    cases hx
    have hu : unlinked d = instEff r i (Dictionary.init m.charset) := hu
    -- the contents of the fallback
    have hue : unlinked e = instEff r' j (Dictionary.init m.charset) := by
      rw [hres] at hs
      obtain ⟨hs, _⟩ := hs
      unfold contents at hs
      rw [hd] at hs
      simp only [Option.map_some, hq, Option.bind_some, he, Option.some.injEq, Prod.mk.injEq] at hs
      exact hs.2
    refine ⟨p, m', rfl, ?_, ?_, ?_⟩
    · intro msg hmsg
      exact translated_inst hi hmsg hd hu
    · intro msg hmsg hctx hpl hlk k
      have hs : (d.entries.get? msg.msgid).bind List.head? = none := by
        have : stored d none msg.msgid = none := instEff_none hlk hu
        rw [show d.entries.get? msg.msgid = none from this]; rfl
      have ht := (translated_inst hj hmsg he hue).1 hpl k
      rw [hctx] at ht
      unfold ask at ht ⊢
      rw [he] at ht
      rw [hd]
      dsimp only [lookupOf] at ht ⊢
      have e1 : (Query.translate msg.msgid).on m'.heap.get? (k + 2) d m'.log
          = Dictionary.translateIn m'.heap.get? (k + 1) e e.entries msg.msgid (m'.log ++ [.couldntTranslate msg.msgid]) :=
        Dict.translateIn_fallback _ (k + 1) d e q d.entries msg.msgid hs hf1 hq he m'.log
      rw [e1]
      -- the fallback has it
      obtain ⟨old, ho⟩ := instEff_first (r := r') hmsg (fun x hx c hc => (hj.good x hx c hc).distinct) (Dictionary.init m.charset)
      rw [← hue, lookup_unlinked, hctx] at ho
      have hv : msg.add.newVec old = msg.strs.headD [] :: old.tail := by unfold Message.add; rw [hpl]; rfl
      rw [hv] at ho
      rw [Dict.translateIn_hit _ _ _ _ _ _ _ (show e.entries.get? msg.msgid = some _ from ho)]
    · intro msgid hlk hlk' k
      have hs : (d.entries.get? msgid).bind List.head? = none := by
        have : stored d none msgid = none := instEff_none hlk hu
        rw [show d.entries.get? msgid = none from this]; rfl
      have hs' : (e.entries.get? msgid).bind List.head? = none := by
        have : stored e none msgid = none := instEff_none hlk' hue
        rw [show e.entries.get? msgid = none from this]; rfl
      refine ⟨m'.log ++ [.couldntTranslate msgid] ++ [.couldntTranslate msgid], ?_⟩
      unfold ask
      rw [hd]
      dsimp only
      have e1 : (Query.translate msgid).on m'.heap.get? (k + 2) d m'.log
          = Dictionary.translateIn m'.heap.get? (k + 1) e e.entries msgid (m'.log ++ [.couldntTranslate msgid]) :=
        Dict.translateIn_fallback _ (k + 1) d e q d.entries msgid hs hf1 hq he m'.log
      rw [e1, Dict.translateIn_miss _ _ _ _ _ hs' hfe']
  | _ => rw [hres] at hs; exact hs.elim

/-- C62.  A manager whose configuration has just changed (a directory was added, say), whatever happened before, is
asked for the dictionary of a language without country.  For every directory of its search path let the file system hold
nothing for that language or a catalogue, all with the charset of the manager and the same plural rule `r`.  Then
`get_dictionary` returns a dictionary, and looking up any message that some catalogue has gives exactly what is
written in the first such catalogue of the search path, for plural messages the string that `r` selects for the number;
looking up a message that no catalogue has gives back the msgid. -/
theorem C62_translated (cs : Str) (m0 m : Manager) (hr : Reach cs m0) (c : Call) (hc : c.Changes m0) (env0 : Env) (hl : c.Leads env0 m0 m)
    (env : Env) (n : Nat) (l : Language) (hdef : l.isDefined = true) (hco : l.getCountry = []) (r : PluralForms) (i : Installation)
    (hi : Offers env m.charset r l m.searchPath i) :
    ∃ p m', getDictionaryFor env (n + 1) l m = .ok p m' ∧
      (∀ msg, First i msg → Translated r msg p m') ∧
      ∀ ctxt msgid, Lacks i ctxt msgid → ∀ k, ask (k + 1) p (lookupOf ctxt msgid) m' = .ok msgid { m' with log := m'.log ++ [.couldntTranslate msgid] } := by
  obtain ⟨h1, _, hI, _⟩ := changes_cleared (reach_inv hr) hc hl
  exact empty_translated m h1 env n l hdef hco r i hi

/-- C62.  The same for a language with a country: messages of the country's catalogues translate as written there; a
message without context that these lack translates as written in the catalogues of the bare language (a singular one),
or to the msgid if those lack it, too. -/
theorem C62_translated_country (cs : Str) (m0 m : Manager) (hr : Reach cs m0) (c : Call) (hc : c.Changes m0) (env0 : Env) (hl : c.Leads env0 m0 m)
    (env : Env) (n : Nat) (l : Language) (hdef : l.isDefined = true) (hco : l.getCountry ≠ []) (r r' : PluralForms) (i j : Installation)
    (hi : Offers env m.charset r l m.searchPath i)
    (hj : Offers env m.charset r' (Language.fromSpec l.getLanguage [] []) m.searchPath j) :
    ∃ p m', getDictionaryFor env (n + 2) l m = .ok p m' ∧
      (∀ msg, First i msg → Translated r msg p m') ∧
      (∀ msg, First j msg → msg.ctxt = none → msg.plural = none → Lacks i none msg.msgid → ∀ k,
        ask (k + 2) p (.translate msg.msgid) m' = .ok (msg.strs.headD []) { m' with log := m'.log ++ [.couldntTranslate msg.msgid] }) ∧
      ∀ msgid, Lacks i none msgid → Lacks j none msgid → ∀ k, ∃ log, ask (k + 2) p (.translate msgid) m' = .ok msgid { m' with log := log } := by
  obtain ⟨h1, _, hI, _⟩ := changes_cleared (reach_inv hr) hc hl
  exact empty_translated_country m hI h1 env n l hdef hco r r' i j hi hj

/-! ### An installation -/

/-- German in `hi`. -/
def catHi : Catalogue := ⟨b!"utf-8", b!"Plural-Forms: nplurals=2; plural=(n != 1);",
  [⟨none, b!"dog", none, [b!"Hund"]⟩, ⟨none, b!"%d file", some b!"%d files", [b!"%d Datei", b!"%d Dateien"]⟩],
  [⟨none, b!"dog", none, [b!"Hund"]⟩, ⟨none, b!"%d file", some b!"%d files", [b!"%d Datei", b!"%d Dateien"]⟩]⟩
/-- German in `lo`. -/
def catLo : Catalogue := ⟨b!"UTF-8", b!"Plural-Forms: nplurals=2; plural=(n != 1);",
  [⟨none, b!"dog", none, [b!"Koeter"]⟩, ⟨some b!"menu", b!"potato", none, [b!"Kartoffel"]⟩, ⟨none, b!"potato", none, [b!"Kartoffel"]⟩],
  [⟨none, b!"dog", none, [b!"Koeter"]⟩, ⟨some b!"menu", b!"potato", none, [b!"Kartoffel"]⟩, ⟨none, b!"potato", none, [b!"Kartoffel"]⟩]⟩
/-- Austrian German in `lo`: a file in Latin-1. -/
def catAt : Catalogue := ⟨b!"iso-8859-1", b!"Plural-Forms: nplurals=2; plural=(n != 1);",
  [⟨none, b!"potato", none, [b!"Erd" ++ 0xe4 :: b!"pfel"]⟩], [⟨none, b!"potato", none, [b!"Erdäpfel"]⟩]⟩

/-- Files. -/
def catOs : OS where
  listing p :=
    if p = b!"hi" then some [b!"README", b!"fr.po", b!"de.po"]
    else if p = b!"lo" then some [b!"de.po", b!"de_AT.po"]
    else none
  content f :=
    if f = b!"hi/de.po" then some catHi.text
    else if f = b!"lo/de.po" then some catLo.text
    else if f = b!"lo/de_AT.po" then some catAt.text
    else none

/-- The world with these files. -/
def catEnv : Env := ⟨.c, demoLib, false, unixFileSystem catOs, 1000⟩

/-- The rule of all three. -/
def catRule : PluralForms := PluralForms.fromString .c b!"Plural-Forms: nplurals=2; plural=(n != 1);"

theorem catEnv_good : ∀ c ∈ [catHi, catLo, catAt], c.Good catEnv b!"UTF-8" catRule := by
  intro c hc
  simp only [List.mem_cons, List.not_mem_nil, or_false] at hc
  refine ⟨?_, ?_, ?_, ?_, ?_, ?_, ⟨?_, ?_, ?_⟩, ?_, ?_, ?_⟩
  case refine_6 =>
    have same : ∀ (src dst : Str) (ms : List Message), src.map CType.c.toupper = dst.map CType.c.toupper → Recoded .c demoLib src dst ms ms :=
      fun src dst ms h => ⟨id, by rw [show Message.recode id = id from funext (fun m => by simp [Message.recode]), List.map_id], .inl ⟨h, fun _ => rfl⟩⟩
    rcases hc with rfl | rfl | rfl
    · exact same _ _ _ (by decide +kernel)
    · exact same _ _ _ (by decide +kernel)
    · refine ⟨fun s => (demoLib.conv b!"UTF-8" b!"ISO-8859-1" [] s (4 * s.length)).out, by decide +kernel, .inr ⟨by decide +kernel, by decide +kernel, ?_⟩⟩
      intro m hm s hs hist
      have h := latin1_length s
      have e : demoLib.conv b!"UTF-8" b!"ISO-8859-1" hist s (4 * s.length) = ⟨(latin1 s).take (4 * s.length), .ok⟩ := by
        show ConvRun.mk _ (if 4 * s.length < (latin1 s).length then _ else _) = _
        rw [if_neg (by omega)]
      exact e
  · intro m hm
    rcases hc with rfl | rfl | rfl <;> simp only [catHi, catLo, catAt, List.mem_cons, List.not_mem_nil, or_false] at hm
    · rcases hm with rfl | rfl <;> simp [Message.Ok]
    · rcases hm with rfl | rfl | rfl <;> simp [Message.Ok]
    · rcases hm with rfl; simp [Message.Ok]
  all_goals (rcases hc with rfl | rfl | rfl <;> decide +kernel)

/-- German: both directories have a catalogue. -/
theorem catEnv_de : Offers catEnv b!"UTF-8" catRule deLang [b!"hi", b!"lo"] [(b!"hi", some catHi), (b!"lo", some catLo)] := by
  refine ⟨rfl, ?_, ?_⟩
  · intro x hx
    simp only [List.mem_cons, List.not_mem_nil, or_false] at hx
    rcases hx with rfl | rfl
    · exact .catalogue (files := [b!"README", b!"fr.po", b!"de.po"]) (f := b!"de.po") rfl
        ⟨[b!"README", b!"fr.po"], [], by decide +kernel⟩ rfl
    · exact .catalogue (files := [b!"de.po", b!"de_AT.po"]) (f := b!"de.po") rfl ⟨[], [b!"de_AT.po"], by decide +kernel⟩ rfl
  · intro x hx c hc
    simp only [List.mem_cons, List.not_mem_nil, or_false] at hx
    rcases hx with rfl | rfl <;> cases hc <;> exact catEnv_good _ (by simp)

/-- Austrian German: `hi/de.po` serves it as well, but in `lo` there is a better one. -/
theorem catEnv_at : Offers catEnv b!"UTF-8" catRule atLang [b!"hi", b!"lo"] [(b!"hi", some catHi), (b!"lo", some catAt)] := by
  refine ⟨rfl, ?_, ?_⟩
  · intro x hx
    simp only [List.mem_cons, List.not_mem_nil, or_false] at hx
    rcases hx with rfl | rfl
    · exact .catalogue (files := [b!"README", b!"fr.po", b!"de.po"]) (f := b!"de.po") rfl
        ⟨[b!"README", b!"fr.po"], [], by decide +kernel⟩ rfl
    · exact .catalogue (files := [b!"de.po", b!"de_AT.po"]) (f := b!"de_AT.po") rfl ⟨[b!"de.po"], [], by decide +kernel⟩ rfl
  · intro x hx c hc
    simp only [List.mem_cons, List.not_mem_nil, or_false] at hx
    rcases hx with rfl | rfl <;> cases hc <;> exact catEnv_good _ (by simp)

-- "dog" comes from `hi`, the menu's "potato" from `lo`, and nobody has "cat"
example : First [(b!"hi", some catHi), (b!"lo", some catLo)] ⟨none, b!"dog", none, [b!"Hund"]⟩ ∧
    First [(b!"hi", some catHi), (b!"lo", some catLo)] ⟨some b!"menu", b!"potato", none, [b!"Kartoffel"]⟩ ∧
    Lacks [(b!"hi", some catHi), (b!"lo", some catLo)] none b!"cat" := by
  refine ⟨⟨[], _, _, _, rfl, by decide +kernel, by intro x hx; cases hx⟩, ⟨[(b!"hi", some catHi)], _, _, [], rfl, by decide +kernel, ?_⟩, ?_⟩ <;>
    (intro x hx c hc ⟨m, hm, h1, h2⟩; simp at hx)
  · subst hx; cases hc; simp [catHi] at hm; rcases hm with rfl | rfl <;> simp_all
  · rcases hx with rfl | rfl <;> cases hc <;> simp [catHi, catLo] at hm
    · rcases hm with rfl | rfl <;> simp at h2
    · rcases hm with rfl | rfl | rfl <;> simp at h2

-- the whole way, by running it
example : (match (do
      Manager.addDirectory b!"lo" false
      Manager.addDirectory b!"hi" true
      let p ← getDictionaryFor catEnv 5 atLang
      let a ← ask 3 p (.translate b!"dog")
      let b ← ask 3 p (.translate b!"potato")
      let c ← ask 3 p (.plural b!"%d file" b!"%d files" 3)
      let d ← ask 3 p (.translate b!"cat")
      Prog.pure (a, b, c, d) : M (Str × Str × Str × Str)) (.init b!"UTF-8") with
    | .ok r _ => some r
    | _ => none) = some (b!"Hund", b!"Erdäpfel", b!"%d Dateien", b!"cat") := by decide +kernel

-- all hypotheses together: a manager with directory `lo`, to which `hi` is added
example : ∃ m0 m, Reach b!"UTF-8" m0 ∧ (Call.addDirectory b!"hi" true).Changes m0 ∧ (Call.addDirectory b!"hi" true).Leads catEnv m0 m ∧
    deLang.isDefined = true ∧ deLang.getCountry = [] ∧ atLang.isDefined = true ∧ atLang.getCountry ≠ [] ∧
    Offers catEnv m.charset catRule deLang m.searchPath [(b!"hi", some catHi), (b!"lo", some catLo)] ∧
    Offers catEnv m.charset catRule atLang m.searchPath [(b!"hi", some catHi), (b!"lo", some catAt)] ∧
    Language.fromSpec atLang.getLanguage [] [] = deLang := by
  refine ⟨{ Manager.init b!"UTF-8" with searchPath := [b!"lo"] }, { Manager.init b!"UTF-8" with searchPath := [b!"hi", b!"lo"] },
    ⟨[.addDirectory b!"lo" false], .snoc (calls := []) (env := catEnv) .nil (.inl ⟨.done, by rfl⟩)⟩, ?_, .inl ⟨.done, by rfl⟩, ?_⟩
  · show b!"hi" ∉ [b!"lo"]; decide
  · exact ⟨by decide +kernel, by decide +kernel, by decide +kernel, by decide +kernel, catEnv_de, catEnv_at, by decide +kernel⟩

end Tgt
