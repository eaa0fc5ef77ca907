import Verif.Proofs.Dict
/-
C14–C20: dictionaries.  A history `h : List Op` is any sequence of mutating calls, oldest first;
`after charset h` is the dictionary it leads to; the answers are specified in `Spec/History`.
`heap` resolves fallback pointers; `log` is whatever was logged before.
-/
namespace Tgt
open Spec

/-- A history in which no fallback is ever attached. -/
def NoFallback (h : List Op) : Prop := ∀ p, Op.addFallback p ∉ h

namespace Dict

theorem hasFallback_after (cs : Str) : ∀ h : List Op, NoFallback h → (after cs h).hasFallback = false := by
  apply rev_induction
  · intro _; rfl
  · intro h o ih hn
    rw [after_snoc]
    have hh : NoFallback h := fun p hp => hn p (by simp [hp])
    cases o with
    | add a => simp only [Op.run, (apply_other _ a).2.2.1, ih hh]
    | setPluralForms p => exact ih hh
    | addFallback p => exact absurd (by simp) (hn p)

end Dict

/-! ### C14 -/

/-- C14: `translate` returns the first string of the most recent addition for the message without
context, whatever else was done, and whether or not there is a fallback. -/
theorem C14_translate_latest (cs : Str) (h : List Op) (msgid s : Str)
    (hs : latest h (none, msgid) = some s) (heap : DictId → Option Dictionary) (fuel : Nat)
    (hfuel : 0 < fuel) (log : List Diag) :
    (after cs h).translate heap fuel msgid log = .ok s log := by
  rw [Dict.latest_eq_head] at hs
  have hl := Dict.lookup_after cs (none, msgid) h
  obtain ⟨f, rfl⟩ : ∃ f, fuel = f + 1 := ⟨fuel - 1, by omega⟩
  rcases hv : strings h (none, msgid) with _ | ⟨s', t⟩
  · rw [hv] at hs; cases hs
  · rw [hv] at hs; cases hs
    rw [hv] at hl
    unfold Dictionary.translate
    refine Dict.translateIn_hit heap f _ _ msgid s t ?_ log
    split at hl
    · exact hl
    · rename_i hn
      -- untouched messages have no strings
      exfalso
      apply hn
      have : ∀ r : List Op, stringsRev (none, msgid) r ≠ [] → ∃ o ∈ r, ∃ a, o = .add a ∧ target a = (none, msgid) := by
        intro r
        induction r with
        | nil => intro h; exact absurd rfl h
        | cons o t ih =>
          intro hne
          rcases o with ⟨⟨c, i, s⟩ | ⟨c, i, p, v⟩⟩ | p | p
          · simp only [stringsRev] at hne
            split at hne
            · rename_i hk; exact ⟨_, List.mem_cons_self .., _, rfl, hk⟩
            · obtain ⟨o, ho, ha⟩ := ih hne; exact ⟨o, List.mem_cons_of_mem _ ho, ha⟩
          · simp only [stringsRev] at hne
            split at hne
            · rename_i hk; exact ⟨_, List.mem_cons_self .., _, rfl, hk⟩
            · obtain ⟨o, ho, ha⟩ := ih hne; exact ⟨o, List.mem_cons_of_mem _ ho, ha⟩
          · obtain ⟨o, ho, ha⟩ := ih hne; exact ⟨o, List.mem_cons_of_mem _ ho, ha⟩
          · obtain ⟨o, ho, ha⟩ := ih hne; exact ⟨o, List.mem_cons_of_mem _ ho, ha⟩
      obtain ⟨o, ho, ha⟩ := this h.reverse (by unfold strings at hv; rw [hv]; simp)
      exact ⟨o, by simpa using ho, ha⟩

/-- A history with overwriting, a context and a plural addition. -/
example : latest [.add (.singular none b!"exit" b!"Ausgang"), .add (.singular (some b!"menu") b!"exit" b!"Beenden"),
    .add (.plural none b!"file" b!"files" [b!"Datei", b!"Dateien"]), .add (.singular none b!"exit" b!"Ende")]
    (none, b!"exit") = some b!"Ende" := by decide

/-- C14: inserting an addition for another message (or in a context) anywhere in the history does
not change what `translate` returns for this one. -/
theorem C14_others_irrelevant (cs : Str) (h1 h2 : List Op) (a : Add) (msgid : Str)
    (ha : target a ≠ (none, msgid)) (heap : DictId → Option Dictionary) (fuel : Nat) (log : List Diag) :
    (after cs (h1 ++ .add a :: h2)).translate heap fuel msgid log
      = (after cs (h1 ++ h2)).translate heap fuel msgid log := by
  have key : ∀ h2 : List Op,
      (after cs (h1 ++ .add a :: h2)).entries.get? msgid = (after cs (h1 ++ h2)).entries.get? msgid ∧
      (after cs (h1 ++ .add a :: h2)).hasFallback = (after cs (h1 ++ h2)).hasFallback ∧
      (after cs (h1 ++ .add a :: h2)).fallback = (after cs (h1 ++ h2)).fallback := by
    apply Dict.rev_induction
    · rw [List.append_nil, Dict.after_snoc]
      have h3 := Dict.lookup_apply (after cs h1) a (none, msgid)
      rw [if_neg ha] at h3
      exact ⟨h3, (Dict.apply_other _ a).2.2.1, (Dict.apply_other _ a).2.2.2⟩
    · intro h o ⟨e1, e2, e3⟩
      rw [← List.cons_append, ← List.append_assoc, ← List.append_assoc, Dict.after_snoc, Dict.after_snoc]
      cases o with
      | add b =>
        have l1 := Dict.lookup_apply (after cs (h1 ++ .add a :: h)) b (none, msgid)
        have l2 := Dict.lookup_apply (after cs (h1 ++ h)) b (none, msgid)
        refine ⟨?_, ?_, ?_⟩
        · show Dictionary.lookup _ (none, msgid) = Dictionary.lookup _ (none, msgid)
          simp only [Op.run]
          rw [l1, l2]
          split
          · rename_i hb
            rw [hb]
            show some (b.newVec (((after cs (h1 ++ .add a :: h)).entries.get? msgid).getD [])) = _
            rw [e1]; rfl
          · exact e1
        · simp only [Op.run, (Dict.apply_other _ b).2.2.1, e2]
        · simp only [Op.run, (Dict.apply_other _ b).2.2.2, e3]
      | setPluralForms p => exact ⟨e1, e2, e3⟩
      | addFallback p => exact ⟨e1, rfl, rfl⟩
  obtain ⟨e1, e2, e3⟩ := key h2
  unfold Dictionary.translate
  cases fuel with
  | zero => rfl
  | succ f =>
    unfold Dictionary.translateIn
    rw [e1, e2, e3]

example : target (.singular (some b!"menu") b!"exit" b!"Beenden") ≠ (none, b!"exit") := by decide

/-! ### C15 -/

theorem Dict.translatePluralIn_spec (d : Dictionary) (e : Entries) (h : List Op)
    (key : Option Str × Str) (msgidPlural : Str) (n : Int)
    (he : e.get? key.2 = if Touched h key then some (strings h key) else none)
    (hp : d.pluralForms = pluralRule h) :
    (d.translatePluralIn e key.2 msgidPlural n).1 = pluralAnswer h key msgidPlural n := by
  unfold Dictionary.translatePluralIn pluralAnswer
  rw [he, hp]
  by_cases ht : Touched h key
  · simp only [ht, if_true, not_true, if_false]
    rcases (strings h key)[(pluralRule h).getPlural n]? with _ | _ | ⟨c, t⟩
    · rfl
    · rfl
    · rfl
  · simp only [ht, if_false, not_false_iff, if_true]
    rfl

/-- C15: `translate_plural` returns the string its plural rule selects from the current strings of
the message; the English rule applies if that string is empty or the message unknown; the message
itself is returned if there are too few strings. -/
theorem C15_translate_plural (cs : Str) (h : List Op) (msgid msgidPlural : Str) (n : Int) :
    ((after cs h).translatePlural msgid msgidPlural n).1 = pluralAnswer h (none, msgid) msgidPlural n :=
  Dict.translatePluralIn_spec _ _ h (none, msgid) _ _ (Dict.lookup_after cs (none, msgid) h)
    (Dict.pluralForms_after cs h)

/-- C15: the same within a context. -/
theorem C15_translate_ctxt_plural (cs : Str) (h : List Op) (ctxt msgid msgidPlural : Str) (n : Int) :
    ((after cs h).translateCtxtPlural ctxt msgid msgidPlural n).1
      = pluralAnswer h (some ctxt, msgid) msgidPlural n := by
  unfold Dictionary.translateCtxtPlural
  have hl := Dict.lookup_after cs (some ctxt, msgid) h
  cases hc : (after cs h).ctxtEntries.get? ctxt with
  | none =>
    have : ¬ Touched h (some ctxt, msgid) := by
      intro ht
      rw [if_pos ht] at hl
      simp only [Dictionary.lookup, hc] at hl
      cases hl
    simp only [pluralAnswer, this, not_false_iff, if_true, englishAnswer]
    by_cases h1 : n = 1 <;> simp [h1]
  | some e =>
    simp only
    refine Dict.translatePluralIn_spec _ e h (some ctxt, msgid) _ _ ?_ (Dict.pluralForms_after cs h)
    rw [← hl]
    simp only [Dictionary.lookup, hc]

/-- Plural addition, then a singular one for the same message: forms 0, 1 and the missing 2. -/
example :
    let h : List Op := [.setPluralForms ⟨3, some .plural3_pl⟩,
      .add (.plural none b!"file" b!"files" [b!"plik", b!"pliki"]), .add (.singular none b!"file" b!"PLIK")]
    pluralAnswer h (none, b!"file") b!"files" 1 = b!"PLIK" ∧
    pluralAnswer h (none, b!"file") b!"files" 22 = b!"pliki" ∧
    pluralAnswer h (none, b!"file") b!"files" 5 = b!"file" ∧
    pluralAnswer h (none, b!"dir") b!"dirs" 5 = b!"dirs" := by decide

/-! ### C16 -/

namespace Dict

/-- Two dictionaries that look the same from context `ctx` (`none`: without context). -/
def SameIn (ctx : Option Str) (d d' : Dictionary) : Prop :=
  (match ctx with
   | none => d.entries = d'.entries
   | some c => d.ctxtEntries.get? c = d'.ctxtEntries.get? c) ∧
  d.pluralForms = d'.pluralForms ∧ d.hasFallback = d'.hasFallback ∧ d.fallback = d'.fallback

theorem sameIn_add (ctx : Option Str) (d : Dictionary) (a : Add) (ha : (target a).1 ≠ ctx) :
    SameIn ctx (a.apply d).1 d := by
  refine ⟨?_, (apply_other d a).2.1, (apply_other d a).2.2.1, (apply_other d a).2.2.2⟩
  rcases a with ⟨_ | k, i, s⟩ | ⟨_ | k, i, p, v⟩ <;> rcases ctx with _ | c <;>
    simp only [target, ne_eq, not_true, Option.some.injEq] at ha <;>
    simp only [Add.apply, Dictionary.addSingular, Dictionary.addPlural, Dictionary.addCtxtSingular,
      Dictionary.addCtxtPlural]
  · exact AMap.get?_set_ne _ _ ha
  · exact AMap.get?_set_ne _ _ ha

theorem sameIn_run (ctx : Option Str) (d d' : Dictionary) (o : Op) (h : SameIn ctx d d') :
    SameIn ctx (o.run d) (o.run d') := by
  obtain ⟨h1, h2, h3, h4⟩ := h
  cases o with
  | add a =>
    refine ⟨?_, by simp only [Op.run, (apply_other _ a).2.1, h2],
      by simp only [Op.run, (apply_other _ a).2.2.1, h3], by simp only [Op.run, (apply_other _ a).2.2.2, h4]⟩
    rcases a with ⟨_ | k, i, s⟩ | ⟨_ | k, i, p, v⟩ <;> rcases ctx with _ | c <;>
      simp only [Op.run, Add.apply, Dictionary.addSingular, Dictionary.addPlural,
        Dictionary.addCtxtSingular, Dictionary.addCtxtPlural, AMap.get?_set] at h1 ⊢ <;>
      first
      | exact h1
      | (rw [h1])
      | skip
    all_goals
      by_cases hk : k = c
      · subst hk
        have : Dictionary.ctxtAt d.ctxtEntries k = Dictionary.ctxtAt d'.ctxtEntries k := by
          unfold Dictionary.ctxtAt; rw [h1]
        rw [this]
      · simp only [hk, if_false, h1]
  | setPluralForms p => exact ⟨h1, rfl, h3, h4⟩
  | addFallback p => exact ⟨h1, h2, rfl, rfl⟩

theorem sameIn_insert (cs : Str) (ctx : Option Str) (h1 h2 : List Op) (a : Add)
    (ha : (target a).1 ≠ ctx) :
    SameIn ctx (after cs (h1 ++ .add a :: h2)) (after cs (h1 ++ h2)) := by
  revert h2
  apply rev_induction
  · rw [List.append_nil, after_snoc]
    exact sameIn_add ctx _ a ha
  · intro h o ih
    rw [← List.cons_append, ← List.append_assoc, ← List.append_assoc, after_snoc, after_snoc]
    exact sameIn_run ctx _ _ o ih

theorem translateIn_same (heap) (fuel : Nat) (d d' : Dictionary) (e : Entries) (msgid : Str)
    (h3 : d.hasFallback = d'.hasFallback) (h4 : d.fallback = d'.fallback) :
    Dictionary.translateIn heap fuel d e msgid = Dictionary.translateIn heap fuel d' e msgid := by
  cases fuel with
  | zero => rfl
  | succ f => unfold Dictionary.translateIn; rw [h3, h4]

end Dict

/-- C16: an addition in a context, anywhere in the history, changes no answer and no diagnostic of
the lookups without context. -/
theorem C16_no_context_unaffected (cs : Str) (h1 h2 : List Op) (a : Add) (ha : (target a).1 ≠ none)
    (msgid msgidPlural : Str) (n : Int) (heap : DictId → Option Dictionary) (fuel : Nat) :
    (after cs (h1 ++ .add a :: h2)).translate heap fuel msgid
      = (after cs (h1 ++ h2)).translate heap fuel msgid ∧
    (after cs (h1 ++ .add a :: h2)).translatePlural msgid msgidPlural n
      = (after cs (h1 ++ h2)).translatePlural msgid msgidPlural n := by
  obtain ⟨e1, e2, e3, e4⟩ := Dict.sameIn_insert cs none h1 h2 a ha
  simp only at e1
  constructor
  · unfold Dictionary.translate
    rw [e1]
    exact Dict.translateIn_same heap fuel _ _ _ _ e3 e4
  · unfold Dictionary.translatePlural Dictionary.translatePluralIn
    rw [e1, e2]

/-- C16: an addition outside a context (without context, or in another one) changes no answer and no
diagnostic of the lookups in that context.  The empty context is a context like any other. -/
theorem C16_context_unaffected (cs : Str) (h1 h2 : List Op) (a : Add) (ctxt : Str)
    (ha : (target a).1 ≠ some ctxt)
    (msgid msgidPlural : Str) (n : Int) (heap : DictId → Option Dictionary) (fuel : Nat) :
    (after cs (h1 ++ .add a :: h2)).translateCtxt heap fuel ctxt msgid
      = (after cs (h1 ++ h2)).translateCtxt heap fuel ctxt msgid ∧
    (after cs (h1 ++ .add a :: h2)).translateCtxtPlural ctxt msgid msgidPlural n
      = (after cs (h1 ++ h2)).translateCtxtPlural ctxt msgid msgidPlural n := by
  obtain ⟨e1, e2, e3, e4⟩ := Dict.sameIn_insert cs (some ctxt) h1 h2 a ha
  simp only at e1
  constructor
  · unfold Dictionary.translateCtxt
    rw [e1]
    split
    · exact Dict.translateIn_same heap fuel _ _ _ _ e3 e4
    · rfl
  · unfold Dictionary.translateCtxtPlural Dictionary.translatePluralIn
    rw [e1, e2]

/-- The empty context is not the same as no context. -/
example : (target (.singular none b!"a" b!"b")).1 ≠ some [] ∧
    (target (.singular (some []) b!"a" b!"b")).1 ≠ none := by decide

/-! ### C17 -/

/-- C17: a message never added comes back unchanged, in singular and plural lookups, with and
without context. -/
theorem C17_untranslated (cs : Str) (h : List Op) (hn : NoFallback h) (msgid msgidPlural : Str) (n : Int)
    (heap : DictId → Option Dictionary) (fuel : Nat) (hfuel : 0 < fuel) (log : List Diag) :
    (¬ Touched h (none, msgid) →
      (after cs h).translate heap fuel msgid log = .ok msgid (log ++ [.couldntTranslate msgid]) ∧
      ((after cs h).translatePlural msgid msgidPlural n).1 = if n = 1 then msgid else msgidPlural) ∧
    (∀ ctxt, ¬ Touched h (some ctxt, msgid) →
      (after cs h).translateCtxt heap fuel ctxt msgid log = .ok msgid (log ++ [.couldntTranslate msgid]) ∧
      ((after cs h).translateCtxtPlural ctxt msgid msgidPlural n).1 = if n = 1 then msgid else msgidPlural) := by
  obtain ⟨f, rfl⟩ : ∃ f, fuel = f + 1 := ⟨fuel - 1, by omega⟩
  constructor
  · intro ht
    have hl := Dict.lookup_after cs (none, msgid) h
    rw [if_neg ht] at hl
    constructor
    · refine Dict.translateIn_miss heap f _ _ msgid ?_ (Dict.hasFallback_after cs h hn) log
      have : (after cs h).entries.get? msgid = none := hl
      rw [this]; rfl
    · rw [C15_translate_plural]
      simp [pluralAnswer, ht, englishAnswer]
  · intro ctxt ht
    have hl := Dict.lookup_after cs (some ctxt, msgid) h
    rw [if_neg ht] at hl
    constructor
    · unfold Dictionary.translateCtxt
      cases hc : (after cs h).ctxtEntries.get? ctxt with
      | none => rfl
      | some e =>
        refine Dict.translateIn_miss heap f _ _ msgid ?_ (Dict.hasFallback_after cs h hn) log
        have : e.get? msgid = none := by
          have := hl
          simp only [Dictionary.lookup, hc] at this
          exact this
        rw [this]; rfl
    · rw [C15_translate_ctxt_plural]
      simp [pluralAnswer, ht, englishAnswer]

example : NoFallback [.add (.singular none b!"a" b!"b"), .setPluralForms ⟨1, some .plural1⟩] ∧
    ¬ Touched [.add (.singular none b!"a" b!"b"), .setPluralForms ⟨1, some .plural1⟩] (none, b!"x") := by
  constructor
  · intro p; simp
  · decide

/-! ### C18 -/

/-- `Chain heap d ds`: following fallback pointers from `d` visits exactly `ds` and ends. -/
inductive Chain (heap : DictId → Option Dictionary) : Dictionary → List Dictionary → Prop where
  | last {d} : d.hasFallback = false → Chain heap d []
  | next {d p d' ds} : d.hasFallback = true → d.fallback = some p → heap p = some d' →
      Chain heap d' ds → Chain heap d (d' :: ds)

/-- The translation a dictionary itself has for a message without context. -/
def Dictionary.own (d : Dictionary) (msgid : Str) : Option Str := (d.entries.get? msgid).bind List.head?

/-- The first own translation along a list of dictionaries, and the number of dictionaries asked in
vain before. -/
def firstOwn (msgid : Str) : List Dictionary → Option Str × Nat
  | [] => (none, 0)
  | d :: ds => match d.own msgid with
    | some s => (some s, 0)
    | none => ((firstOwn msgid ds).1, (firstOwn msgid ds).2 + 1)

/-- C18: along a fallback chain of any length, `translate` returns the translation of the first
dictionary that has one, or the message; it terminates, and logs one failure per dictionary asked in
vain. -/
theorem C18_fallback_chain (heap : DictId → Option Dictionary) (d : Dictionary) (ds : List Dictionary)
    (hc : Chain heap d ds) (msgid : Str) (fuel : Nat) (hfuel : ds.length < fuel) (log : List Diag) :
    d.translate heap fuel msgid log =
      .ok ((firstOwn msgid (d :: ds)).1.getD msgid)
        (log ++ List.replicate (firstOwn msgid (d :: ds)).2 (.couldntTranslate msgid)) := by
  induction hc generalizing fuel log with
  | @last d h =>
    obtain ⟨f, rfl⟩ : ∃ f, fuel = f + 1 := ⟨fuel - 1, by omega⟩
    unfold Dictionary.translate
    simp only [firstOwn]
    rcases ho : d.own msgid with _ | s
    · rw [Dict.translateIn_miss heap f d _ msgid ho h]
      simp [firstOwn]
    · obtain ⟨v, hv, hvs⟩ := Option.bind_eq_some_iff.1 ho
      rcases v with _ | ⟨s', t⟩
      · cases hvs
      · cases hvs
        rw [Dict.translateIn_hit heap f d _ msgid s t hv]
        simp
  | @next d p d' ds h1 h2 h3 hch ih =>
    obtain ⟨f, rfl⟩ : ∃ f, fuel = f + 1 := ⟨fuel - 1, by omega⟩
    unfold Dictionary.translate
    rcases ho : d.own msgid with _ | s
    · rw [Dict.translateIn_fallback heap f d d' p _ msgid ho h1 h2 h3]
      have := ih f (by simp at hfuel; omega) (log ++ [.couldntTranslate msgid])
      unfold Dictionary.translate at this
      rw [this]
      simp only [firstOwn, ho]
      congr 1
      rw [List.append_assoc, List.replicate_succ]
      rfl
    · obtain ⟨v, hv, hvs⟩ := Option.bind_eq_some_iff.1 ho
      rcases v with _ | ⟨s', t⟩
      · cases hvs
      · cases hvs
        rw [Dict.translateIn_hit heap f d _ msgid s t hv]
        simp [firstOwn, ho]

/-- C18: a local translation is never overridden, whatever the fallback pointer. -/
theorem C18_own_wins (heap : DictId → Option Dictionary) (d : Dictionary) (msgid s : Str)
    (h : d.own msgid = some s) (fuel : Nat) (hfuel : 0 < fuel) (log : List Diag) :
    d.translate heap fuel msgid log = .ok s log := by
  obtain ⟨f, rfl⟩ : ∃ f, fuel = f + 1 := ⟨fuel - 1, by omega⟩
  obtain ⟨v, hv, hvs⟩ := Option.bind_eq_some_iff.1 h
  rcases v with _ | ⟨s', t⟩
  · cases hvs
  · cases hvs
    exact Dict.translateIn_hit heap f d _ msgid s t hv log

/-- C18: `translate` on a dictionary without a translation of its own is `translate` on the fallback
(with one more log line). -/
theorem C18_missing_asks_fallback (heap : DictId → Option Dictionary) (d d' : Dictionary) (p : DictId)
    (msgid : Str) (h : d.own msgid = none) (h1 : d.hasFallback = true) (h2 : d.fallback = some p)
    (h3 : heap p = some d') (fuel : Nat) (log : List Diag) :
    d.translate heap (fuel + 1) msgid log
      = d'.translate heap fuel msgid (log ++ [.couldntTranslate msgid]) :=
  Dict.translateIn_fallback heap fuel d d' p _ msgid h h1 h2 h3 log

/-- C18: plural lookups never consult the fallback. -/
theorem C18_plural_ignores_fallback (d : Dictionary) (p : Option DictId) (ctxt msgid msgidPlural : Str)
    (n : Int) :
    (d.addFallback p).translatePlural msgid msgidPlural n = d.translatePlural msgid msgidPlural n ∧
    (d.addFallback p).translateCtxtPlural ctxt msgid msgidPlural n
      = d.translateCtxtPlural ctxt msgid msgidPlural n :=
  ⟨rfl, rfl⟩

/-- C18: `translate_ctxt` in a context that does not exist returns the message, fallback or not; in
an existing context a missing message is looked up *without context* in the fallback. -/
theorem C18_context_fallback (heap : DictId → Option Dictionary) (d : Dictionary) (ctxt msgid : Str)
    (fuel : Nat) (log : List Diag) :
    (d.ctxtEntries.get? ctxt = none →
      d.translateCtxt heap fuel ctxt msgid log = .ok msgid (log ++ [.couldntTranslate msgid])) ∧
    (∀ e d' p, d.ctxtEntries.get? ctxt = some e → (e.get? msgid).bind List.head? = none →
      d.hasFallback = true → d.fallback = some p → heap p = some d' →
      d.translateCtxt heap (fuel + 1) ctxt msgid log
        = d'.translate heap fuel msgid (log ++ [.couldntTranslate msgid])) := by
  constructor
  · intro h; unfold Dictionary.translateCtxt; rw [h]
  · intro e d' p h h0 h1 h2 h3
    unfold Dictionary.translateCtxt
    rw [h]
    exact Dict.translateIn_fallback heap fuel d d' p _ msgid h0 h1 h2 h3 log

/-- C18: a dictionary that is its own fallback makes `translate` of an unknown message recurse
forever, so acyclicity is needed. -/
theorem C18_cycle_diverges (heap : DictId → Option Dictionary) (d : Dictionary) (p : DictId)
    (msgid : Str) (h : d.own msgid = none) (h1 : d.hasFallback = true) (h2 : d.fallback = some p)
    (h3 : heap p = some d) (fuel : Nat) (log : List Diag) :
    d.translate heap fuel msgid log = .diverge := by
  induction fuel generalizing log with
  | zero => rfl
  | succ f ih => rw [C18_missing_asks_fallback heap d d p msgid h h1 h2 h3, ih]

/-- A chain of three; the message is only in the last one. -/
example :
    let c := after [] [.add (.singular none b!"yes" b!"ja")]
    let b := after [] [.addFallback (some 2)]
    let a := after [] [.add (.singular none b!"no" b!"nein"), .addFallback (some 1)]
    let heap : DictId → Option Dictionary := fun p => if p = 1 then some b else if p = 2 then some c else none
    Chain heap a [b, c] ∧ firstOwn b!"yes" [a, b, c] = (some b!"ja", 2) :=
  ⟨.next (by decide) (p := 1) (by decide) (by decide)
    (.next (by decide) (p := 2) (by decide) (by decide) (.last (by decide))), by decide⟩

/-! ### C19 -/

/-- C19: in any state, an addition reports at most one collision, and reports one exactly when the
message already has strings and the addition differs from them (a singular addition: from the first
one). -/
theorem C19_collision_iff (d : Dictionary) (a : Add) :
    (a.apply d).2.length ≤ 1 ∧
    ((a.apply d).2 ≠ [] ↔ ∃ v0 vs, d.lookup (target a) = some (v0 :: vs) ∧
      (match a with
       | .singular _ _ s => v0 ≠ s
       | .plural _ _ _ v => v0 :: vs ≠ v)) := by
  have hp : ∀ (c : Option Str) (i p : Str) (o : Option (List Str)) (v : List Str),
      (Dictionary.addPluralVec c i p (o.getD []) v).2.length ≤ 1 ∧
      ((Dictionary.addPluralVec c i p (o.getD []) v).2 ≠ [] ↔
        ∃ v0 vs, o = some (v0 :: vs) ∧ v0 :: vs ≠ v) := by
    intro c i p o v
    unfold Dictionary.addPluralVec
    rcases o with _ | _ | ⟨v0, vs⟩
    · simp
    · simp
    · by_cases hv : v0 :: vs = v
      · subst hv
        simp
      · simp [hv]
        exact ⟨v0, vs, ⟨rfl, rfl⟩, hv⟩
  have hs : ∀ (c : Option Str) (i : Str) (o : Option (List Str)) (s : Str),
      (Dictionary.addSingularVec c i (o.getD []) s).2.length ≤ 1 ∧
      ((Dictionary.addSingularVec c i (o.getD []) s).2 ≠ [] ↔
        ∃ v0 vs, o = some (v0 :: vs) ∧ v0 ≠ s) := by
    intro c i o s
    unfold Dictionary.addSingularVec
    rcases o with _ | _ | ⟨v0, vs⟩
    · simp
    · simp
    · by_cases hv : v0 = s <;> simp [hv]
  rcases a with ⟨_ | c, i, s⟩ | ⟨_ | c, i, p, v⟩
  · simp only [Add.apply, Dictionary.addSingular, Dict.vecAt_eq]
    exact hs none i (d.entries.get? i) s
  · simp only [Add.apply, Dictionary.addCtxtSingular, Dict.vecAt_eq, Dict.ctxtAt_get?]
    exact hs (some c) i (d.lookup (some c, i)) s
  · simp only [Add.apply, Dictionary.addPlural, Dict.vecAt_eq]
    exact hp none i p (d.entries.get? i) v
  · simp only [Add.apply, Dictionary.addCtxtPlural, Dict.vecAt_eq, Dict.ctxtAt_get?]
    exact hp (some c) i p (d.lookup (some c, i)) v

/-- C19: adding what is already stored changes nothing at all and reports nothing. -/
theorem C19_equal_addition_noop (d : Dictionary) (a : Add) (v : List Str)
    (h : d.lookup (target a) = some v) (hv : a.newVec v = v) : a.apply d = (d, []) := by
  have hdiag : (a.apply d).2 = [] := by
    refine Classical.byContradiction fun hne => ?_
    obtain ⟨v0, vs, h1, h2⟩ := (C19_collision_iff d a).2.1 hne
    rw [h] at h1; cases h1
    rcases a with ⟨c, i, s⟩ | ⟨c, i, p, w⟩
    · simp only [Add.newVec, List.tail_cons, List.cons.injEq, and_true] at hv
      exact h2 hv.symm
    · exact h2 hv.symm
  refine Prod.ext ?_ hdiag
  clear hdiag
  have hc : ∀ (c i : Str), d.lookup (some c, i) = some v →
      d.ctxtEntries.set c ((Dictionary.ctxtAt d.ctxtEntries c).set i v) = d.ctxtEntries := by
    intro c i hci
    have hg : ∃ e, d.ctxtEntries.get? c = some e ∧ e.get? i = some v := by
      cases he : d.ctxtEntries.get? c with
      | none => simp only [Dictionary.lookup, he] at hci; cases hci
      | some e => exact ⟨e, rfl, by simpa only [Dictionary.lookup, he] using hci⟩
    obtain ⟨e, he, hi⟩ := hg
    have : Dictionary.ctxtAt d.ctxtEntries c = e := by unfold Dictionary.ctxtAt; rw [he]
    rw [this, AMap.set_same hi, AMap.set_same he]
  rcases a with ⟨_ | c, i, s⟩ | ⟨_ | c, i, p, w⟩
  · simp only [Add.apply, Dictionary.addSingular, Dict.addSingularVec_fst, Dict.vecAt_eq]
    simp only [target, Dictionary.lookup] at h
    rw [h]
    simp only [Option.getD_some]
    simp only [Add.newVec] at hv
    rw [hv, AMap.set_same h]
  · simp only [Add.apply, Dictionary.addCtxtSingular, Dict.addSingularVec_fst, Dict.vecAt_eq, Dict.ctxtAt_get?]
    simp only [target] at h
    rw [h]
    simp only [Option.getD_some]
    simp only [Add.newVec] at hv
    rw [hv, hc c i h]
  · simp only [Add.apply, Dictionary.addPlural, Dict.addPluralVec_fst]
    simp only [target, Dictionary.lookup] at h
    simp only [Add.newVec] at hv
    subst hv
    rw [AMap.set_same h]
  · simp only [Add.apply, Dictionary.addCtxtPlural, Dict.addPluralVec_fst]
    simp only [target] at h
    simp only [Add.newVec] at hv
    subst hv
    rw [hc c i h]

/-- C19: repeating an addition changes nothing and reports nothing. -/
theorem C19_readd_idempotent (d : Dictionary) (a : Add) :
    a.apply (a.apply d).1 = ((a.apply d).1, []) := by
  have h := Dict.lookup_apply d a (target a)
  rw [if_pos rfl] at h
  refine C19_equal_addition_noop _ a _ h ?_
  rcases a with ⟨c, i, s⟩ | ⟨c, i, p, v⟩ <;> rfl

example : ((Add.singular none b!"a" b!"x").apply (after [] [.add (.singular none b!"a" b!"b")])).2
    = [.collisionSingular none b!"a" b!"b" b!"x"] ∧
    ((Add.singular none b!"a" b!"b").apply (after [] [.add (.singular none b!"a" b!"b")])).2 = [] := by
  decide

/-! ### C20 -/

/-- C20: `foreach`, in whatever order the hash table is iterated, makes one call per message added
without context, with its current strings. -/
theorem C20_foreach (cs : Str) (h : List Op) (calls : List (Str × List Str))
    (hp : calls.Perm (after cs h).foreach) :
    (calls.map Prod.fst).Nodup ∧
    ∀ msgid v, (msgid, v) ∈ calls ↔ Touched h (none, msgid) ∧ v = strings h (none, msgid) := by
  have hn := (Dict.nodup_after cs h).1
  constructor
  · exact (hp.map Prod.fst).nodup_iff.2 hn
  · intro msgid v
    rw [hp.mem_iff]
    show (msgid, v) ∈ (after cs h).entries ↔ _
    rw [AMap.mem_iff_get? hn]
    have hl := Dict.lookup_after cs (none, msgid) h
    have : (after cs h).entries.get? msgid = _ := hl
    rw [this]
    split
    · rename_i ht; simp [ht, eq_comm]
    · rename_i ht; simp [ht]

/-- C20: `foreach_ctxt` makes one call per (context, message) pair ever added. -/
theorem C20_foreach_ctxt (cs : Str) (h : List Op) (calls : List (Str × Str × List Str))
    (hp : calls.Perm (after cs h).foreachCtxt) :
    (calls.map (fun c => (c.1, c.2.1))).Nodup ∧
    ∀ ctxt msgid v, (ctxt, msgid, v) ∈ calls ↔
      Touched h (some ctxt, msgid) ∧ v = strings h (some ctxt, msgid) := by
  obtain ⟨_, hn, he⟩ := Dict.nodup_after cs h
  have hmem : ∀ ctxt msgid v, (ctxt, msgid, v) ∈ (after cs h).foreachCtxt ↔
      Touched h (some ctxt, msgid) ∧ v = strings h (some ctxt, msgid) := by
    intro ctxt msgid v
    have hl := Dict.lookup_after cs (some ctxt, msgid) h
    have h1 : (ctxt, msgid, v) ∈ (after cs h).foreachCtxt ↔
        ∃ e, (after cs h).ctxtEntries.get? ctxt = some e ∧ e.get? msgid = some v := by
      unfold Dictionary.foreachCtxt
      rw [List.mem_flatMap]
      constructor
      · rintro ⟨⟨c, e⟩, hce, hm⟩
        obtain ⟨⟨i, w⟩, hiw, heq⟩ := List.mem_map.1 hm
        simp only [Prod.mk.injEq] at heq
        obtain ⟨rfl, rfl, rfl⟩ := heq
        have hg := AMap.get?_of_mem hn hce
        exact ⟨e, hg, AMap.get?_of_mem (he _ _ hg) hiw⟩
      · rintro ⟨e, hg, hi⟩
        exact ⟨(ctxt, e), AMap.get?_mem hg, List.mem_map.2 ⟨(msgid, v), AMap.get?_mem hi, rfl⟩⟩
    have h2 : (∃ e, (after cs h).ctxtEntries.get? ctxt = some e ∧ e.get? msgid = some v) ↔
        (after cs h).lookup (some ctxt, msgid) = some v := by
      simp only [Dictionary.lookup]
      cases (after cs h).ctxtEntries.get? ctxt with
      | none => simp
      | some e => simp
    rw [h1, h2, hl]
    split
    · rename_i ht; simp [ht, eq_comm]
    · rename_i ht; simp [ht]
  constructor
  · refine (hp.map _).nodup_iff.2 ?_
    have key : ∀ m : AMap Str Entries, m.keys.Nodup → (∀ p ∈ m, p.2.keys.Nodup) →
        ((m.flatMap (fun ce => ce.2.map (fun e => (ce.1, e.1, e.2)))).map
          (fun c : Str × Str × List Str => (c.1, c.2.1))).Nodup := by
      intro m
      induction m with
      | nil => intro _ _; simp
      | cons p t ih =>
        intro hm hp
        simp only [AMap.keys, List.map_cons, List.nodup_cons] at hm
        rw [List.flatMap_cons, List.map_append, List.nodup_append]
        refine ⟨?_, ih hm.2 (fun q hq => hp q (List.mem_cons_of_mem _ hq)), ?_⟩
        · have := hp p (List.mem_cons_self ..)
          rw [List.map_map]
          unfold AMap.keys at this
          rw [List.Nodup, List.pairwise_map] at this ⊢
          exact this.imp (fun hne heq => hne (by simpa using heq))
        · intro a ha b hb hab
          subst hab
          rw [List.map_map] at ha
          obtain ⟨x, _, rfl⟩ := List.mem_map.1 ha
          obtain ⟨y, hy, hyx⟩ := List.mem_map.1 hb
          obtain ⟨q, hq, hqy⟩ := List.mem_flatMap.1 hy
          obtain ⟨z, _, rfl⟩ := List.mem_map.1 hqy
          simp only [Function.comp_apply, Prod.mk.injEq] at hyx
          exact hm.1 (List.mem_map.2 ⟨q, hq, hyx.1⟩)
    exact key _ hn (fun p hp => he p.1 p.2 (AMap.get?_of_mem hn hp))
  · intro ctxt msgid v
    rw [hp.mem_iff]
    exact hmem ctxt msgid v

example : (after [] [.add (.singular (some b!"c") b!"a" b!"b"), .add (.singular none b!"x" b!"y"),
    .add (.plural (some b!"c") b!"d" b!"ds" [b!"1", b!"2"]), .add (.singular (some b!"") b!"a" b!"z")]).foreachCtxt
    = [(b!"c", b!"a", [b!"b"]), (b!"c", b!"d", [b!"1", b!"2"]), ([], b!"a", [b!"z"])] := by decide

end Tgt
