import Verif.Spec.Copy
import Verif.Props.Order
/-
Copies of a dictionary: C108.
-/
namespace Tgt
open Spec

namespace Copy

theorem mem_visits (cs : Str) (h : List Op) {calls callsC} (hc : calls.Perm (after cs h).foreach) (hx : callsC.Perm (after cs h).foreachCtxt)
    (key : Option Str × Str) (v : List Str) : (key, v) ∈ visits calls callsC ↔ (after cs h).lookup key = some v := by
  have h1 := (C20_foreach cs h calls hc).2
  have h2 := (C20_foreach_ctxt cs h callsC hx).2
  unfold visits
  rw [List.mem_append, List.mem_map, List.mem_map]
  obtain ⟨c, i⟩ := key
  cases c with
  | none =>
    constructor
    · rintro (⟨x, hx, e⟩ | ⟨x, hx, e⟩)
      · cases e; exact (Order.stored_iff cs).1 ((h1 _ _).1 hx)
      · cases e
    · intro e
      exact .inl ⟨(i, v), (h1 _ _).2 ((Order.stored_iff cs).2 e), rfl⟩
  | some c =>
    constructor
    · rintro (⟨x, hx, e⟩ | ⟨x, hx, e⟩)
      · cases e
      · cases e; exact (Order.stored_iff cs).1 ((h2 _ _ _).1 hx)
    · intro e
      exact .inr ⟨(c, i, v), (h2 _ _ _).2 ((Order.stored_iff cs).2 e), rfl⟩

theorem nodup_visits (cs : Str) (h : List Op) {calls callsC} (hc : calls.Perm (after cs h).foreach) (hx : callsC.Perm (after cs h).foreachCtxt) :
    ((visits calls callsC).map Prod.fst).Nodup := by
  have h1 := (C20_foreach cs h calls hc).1
  have h2 := (C20_foreach_ctxt cs h callsC hx).1
  unfold visits
  rw [List.map_append, List.map_map, List.map_map, List.nodup_append]
  refine ⟨?_, ?_, ?_⟩
  · rw [List.Nodup, List.pairwise_map] at h1 ⊢
    exact h1.imp (fun hne heq => hne (by simpa using heq))
  · rw [List.Nodup, List.pairwise_map] at h2 ⊢
    exact h2.imp (fun hne heq => hne (by simpa using heq))
  · intro a ha b hb hab
    obtain ⟨x, _, rfl⟩ := List.mem_map.1 ha
    obtain ⟨y, _, rfl⟩ := List.mem_map.1 hb
    cases hab

theorem said_eq (a : Add) : said a = (target a, a.newVec []) := by cases a <;> rfl

/-- Additions for messages that are not there, each for another one. -/
theorem fresh (ops : List Op) : ∀ d : Dictionary, ((ops.filterMap Op.add?).map target).Nodup → (∀ a ∈ ops.filterMap Op.add?, d.lookup (target a) = none) →
    opLog d ops = [] ∧ ∀ key v, (ops.foldl Op.run d).lookup key = some v ↔ (key, v) ∈ (ops.filterMap Op.add?).map said ∨ d.lookup key = some v := by
  induction ops with
  | nil => intro d _ _; exact ⟨rfl, fun key v => by simp⟩
  | cons o ops ih =>
    intro d hn hf
    cases o with
    | add a =>
      have e : (Op.add a :: ops).filterMap Op.add? = a :: ops.filterMap Op.add? := rfl
      rw [e] at hn hf ⊢
      rw [List.map_cons, List.nodup_cons] at hn
      have hl := Dict.lookup_apply d a
      have hfa := hf a (List.mem_cons_self ..)
      have hf' : ∀ b ∈ ops.filterMap Op.add?, ((a.apply d).1).lookup (target b) = none := by
        intro b hb
        rw [hl, if_neg (fun hx : target a = target b => hn.1 (by rw [hx]; exact List.mem_map_of_mem hb))]
        exact hf b (List.mem_cons_of_mem _ hb)
      obtain ⟨i1, i2⟩ := ih (a.apply d).1 hn.2 hf'
      constructor
      · show (a.apply d).2 ++ opLog (a.apply d).1 ops = []
        rw [i1, Order.apply_log, hfa]
        cases a <;> rfl
      · intro key v
        show (ops.foldl Op.run (a.apply d).1).lookup key = some v ↔ _
        rw [i2, List.map_cons, List.mem_cons, hl, said_eq]
        by_cases hk : target a = key
        · subst hk
          rw [if_pos rfl, hfa]
          simp only [Option.getD_none, Option.some.injEq, Prod.mk.injEq, true_and, reduceCtorEq, or_false]
          exact ⟨fun h => h.elim .inr (fun h => .inl h.symm), fun h => h.elim (fun h => .inr h.symm) .inl⟩
        · rw [if_neg hk]
          have : (key, v) ≠ (target a, a.newVec []) := fun h => hk (Prod.mk.inj h).1.symm
          simp only [this, false_or]
    | setPluralForms p => exact ih _ hn hf
    | addFallback p => exact ih _ hn hf

theorem fallback_eq (cs : Str) : ∀ h : List Op, (after cs h).hasFallback = (fallbackRev h.reverse).isSome ∧ (after cs h).fallback = (fallbackRev h.reverse).join := by
  apply Dict.rev_induction
  · exact ⟨rfl, rfl⟩
  · intro h o ih
    rw [Dict.after_snoc, List.reverse_append]
    cases o with
    | add a => exact ⟨(Dict.apply_other _ a).2.2.1.trans ih.1, (Dict.apply_other _ a).2.2.2.trans ih.2⟩
    | setPluralForms p => exact ih
    | addFallback p => exact ⟨rfl, rfl⟩

end Copy
open Copy

/-- C108.  `foreach` and `foreach_ctxt` tell everything there is to know about the messages: dictionaries for which they make the same calls, in whatever order, and
that have the same charset, rule and fallback, cannot be told apart. -/
theorem C108_tell_all (cs : Str) (h h' : List Op) (hc : (after cs h).foreach.Perm (after cs h').foreach) (hx : (after cs h).foreachCtxt.Perm (after cs h').foreachCtxt)
    (hr : pluralRule h = pluralRule h') (hf : fallbackRev h.reverse = fallbackRev h'.reverse) : SameAnswers (after cs h) (after cs h') := by
  refine Order.same_answers cs h h' (fun key => Option.ext fun v => ?_) (by rw [Dict.pluralForms_after, Dict.pluralForms_after, hr]) ?_
  · rw [← mem_visits cs h (.refl _) (.refl _), ← mem_visits cs h' hc hx]
  · rw [(fallback_eq cs h).1, (fallback_eq cs h).2, (fallback_eq cs h').1, (fallback_eq cs h').2, hf]
    exact ⟨rfl, rfl⟩

/-- C108.  A new dictionary to which everything is added that the callbacks are told - in whatever order the tables are visited, with whatever `msgid_plural`, or with
the overload for one string where there is one - and that is given the same rule and fallback, answers like the original; and copying logs nothing. -/
theorem C108_copy (cs : Str) (h copy : List Op) (calls : List (Str × List Str)) (callsC : List (Str × Str × List Str))
    (hc : calls.Perm (after cs h).foreach) (hx : callsC.Perm (after cs h).foreachCtxt)
    (hcopy : ((copy.filterMap Op.add?).map said).Perm (visits calls callsC))
    (hr : pluralRule copy = pluralRule h) (hf : fallbackRev copy.reverse = fallbackRev h.reverse) :
    SameAnswers (after cs h) (after cs copy) ∧ opLog (.init cs) copy = [] := by
  have hn : ((copy.filterMap Op.add?).map target).Nodup := by
    have := (hcopy.map Prod.fst).nodup_iff.2 (nodup_visits cs h hc hx)
    rw [List.map_map] at this
    have e : Prod.fst ∘ said = target := funext fun a => by cases a <;> rfl
    rwa [e] at this
  have hi : ∀ key, (Dictionary.init cs).lookup key = none := by
    rintro ⟨_ | c, i⟩ <;> rfl
  obtain ⟨f1, f2⟩ := fresh copy (.init cs) hn (fun a _ => hi _)
  refine ⟨Order.same_answers cs h copy (fun key => Option.ext fun v => ?_) (by rw [Dict.pluralForms_after, Dict.pluralForms_after, hr]) ?_, f1⟩
  · have := f2 key v
    rw [hi] at this
    rw [← mem_visits cs h hc hx, ← hcopy.mem_iff]
    show _ ↔ (copy.foldl Op.run (.init cs)).lookup key = some v
    rw [this]
    simp
  · rw [(fallback_eq cs h).1, (fallback_eq cs h).2, (fallback_eq cs copy).1, (fallback_eq cs copy).2, hf]
    exact ⟨rfl, rfl⟩

/-- A history with a message added twice, one in a context, one without strings and one with two. -/
def Copy.demo : List Op := [.add (.singular none b!"a" b!"x"), .add (.plural none b!"p" b!"ps" [b!"1", b!"2"]), .add (.singular none b!"a" b!"y"),
  .setPluralForms ⟨2, some .plural2_1⟩, .add (.singular (some b!"c") b!"a" b!"z"), .add (.plural none b!"e" b!"es" [])]

/-- A copy of it, in another order. -/
def Copy.demoCopy : List Op := [.setPluralForms ⟨2, some .plural2_1⟩, .add (.plural none b!"e" [] []), .add (.singular (some b!"c") b!"a" b!"z"),
  .add (.plural none b!"a" [] [b!"y"]), .add (.plural none b!"p" b!"p" [b!"1", b!"2"])]

example : [(b!"a", [b!"y"]), (b!"e", []), (b!"p", [b!"1", b!"2"])].Perm (after b!"UTF-8" Copy.demo).foreach ∧
    [(b!"c", b!"a", [b!"z"])].Perm (after b!"UTF-8" Copy.demo).foreachCtxt ∧
    ((Copy.demoCopy.filterMap Op.add?).map said).Perm (visits [(b!"a", [b!"y"]), (b!"e", []), (b!"p", [b!"1", b!"2"])] [(b!"c", b!"a", [b!"z"])]) ∧
    pluralRule Copy.demoCopy = pluralRule Copy.demo ∧ fallbackRev Copy.demoCopy.reverse = fallbackRev Copy.demo.reverse := by decide

end Tgt
