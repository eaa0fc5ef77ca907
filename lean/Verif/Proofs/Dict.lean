import Verif.Spec.History
import Verif.Proofs.AMap
/-
Refinement of the history specification by the dictionary.
-/
namespace Tgt
open Spec

/-- The stored vector for a message, if there is an entry. -/
def Dictionary.lookup (d : Dictionary) : Option Str × Str → Option (List Str)
  | (none, i) => d.entries.get? i
  | (some c, i) => match d.ctxtEntries.get? c with
    | some e => e.get? i
    | none => none

/-- The vector an addition stores. -/
def Add.newVec (old : List Str) : Add → List Str
  | .singular _ _ s => s :: old.tail
  | .plural _ _ _ v => v

namespace Dict

theorem ctxtAt_get? (d : Dictionary) (c i : Str) :
    (Dictionary.ctxtAt d.ctxtEntries c).get? i = d.lookup (some c, i) := by
  simp only [Dictionary.ctxtAt, Dictionary.lookup]
  cases d.ctxtEntries.get? c <;> rfl

theorem vecAt_eq (e : Entries) (i : Str) : Dictionary.vecAt e i = (e.get? i).getD [] := by
  unfold Dictionary.vecAt
  cases e.get? i <;> rfl

theorem addPluralVec_fst (c : Option Str) (i p : Str) (vec v : List Str) :
    (Dictionary.addPluralVec c i p vec v).1 = v := by
  unfold Dictionary.addPluralVec
  split
  · rfl
  · split
    · rfl
    · rename_i h; simpa using h

theorem addSingularVec_fst (c : Option Str) (i : Str) (vec : List Str) (s : Str) :
    (Dictionary.addSingularVec c i vec s).1 = s :: vec.tail := by
  unfold Dictionary.addSingularVec
  cases vec with
  | nil => rfl
  | cons v0 rest =>
    simp only
    split
    · rfl
    · rename_i h; simp at h; simp [h]

theorem lookup_set_ctxt (d : Dictionary) (c i : Str) (v : List Str) (key : Option Str × Str) :
    Dictionary.lookup { d with
        ctxtEntries := d.ctxtEntries.set c ((Dictionary.ctxtAt d.ctxtEntries c).set i v) } key
      = if (some c, i) = key then some v else d.lookup key := by
  obtain ⟨k, j⟩ := key
  cases k with
  | none => simp [Dictionary.lookup]
  | some k =>
    simp only [Dictionary.lookup, AMap.get?_set]
    by_cases hk : c = k
    · subst hk
      simp only [if_true, AMap.get?_set, Prod.mk.injEq, true_and]
      rw [ctxtAt_get?]
      rfl
    · simp [hk]

theorem lookup_set (d : Dictionary) (i : Str) (v : List Str) (key : Option Str × Str) :
    Dictionary.lookup { d with entries := d.entries.set i v } key
      = if (none, i) = key then some v else d.lookup key := by
  obtain ⟨k, j⟩ := key
  cases k with
  | none => simp [Dictionary.lookup, AMap.get?_set]
  | some k => simp [Dictionary.lookup]

/-- What an addition does to every lookup. -/
theorem lookup_apply (d : Dictionary) (a : Add) (key : Option Str × Str) :
    ((a.apply d).1).lookup key =
      if target a = key then some (a.newVec ((d.lookup (target a)).getD [])) else d.lookup key := by
  rcases a with ⟨_ | c, i, s⟩ | ⟨_ | c, i, p, v⟩
  · simp only [Add.apply, Dictionary.addSingular, lookup_set, addSingularVec_fst, vecAt_eq, target, Add.newVec]
    rfl
  · simp only [Add.apply, Dictionary.addCtxtSingular, lookup_set_ctxt, addSingularVec_fst, vecAt_eq,
      target, Add.newVec, ctxtAt_get?]
    rfl
  · simp only [Add.apply, Dictionary.addPlural, lookup_set, addPluralVec_fst, target, Add.newVec]
    rfl
  · simp only [Add.apply, Dictionary.addCtxtPlural, lookup_set_ctxt, addPluralVec_fst, target, Add.newVec]
    rfl

/-- An addition changes nothing but the entries. -/
theorem apply_other (d : Dictionary) (a : Add) :
    (a.apply d).1.charset = d.charset ∧ (a.apply d).1.pluralForms = d.pluralForms ∧
    (a.apply d).1.hasFallback = d.hasFallback ∧ (a.apply d).1.fallback = d.fallback := by
  rcases a with ⟨_ | c, i, s⟩ | ⟨_ | c, i, p, v⟩ <;> exact ⟨rfl, rfl, rfl, rfl⟩

/-- Is there a context map? -/
def hasCtxt (d : Dictionary) (c : Str) : Bool := (d.ctxtEntries.get? c).isSome

theorem hasCtxt_apply (d : Dictionary) (a : Add) (c : Str) :
    hasCtxt (a.apply d).1 c = (decide ((target a).1 = some c) || hasCtxt d c) := by
  have key : ∀ (m : AMap Str Entries) k e, ((m.set k e).get? c).isSome = (decide (k = c) || (m.get? c).isSome) := by
    intro m k e
    rw [AMap.get?_set]
    by_cases h : k = c <;> simp [h]
  rcases a with ⟨_ | k, i, s⟩ | ⟨_ | k, i, p, v⟩ <;>
    simp [hasCtxt, Add.apply, Dictionary.addSingular, Dictionary.addPlural,
      Dictionary.addCtxtSingular, Dictionary.addCtxtPlural, target, key]

/-! ### One step of a lookup -/

theorem translateIn_hit (heap) (f : Nat) (d : Dictionary) (e : Entries) (msgid s : Str) (t : List Str)
    (h : e.get? msgid = some (s :: t)) (log : List Diag) :
    Dictionary.translateIn heap (f + 1) d e msgid log = .ok s log := by
  simp only [Dictionary.translateIn, h]; rfl

theorem translateIn_miss (heap) (f : Nat) (d : Dictionary) (e : Entries) (msgid : Str)
    (h : (e.get? msgid).bind List.head? = none) (hf : d.hasFallback = false) (log : List Diag) :
    Dictionary.translateIn heap (f + 1) d e msgid log = .ok msgid (log ++ [.couldntTranslate msgid]) := by
  unfold Dictionary.translateIn
  rcases hg : e.get? msgid with _ | _ | ⟨s, t⟩
  · simp [hf]
  · simp [hf]
  · simp [hg] at h

theorem translateIn_fallback (heap) (f : Nat) (d d' : Dictionary) (p : DictId) (e : Entries) (msgid : Str)
    (h : (e.get? msgid).bind List.head? = none) (hf : d.hasFallback = true) (hp : d.fallback = some p)
    (hh : heap p = some d') (log : List Diag) :
    Dictionary.translateIn heap (f + 1) d e msgid log =
      Dictionary.translateIn heap f d' d'.entries msgid (log ++ [.couldntTranslate msgid]) := by
  conv => lhs; unfold Dictionary.translateIn
  rcases hg : e.get? msgid with _ | _ | ⟨s, t⟩
  · simp [hf, hp, hh]
  · simp [hf, hp, hh]
  · simp [hg] at h

/-! ### The history -/

theorem after_snoc (cs : Str) (h : List Op) (o : Op) : after cs (h ++ [o]) = o.run (after cs h) := by
  simp [after]

theorem strings_snoc (h : List Op) (o : Op) (key) :
    strings (h ++ [o]) key = stringsRev key (o :: h.reverse) := by
  simp [strings]

theorem latest_snoc (h : List Op) (o : Op) (key) :
    latest (h ++ [o]) key = latestRev key (o :: h.reverse) := by
  simp [latest]

theorem pluralRule_snoc (h : List Op) (o : Op) :
    pluralRule (h ++ [o]) = pluralRuleRev (o :: h.reverse) := by
  simp [pluralRule]

theorem touched_snoc (h : List Op) (o : Op) (key) :
    Touched (h ++ [o]) key ↔ (∃ a, o = .add a ∧ target a = key) ∨ Touched h key := by
  constructor
  · rintro ⟨o', ho', ha⟩
    rcases List.mem_append.1 ho' with h1 | h1
    · exact .inr ⟨o', h1, ha⟩
    · rw [List.mem_singleton] at h1; subst h1; exact .inl ha
  · rintro (ha | ⟨o', h1, ha⟩)
    · exact ⟨o, by simp, ha⟩
    · exact ⟨o', by simp [h1], ha⟩

theorem rev_induction {P : List Op → Prop} (h0 : P []) (hs : ∀ h o, P h → P (h ++ [o])) : ∀ h, P h := by
  intro h
  have : ∀ r : List Op, P r.reverse := by
    intro r
    induction r with
    | nil => exact h0
    | cons o t ih => rw [List.reverse_cons]; exact hs _ _ ih
  have := this h.reverse
  rwa [List.reverse_reverse] at this

/-- Lookups follow the history. -/
theorem lookup_after (cs : Str) (key : Option Str × Str) : ∀ h : List Op,
    (after cs h).lookup key = if Touched h key then some (strings h key) else none := by
  apply rev_induction
  · have : ¬ Touched [] key := by rintro ⟨_, h, _⟩; cases h
    rw [if_neg this]
    obtain ⟨k, i⟩ := key
    cases k <;> rfl
  · intro h o ih
    rw [after_snoc, strings_snoc]
    cases o with
    | add a =>
      simp only [Op.run, lookup_apply]
      by_cases hk : target a = key
      · have ht : Touched (h ++ [.add a]) key := (touched_snoc ..).2 (.inl ⟨a, rfl, hk⟩)
        rw [if_pos hk, if_pos ht, hk, ih]
        have hn : (if Touched h key then some (strings h key) else none).getD [] = strings h key := by
          split
          · rfl
          · rename_i hn
            -- untouched: no strings
            have : ∀ r : List Op, (∀ o ∈ r, ∀ a, o = .add a → target a ≠ key) → stringsRev key r = [] := by
              intro r
              induction r with
              | nil => intro _; rfl
              | cons o t ih =>
                intro hr
                have ht := ih (fun o ho => hr o (List.mem_cons_of_mem _ ho))
                have h0 := hr o (List.mem_cons_self ..)
                rcases o with ⟨⟨c, i, s⟩ | ⟨c, i, p, v⟩⟩ | p | p
                · have := h0 _ rfl
                  simp only [target] at this
                  simp only [stringsRev, this, if_false, ht]
                · have := h0 _ rfl
                  simp only [target] at this
                  simp only [stringsRev, this, if_false, ht]
                · exact ht
                · exact ht
            simp only [Option.getD_none]
            refine (this h.reverse ?_).symm
            intro o ho a hoa hta
            exact hn ⟨o, by simpa using ho, a, hoa, hta⟩
        rw [hn]
        rcases a with ⟨c, i, s⟩ | ⟨c, i, p, v⟩ <;>
          simp only [target] at hk <;> simp [stringsRev, hk, Add.newVec, strings]
      · rw [if_neg hk, ih]
        have ht : Touched (h ++ [.add a]) key ↔ Touched h key := by
          rw [touched_snoc]
          constructor
          · rintro (⟨b, hb, hb2⟩ | h)
            · cases hb; exact absurd hb2 hk
            · exact h
          · exact .inr
        have hs : stringsRev key (.add a :: h.reverse) = strings h key := by
          rcases a with ⟨c, i, s⟩ | ⟨c, i, p, v⟩ <;>
            simp only [target] at hk <;> simp [stringsRev, hk, strings]
        rw [hs]
        simp only [ht]
    | setPluralForms p =>
      have ht : Touched (h ++ [.setPluralForms p]) key ↔ Touched h key := by
        rw [touched_snoc]; simp
      simp only [ht, stringsRev]
      exact ih
    | addFallback p =>
      have ht : Touched (h ++ [.addFallback p]) key ↔ Touched h key := by
        rw [touched_snoc]; simp
      simp only [ht, stringsRev]
      exact ih

theorem pluralForms_after (cs : Str) : ∀ h : List Op, (after cs h).pluralForms = pluralRule h := by
  apply rev_induction
  · rfl
  · intro h o ih
    rw [after_snoc, pluralRule_snoc]
    cases o with
    | add a => simp only [Op.run, (apply_other _ a).2.1, ih, pluralRuleRev, pluralRule]
    | setPluralForms p => rfl
    | addFallback p => exact ih

theorem hasCtxt_after (cs c : Str) : ∀ h : List Op,
    hasCtxt (after cs h) c = true ↔ ∃ i, Touched h (some c, i) := by
  apply rev_induction
  · constructor
    · intro h; cases h
    · rintro ⟨i, _, h, _⟩; cases h
  · intro h o ih
    rw [after_snoc]
    have ht : (∃ i, Touched (h ++ [o]) (some c, i)) ↔
        (∃ a, o = .add a ∧ (target a).1 = some c) ∨ ∃ i, Touched h (some c, i) := by
      constructor
      · rintro ⟨i, hi⟩
        rcases (touched_snoc ..).1 hi with ⟨a, h1, h2⟩ | h1
        · exact .inl ⟨a, h1, by rw [h2]⟩
        · exact .inr ⟨i, h1⟩
      · rintro (⟨a, h1, h2⟩ | ⟨i, h1⟩)
        · exact ⟨(target a).2, (touched_snoc ..).2 (.inl ⟨a, h1, by rw [← h2]⟩)⟩
        · exact ⟨i, (touched_snoc ..).2 (.inr h1)⟩
    rw [ht]
    cases o with
    | add a =>
      simp only [Op.run, hasCtxt_apply, Bool.or_eq_true, decide_eq_true_eq, ih]
      simp
    | setPluralForms p => simp; exact ih
    | addFallback p => simp; exact ih

theorem latest_eq_head (h : List Op) (key) : latest h key = (strings h key).head? := by
  have : ∀ r, latestRev key r = (stringsRev key r).head? := by
    intro r
    induction r with
    | nil => rfl
    | cons o t ih =>
      rcases o with ⟨⟨c, i, s⟩ | ⟨c, i, p, v⟩⟩ | p | p
      · simp only [latestRev, stringsRev]; split <;> simp [ih]
      · simp only [latestRev, stringsRev]; split <;> simp [ih]
      · exact ih
      · exact ih
  exact this _

theorem nodup_after (cs : Str) : ∀ h : List Op, (after cs h).entries.keys.Nodup ∧
    (after cs h).ctxtEntries.keys.Nodup ∧ ∀ c e, (after cs h).ctxtEntries.get? c = some e → e.keys.Nodup := by
  apply rev_induction
  · refine ⟨by simp [after, Dictionary.init, AMap.keys], by simp [after, Dictionary.init, AMap.keys], ?_⟩
    intro c e h; cases h
  · intro h o ⟨h1, h2, h3⟩
    rw [after_snoc]
    have hset : ∀ (d : Dictionary), (∀ c e, d.ctxtEntries.get? c = some e → e.keys.Nodup) → ∀ k i v,
        ∀ c e, (d.ctxtEntries.set k ((Dictionary.ctxtAt d.ctxtEntries k).set i v)).get? c = some e →
          e.keys.Nodup := by
      intro d hd k i v c e he
      rw [AMap.get?_set] at he
      split at he
      · cases he
        apply AMap.nodup_set
        unfold Dictionary.ctxtAt
        cases hg : d.ctxtEntries.get? k with
        | none => simp [AMap.keys]
        | some e => exact hd _ _ hg
      · exact hd _ _ he
    rcases o with ⟨⟨_ | c, i, s⟩ | ⟨_ | c, i, p, v⟩⟩ | p | p
    · exact ⟨AMap.nodup_set h1 _ _, h2, h3⟩
    · exact ⟨h1, AMap.nodup_set h2 _ _, hset _ h3 _ _ _⟩
    · exact ⟨AMap.nodup_set h1 _ _, h2, h3⟩
    · exact ⟨h1, AMap.nodup_set h2 _ _, hset _ h3 _ _ _⟩
    · exact ⟨h1, h2, h3⟩
    · exact ⟨h1, h2, h3⟩

end Dict
end Tgt
