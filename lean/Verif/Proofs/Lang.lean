import Verif.Proofs.LangTable
import Verif.Spec.Score
import Verif.Spec.Locale
import Verif.Proofs.FirstMax
/-
Facts about the language table and the lookup functions.
-/
namespace Tgt
open Spec LanguageSpec

/-- Code, country, modifier of a Language, through its accessors. -/
def Language.triple (l : Language) : Triple := (l.getLanguage, l.getCountry, l.getModifier)

namespace Lang

theorem matchSpec_eq_score (a b : Option LanguageSpec) :
    matchSpec a b = score (getLanguage a, getCountry a, getModifier a)
      (getLanguage b, getCountry b, getModifier b) := by
  unfold matchSpec score rank closeness
  simp only
  by_cases h : getLanguage a = getLanguage b <;> simp only [h, ne_eq, not_true, not_false_iff, if_true, if_false]
  by_cases hc : getCountry a = getCountry b <;> by_cases hm : getModifier a = getModifier b <;>
    simp only [hc, hm, if_true, if_false, List.isEmpty_iff, Bool.or_eq_true] <;>
    (repeat' split) <;> simp_all [matchTbl]

theorem cstr_of_not_mem {s : Str} (h : (0 : UInt8) ∉ s) : cstr s = s := by
  unfold cstr
  induction s with
  | nil => rfl
  | cons a t ih =>
    simp only [List.mem_cons, not_or] at h
    simp only [List.takeWhile_cons]
    have : (a != 0) = true := by simpa using Ne.symm h.1
    simp [this, ih h.2]

theorem pairwise_finRange (n : Nat) : (List.finRange n).Pairwise (· < ·) := by
  induction n with
  | zero => simp
  | succ n ih =>
    rw [List.finRange_succ, List.pairwise_cons]
    constructor
    · intro a ha
      obtain ⟨b, _, rfl⟩ := List.mem_map.1 ha
      exact Fin.succ_pos b
    · rw [List.pairwise_map]
      exact ih.imp (fun h => Fin.succ_lt_succ_iff.2 h)

theorem score_pos {a b : Triple} (h : a.1 = b.1) : 0 < score a b := by
  unfold score
  rw [if_neg (by simpa using h)]
  split <;> omega

theorem score_of_ne {a b : Triple} (h : a.1 ≠ b.1) : score a b = 0 := by
  unfold score; simp [h]

theorem getLanguage_some (i : Fin 241) : Language.getLanguage (some i) = (derefLang i).language := rfl

/-- The whole contract of `from_spec`: the assertion holds; the result is undefined exactly for an
unknown code, else the first row with the highest score. -/
theorem fromSpec_spec (l c m : Str) :
    (Language.fromSpecChecked l c m = some none ∧ ∀ s ∈ languages, s.language ≠ l) ∨
    (∃ i : Fin 241, Language.fromSpecChecked l c m = some (some i) ∧
      Language.getLanguage (some i) = l ∧
      (∀ j : Fin 241, score (Language.triple (some j)) (l, cstr c, cstr m)
        ≤ score (Language.triple (some i)) (l, cstr c, cstr m)) ∧
      (∀ j : Fin 241, j < i → score (Language.triple (some j)) (l, cstr c, cstr m)
        < score (Language.triple (some i)) (l, cstr c, cstr m))) := by
  unfold Language.fromSpecChecked
  by_cases he : (languageRows.filter (fun r => r.2.language = l)).isEmpty
  · left
    simp only [he, if_true, true_and]
    intro s hs hl
    rw [List.isEmpty_iff, List.filter_eq_nil_iff] at he
    rw [languages_eq] at hs
    obtain ⟨i, _, rfl⟩ := List.mem_map.1 hs
    refine he (i, derefLang i) ?_ (by simpa using hl)
    rw [rows_eq]
    exact List.mem_map.2 ⟨i, List.mem_finRange i, rfl⟩
  · right
    simp only [he, Bool.false_eq_true, if_false]
    have hmem : ∀ r, r ∈ languageRows.filter (fun r => r.2.language = l) ↔
        r.2 = derefLang r.1 ∧ (derefLang r.1).language = l := by
      intro r
      rw [List.mem_filter, rows_eq]
      constructor
      · rintro ⟨h1, h2⟩
        obtain ⟨i, _, rfl⟩ := List.mem_map.1 h1
        exact ⟨rfl, by simpa using h2⟩
      · rintro ⟨h1, h2⟩
        exact ⟨List.mem_map.2 ⟨r.1, List.mem_finRange _, by rw [← h1]⟩, by simpa [h1] using h2⟩
    have hsorted : (languageRows.filter (fun r => r.2.language = l)).Pairwise (fun a b => a.1 < b.1) := by
      apply List.Pairwise.filter
      rw [rows_eq, List.pairwise_map]
      exact pairwise_finRange 241
    generalize hrows : languageRows.filter (fun r => r.2.language = l) = rows at *
    have hlne : (0 : UInt8) ∉ l := by
      cases rows with
      | nil => simp at he
      | cons r t =>
        have := (hmem r).1 (List.mem_cons_self ..)
        rw [← this.2]
        exact (table_parts _ (derefLang_mem _)).2.2.2.2.2
    have hsc : ∀ r ∈ rows, matchSpec (some r.2) (some ⟨cstr l, some (cstr c), some (cstr m), [], none⟩)
        = score (Language.triple (some r.1)) (l, cstr c, cstr m) := by
      intro r hr
      rw [matchSpec_eq_score]
      rw [((hmem r).1 hr).1, cstr_of_not_mem hlne]
      rfl
    rcases foldl_firstMax
      (fun r : Fin 241 × LanguageSpec =>
        matchSpec (some r.2) (some ⟨cstr l, some (cstr c), some (cstr m), [], none⟩))
      (fun r => some r.1)
      (Language.bestStep ⟨cstr l, some (cstr c), some (cstr m), [], none⟩)
      (fun b x => rfl) rows (none, 0) with ⟨_, h2⟩ | ⟨l1, x, l2, h1, h2, h3, h4, h5⟩
    · exfalso
      cases rows with
      | nil => simp at he
      | cons r t =>
        have hr : r ∈ r :: t := List.mem_cons_self ..
        have h3 := h2 r hr
        simp only at h3
        rw [hsc r hr] at h3
        have : 0 < score (Language.triple (some r.1)) (l, cstr c, cstr m) :=
          score_pos ((hmem r).1 hr).2
        omega
    · rw [h2]
      have hx : x ∈ rows := by rw [h1]; simp
      have hxl : Language.getLanguage (some x.1) = l := ((hmem x).1 hx).2
      have hxpos : 0 < score (Language.triple (some x.1)) (l, cstr c, cstr m) := score_pos hxl
      refine ⟨x.1, rfl, hxl, ?_, ?_⟩
      · intro j
        by_cases hj : (derefLang j).language = l
        · have hjr : (j, derefLang j) ∈ rows := (hmem _).2 ⟨rfl, hj⟩
          have : matchSpec (some (derefLang j)) (some ⟨cstr l, some (cstr c), some (cstr m), [], none⟩)
              ≤ matchSpec (some x.2) (some ⟨cstr l, some (cstr c), some (cstr m), [], none⟩) := by
            rw [h1] at hjr
            rcases List.mem_append.1 hjr with h | h
            · exact Nat.le_of_lt (h4 _ h)
            · rcases List.mem_cons.1 h with h | h
              · rw [← h]; exact Nat.le_refl _
              · exact h5 _ h
          rw [hsc x hx, hsc (j, derefLang j) ((hmem _).2 ⟨rfl, hj⟩)] at this
          exact this
        · rw [score_of_ne (a := Language.triple (some j)) (b := (l, cstr c, cstr m)) hj]
          exact Nat.zero_le _
      · intro j hji
        by_cases hj : (derefLang j).language = l
        · have hjr : (j, derefLang j) ∈ rows := (hmem _).2 ⟨rfl, hj⟩
          have hj1 : (j, derefLang j) ∈ l1 := by
            rw [h1] at hjr hsorted
            rcases List.mem_append.1 hjr with h | h
            · exact h
            · have hp := (List.pairwise_append.1 hsorted).2.1
              rw [List.pairwise_cons] at hp
              rcases List.mem_cons.1 h with h | h
              · exact absurd hji (by rw [← h]; exact Nat.lt_irrefl _)
              · exact absurd hji (by have := hp.1 _ h; simp only [Fin.lt_def] at *; omega)
          have := h4 _ hj1
          simp only at this
          rw [hsc x hx, hsc (j, derefLang j) hjr] at this
          exact this
        · rw [score_of_ne (a := Language.triple (some j)) (b := (l, cstr c, cstr m)) hj]
          exact hxpos

/-! ### `find` -/

theorem find_not_mem {s : Str} {ch : Byte} (h : ch ∉ s) : find s ch = npos := by
  unfold find
  have : s.findIdx? (· == ch) = none := by
    rw [List.findIdx?_eq_none_iff]
    intro x hx
    have : x ≠ ch := fun e => h (e ▸ hx)
    simpa using this
  rw [this]

theorem find_append {a b : Str} {ch : Byte} (h : ch ∉ a) : find (a ++ ch :: b) ch = a.length := by
  unfold find
  have : (a ++ ch :: b).findIdx? (· == ch) = some a.length := by
    induction a with
    | nil => simp [List.findIdx?_cons]
    | cons x t ih =>
      simp only [List.mem_cons, not_or] at h
      have hx : (x == ch) = false := by simpa using Ne.symm h.1
      simp [List.findIdx?_cons, hx, ih h.2]
  rw [this]

/-! ### `from_env` -/

theorem fromEnv_localeString (ll : Str) (cc cs md : Option Str)
    (hl : Plain ll) (hc : PlainOpt cc) (hs : PlainOpt cs) (hm : PlainOpt md)
    (hfit : Fits (localeString ll cc cs md)) :
    Language.fromEnv (localeString ll cc cs md) =
      Language.fromSpec ll (orEmpty cc) (orEmpty md) := by
  obtain ⟨hl1, hl2, hl3⟩ := hl
  unfold Fits at hfit
  unfold Language.fromEnv
  have e95 : find (localeString ll cc cs md) 95 = if cc.isSome then ll.length else npos := by
    cases cc with
    | none =>
      simp only [Option.isSome_none, Bool.false_eq_true, if_false]
      apply find_not_mem
      rcases cs with _ | cs <;> rcases md with _ | md <;>
        simp_all [localeString, part, PlainOpt, Plain]
    | some c =>
      simp only [Option.isSome_some, if_true, localeString, part, List.append_assoc, List.cons_append]
      exact find_append hl1
  have e46 : find (localeString ll cc cs md) 46 =
      if cs.isSome then (ll ++ part 95 cc).length else npos := by
    cases cs with
    | none =>
      simp only [Option.isSome_none, Bool.false_eq_true, if_false]
      apply find_not_mem
      rcases cc with _ | cc <;> rcases md with _ | md <;>
        simp_all [localeString, part, PlainOpt, Plain]
    | some c =>
      simp only [Option.isSome_some, if_true, localeString]
      rw [List.append_assoc]
      simp only [part, List.cons_append]
      apply find_append
      rcases cc with _ | cc <;> simp_all [part, PlainOpt, Plain]
  have e64 : find (localeString ll cc cs md) 64 =
      if md.isSome then (ll ++ part 95 cc ++ part 46 cs).length else npos := by
    cases md with
    | none =>
      simp only [Option.isSome_none, Bool.false_eq_true, if_false]
      apply find_not_mem
      rcases cc with _ | cc <;> rcases cs with _ | cs <;>
        simp_all [localeString, part, PlainOpt, Plain]
    | some c =>
      simp only [Option.isSome_some, if_true, localeString]
      apply find_append
      rcases cc with _ | cc <;> rcases cs with _ | cs <;> simp_all [part, PlainOpt, Plain]
  simp only [e95, e46, e64]
  clear e95 e46 e64
  congr 1
  · -- language
    rcases cc with _ | cc <;> rcases cs with _ | cs <;> rcases md with _ | md <;>
      simp only [localeString, part, Option.isSome_none, Option.isSome_some, if_true, if_false,
        Bool.false_eq_true, substr, List.drop_zero, List.append_nil, npos, List.length_append,
        List.length_cons] at hfit ⊢
    · exact List.take_of_length_le (by omega)
    all_goals
      have : ∀ k, k = ll.length → ∀ t, List.take k (ll ++ t) = ll := by
        intro k hk t; subst hk; simp
      try simp only [List.append_assoc]
      apply this
      omega
  · -- country
    rcases cc with _ | cc
    · simp [orEmpty]
    · simp only [Option.isSome_some, if_true, orEmpty]
      have hlen : (localeString ll (some cc) cs md).length
          = ll.length + 1 + cc.length + (part 46 cs).length + (part 64 md).length := by
        simp [localeString, part]; omega
      have hdrop : (localeString ll (some cc) cs md).drop (ll.length + 1)
          = cc ++ (part 46 cs ++ part 64 md) := by
        have : localeString ll (some cc) cs md = (ll ++ [95]) ++ (cc ++ (part 46 cs ++ part 64 md)) := by
          simp [localeString, part]
        rw [this]
        exact List.drop_left' (by simp)
      rw [hlen] at hfit
      split
      · rename_i hcond
        simp only [substr, hdrop]
        have key : ∀ k, (part 46 cs ++ part 64 md = [] ∧ cc.length ≤ k) ∨ k = cc.length →
            List.take k (cc ++ (part 46 cs ++ part 64 md)) = cc := by
          rintro k (⟨h1, h2⟩ | h)
          · rw [h1, List.append_nil]; exact List.take_of_length_le h2
          · subst h; simp
        apply key
        rcases cs with _ | cs <;> rcases md with _ | md <;>
          simp only [part, Option.isSome_none, Option.isSome_some, if_true, if_false, List.length_nil,
            Bool.false_eq_true, npos, List.length_append, List.length_cons, sub64, Nat.min_self] at hfit ⊢
        · left; exact ⟨rfl, by omega⟩
        all_goals
          right
          rw [if_neg (by omega)]
          omega
      · rename_i hcond
        rw [hlen] at hcond
        simp only [npos] at hcond
        have : cc.length = 0 := by omega
        exact (List.length_eq_zero_iff.1 this).symm
  · -- modifier
    rcases md with _ | md
    · simp [orEmpty]
    · simp only [Option.isSome_some, if_true, orEmpty]
      have hlen : (localeString ll cc cs (some md)).length
          = (ll ++ part 95 cc ++ part 46 cs).length + 1 + md.length := by
        simp [localeString, part]; omega
      have hdrop : (localeString ll cc cs (some md)).drop ((ll ++ part 95 cc ++ part 46 cs).length + 1)
          = md := by
        have : localeString ll cc cs (some md) = ((ll ++ part 95 cc ++ part 46 cs) ++ [64]) ++ md := by
          simp [localeString, part]
        rw [this]
        exact List.drop_left' (by simp; omega)
      rw [hlen] at hfit ⊢
      rw [hdrop]
      split
      · rfl
      · rename_i hcond
        simp only [npos] at hcond
        have : md.length = 0 := by omega
        exact (List.length_eq_zero_iff.1 this).symm

end Lang
end Tgt
