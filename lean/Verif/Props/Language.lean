import Verif.Proofs.Lang
import Verif.Proofs.AMap
import Verif.Proofs.Bytes
import Verif.Model.Manager
/-
C05–C13: languages.  `Language.triple L` is (get_language, get_country, get_modifier); the
specification of scores is `Spec.score`.
-/
namespace Tgt
open Spec

namespace Lang

theorem spec_some (i : Fin 241) : Language.spec (some i) = some (derefLang i) := rfl

theorem getCountry_some (i : Fin 241) :
    Language.getCountry (some i) = orEmpty (derefLang i).country := by
  unfold Language.getCountry
  rw [spec_some]
  rcases derefLang i with ⟨l, _ | c, m, n, z⟩ <;> rfl

theorem getModifier_some (i : Fin 241) :
    Language.getModifier (some i) = orEmpty (derefLang i).modifier := by
  unfold Language.getModifier
  rw [spec_some]
  rcases derefLang i with ⟨l, c, _ | m, n, z⟩ <;> rfl

/-- A Language is determined by its three parts. -/
theorem triple_inj {a b : Language} (h : a.triple = b.triple) : a = b := by
  have hne : ∀ i : Fin 241, Language.getLanguage (some i) ≠ [] :=
    fun i => (table_parts _ (derefLang_mem i)).2.2.1
  have hnone : Language.getLanguage none = [] := rfl
  cases a with
  | none =>
    cases b with
    | none => rfl
    | some j => exact absurd (congrArg Prod.fst h).symm (hne j)
  | some i =>
    cases b with
    | none => exact absurd (congrArg Prod.fst h) (hne i)
    | some j =>
      simp only [Language.triple, Prod.mk.injEq, getCountry_some, getModifier_some,
        getLanguage_some] at h
      obtain ⟨h1, h2, h3⟩ := h
      have hi := table_parts _ (derefLang_mem i)
      have hj := table_parts _ (derefLang_mem j)
      have inj : ∀ x y : Option Str, x ≠ some [] → y ≠ some [] → orEmpty x = orEmpty y → x = y := by
        intro x y hx hy hxy
        rcases x with _ | x <;> rcases y with _ | y <;> simp_all [orEmpty]
      have hc := inj _ _ hi.1 hj.1 h2
      have hm := inj _ _ hi.2.1 hj.2.1 h3
      have hnd := table_nodup
      rw [languages_eq, List.map_map] at hnd
      rw [List.Nodup, List.pairwise_iff_getElem] at hnd
      refine congrArg some (Fin.ext ?_)
      rcases Nat.lt_trichotomy i.val j.val with h | h | h
      · exact absurd (by simp [h1, hc, hm]) (hnd i.val j.val (by simp) (by simp) h)
      · exact h
      · exact absurd (by simp [h1, hc, hm]) (hnd j.val i.val (by simp) (by simp) h)

theorem rank_le (x y : Str) : rank x y ≤ 2 := by unfold rank; split <;> (try split) <;> omega

theorem score_le (a b : Triple) : score a b ≤ 9 := by
  unfold score
  split
  · omega
  · split <;> omega

theorem rank_comm (x y : Str) : rank x y = rank y x := by
  unfold rank
  by_cases h : x = y
  · simp [h]
  · simp [h, Ne.symm h, or_comm]

theorem rank_eq_two {x y : Str} : rank x y = 2 ↔ x = y := by
  unfold rank
  by_cases h : x = y
  · simp [h]
  · simp only [h, if_false, iff_false]; split <;> omega

theorem score_eq_nine {a b : Triple} : score a b = 9 ↔ a = b := by
  unfold score
  constructor
  · intro h
    split at h
    · omega
    · rename_i h1
      split at h <;> first
        | omega
        | skip
      rename_i h2 h3
      rw [rank_eq_two] at h2 h3
      exact Prod.ext (by simpa using h1) (Prod.ext h2 h3)
  · rintro rfl
    rw [if_neg (by simp), rank_eq_two.2 rfl, rank_eq_two.2 rfl]
    rfl

end Lang

/-! ### C05 -/

/-- C05: the score is the specified one. -/
theorem C05_match_is_score (a b : Language) : Language.match a b = score a.triple b.triple :=
  Lang.matchSpec_eq_score _ _

/-- C05: it is 0 exactly for different codes, otherwise within 1..9. -/
theorem C05_match_range (a b : Language) :
    (Language.match a b = 0 ↔ a.getLanguage ≠ b.getLanguage) ∧ Language.match a b ≤ 9 := by
  rw [C05_match_is_score]
  refine ⟨⟨?_, ?_⟩, Lang.score_le _ _⟩
  · intro h e
    have := Lang.score_pos (a := a.triple) (b := b.triple) e
    omega
  · intro h
    exact Lang.score_of_ne h

/-- C05: it is symmetric. -/
theorem C05_match_symm (a b : Language) : Language.match a b = Language.match b a := by
  rw [C05_match_is_score, C05_match_is_score]
  unfold score
  rw [Lang.rank_comm a.triple.2.1, Lang.rank_comm a.triple.2.2]
  by_cases h : a.triple.1 = b.triple.1
  · simp [h]
  · rw [if_pos h, if_pos (Ne.symm h)]

/-- C05: it is 9 exactly when all parts agree, which is exactly when the Languages are equal. -/
theorem C05_match_nine (a b : Language) :
    (Language.match a b = 9 ↔ a.getLanguage = b.getLanguage ∧ a.getCountry = b.getCountry
      ∧ a.getModifier = b.getModifier) ∧ (Language.match a b = 9 ↔ a = b) := by
  rw [C05_match_is_score, Lang.score_eq_nine]
  constructor
  · simp [Language.triple]
  · exact ⟨Lang.triple_inj, fun h => by rw [h]⟩

example : Language.match (Language.fromEnv b!"de_AT") (Language.fromEnv b!"de") = 7 ∧
    Language.match (Language.fromEnv b!"de_AT") (Language.fromEnv b!"de_CH") = 4 ∧
    Language.match (Language.fromEnv b!"de_AT") (Language.fromEnv b!"fr") = 0 ∧
    Language.match (Language.fromEnv b!"be") (Language.fromEnv b!"be@latin") = 8 := by decide +kernel

/-! ### C06 -/

/-- C06: with the language codes agreeing, a closer country (equal > unspecified > different) and
the same closeness of the modifier give a strictly higher score. -/
theorem C06_country_monotone (a b a' b' : Language)
    (h : a.getLanguage = b.getLanguage) (h' : a'.getLanguage = b'.getLanguage)
    (hc : rank a.getCountry b.getCountry < rank a'.getCountry b'.getCountry)
    (hm : rank a.getModifier b.getModifier = rank a'.getModifier b'.getModifier) :
    Language.match a b < Language.match a' b' := by
  rw [C05_match_is_score, C05_match_is_score]
  unfold score Language.triple
  simp only [h, h', ne_eq, not_true, if_false, hm]
  have := Lang.rank_le a'.getCountry b'.getCountry
  have := Lang.rank_le a'.getModifier b'.getModifier
  generalize rank a.getCountry b.getCountry = x at *
  generalize rank a'.getCountry b'.getCountry = y at *
  generalize rank a'.getModifier b'.getModifier = z at *
  have hx : x = 0 ∨ x = 1 := by omega
  have hy : y = 1 ∨ y = 2 := by omega
  have hz : z = 0 ∨ z = 1 ∨ z = 2 := by omega
  rcases hx with rfl | rfl <;> rcases hy with rfl | rfl <;> rcases hz with rfl | rfl | rfl <;>
    first
    | decide
    | omega

/-- C06: the same for the modifier. -/
theorem C06_modifier_monotone (a b a' b' : Language)
    (h : a.getLanguage = b.getLanguage) (h' : a'.getLanguage = b'.getLanguage)
    (hc : rank a.getCountry b.getCountry = rank a'.getCountry b'.getCountry)
    (hm : rank a.getModifier b.getModifier < rank a'.getModifier b'.getModifier) :
    Language.match a b < Language.match a' b' := by
  rw [C05_match_is_score, C05_match_is_score]
  unfold score Language.triple
  simp only [h, h', ne_eq, not_true, if_false, hc]
  have := Lang.rank_le a'.getCountry b'.getCountry
  have := Lang.rank_le a'.getModifier b'.getModifier
  generalize rank a.getModifier b.getModifier = x at *
  generalize rank a'.getModifier b'.getModifier = y at *
  generalize rank a'.getCountry b'.getCountry = z at *
  have hx : x = 0 ∨ x = 1 := by omega
  have hy : y = 1 ∨ y = 2 := by omega
  have hz : z = 0 ∨ z = 1 ∨ z = 2 := by omega
  rcases hx with rfl | rfl <;> rcases hy with rfl | rfl <;> rcases hz with rfl | rfl | rfl <;>
    first
    | decide
    | omega

/-- de_AT/de_CH versus de_AT/de (country), be/be@latin versus be/be (modifier). -/
example :
    Language.match (Language.fromEnv b!"de_AT") (Language.fromEnv b!"de_CH")
      < Language.match (Language.fromEnv b!"de_AT") (Language.fromEnv b!"de") :=
  C06_country_monotone _ _ _ _ (by decide +kernel) (by decide +kernel) (by decide +kernel) (by decide +kernel)
example :
    Language.match (Language.fromEnv b!"be") (Language.fromEnv b!"be@latin")
      < Language.match (Language.fromEnv b!"be") (Language.fromEnv b!"be") :=
  C06_modifier_monotone _ _ _ _ (by decide +kernel) (by decide +kernel) (by decide +kernel) (by decide +kernel)

/-! ### C07, C08 -/

/-- C07: the assertion in `from_spec` never fails. -/
theorem C07_from_spec_no_abort (l c m : Str) :
    Language.fromSpecChecked l c m = some (Language.fromSpec l c m) := by
  unfold Language.fromSpec
  rcases Lang.fromSpec_spec l c m with ⟨h, _⟩ | ⟨i, h, _⟩ <;> simp [h]

/-- C07: unknown code ↔ undefined result; a defined result has the requested code. -/
theorem C07_from_spec_language (l c m : Str) :
    ((Language.fromSpec l c m).isDefined = false ↔ l ∉ languages.map (·.language)) ∧
    ((Language.fromSpec l c m).isDefined = true → (Language.fromSpec l c m).getLanguage = l) := by
  unfold Language.fromSpec
  rcases Lang.fromSpec_spec l c m with ⟨h, h2⟩ | ⟨i, h, hl, _⟩
  · simp only [h, Language.isDefined, Option.isSome_none, true_iff, Bool.false_eq_true,
      false_implies, and_true, List.mem_map, not_exists, not_and]
    intro s hs e
    exact h2 s hs e
  · simp only [h, Language.isDefined, Option.isSome_some, Bool.true_eq_false, false_iff,
      true_implies, hl, and_true, Classical.not_not]
    exact List.mem_map.2 ⟨derefLang i, Lang.derefLang_mem i, hl⟩

example : Language.fromSpec b!"xx" b!"DE" [] = none ∧
    (Language.fromSpec b!"pt" b!"BR\u0000X" b!"xyz").str = b!"pt_BR" := by decide +kernel

/-- C08: a defined result is the first of the known languages with the highest score (country and
modifier are passed on as C strings, i.e. up to a NUL). -/
theorem C08_from_spec_best (l c m : Str) (i : Fin 241)
    (h : Language.fromSpec l c m = some i) (j : Fin 241) :
    score (Language.triple (some j)) (l, cstr c, cstr m)
      ≤ score (Language.triple (some i)) (l, cstr c, cstr m) ∧
    (j < i → score (Language.triple (some j)) (l, cstr c, cstr m)
      < score (Language.triple (some i)) (l, cstr c, cstr m)) := by
  unfold Language.fromSpec at h
  rcases Lang.fromSpec_spec l c m with ⟨h', _⟩ | ⟨k, h', _, h2, h3⟩
  · rw [h'] at h; cases h
  · rw [h'] at h; cases h
    exact ⟨h2 j, h3 j⟩

/-- de_XY: no such row; the country-less row wins with score 7, before de_AT (4). -/
example : ∃ i, Language.fromSpec b!"de" b!"XY" [] = some i ∧
    score (Language.triple (some i)) (b!"de", b!"XY", []) = 7 := by decide +kernel

theorem Lang.not_nul (i : Fin 241) :
    (0 : UInt8) ∉ Language.getCountry (some i) ∧ (0 : UInt8) ∉ Language.getModifier (some i) := by
  have h := Lang.table_plain _ (Lang.derefLang_mem i)
  rw [Lang.getCountry_some, Lang.getModifier_some]
  constructor
  · rcases hc : (derefLang i).country with _ | c
    · simp [orEmpty]
    · intro h0
      have := h.2.1 c hc 0 h0
      exact absurd this.1 (by decide)
  · rcases hc : (derefLang i).modifier with _ | c
    · simp [orEmpty]
    · intro h0
      exact (h.2.2 c hc 0 h0).1 rfl

/-- C08: the parts of a Language (also the undefined one) give that Language back. -/
theorem C08_from_spec_exact (l : Language) :
    Language.fromSpec l.getLanguage l.getCountry l.getModifier = l := by
  cases l with
  | none => decide +kernel
  | some i =>
    have hd : (Language.fromSpec (Language.getLanguage (some i)) (Language.getCountry (some i))
        (Language.getModifier (some i))).isDefined = true := by
      refine Classical.byContradiction fun hc => ?_
      have := (C07_from_spec_language _ _ _).1.1 (Bool.eq_false_iff.2 hc)
      exact this (List.mem_map.2 ⟨derefLang i, Lang.derefLang_mem i, rfl⟩)
    obtain ⟨k, hk⟩ := Option.isSome_iff_exists.1 hd
    have hb := (C08_from_spec_best _ _ _ k hk i).1
    rw [Lang.cstr_of_not_mem (Lang.not_nul i).1, Lang.cstr_of_not_mem (Lang.not_nul i).2] at hb
    have h9 : score (Language.triple (some i)) (Language.triple (some i)) = 9 := Lang.score_eq_nine.2 rfl
    change score (Language.triple (some i)) (Language.triple (some i)) ≤ score (Language.triple (some k)) (Language.triple (some i)) at hb
    have h9' : score (Language.triple (some k)) (Language.triple (some i)) = 9 := by
      have := Lang.score_le (Language.triple (some k)) (Language.triple (some i))
      omega
    rw [hk]
    exact Lang.triple_inj (Lang.score_eq_nine.1 h9')

example : Language.getLanguage (Language.fromEnv b!"zh_TW") = b!"zh" ∧
    Language.getCountry (Language.fromEnv b!"zh_TW") = b!"TW" := by decide +kernel

/-! ### C10 -/

/-- C10: `from_env` takes a locale string apart; the codeset does not matter.  (`Fits`: the string
is not longer than a `std::string` can be.) -/
theorem C10_from_env_splits (ll : Str) (cc codeset md : Option Str)
    (hl : Plain ll) (hc : PlainOpt cc) (hs : PlainOpt codeset) (hm : PlainOpt md)
    (hfit : Fits (localeString ll cc codeset md)) :
    Language.fromEnv (localeString ll cc codeset md) =
      Language.fromSpec ll (orEmpty cc) (orEmpty md) :=
  Lang.fromEnv_localeString ll cc codeset md hl hc hs hm hfit

example : localeString b!"sr" (some b!"RS") (some b!"UTF-8") (some b!"latin") = b!"sr_RS.UTF-8@latin"
    ∧ Plain b!"sr" ∧ PlainOpt (some b!"RS") ∧ PlainOpt (some b!"UTF-8") ∧ PlainOpt (some b!"latin")
    ∧ (Language.fromEnv b!"sr_RS.UTF-8@latin").isDefined = true := by decide +kernel

/-! ### C09 -/

theorem Lang.str_eq (i : Fin 241) : Language.str (some i) =
    localeString (derefLang i).language (derefLang i).country none (derefLang i).modifier := by
  unfold Language.str
  rw [Lang.spec_some]
  rcases derefLang i with ⟨l, _ | c, _ | m, n, z⟩ <;> simp [localeString, part]

theorem Lang.str_fits : ∀ i : Fin 241, (Language.str (some i)).length < 100 := by decide +kernel

theorem Lang.plain_parts (i : Fin 241) : Plain (derefLang i).language ∧
    PlainOpt (derefLang i).country ∧ PlainOpt (derefLang i).modifier := by
  have h := Lang.table_plain _ (Lang.derefLang_mem i)
  have key : ∀ t : Str, (∀ b ∈ t, b ≠ 95 ∧ b ≠ 46 ∧ b ≠ 64) → Plain t := fun t ht =>
    ⟨fun m => (ht _ m).1 rfl, fun m => (ht _ m).2.1 rfl, fun m => (ht _ m).2.2 rfl⟩
  refine ⟨key _ fun b hb => ⟨(h.1 b hb).2.1, (h.1 b hb).2.2.1, (h.1 b hb).2.2.2.1⟩, ?_, ?_⟩
  · rcases hc : (derefLang i).country with _ | c
    · trivial
    · refine key _ fun b hb => ?_
      have := h.2.1 c hc b hb
      have h2 : b.toNat ≤ 90 ∧ 65 ≤ b.toNat := ⟨UInt8.le_iff_toNat_le.1 this.2, UInt8.le_iff_toNat_le.1 this.1⟩
      refine ⟨?_, ?_, ?_⟩ <;> (rintro rfl; revert h2; decide)
  · rcases hc : (derefLang i).modifier with _ | c
    · trivial
    · exact key _ fun b hb => ⟨(h.2.2 c hc b hb).2.1, (h.2.2 c hc b hb).2.2.1, (h.2.2 c hc b hb).2.2.2.1⟩

/-- C09: `from_env(L.str()) == L` for every Language. -/
theorem C09_env_roundtrip (l : Language) : Language.fromEnv l.str = l := by
  cases l with
  | none => decide +kernel
  | some i =>
    have hf : Fits (Language.str (some i)) := Nat.lt_trans (Lang.str_fits i) (by decide)
    have hp := Lang.plain_parts i
    rw [Lang.str_eq] at hf ⊢
    rw [C10_from_env_splits _ _ none _ hp.1 hp.2.1 trivial hp.2.2 hf]
    have := C08_from_spec_exact (some i)
    rw [Lang.getCountry_some, Lang.getModifier_some] at this
    exact this

theorem Lang.str_ascii (i : Fin 241) : ∀ b ∈ Language.str (some i), b < 128 := by
  rw [Lang.str_eq]
  have h := Lang.table_plain _ (Lang.derefLang_mem i)
  intro b hb
  simp only [localeString, part, List.append_nil, List.mem_append] at hb
  rcases hb with (hb | hb) | hb
  · exact (h.1 b hb).2.2.2.2
  · rcases hc : (derefLang i).country with _ | c
    · simp [hc, part] at hb
    · rw [hc] at hb
      rcases List.mem_cons.1 hb with rfl | hb
      · decide
      · exact UInt8.lt_of_le_of_lt (h.2.1 c hc b hb).2 (by decide)
  · rcases hc : (derefLang i).modifier with _ | c
    · simp [hc, part] at hb
    · rw [hc] at hb
      rcases List.mem_cons.1 hb with rfl | hb
      · decide
      · exact (h.2.2 c hc b hb).2.2.2.2

theorem Lang.map_tolower_ascii (ct : CType) {s : Str} (h : ∀ b ∈ s, b < 128) :
    s.map ct.tolower = s.map CType.c.tolower := by
  apply List.map_congr_left
  intro b hb
  rw [ct.tolower_ascii b (h b hb)]
  rfl

/-- C09: `from_name(L.str()) == L`. -/
theorem C09_name_roundtrip (ct : CType) (l : Language) : Language.fromName ct l.str = l := by
  unfold Language.fromName Language.resolveAlias
  have : AMap.get? languageAliases (l.str.map ct.tolower) = none := by
    cases l with
    | none => exact (by decide +kernel : AMap.get? languageAliases ([] : Str) = none)
    | some i =>
      rw [Lang.map_tolower_ascii ct (Lang.str_ascii i)]
      exact Lang.str_not_alias i
  rw [this]
  exact C09_env_roundtrip l

/-- C09: Languages are equal exactly when their strings are. -/
theorem C09_str_injective (a b : Language) : a = b ↔ a.str = b.str := by
  constructor
  · rintro rfl; rfl
  · intro h
    rw [← C09_env_roundtrip a, ← C09_env_roundtrip b, h]

example : (Language.fromEnv b!"be@latin").str = b!"be@latin" ∧
    (Language.fromEnv b!"pt_BR").str = b!"pt_BR" := by decide +kernel

/-! ### C11 -/

/-- The names in the alias table, as a user may write them (all lower case), and their languages. -/
def aliasNames : List (Str × Str) := [
  (b!"bokmal", b!"nb_NO"), (b!"bokmål", b!"nb_NO"), (b!"catalan", b!"ca_ES"),
  (b!"croatian", b!"hr_HR"), (b!"czech", b!"cs_CZ"), (b!"danish", b!"da_DK"), (b!"dansk", b!"da_DK"),
  (b!"deutsch", b!"de_DE"), (b!"dutch", b!"nl_NL"), (b!"eesti", b!"et_EE"), (b!"estonian", b!"et_EE"),
  (b!"finnish", b!"fi_FI"), (b!"français", b!"fr_FR"), (b!"french", b!"fr_FR"),
  (b!"galego", b!"gl_ES"), (b!"galician", b!"gl_ES"), (b!"german", b!"de_DE"), (b!"greek", b!"el_GR"),
  (b!"hebrew", b!"he_IL"), (b!"hrvatski", b!"hr_HR"), (b!"hungarian", b!"hu_HU"),
  (b!"icelandic", b!"is_IS"), (b!"italian", b!"it_IT"), (b!"japanese", b!"ja_JP"),
  (b!"japanese.euc", b!"ja_JP"), (b!"japanese.sjis", b!"ja_JP"), (b!"korean", b!"ko_KR"),
  (b!"korean.euc", b!"ko_KR"), (b!"lithuanian", b!"lt_LT"), (b!"norwegian", b!"nb_NO"),
  (b!"nynorsk", b!"nn_NO"), (b!"polish", b!"pl_PL"), (b!"portuguese", b!"pt_PT"),
  (b!"romanian", b!"ro_RO"), (b!"russian", b!"ru_RU"), (b!"slovak", b!"sk_SK"),
  (b!"slovene", b!"sl_SI"), (b!"slovenian", b!"sl_SI"), (b!"spanish", b!"es_ES"),
  (b!"swedish", b!"sv_SE"), (b!"thai", b!"th_TH"), (b!"turkish", b!"tr_TR")]

theorem Lang.aliasNames_resolve : ∀ p ∈ aliasNames, ∃ v,
    AMap.get? languageAliases p.1 = some v ∧ Language.fromEnv v = Language.fromEnv p.2
      ∧ (Language.fromEnv v).isDefined = true := by
  have h : ∀ p ∈ aliasNames, (AMap.get? languageAliases p.1).isSome = true ∧
      Language.fromEnv ((AMap.get? languageAliases p.1).getD []) = Language.fromEnv p.2 ∧
      (Language.fromEnv ((AMap.get? languageAliases p.1).getD [])).isDefined = true := by
    decide +kernel
  intro p hp
  obtain ⟨h1, h2, h3⟩ := h p hp
  obtain ⟨v, hv⟩ := Option.isSome_iff_exists.1 h1
  rw [hv] at h2 h3
  exact ⟨v, hv, h2, h3⟩

/-- C11: every spelling of an alias, in any letter case, names the alias's language, which is a
known one. -/
theorem C11_alias_any_case (ct : CType) (s name lang : Str) (hp : (name, lang) ∈ aliasNames)
    (hs : s.map ct.tolower = name) :
    Language.fromName ct s = Language.fromEnv lang ∧ (Language.fromName ct s).isDefined = true := by
  obtain ⟨v, h1, h2, h3⟩ := Lang.aliasNames_resolve _ hp
  unfold Language.fromName Language.resolveAlias
  simp only at h1 h2
  rw [hs, h1]
  exact ⟨h2, h3⟩

example : (b!"GERMAN").map CType.c.tolower = b!"german" ∧ (b!"german", b!"de_DE") ∈ aliasNames ∧
    (Language.fromName .c b!"GerMan").str = b!"de" ++ b!"_DE" := by decide +kernel

/-- C11: two spellings that differ only in letter case, one of them an alias, name the same
language. -/
theorem C11_case_insensitive (ct : CType) (s s' : Str) (h : s.map ct.tolower = s'.map ct.tolower)
    (ha : s.map ct.tolower ∈ languageAliases.map Prod.fst) :
    Language.fromName ct s = Language.fromName ct s' ∧ (Language.fromName ct s).isDefined = true := by
  obtain ⟨v, hv⟩ := AMap.mem_keys_iff.1 (show s.map ct.tolower ∈ AMap.keys languageAliases from ha)
  unfold Language.fromName Language.resolveAlias
  rw [← h, hv]
  have := Lang.alias_defined (_, v) (AMap.get?_mem hv)
  exact ⟨rfl, this⟩

/-- C11: anything else is treated as a locale string. -/
theorem C11_not_alias (ct : CType) (s : Str) (h : s.map ct.tolower ∉ languageAliases.map Prod.fst) :
    Language.fromName ct s = Language.fromEnv s := by
  unfold Language.fromName Language.resolveAlias
  rw [AMap.get?_eq_none_iff.2 (show s.map ct.tolower ∉ AMap.keys languageAliases from h)]

example : (b!"de_AT").map CType.c.tolower ∉ languageAliases.map Prod.fst := by decide +kernel

/-- C11: the aliases written with capital letters in the table ("ja_JP", "ko_KR", "no_NO", …) can
never be hit, since the name is lower-cased first; in particular "no_NO" is not Norwegian Bokmål. -/
theorem C11_uppercase_alias_unreachable (s key : Str)
    (hk : key ∈ [b!"ja_JP", b!"ja_JP.ujis", b!"ko_KR", b!"no_NO", b!"no_NO.ISO-8859-1"]) :
    s.map CType.c.tolower ≠ key := by
  have hlow : ∀ b : UInt8, ¬ (65 ≤ CType.c.tolower b ∧ CType.c.tolower b ≤ 90) :=
    forall_byte (by decide +kernel)
  have hup : ∀ key ∈ [b!"ja_JP", b!"ja_JP.ujis", b!"ko_KR", b!"no_NO", b!"no_NO.ISO-8859-1"],
      ∃ b ∈ key, 65 ≤ b ∧ b ≤ 90 := by decide +kernel
  rintro rfl
  obtain ⟨b, hb, hb2⟩ := hup _ hk
  obtain ⟨a, _, rfl⟩ := List.mem_map.1 hb
  exact hlow a hb2

/-- "no_NO" is an alias for nb_NO in the table, but resolves to "no". -/
example : (Language.fromName .c b!"no_NO").str ≠ b!"nb_NO" := by decide +kernel

/-! ### C12 -/

/-- C12: an undefined Language is false, has empty accessors, and is the only such Language. -/
theorem C12_undefined (l : Language) :
    (l.isDefined = false ↔ l = none) ∧
    (l = none → l.getLanguage = [] ∧ l.getCountry = [] ∧ l.getModifier = [] ∧ l.getName = []
      ∧ l.getLocalizedName = [] ∧ l.str = []) := by
  constructor
  · cases l <;> simp [Language.isDefined]
  · rintro rfl
    exact ⟨rfl, rfl, rfl, rfl, rfl, rfl⟩

/-- C12: a defined Language has a code, a name and a localized name (its name if it has no other),
and a string. -/
theorem C12_defined (l : Language) (h : l.isDefined = true) :
    l.getLanguage ≠ [] ∧ l.getName ≠ [] ∧ l.getLocalizedName ≠ [] ∧ l.str ≠ [] := by
  obtain ⟨i, rfl⟩ := Option.isSome_iff_exists.1 h
  have hp := Lang.table_parts _ (Lang.derefLang_mem i)
  refine ⟨hp.2.2.1, hp.2.2.2.1, ?_, ?_⟩
  · unfold Language.getLocalizedName Language.getName
    rw [Lang.spec_some]
    rcases hd : derefLang i with ⟨a, b, c, d, _ | e⟩
    · rw [hd] at hp; exact hp.2.2.2.1
    · rw [hd] at hp
      intro he
      exact hp.2.2.2.2.1 (congrArg some he)
  · intro h0
    have := C09_env_roundtrip (some i)
    rw [h0] at this
    revert this
    have : Language.fromEnv [] = none := by decide +kernel
    rw [this]
    intro h; cases h

/-- C12: the localized name defaults to the English name. -/
theorem C12_localized_default (i : Fin 241) (h : (derefLang i).nameLocalized = none) :
    Language.getLocalizedName (some i) = Language.getName (some i) := by
  unfold Language.getLocalizedName
  rw [Lang.spec_some]
  rcases hd : derefLang i with ⟨a, b, c, d, _ | e⟩
  · rfl
  · rw [hd] at h; cases h

example : (Language.fromEnv b!"zu").getLocalizedName = b!"Zulu" ∧
    (Language.fromEnv b!"de").getLocalizedName = b!"Deutsch" := by decide +kernel

/-! ### C13 -/

namespace Lang
open Manager

theorem upcase_no_underscore (ct : CType) (s : Str) (h : (95 : UInt8) ∉ s) :
    upcaseCountry ct false s = s := by
  induction s with
  | nil => rfl
  | cons c t ih =>
    simp only [List.mem_cons, not_or] at h
    have : (c == 95) = false := by simpa using Ne.symm h.1
    simp [upcaseCountry, this, ih h.2]

theorem upcase_letters (ct : CType) (letters rest : Str) (h : ∀ b ∈ letters, ct.isalpha b = true)
    (hr : ∀ b t, rest = b :: t → ct.isalpha b = false) :
    upcaseCountry ct true (letters ++ rest) = letters.map ct.toupper ++ rest := by
  induction letters with
  | nil =>
    cases rest with
    | nil => rfl
    | cons b t => simp [upcaseCountry, hr b t rfl]
  | cons c t ih =>
    simp [upcaseCountry, h c (List.mem_cons_self ..), ih (fun b hb => h b (List.mem_cons_of_mem _ hb))]

theorem upcase_split (ct : CType) (a letters rest : Str) (ha : (95 : UInt8) ∉ a)
    (h : ∀ b ∈ letters, ct.isalpha b = true)
    (hr : ∀ b t, rest = b :: t → ct.isalpha b = false) :
    upcaseCountry ct false (a ++ 95 :: (letters ++ rest))
      = a ++ 95 :: (letters.map ct.toupper ++ rest) := by
  induction a with
  | nil => simp [upcaseCountry, upcase_letters ct letters rest h hr]
  | cons c t ih =>
    simp only [List.mem_cons, not_or] at ha
    have : (c == 95) = false := by simpa using Ne.symm ha.1
    simp [upcaseCountry, this, ih ha.2]

end Lang

open Manager in
/-- C13: the conversion throws exactly for names shorter than 3 bytes. -/
theorem C13_throws_iff (ct : CType) (f : Str) :
    convertFilename2Language ct f = none ↔ f.length < 3 := by
  unfold convertFilename2Language
  split <;> simp_all

open Manager in
/-- C13: a name without underscore only loses its ".po" suffix; names without suffix are kept. -/
theorem C13_no_underscore (ct : CType) (stem : Str) (h : (95 : UInt8) ∉ stem) :
    convertFilename2Language ct (stem ++ b!".po") = some stem ∧
    (3 ≤ stem.length → stem.drop (stem.length - 3) ≠ b!".po" →
      convertFilename2Language ct stem = some stem) := by
  constructor
  · unfold convertFilename2Language
    rw [if_neg (by simp)]
    have : substr (stem ++ b!".po") ((stem ++ b!".po").length - 3) 3 = b!".po" := by simp [substr]
    rw [this]
    simp only [if_true, substr, List.drop_zero]
    rw [List.take_left' (by simp)]
    rw [Lang.upcase_no_underscore ct stem h]
  · intro hl hs
    unfold convertFilename2Language
    rw [if_neg (by omega)]
    have : substr stem (stem.length - 3) 3 ≠ b!".po" := by
      unfold substr
      rwa [List.take_of_length_le (by simp; omega)]
    rw [if_neg this]
    simp only [Lang.upcase_no_underscore ct stem h]

open Manager in
/-- C13: otherwise exactly the run of letters after the first underscore is upper-cased. -/
theorem C13_upcases_country (ct : CType) (a letters rest : Str) (ha : (95 : UInt8) ∉ a)
    (h : ∀ b ∈ letters, ct.isalpha b = true)
    (hr : ∀ b t, rest = b :: t → ct.isalpha b = false) :
    convertFilename2Language ct (a ++ b!"_" ++ letters ++ rest ++ b!".po")
      = some (a ++ b!"_" ++ letters.map ct.toupper ++ rest) := by
  unfold convertFilename2Language
  rw [if_neg (by simp; omega)]
  have : substr (a ++ b!"_" ++ letters ++ rest ++ b!".po")
      ((a ++ b!"_" ++ letters ++ rest ++ b!".po").length - 3) 3 = b!".po" := by
    unfold substr
    rw [List.drop_left' (by simp; omega)]; rfl
  rw [this]
  simp only [if_true, substr, List.drop_zero]
  rw [List.take_left' (by simp; omega)]
  have e : a ++ b!"_" ++ letters ++ rest = a ++ 95 :: (letters ++ rest) := by simp
  rw [e, Lang.upcase_split ct a letters rest ha h hr]
  simp

open Manager in
/-- C13: the same for a name that does not end in ".po" (nothing is removed). -/
theorem C13_upcases_country_no_suffix (ct : CType) (a letters rest : Str) (ha : (95 : UInt8) ∉ a)
    (h : ∀ b ∈ letters, ct.isalpha b = true)
    (hr : ∀ b t, rest = b :: t → ct.isalpha b = false)
    (hl : 3 ≤ (a ++ b!"_" ++ letters ++ rest).length) (hs : ¬ b!".po" <:+ a ++ b!"_" ++ letters ++ rest) :
    convertFilename2Language ct (a ++ b!"_" ++ letters ++ rest)
      = some (a ++ b!"_" ++ letters.map ct.toupper ++ rest) := by
  unfold convertFilename2Language
  rw [if_neg (by omega)]
  have : substr (a ++ b!"_" ++ letters ++ rest) ((a ++ b!"_" ++ letters ++ rest).length - 3) 3 ≠ b!".po" := by
    intro hc
    apply hs
    unfold substr at hc
    rw [List.take_of_length_le (by rw [List.length_drop]; omega)] at hc
    exact ⟨_, by rw [← hc]; exact List.take_append_drop _ _⟩
  rw [if_neg this]
  dsimp only
  have e : a ++ b!"_" ++ letters ++ rest = a ++ 95 :: (letters ++ rest) := by simp
  rw [e, Lang.upcase_split ct a letters rest ha h hr]
  simp

example : Manager.convertFilename2Language .c b!"pt_br.po" = some b!"pt_BR" ∧
    Manager.convertFilename2Language .c b!"be@latin.po" = some b!"be@latin" ∧
    Manager.convertFilename2Language .c b!"sr_rs@latin.po" = some b!"sr_RS@latin" := by decide +kernel

open Manager in
/-- C13: for every known language, the file name made of its parts, with the country in any letter
case, maps back to the language. -/
theorem C13_language_files (ct : CType) (i : Fin 241) (country : Option Str)
    (hc : (country.map (List.map ct.toupper)) = (derefLang i).country)
    (halpha : ∀ c, country = some c → ∀ b ∈ c, b < 128 ∧ ct.isalpha b = true) :
    ∃ name, convertFilename2Language ct
        (localeString (derefLang i).language country none (derefLang i).modifier ++ b!".po") = some name
      ∧ Language.fromEnv name = some i := by
  have hp := Lang.plain_parts i
  have h2 := C09_env_roundtrip (some i)
  rw [Lang.str_eq] at h2
  cases country with
  | none =>
    simp only [Option.map_none] at hc
    rw [← hc] at h2
    refine ⟨_, (C13_no_underscore ct _ ?_).1, h2⟩
    rcases hm : (derefLang i).modifier with _ | m
    · simpa [localeString, part] using hp.1.1
    · have := hp.2.2
      rw [hm] at this
      simp only [localeString, part, List.append_nil, List.mem_append, List.mem_cons]
      have h1 := hp.1.1
      have h3 := this.1
      simp [h1, h3]
  | some c =>
    simp only [Option.map_some] at hc
    rw [← hc] at h2
    have e : localeString (derefLang i).language (some c) none (derefLang i).modifier ++ b!".po"
        = (derefLang i).language ++ b!"_" ++ c ++ part 64 (derefLang i).modifier ++ b!".po" := by
      simp [localeString, part]
    have e2 : localeString (derefLang i).language (some (c.map ct.toupper)) none (derefLang i).modifier
        = (derefLang i).language ++ b!"_" ++ c.map ct.toupper ++ part 64 (derefLang i).modifier := by
      simp [localeString, part]
    rw [e2] at h2
    rw [e]
    refine ⟨_, C13_upcases_country ct _ c _ hp.1.1 (fun b hb => (halpha c rfl b hb).2) ?_, h2⟩
    intro b t hbt
    rcases hm : (derefLang i).modifier with _ | m
    · rw [hm] at hbt; cases hbt
    · rw [hm] at hbt
      cases hbt
      rw [ct.isalpha_ascii _ (by decide)]
      decide

example : ((some b!"bR").map (List.map CType.c.toupper)) = some b!"BR" ∧
    (∀ b ∈ b!"bR", b < 128 ∧ CType.c.isalpha b = true) := by decide +kernel

end Tgt
