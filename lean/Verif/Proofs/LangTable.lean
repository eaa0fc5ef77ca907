import Verif.Model.Language
/-
Facts about the (finite) language table, checked row by row by the kernel.
-/
namespace Tgt.Lang

theorem languages_length : languages.length = 241 := by decide +kernel

theorem languages_eq : languages = (List.finRange 241).map derefLang := by
  apply List.ext_getElem
  · simp [languages_length]
  · intro i h1 h2
    simp [derefLang, h1]

theorem rows_eq : languageRows = (List.finRange 241).map (fun i => (i, derefLang i)) := by
  unfold languageRows
  conv => lhs; rw [languages_eq]
  generalize List.finRange 241 = l
  induction l with
  | nil => rfl
  | cons a t ih => simp [ih]

theorem derefLang_mem (i : Fin 241) : derefLang i ∈ languages := by
  rw [languages_eq]
  exact List.mem_map.2 ⟨i, List.mem_finRange i, rfl⟩

/-- Country and modifier, if present, are non-empty. -/
theorem table_parts : ∀ s ∈ languages, s.country ≠ some [] ∧ s.modifier ≠ some [] ∧ s.language ≠ []
    ∧ s.name ≠ [] ∧ s.nameLocalized ≠ some [] ∧ (0 : UInt8) ∉ s.language := by
  decide +kernel

/-- No two rows have the same code, country and modifier. -/
theorem table_nodup : (languages.map (fun s => (s.language, s.country, s.modifier))).Nodup := by
  decide +kernel

/-- Countries are non-empty upper-case ASCII words; modifiers and codes are free of separators and
NULs and are ASCII. -/
theorem table_plain : ∀ s ∈ languages,
    (∀ b ∈ s.language, b ≠ 0 ∧ b ≠ 95 ∧ b ≠ 46 ∧ b ≠ 64 ∧ b < 128) ∧
    (∀ c, s.country = some c → ∀ b ∈ c, 65 ≤ b ∧ b ≤ 90) ∧
    (∀ m, s.modifier = some m → ∀ b ∈ m, b ≠ 0 ∧ b ≠ 95 ∧ b ≠ 46 ∧ b ≠ 64 ∧ b < 128) := by
  have h : (languages.all fun s =>
    s.language.all (fun b => decide (b ≠ 0 ∧ b ≠ 95 ∧ b ≠ 46 ∧ b ≠ 64 ∧ b < 128)) &&
    s.country.all (fun c => c.all fun b => decide (65 ≤ b ∧ b ≤ 90)) &&
    s.modifier.all (fun m => m.all fun b => decide (b ≠ 0 ∧ b ≠ 95 ∧ b ≠ 46 ∧ b ≠ 64 ∧ b < 128)))
      = true := by decide +kernel
  rw [List.all_eq_true] at h
  intro s hs
  have := h s hs
  simp only [Bool.and_eq_true, List.all_eq_true, decide_eq_true_eq] at this
  obtain ⟨⟨h1, h2⟩, h3⟩ := this
  refine ⟨h1, ?_, ?_⟩
  · intro c hc; rw [hc] at h2; simpa [List.all_eq_true] using h2
  · intro m hm; rw [hm] at h3; simpa [List.all_eq_true] using h3

/-- No language's own string is an alias. -/
theorem str_not_alias : ∀ i : Fin 241,
    AMap.get? languageAliases ((Language.str (some i)).map CType.c.tolower) = none := by
  decide +kernel

/-- Every alias stands for a known language. -/
theorem alias_defined : ∀ p ∈ languageAliases, (Language.fromEnv p.2).isDefined = true := by
  decide +kernel

end Tgt.Lang
