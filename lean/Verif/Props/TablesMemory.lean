import Verif.Proofs.TablesMemory
import Verif.Props.Language
/-
The lazily filled tables when memory runs out (C90).
-/
namespace Tgt
open Spec Thr TabMem

/-- C90, in full: whatever failed before, a call that does not itself run out of memory returns what it should. -/
def C90_Statement : Prop :=
  ∀ (oom : Nat → Bool) (ct : CType) (calls : List Asking) (i : Nat) (c : Asking) (e : CallEnd),
    calls[i]? = some c → (endings oom ct calls noTables 0)[i]? = some e → e = .badAlloc ∨ e = .returned (c.right ct)

/-- C90 in full is false: the first `Language::from_env("de")` runs out of memory while it fills the table; the second, with all the memory it could want, says that
there is no such language. -/
theorem C90_false : ¬ C90_Statement := by
  intro h
  have e : (endings (fun t => t == 3) CType.c [.fromEnv b!"de", .fromEnv b!"de"] noTables 0) = [.badAlloc, .returned (.language none)] := by decide +kernel
  have := h (fun t => t == 3) CType.c [.fromEnv b!"de", .fromEnv b!"de"] 1 (.fromEnv b!"de") (.returned (.language none)) rfl (by rw [e]; rfl)
  revert this
  decide +kernel

/-- Other wrong answers: another language than the one asked for; a failed assertion; no plural rule; the name of an alias that is not known any more. -/
theorem C90_wrong_answers :
    endings (fun t => t == 83) CType.c [.fromEnv b!"fr", .fromEnv b!"de_AT"] noTables 0 = [.badAlloc, .returned (.language (Language.fromEnv b!"de"))] ∧
    Language.fromEnv b!"de" ≠ Language.fromEnv b!"de_AT" ∧
    endings (fun t => t == 2) CType.c [.fromEnv b!"aa", .fromEnv b!"aa"] noTables 0 = [.badAlloc, .aborted] ∧
    endings (fun t => t == 1) CType.c [.fromString b!"", .fromString b!"Plural-Forms: nplurals=2; plural=n != 1;"] noTables 0
      = [.badAlloc, .returned (.rule .undefined)] ∧
    endings (fun t => t == 2) CType.c [.fromName b!"german", .fromName b!"german"] noTables 0 = [.badAlloc, .returned (.language none)] := by
  refine ⟨?_, ?_, ?_, ?_, ?_⟩ <;> decide +kernel

/-- C90, exactly: in every run of a program there is one point up to which each table was ever filled, and every call that does not itself run out of memory ends as the
tables cut off there say. -/
theorem C90_exact (oom : Nat → Bool) (ct : CType) (calls : List Asking) :
    ∃ k : Cut, ∀ (i : Nat) (c : Asking) (e : CallEnd), calls[i]? = some c → (endings oom ct calls noTables 0)[i]? = some e → e = .badAlloc ∨ e = c.cut k ct := by
  obtain ⟨k, _, h⟩ := endings_mem oom ct calls noTables 0 desc_none
  exact ⟨k, h⟩

/-- C90.  `from_string` never gives a wrong rule: what it returns is the right rule or the undefined one. -/
theorem C90_rule (oom : Nat → Bool) (ct : CType) (calls : List Asking) (i : Nat) (s : Str) (e : CallEnd) (hc : calls[i]? = some (.fromString s))
    (he : (endings oom ct calls noTables 0)[i]? = some e) :
    e = .badAlloc ∨ e = .returned (.rule (PluralForms.fromString ct s)) ∨ e = .returned (.rule .undefined) := by
  obtain ⟨k, h⟩ := C90_exact oom ct calls
  rcases h i _ e hc he with h | h
  · exact .inl h
  · refine .inr ?_
    rw [h]
    have hg : AMap.get? (PluralForms.table.take k.plurals ++ PluralForms.table.drop k.plurals) (PluralForms.stripSpaces ct s)
        = AMap.get? PluralForms.table (PluralForms.stripSpaces ct s) := by rw [List.take_append_drop]
    rw [get?_append] at hg
    simp only [Asking.cut, Cut.rule, PluralForms.fromString]
    cases hx : AMap.get? (PluralForms.table.take k.plurals) (PluralForms.stripSpaces ct s) with
    | none => right; rfl
    | some p =>
      rw [hx] at hg
      rw [← hg]
      left; rfl

namespace TabMem

/-- Full tables give the right answers. -/
theorem full_cut {k : Cut} {g : Globals} (hd : Desc k g) (ct : CType) (c : Asking) (hf : ∀ x ∈ c.uses, Full g x) : c.cut k ct = .returned (c.right ct) := by
  have spec : Full g .langs → ∀ l c' m, k.spec l c' m = some (Language.fromSpec l c' m) := by
    intro hl l c' m
    have hk : ∀ s, rowsFound k s = rowsFound .whole s := by
      intro s
      rw [← (hd.langs.resolve_left hl.1) s, hl.2 s]
      unfold rowsFound
      have : languageRows.take Cut.whole.rows = languageRows := List.take_of_length_le (Nat.le_of_eq rows_length)
      rw [this]
      simp only [Cut.whole, Bool.false_eq_true, false_and, if_false]
    rw [← found_spec, hk, found_spec, whole_spec]
    exact C07_from_spec_no_abort l c' m
  have parts : ∀ s, Language.fromEnv s = Language.fromSpec (Thread.envParts s).1 (Thread.envParts s).2.1 (Thread.envParts s).2.2 := fun _ => rfl
  cases c with
  | fromString s =>
    have hp : Full g .plurals := hf _ (by simp [Asking.uses])
    have : k.rule ct s = PluralForms.fromString ct s := by
      unfold Cut.rule PluralForms.fromString
      rw [← (hd.plurals.resolve_left hp.1), hp.2]
      cases AMap.get? PluralForms.table (PluralForms.stripSpaces ct s) <;> rfl
    simp only [Asking.cut, Asking.right, this]
  | fromSpec l c' m => simp only [Asking.cut, Asking.right, spec (hf _ (by simp [Asking.uses])), CallEnd.ofLang]
  | fromEnv s =>
    simp only [Asking.cut, Asking.right, spec (hf _ (by simp [Asking.uses])), CallEnd.ofLang]
    rw [parts]
  | fromName s =>
    have ha : Full g .aliases := hf _ (by simp [Asking.uses])
    have hr : k.alias ct s = Language.resolveAlias ct s := by
      have h1 := (hd.aliases.resolve_left ha.1) (s.map ct.tolower)
      rw [ha.2, get?_append, half_get] at h1
      unfold Cut.alias Language.resolveAlias
      cases hx : AMap.get? (languageAliases.take k.aliases) (s.map ct.tolower) with
      | some v => rw [hx] at h1; rw [h1]
      | none =>
        rw [hx] at h1
        dsimp only at h1 ⊢
        rw [h1]
        by_cases hh : k.halfAlias = true ∧ (languageAliases[k.aliases]?).map Prod.fst = some (s.map ct.tolower)
        · rw [if_pos hh, if_pos hh]
        · rw [if_neg hh, if_neg hh]
    simp only [Asking.cut, Asking.right, spec (hf _ (by simp [Asking.uses])), CallEnd.ofLang, hr]
    unfold Language.fromName
    rw [parts]

end TabMem

/-- C90, proved part: if the first calls of a program all came back, then from then on every call that uses no table that they did not use returns
what it should, unless it runs out of memory itself, however many calls run out of memory in between.  Missing: calls after a failed first use. -/
theorem C90_after_first_partial (oom : Nat → Bool) (ct : CType) (first later : List Asking)
    (hfirst : CallEnd.badAlloc ∉ endings oom ct first noTables 0)
    (huses : ∀ c ∈ later, ∀ x ∈ c.uses, ∃ c' ∈ first, x ∈ c'.uses) :
    ∀ (i : Nat) (c : Asking) (e : CallEnd), later[i]? = some c → (endings oom ct (first ++ later) noTables 0)[first.length + i]? = some e →
      e = .badAlloc ∨ e = .returned (c.right ct) := by
  intro i c e hc he
  rw [endings_append, List.getElem?_append_right (by rw [endings_length]; omega), endings_length, Nat.add_sub_cancel_left] at he
  obtain ⟨hd, _, hf, _⟩ := left_full oom ct first noTables 0 desc_none ⟨.inl rfl, .inl rfl, .inl rfl⟩ hfirst
  obtain ⟨k, hk, h⟩ := endings_mem oom ct later _ (left oom ct first noTables 0).2 hd
  rcases h i c e hc he with h | h
  · exact .inl h
  · right
    rw [h]
    refine full_cut hk ct c (fun x hx => ?_)
    obtain ⟨c', hc', hx'⟩ := huses c (List.mem_of_getElem? hc) x hx
    exact hf c' hc' x hx'

/-- Without failures all calls return what they should. -/
theorem C90_enough (oom : Nat → Bool) (hm : ∀ t, oom t = false) (ct : CType) (calls : List Asking) :
    endings oom ct calls noTables 0 = calls.map (fun c => .returned (c.right ct)) := by
  have hoom : ∀ {α : Type} (x : Thread α) (g : Globals) (t : Nat), (x.mem oom g t).1 ≠ none := by
    intro α x
    induction x with
    | ret a => intro g t h; cases h
    | step a k ih =>
      intro g t
      unfold Thread.mem
      rw [hm, Bool.and_false, if_neg (by simp)]
      exact ih _ _ _
  have hno : ∀ (c : Asking) (g : Globals) (t : Nat), (c.mem oom ct g t).1 ≠ .badAlloc := by
    intro c g t h
    have hR : ∀ r : Option PluralForms, CallEnd.ofRule r = .badAlloc → r = none := by intro r; cases r <;> simp [CallEnd.ofRule]
    have hL : ∀ r : Option (Option Language), CallEnd.ofLang r = .badAlloc → r = none := by
      intro r; rcases r with _ | _ | r <;> simp [CallEnd.ofLang]
    cases c with
    | fromString s => exact hoom _ _ _ (hR _ h)
    | fromSpec l c' m => exact hoom _ _ _ (hL _ h)
    | fromEnv s => exact hoom _ _ _ (hL _ h)
    | fromName s => exact hoom _ _ _ (hL _ h)
  have all : ∀ (cs : List Asking) (g : Globals) (t : Nat), CallEnd.badAlloc ∉ endings oom ct cs g t := by
    intro cs
    induction cs with
    | nil => intro g t h; cases h
    | cons c cs ih =>
      intro g t h
      rcases List.mem_cons.1 h with h | h
      · exact hno c g t h.symm
      · exact ih _ _ h
  apply List.ext_getElem?
  intro i
  rw [List.getElem?_map]
  cases hc : calls[i]? with
  | none =>
    rw [List.getElem?_eq_none_iff] at hc
    exact List.getElem?_eq_none_iff.2 (by rw [endings_length]; exact hc)
  | some c =>
    have hi : i < (endings oom ct calls noTables 0).length := by
      rw [endings_length]; exact (List.getElem?_eq_some_iff.1 hc).1
    have he := List.getElem?_eq_getElem hi
    rw [he]
    have hne : (endings oom ct calls noTables 0)[i] ≠ .badAlloc := fun e => all calls noTables 0 (e ▸ List.getElem_mem hi)
    -- the calls before and this one are "first" calls; look at the prefix
    have hsplit : calls = calls.take i ++ c :: calls.drop (i + 1) := by
      have := List.take_append_drop i calls
      rw [List.drop_eq_getElem_cons (List.getElem?_eq_some_iff.1 hc).1, (List.getElem?_eq_some_iff.1 hc).2] at this
      exact this.symm
    obtain ⟨d1, o1, f1, _⟩ := left_full oom ct (calls.take i) noTables 0 desc_none ⟨.inl rfl, .inl rfl, .inl rfl⟩ (all _ _ _)
    have hthis : (endings oom ct calls noTables 0)[i] = (c.mem oom ct (left oom ct (calls.take i) noTables 0).1 (left oom ct (calls.take i) noTables 0).2).1 := by
      have h1 : (endings oom ct calls noTables 0)[i]? = some ((c.mem oom ct (left oom ct (calls.take i) noTables 0).1 (left oom ct (calls.take i) noTables 0).2).1) := by
        rw [hsplit, endings_append, List.getElem?_append_right (by rw [endings_length]; simp; omega), endings_length]
        have hil : i < calls.length := (List.getElem?_eq_some_iff.1 hc).1
        have hz : i - (calls.take i).length = 0 := by rw [List.length_take, Nat.min_eq_left (by omega)]; omega
        rw [hz, ← hsplit]
        rfl
      rw [he] at h1
      exact Option.some.inj h1
    rw [hthis] at hne ⊢
    obtain ⟨⟨k', hk'⟩, h2⟩ := call_mem oom ct c _ (left oom ct (calls.take i) noTables 0).2 d1
    obtain ⟨_, h3⟩ := h2 k' hk'
    obtain ⟨_, f2, _⟩ := call_full oom ct c _ (left oom ct (calls.take i) noTables 0).2 d1 o1 hne
    rw [h3.resolve_left hne, full_cut hk' ct c f2]
    rfl

/-- The hypotheses of `C90_after_first_partial` are met by a program that has made one call that uses both tables of languages; memory runs out later, twice. -/
example : CallEnd.badAlloc ∉ endings (fun t => t == 578 || t == 580) CType.c [.fromName b!"german"] noTables 0 ∧
    endings (fun t => t == 578 || t == 580) CType.c ([.fromName b!"german"] ++ [.fromEnv b!"de_AT", .fromName b!"french", .fromName b!"french", .fromEnv b!"de_AT"]) noTables 0
      = [.returned (.language (Language.fromEnv b!"de_DE.ISO-8859-1")), .badAlloc, .badAlloc, .returned (.language (Language.fromEnv b!"fr_FR")),
         .returned (.language (Language.fromEnv b!"de_AT"))] := by
  refine ⟨?_, ?_⟩ <;> decide +kernel

end Tgt
