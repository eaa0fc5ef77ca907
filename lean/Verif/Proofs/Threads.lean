import Verif.Spec.Threads
import Verif.Proofs.AMap
import Verif.Proofs.LangTable
/-
Threads that use the shared tables.
-/
namespace Tgt.Thr
open Spec

variable {α β : Type}

/-- Run a thread without the others. -/
def alone : Thread α → Globals → α × Globals
  | .ret a, g => (a, g)
  | .step a k, g => alone (k (a.exec g).1) (a.exec g).2

theorem alone_bind (t : Thread α) (f : α → Thread β) (g : Globals) : alone (t.bind f) g = alone (f (alone t g).1) (alone t g).2 := by
  induction t generalizing g with
  | ret a => rfl
  | step a k ih => exact ih _ _

/-- A thread that, with these tables, makes this number of accesses, all of them reads, and ends with a result. -/
inductive Reads (g : Globals) : Nat → Thread α → α → Prop where
  | ret (a : α) : Reads g 0 (.ret a) a
  | step {a : Access} {k : a.Resp → Thread α} {n : Nat} {x : α} : a.writes = false → Reads g n (k (a.exec g).1) x → Reads g (n + 1) (.step a k) x

theorem Reads.bind {g : Globals} {n m : Nat} {t : Thread α} {f : α → Thread β} {a : α} {b : β} (h : Reads g n t a) (hf : Reads g m (f a) b) :
    Reads g (n + m) (t.bind f) b := by
  induction h with
  | ret a => rw [Nat.zero_add]; exact hf
  | step hw _ ih => rw [Nat.add_right_comm]; exact .step hw (ih hf)

theorem exec_reads {a : Access} (h : a.writes = false) (g : Globals) : (a.exec g).2 = g := by
  cases a <;> first | rfl | cases h

/-! ### Filling -/

theorem slot_get {ν : Type} (d : ν) (m : AMap Str ν) (k k' : Str) : (Access.slot d m k).get? k' = if k = k' then some ((m.get? k).getD d) else m.get? k' := by
  unfold Access.slot
  cases h : m.get? k with
  | some v => dsimp only; split
              · rename_i e; rw [← e, h]; rfl
              · rfl
  | none => dsimp only; rw [AMap.get?_set]; rfl

/-- `m[k] = v` for each pair. -/
def fill {ν : Type} (d : ν) (t : List (Str × ν)) (m : AMap Str ν) : AMap Str ν :=
  t.foldl (fun m x => (Access.slot d m x.1).set x.1 x.2) m

theorem fill_get {ν : Type} (d : ν) (t : List (Str × ν)) (hn : (AMap.keys t).Nodup) : ∀ (m : AMap Str ν) (k : Str),
    (fill d t m).get? k = match AMap.get? t k with
      | some v => some v
      | none => m.get? k := by
  induction t with
  | nil => intro m k; rfl
  | cons x t ih =>
    intro m k
    obtain ⟨k0, v0⟩ := x
    simp only [AMap.keys, List.map_cons, List.nodup_cons] at hn
    show (fill d t ((Access.slot d m k0).set k0 v0)).get? k = _
    rw [ih hn.2]
    simp only [AMap.get?]
    by_cases h : k0 = k
    · subst h
      have : AMap.get? t k0 = none := by
        cases h : AMap.get? t k0 with
        | none => rfl
        | some v => exact absurd (List.mem_map.2 ⟨_, AMap.get?_mem h, rfl⟩) hn.1
      rw [if_pos rfl, this]
      exact AMap.get?_set_self _ _ _
    · rw [if_neg h]
      cases AMap.get? t k with
      | some v => rfl
      | none => simp [AMap.get?_set, slot_get, h]

theorem plurals_fill (t : List (Str × PluralForms)) : ∀ g : Globals,
    alone (Thread.fillPlurals t) g = ((), { g with plurals := fill PluralForms.undefined t g.plurals }) := by
  induction t with
  | nil => intro g; rfl
  | cons x t ih => intro g; exact ih _

theorem aliases_fill (t : List (Str × Str)) : ∀ g : Globals, alone (Thread.fillAliases t) g = ((), { g with aliases := fill [] t g.aliases }) := by
  induction t with
  | nil => intro g; rfl
  | cons x t ih => intro g; exact ih _

/-- `m[k].push_back(i)` for each row. -/
def fillRows (t : List (Fin 241 × LanguageSpec)) (m : AMap Str (List (Fin 241))) : AMap Str (List (Fin 241)) :=
  t.foldl (fun m x => let m' := Access.slot [] m x.2.language; m'.set x.2.language (((m'.get? x.2.language).getD []) ++ [x.1])) m

theorem langs_fill (t : List (Fin 241 × LanguageSpec)) : ∀ g : Globals, alone (Thread.fillLangs t) g = ((), { g with langs := fillRows t g.langs }) := by
  induction t with
  | nil => intro g; rfl
  | cons x t ih => intro g; exact ih _

theorem fillRows_get (t : List (Fin 241 × LanguageSpec)) : ∀ (m : AMap Str (List (Fin 241))) (k : Str),
    (fillRows t m).get? k = if t.filter (fun r => r.2.language = k) = [] then m.get? k
      else some ((m.get? k).getD [] ++ (t.filter (fun r => r.2.language = k)).map Prod.fst) := by
  induction t with
  | nil => intro m k; rfl
  | cons x t ih =>
    intro m k
    show (fillRows t ((Access.slot [] m x.2.language).set x.2.language ((((Access.slot [] m x.2.language).get? x.2.language).getD []) ++ [x.1]))).get? k = _
    rw [ih]
    by_cases h : x.2.language = k
    · subst h
      simp only [AMap.get?_set_self, slot_get, List.filter_cons]
      simp
    · rw [List.filter_cons_of_neg (by simpa using h)]
      simp [AMap.get?_set, slot_get, h]

/-! ### Full tables -/

/-- `plural_forms` is full. -/
def FullP (m : AMap Str PluralForms) : Prop := m ≠ [] ∧ ∀ k, m.get? k = AMap.get? PluralForms.table k
/-- `language_aliases` is full. -/
def FullA (m : AMap Str Str) : Prop := m ≠ [] ∧ ∀ k, m.get? k = AMap.get? languageAliases k
/-- `language_map` is full. -/
def FullL (m : AMap Str (List (Fin 241))) : Prop :=
  m ≠ [] ∧ ∀ k, m.get? k = if languageRows.filter (fun r => r.2.language = k) = [] then none
    else some ((languageRows.filter (fun r => r.2.language = k)).map Prod.fst)

theorem ne_nil {ν : Type} {m : AMap Str ν} {k : Str} {v : ν} (h : m.get? k = some v) : m ≠ [] := by
  rintro rfl; cases h

theorem full_plurals : FullP (fill PluralForms.undefined PluralForms.table []) := by
  have h : ∀ k, (fill PluralForms.undefined PluralForms.table []).get? k = AMap.get? PluralForms.table k := by
    intro k
    rw [fill_get _ _ (by decide +kernel)]
    cases AMap.get? PluralForms.table k <;> rfl
  have hx : (AMap.get? PluralForms.table b!"Plural-Forms:nplurals=1;plural=0;").isSome = true := by decide +kernel
  obtain ⟨v, hv⟩ := Option.isSome_iff_exists.1 hx
  exact ⟨ne_nil (by rw [h, hv]), h⟩

theorem full_aliases : FullA (fill [] languageAliases []) := by
  have h : ∀ k, (fill [] languageAliases []).get? k = AMap.get? languageAliases k := by
    intro k
    rw [fill_get _ _ (by decide +kernel)]
    cases AMap.get? languageAliases k <;> rfl
  have hx : (AMap.get? languageAliases b!"german").isSome = true := by decide +kernel
  obtain ⟨v, hv⟩ := Option.isSome_iff_exists.1 hx
  exact ⟨ne_nil (by rw [h, hv]), h⟩

theorem full_langs : FullL (fillRows languageRows []) := by
  have h : ∀ k, (fillRows languageRows []).get? k = if languageRows.filter (fun r => r.2.language = k) = [] then none
    else some ((languageRows.filter (fun r => r.2.language = k)).map Prod.fst) := fun k => fillRows_get languageRows [] k
  refine ⟨?_, h⟩
  have hx : ¬ (languageRows.filter (fun r => r.2.language = b!"de") = []) := by decide +kernel
  exact ne_nil (by rw [h b!"de", if_neg hx])

/-- What is found in the full map of languages is what `from_spec` looks for. -/
theorem spec_found {m : AMap Str (List (Fin 241))} (hm : FullL m) (language country modifier : Str) :
    (match m.get? language with
      | some lst =>
        let tmp : LanguageSpec := ⟨cstr language, some (cstr country), some (cstr modifier), [], none⟩
        (lst.foldl (fun best i => Language.bestStep tmp best (i, derefLang i)) (none, 0)).1
      | none => none) = Language.fromSpec language country modifier := by
  rw [hm.2 language]
  unfold Language.fromSpec Language.fromSpecChecked
  dsimp only
  by_cases h : languageRows.filter (fun r => r.2.language = language) = []
  · rw [if_pos h, h]; rfl
  · rw [if_neg h]
    have h' : (languageRows.filter (fun r => r.2.language = language)).isEmpty = false := by
      cases hl : languageRows.filter (fun r => r.2.language = language) with
      | nil => exact absurd hl h
      | cons a t => rfl
    rw [h']
    simp only [Bool.false_eq_true, if_false]
    rw [List.foldl_map]
    have hr : ∀ r ∈ languageRows.filter (fun r => r.2.language = language), (r.1, derefLang r.1) = r := by
      intro r hr
      have := (List.mem_filter.1 hr).1
      rw [Lang.rows_eq] at this
      obtain ⟨i, _, rfl⟩ := List.mem_map.1 this
      rfl
    generalize hl : languageRows.filter (fun r => r.2.language = language) = l at hr
    have : ∀ (l : List (Fin 241 × LanguageSpec)) (b : Option (Fin 241) × Nat), (∀ r ∈ l, (r.1, derefLang r.1) = r) →
        l.foldl (fun best y => Language.bestStep ⟨cstr language, some (cstr country), some (cstr modifier), [], none⟩ best (y.1, derefLang y.1)) b
          = l.foldl (Language.bestStep ⟨cstr language, some (cstr country), some (cstr modifier), [], none⟩) b := by
      intro l
      induction l with
      | nil => intro b _; rfl
      | cons x t ih =>
        intro b h
        rw [List.foldl_cons, List.foldl_cons, h x List.mem_cons_self]
        exact ih _ (fun r hr => h r (List.mem_cons_of_mem _ hr))
    rw [this l _ hr]
    generalize (l.foldl (Language.bestStep ⟨cstr language, some (cstr country), some (cstr modifier), [], none⟩) (none, 0)).1 = o
    cases o <;> rfl

/-! ### Calls -/

theorem isEmpty_false {ν : Type} {m : AMap Str ν} (h : m ≠ []) : m.isEmpty = false := by
  cases m with
  | nil => exact absurd rfl h
  | cons a t => rfl

theorem reads_string (ct : CType) (g : Globals) (h : FullP g.plurals) (s : Str) : Reads g 2 (Thread.fromString ct s) (PluralForms.fromString ct s) := by
  refine .step rfl ?_
  show Reads g 1 (Thread.bind (if g.plurals.isEmpty = true then Thread.fillPlurals PluralForms.table else .ret ()) _) _
  rw [isEmpty_false h.1]
  refine .step rfl ?_
  show Reads g 0 (.ret (match g.plurals.get? (PluralForms.stripSpaces ct s) with | some p => p | none => PluralForms.undefined)) _
  rw [h.2]
  exact .ret _

theorem alone_string (ct : CType) (g : Globals) (h : g.plurals = [] ∨ FullP g.plurals) (s : Str) :
    ∃ m, FullP m ∧ alone (Thread.fromString ct s) g = (PluralForms.fromString ct s, { g with plurals := m }) := by
  have key : ∀ g : Globals, FullP g.plurals → alone (.step (.pluralsFind (PluralForms.stripSpaces ct s)) fun (r : Option PluralForms) =>
        Thread.ret (match r with
          | some p => p
          | none => PluralForms.undefined)) g = (PluralForms.fromString ct s, g) := by
    intro g h
    show ((match g.plurals.get? (PluralForms.stripSpaces ct s) with | some p => p | none => PluralForms.undefined), g) = _
    rw [h.2]
    rfl
  unfold Thread.fromString
  show ∃ m, FullP m ∧ alone (Thread.bind (if g.plurals.isEmpty = true then Thread.fillPlurals PluralForms.table else .ret ()) _) g = _
  rcases h with h | h
  · have e : g.plurals.isEmpty = true := by rw [h]; rfl
    rw [if_pos e, alone_bind, plurals_fill, h]
    have F := full_plurals
    generalize fill PluralForms.undefined PluralForms.table [] = m' at F ⊢
    exact ⟨m', F, key { g with plurals := m' } F⟩
  · rw [if_neg (by rw [isEmpty_false h.1]; simp), alone_bind]
    exact ⟨_, h, key g h⟩

theorem reads_alias (ct : CType) (g : Globals) (h : FullA g.aliases) (s : Str) : Reads g 2 (Thread.resolveAlias ct s) (Language.resolveAlias ct s) := by
  refine .step rfl ?_
  show Reads g 1 (Thread.bind (if g.aliases.isEmpty = true then Thread.fillAliases languageAliases else .ret ()) _) _
  rw [isEmpty_false h.1]
  refine .step rfl ?_
  show Reads g 0 (.ret (match g.aliases.get? (s.map ct.tolower) with | some p => p | none => s)) _
  rw [h.2]
  exact .ret _

theorem alone_alias (ct : CType) (g : Globals) (h : g.aliases = [] ∨ FullA g.aliases) (s : Str) :
    ∃ m, FullA m ∧ alone (Thread.resolveAlias ct s) g = (Language.resolveAlias ct s, { g with aliases := m }) := by
  have key : ∀ g : Globals, FullA g.aliases → alone (.step (.aliasesFind (s.map ct.tolower)) fun (r : Option Str) =>
        Thread.ret (match r with
          | some v => v
          | none => s)) g = (Language.resolveAlias ct s, g) := by
    intro g h
    show ((match g.aliases.get? (s.map ct.tolower) with | some p => p | none => s), g) = _
    rw [h.2]
    rfl
  unfold Thread.resolveAlias
  show ∃ m, FullA m ∧ alone (Thread.bind (if g.aliases.isEmpty = true then Thread.fillAliases languageAliases else .ret ()) _) g = _
  rcases h with h | h
  · have e : g.aliases.isEmpty = true := by rw [h]; rfl
    rw [if_pos e, alone_bind, aliases_fill, h]
    have F := full_aliases
    generalize fill [] languageAliases [] = m' at F ⊢
    exact ⟨m', F, key { g with aliases := m' } F⟩
  · rw [if_neg (by rw [isEmpty_false h.1]; simp), alone_bind]
    exact ⟨_, h, key g h⟩

theorem reads_spec (g : Globals) (h : FullL g.langs) (l c m : Str) : Reads g 2 (Thread.fromSpec l c m) (Language.fromSpec l c m) := by
  refine .step rfl ?_
  show Reads g 1 (Thread.bind (if g.langs.isEmpty = true then Thread.fillLangs languageRows else .ret ()) _) _
  rw [isEmpty_false h.1]
  refine .step rfl ?_
  rw [← spec_found h l c m]
  exact .ret _

theorem alone_spec (g : Globals) (h : g.langs = [] ∨ FullL g.langs) (l c m : Str) :
    ∃ x, FullL x ∧ alone (Thread.fromSpec l c m) g = (Language.fromSpec l c m, { g with langs := x }) := by
  have key : ∀ g : Globals, FullL g.langs → alone (.step (.langsFind l) fun (r : Option (List (Fin 241))) =>
        Thread.ret (match r with
          | some lst =>
            let tmp : LanguageSpec := ⟨cstr l, some (cstr c), some (cstr m), [], none⟩
            (lst.foldl (fun best i => Language.bestStep tmp best (i, derefLang i)) (none, 0)).1
          | none => none)) g = (Language.fromSpec l c m, g) := by
    intro g h
    rw [← spec_found h l c m]
    rfl
  unfold Thread.fromSpec
  show ∃ x, FullL x ∧ alone (Thread.bind (if g.langs.isEmpty = true then Thread.fillLangs languageRows else .ret ()) _) g = _
  rcases h with h | h
  · have e : g.langs.isEmpty = true := by rw [h]; rfl
    rw [if_pos e, alone_bind, langs_fill, h]
    have F := full_langs
    generalize fillRows languageRows [] = m' at F ⊢
    exact ⟨m', F, key { g with langs := m' } F⟩
  · rw [if_neg (by rw [isEmpty_false h.1]; simp), alone_bind]
    exact ⟨_, h, key g h⟩

/-- A table is full. -/
def Full (g : Globals) : Tbl → Prop
  | .plurals => FullP g.plurals
  | .aliases => FullA g.aliases
  | .langs => FullL g.langs

/-- Every table is empty or full. -/
structure Okay (g : Globals) : Prop where
  plurals : g.plurals = [] ∨ FullP g.plurals
  aliases : g.aliases = [] ∨ FullA g.aliases
  langs : g.langs = [] ∨ FullL g.langs

theorem reads_call (ct : CType) (g : Globals) (c : Asking) (h : ∀ t ∈ c.uses, Full g t) : ∃ n, n ≤ 4 ∧ Reads g n (c.run ct) (c.right ct) := by
  cases c with
  | fromString s =>
    exact ⟨2 + 0, by omega, Reads.bind (f := fun p => .ret (Told.rule p)) (reads_string ct g (h .plurals (by simp [Asking.uses])) s) (.ret _)⟩
  | fromSpec l c m =>
    exact ⟨2 + 0, by omega, Reads.bind (f := fun p => .ret (Told.language p)) (reads_spec g (h .langs (by simp [Asking.uses])) l c m) (.ret _)⟩
  | fromEnv s =>
    have e := reads_spec g (h .langs (by simp [Asking.uses]))
    unfold Asking.run Thread.fromEnv
    exact ⟨2 + 0, by omega, Reads.bind (f := fun p => .ret (Told.language p)) (e _ _ _) (.ret _)⟩
  | fromName s =>
    have e := reads_spec g (h .langs (by simp [Asking.uses]))
    unfold Asking.run Thread.fromName
    exact ⟨2 + 2 + 0, by omega, Reads.bind (f := fun p => .ret (Told.language p))
      (Reads.bind (f := Thread.fromEnv) (reads_alias ct g (h .aliases (by simp [Asking.uses])) s) (e _ _ _)) (.ret _)⟩

theorem alone_call (ct : CType) (g : Globals) (c : Asking) (h : Okay g) :
    ∃ g', alone (c.run ct) g = (c.right ct, g') ∧ Okay g' ∧ (∀ t ∈ c.uses, Full g' t) ∧ ∀ t, Full g t → Full g' t := by
  cases c with
  | fromString s =>
    obtain ⟨m, hm, e⟩ := alone_string ct g h.plurals s
    refine ⟨{ g with plurals := m }, ?_, ⟨.inr hm, h.aliases, h.langs⟩, ?_, ?_⟩
    · unfold Asking.run; rw [alone_bind, e]; rfl
    · intro t ht; simp [Asking.uses] at ht; subst ht; exact hm
    · intro t ht; cases t <;> first | exact hm | exact ht
  | fromSpec l c m =>
    obtain ⟨x, hx, e⟩ := alone_spec g h.langs l c m
    refine ⟨{ g with langs := x }, ?_, ⟨h.plurals, h.aliases, .inr hx⟩, ?_, ?_⟩
    · unfold Asking.run; rw [alone_bind, e]; rfl
    · intro t ht; simp [Asking.uses] at ht; subst ht; exact hx
    · intro t ht; cases t <;> first | exact hx | exact ht
  | fromEnv s =>
    have e := alone_spec g h.langs
    unfold Asking.run Thread.fromEnv
    obtain ⟨x, hx, e⟩ := e _ _ _
    refine ⟨{ g with langs := x }, ?_, ⟨h.plurals, h.aliases, .inr hx⟩, ?_, ?_⟩
    · dsimp only; rw [alone_bind, e]; rfl
    · intro t ht; simp [Asking.uses] at ht; subst ht; exact hx
    · intro t ht; cases t <;> first | exact hx | exact ht
  | fromName s =>
    obtain ⟨m, hm, e1⟩ := alone_alias ct g h.aliases s
    have e := alone_spec { g with aliases := m } h.langs
    unfold Asking.run Thread.fromName Thread.fromEnv
    obtain ⟨x, hx, e⟩ := e _ _ _
    refine ⟨⟨g.plurals, m, x⟩, ?_, ⟨h.plurals, .inr hm, .inr hx⟩, ?_, ?_⟩
    · dsimp only; rw [alone_bind, alone_bind, e1]; dsimp only; rw [e]; rfl
    · intro t ht; simp [Asking.uses] at ht; rcases ht with rfl | rfl
      · exact hm
      · exact hx
    · intro t ht; cases t <;> first | exact hm | exact hx | exact ht

theorem reads_making (ct : CType) (g : Globals) (cs : List Asking) (h : ∀ c ∈ cs, ∀ t ∈ c.uses, Full g t) :
    ∃ n, n ≤ 4 * cs.length ∧ Reads g n (making ct cs) (cs.map (Asking.right ct)) := by
  induction cs with
  | nil => exact ⟨0, by simp, .ret _⟩
  | cons c t ih =>
    obtain ⟨n, hn, hr⟩ := reads_call ct g c (h c List.mem_cons_self)
    obtain ⟨m, hm, hs⟩ := ih (fun c hc => h c (List.mem_cons_of_mem _ hc))
    exact ⟨n + (m + 0), by simp; omega, hr.bind (hs.bind (.ret _))⟩

theorem alone_making (ct : CType) (cs : List Asking) : ∀ g : Globals, Okay g →
    ∃ g', alone (making ct cs) g = (cs.map (Asking.right ct), g') ∧ Okay g' ∧ (∀ c ∈ cs, ∀ t ∈ c.uses, Full g' t) ∧ ∀ t, Full g t → Full g' t := by
  induction cs with
  | nil => intro g h; exact ⟨g, rfl, h, by simp, fun _ h => h⟩
  | cons c t ih =>
    intro g h
    obtain ⟨g1, e1, o1, u1, k1⟩ := alone_call ct g c h
    obtain ⟨g2, e2, o2, u2, k2⟩ := ih g1 o1
    refine ⟨g2, ?_, o2, ?_, fun t h => k2 t (k1 t h)⟩
    · unfold making; rw [alone_bind, e1]; dsimp only; rw [alone_bind, e2]; rfl
    · intro c' hc t ht
      rcases List.mem_cons.1 hc with rfl | hc
      · exact k2 t (u1 t ht)
      · exact u2 c' hc t ht

/-! ### Schedules -/

/-- A thread that is the only one to run for long enough comes to its end. -/
theorem run_alone (t : Thread (List Told)) : ∀ g : Globals, ∃ n0, ∀ n, n0 ≤ n →
    (Running.mk g [t]).run (List.replicate n 0) = ⟨(alone t g).2, [.ret (alone t g).1]⟩ := by
  induction t with
  | ret a =>
    intro g
    refine ⟨0, fun n _ => ?_⟩
    induction n with
    | zero => rfl
    | succ n ih => rw [List.replicate_succ]; exact ih (by omega)
  | step a k ih =>
    intro g
    obtain ⟨n0, h⟩ := ih (a.exec g).1 (a.exec g).2
    refine ⟨n0 + 1, fun n hn => ?_⟩
    obtain ⟨m, rfl⟩ : ∃ m, n = m + 1 := ⟨n - 1, by omega⟩
    rw [List.replicate_succ]
    exact h m (by omega)

/-- Running on after the end changes nothing. -/
theorem run_ret (a : List Told) (g : Globals) (n : Nat) : (Running.mk g [.ret a]).run (List.replicate n 0) = ⟨g, [.ret a]⟩ := by
  induction n with
  | zero => rfl
  | succ n ih => rw [List.replicate_succ]; exact ih

theorem run_append (w : Running) (a b : List Nat) : w.run (a ++ b) = (w.run a).run b := List.foldl_append ..

/-- If every thread only reads, with these tables, it is so after every schedule. -/
theorem run_reads (g : Globals) (N : Nat → Nat) (R : Nat → List Told) : ∀ (sched : List Nat) (w : Running), w.tables = g →
    (∀ i t, w.threads[i]? = some t → ∃ n, n ≤ N i ∧ Reads g n t (R i)) →
    (w.run sched).tables = g ∧ (w.run sched).threads.length = w.threads.length ∧
    ∀ i t, (w.run sched).threads[i]? = some t → ∃ n, n ≤ N i - sched.count i ∧ Reads g n t (R i) := by
  intro sched
  induction sched generalizing N with
  | nil => intro w h1 h2; exact ⟨h1, rfl, h2⟩
  | cons j s ih =>
    intro w h1 h2
    have hstep : (w.step j).tables = g ∧ (w.step j).threads.length = w.threads.length ∧
        ∀ i t, (w.step j).threads[i]? = some t → ∃ n, n ≤ N i - (if i = j then 1 else 0) ∧ Reads g n t (R i) := by
      unfold Running.step
      cases hj : w.threads[j]? with
      | none =>
        refine ⟨h1, rfl, fun i t ht => ?_⟩
        have : i ≠ j := by rintro rfl; rw [hj] at ht; cases ht
        rw [if_neg this]
        exact h2 i t ht
      | some u =>
        obtain ⟨n, hn, hr⟩ := h2 j u hj
        cases u with
        | ret a =>
          cases hr
          refine ⟨h1, rfl, fun i t ht => ?_⟩
          by_cases hij : i = j
          · subst hij
            rw [hj] at ht
            cases ht
            exact ⟨0, by omega, .ret _⟩
          · rw [if_neg hij]; exact h2 i t ht
        | step a k =>
          cases hr with
          | step hw hr =>
            dsimp only
            rw [h1]
            refine ⟨exec_reads hw g, by simp, fun i t ht => ?_⟩
            by_cases hij : i = j
            · subst hij
              rw [List.getElem?_set_self (List.getElem?_eq_some_iff.1 hj).1] at ht
              cases ht
              rw [if_pos rfl]
              exact ⟨_, by omega, hr⟩
            · rw [List.getElem?_set_ne (Ne.symm hij)] at ht
              rw [if_neg hij]
              exact h2 i t ht
    obtain ⟨s1, s2, s3⟩ := hstep
    obtain ⟨r1, r2, r3⟩ := ih _ (w.step j) s1 s3
    refine ⟨r1, r2.trans s2, fun i t ht => ?_⟩
    obtain ⟨n, hn, hr⟩ := r3 i t ht
    refine ⟨n, ?_, hr⟩
    rw [List.count_cons]
    by_cases hij : i = j
    · subst hij; simp at hn ⊢; omega
    · have : (j == i) = false := by simp [Ne.symm hij]
      rw [this]; simp [hij] at hn ⊢; omega

end Tgt.Thr
