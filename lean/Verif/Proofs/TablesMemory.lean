import Verif.Spec.TablesMemory
import Verif.Proofs.Threads
/-
The shared tables when memory runs out.
-/
namespace Tgt.TabMem
open Spec Thr

variable {α β : Type}

theorem mem_bind (oom : Nat → Bool) (x : Thread α) (f : α → Thread β) : ∀ (g : Globals) (t : Nat),
    (x.bind f).mem oom g t = match x.mem oom g t with
      | (some a, g', t') => (f a).mem oom g' t'
      | (none, g', t') => (none, g', t') := by
  induction x with
  | ret a => intro g t; rfl
  | step a k ih =>
    intro g t
    have e1 : Thread.mem oom ((Thread.step a k).bind f) g t = if a.allocates && oom t then (none, g, t + 1)
        else Thread.mem oom ((k (a.exec g).1).bind f) (a.exec g).2 (if a.allocates then t + 1 else t) := rfl
    have e2 : Thread.mem oom (Thread.step a k) g t = if a.allocates && oom t then (none, g, t + 1)
        else Thread.mem oom (k (a.exec g).1) (a.exec g).2 (if a.allocates then t + 1 else t) := rfl
    rw [e1, e2]
    split
    · rfl
    · exact ih _ _ _

theorem take_cons {x : α} {t : List α} (j : Nat) : (x :: t).take (j + 1) = x :: t.take j := rfl

/-- Filling the table of plural rules: it comes to its end, or some first lines are there. -/
theorem plurals_mem (oom : Nat → Bool) (l : List (Str × PluralForms)) : ∀ (g : Globals) (t : Nat),
    (∃ t', (Thread.fillPlurals l).mem oom g t = (some (), { g with plurals := fill PluralForms.undefined l g.plurals }, t')) ∨
    (∃ t' j, j < l.length ∧ (Thread.fillPlurals l).mem oom g t = (none, { g with plurals := fill PluralForms.undefined (l.take j) g.plurals }, t')) := by
  induction l with
  | nil => intro g t; exact .inl ⟨t, rfl⟩
  | cons x l ih =>
    intro g t
    unfold Thread.fillPlurals Thread.mem
    by_cases h : oom t = true
    · right
      refine ⟨t + 1, 0, by simp, ?_⟩
      simp only [Access.allocates, h, Bool.and_self, if_true]
      rfl
    · simp only [Access.allocates, h, Bool.and_false, Bool.false_eq_true, if_false, if_true]
      unfold Thread.mem
      simp only [Access.allocates, Bool.false_and, Bool.false_eq_true, if_false]
      rcases ih (Access.exec (.pluralsSet x.1 x.2) (Access.exec (.pluralsSlot x.1) g).2).2 (t + 1) with ⟨t', h1⟩ | ⟨t', j, hj, h1⟩
      · exact .inl ⟨t', h1⟩
      · exact .inr ⟨t', j + 1, by simp; omega, h1⟩

/-- What there may be of one more line. -/
def half (l : List (Str × Str)) (j : Nat) (b : Bool) : List (Str × Str) := if b then ((l.drop j).take 1).map (fun x => (x.1, [])) else []

theorem half_cons (x : Str × Str) (l : List (Str × Str)) (j : Nat) (b : Bool) : half (x :: l) (j + 1) b = half l j b := rfl

/-- Filling the aliases. -/
theorem aliases_mem (oom : Nat → Bool) (l : List (Str × Str)) (hl : (AMap.keys l).Nodup) : ∀ (g : Globals) (t : Nat), (∀ k ∈ AMap.keys l, g.aliases.get? k = none) →
    (∃ t', (Thread.fillAliases l).mem oom g t = (some (), { g with aliases := fill [] l g.aliases }, t')) ∨
    (∃ t' j b, j < l.length ∧ (Thread.fillAliases l).mem oom g t = (none, { g with aliases := fill [] (l.take j ++ half l j b) g.aliases }, t')) := by
  induction l with
  | nil => intro g t _; exact .inl ⟨t, rfl⟩
  | cons x l ih =>
    intro g t hk
    have hn : x.1 ∉ AMap.keys l ∧ (AMap.keys l).Nodup := List.nodup_cons.1 hl
    unfold Thread.fillAliases Thread.mem
    by_cases h : oom t = true
    · right
      refine ⟨t + 1, 0, false, by simp, ?_⟩
      simp only [Access.allocates, h, Bool.and_self, if_true]
      rfl
    · simp only [Access.allocates, h, Bool.and_false, Bool.false_eq_true, if_false, if_true]
      unfold Thread.mem
      by_cases h' : oom (t + 1) = true
      · right
        refine ⟨t + 1 + 1, 0, true, by simp, ?_⟩
        simp only [Access.allocates, h', Bool.and_self, if_true]
        have hx : g.aliases.get? x.1 = none := hk x.1 (by simp [AMap.keys])
        have : Access.slot [] g.aliases x.1 = fill [] [(x.1, [])] g.aliases := by
          simp only [fill, List.foldl_cons, List.foldl_nil, Access.slot, hx, AMap.set_set]
        show (_, _) = (_, { g with aliases := fill [] [(x.1, [])] g.aliases }, _)
        rw [← this]
        rfl
      · simp only [Access.allocates, h', Bool.and_false, Bool.false_eq_true, if_false, if_true]
        have hk' : ∀ k ∈ AMap.keys l, (Access.exec (.aliasesSet x.1 x.2) (Access.exec (.aliasesSlot x.1) g).2).2.aliases.get? k = none := by
          intro k hkl
          show ((Access.slot [] g.aliases x.1).set x.1 x.2).get? k = none
          have hne : x.1 ≠ k := fun e => hn.1 (e ▸ hkl)
          rw [AMap.get?_set_ne _ _ hne, slot_get, if_neg hne]
          exact hk k (List.mem_cons_of_mem _ hkl)
        rcases ih hn.2 (Access.exec (.aliasesSet x.1 x.2) (Access.exec (.aliasesSlot x.1) g).2).2 (t + 1 + 1) hk' with ⟨t', h1⟩ | ⟨t', j, b, hj, h1⟩
        · exact .inl ⟨t', h1⟩
        · exact .inr ⟨t', j + 1, b, by simp; omega, h1⟩

/-- The languages, with half a row more or not. -/
def rowsHalf (l : List (Fin 241 × LanguageSpec)) (j : Nat) (b : Bool) (m : AMap Str (List (Fin 241))) : AMap Str (List (Fin 241)) :=
  if b then (match l[j]? with
    | some x => Access.slot [] (fillRows (l.take j) m) x.2.language
    | none => fillRows (l.take j) m)
  else fillRows (l.take j) m

theorem langs_mem (oom : Nat → Bool) (l : List (Fin 241 × LanguageSpec)) : ∀ (g : Globals) (t : Nat),
    (∃ t', (Thread.fillLangs l).mem oom g t = (some (), { g with langs := fillRows l g.langs }, t')) ∨
    (∃ t' j b, j < l.length ∧ (Thread.fillLangs l).mem oom g t = (none, { g with langs := rowsHalf l j b g.langs }, t')) := by
  induction l with
  | nil => intro g t; exact .inl ⟨t, rfl⟩
  | cons x l ih =>
    intro g t
    unfold Thread.fillLangs Thread.mem
    by_cases h : oom t = true
    · right
      refine ⟨t + 1, 0, false, by simp, ?_⟩
      simp only [Access.allocates, h, Bool.and_self, if_true]
      rfl
    · simp only [Access.allocates, h, Bool.and_false, Bool.false_eq_true, if_false, if_true]
      unfold Thread.mem
      by_cases h' : oom (t + 1) = true
      · right
        refine ⟨t + 1 + 1, 0, true, by simp, ?_⟩
        simp only [Access.allocates, h', Bool.and_self, if_true]
        rfl
      · simp only [Access.allocates, h', Bool.and_false, Bool.false_eq_true, if_false, if_true]
        rcases ih (Access.exec (.langsPush x.2.language x.1) (Access.exec (.langsSlot x.2.language) g).2).2 (t + 1 + 1) with ⟨t', h1⟩ | ⟨t', j, b, hj, h1⟩
        · exact .inl ⟨t', h1⟩
        · exact .inr ⟨t', j + 1, b, by simp; omega, h1⟩

/-! ### Tables that came to be filled this far -/

/-- The lookups in the table of languages. -/
def rowsFound (k : Cut) (lang : Str) : Option (List (Fin 241)) :=
  let lst := (languageRows.take k.rows).filter (fun r => r.2.language = lang)
  if lst = [] then
    if k.halfRow ∧ (languageRows[k.rows]?).map (fun r => r.2.language) = some lang then some [] else none
  else some (lst.map Prod.fst)

def DescP (k : Cut) (m : AMap Str PluralForms) : Prop := m = [] ∨ ∀ s, m.get? s = AMap.get? (PluralForms.table.take k.plurals) s
def DescA (k : Cut) (m : AMap Str Str) : Prop :=
  m = [] ∨ ∀ s, m.get? s = AMap.get? (languageAliases.take k.aliases ++ half languageAliases k.aliases k.halfAlias) s
def DescL (k : Cut) (m : AMap Str (List (Fin 241))) : Prop := m = [] ∨ ∀ s, m.get? s = rowsFound k s

theorem keys_table : (AMap.keys PluralForms.table).Nodup := by decide +kernel
theorem keys_aliases : (AMap.keys languageAliases).Nodup := by decide +kernel

theorem take_keys {ν : Type} (l : List (Str × ν)) (j : Nat) (h : (AMap.keys l).Nodup) : (AMap.keys (l.take j)).Nodup := by
  unfold AMap.keys at *
  rw [List.map_take]
  exact List.Sublist.nodup (List.take_sublist _ _) h

theorem half_keys (l : List (Str × Str)) (j : Nat) (b : Bool) (h : (AMap.keys l).Nodup) : (AMap.keys (l.take j ++ half l j b)).Nodup := by
  cases b with
  | false => simpa [half] using take_keys l j h
  | true =>
    have e : AMap.keys (l.take j ++ half l j true) = AMap.keys (l.take (j + 1)) := by
      simp only [half, AMap.keys, List.map_append, if_true, List.map_map]
      rw [List.take_add, List.map_append]
      rfl
    rw [e]
    exact take_keys l _ h

theorem get?_append {ν : Type} (a b : List (Str × ν)) (s : Str) : AMap.get? (a ++ b) s = match AMap.get? a s with
    | some v => some v
    | none => AMap.get? b s := by
  induction a with
  | nil => rfl
  | cons x a ih =>
    simp only [List.cons_append, AMap.get?]
    split
    · rfl
    · exact ih

theorem fill_desc {ν : Type} (d : ν) (l : List (Str × ν)) (h : (AMap.keys l).Nodup) (s : Str) : (fill d l []).get? s = AMap.get? l s := by
  rw [fill_get d l h]
  cases AMap.get? l s <;> rfl

theorem slot_nil (m : AMap Str (List (Fin 241))) (lang s : Str) : (Access.slot [] m lang).get? s = if m.get? s = none ∧ lang = s then some [] else m.get? s := by
  rw [slot_get]
  by_cases h : lang = s
  · subst h
    rw [if_pos rfl]
    cases m.get? lang <;> simp
  · rw [if_neg h, if_neg (fun e => h e.2)]

theorem rows_desc (k : Cut) (s : Str) : (rowsHalf languageRows k.rows k.halfRow []).get? s = rowsFound k s := by
  unfold rowsHalf rowsFound
  have h0 : (fillRows (languageRows.take k.rows) []).get? s = if (languageRows.take k.rows).filter (fun r => r.2.language = s) = [] then none
      else some (((languageRows.take k.rows).filter (fun r => r.2.language = s)).map Prod.fst) := by
    rw [fillRows_get]; rfl
  cases hb : k.halfRow with
  | false =>
    simp only [Bool.false_eq_true, if_false, false_and]
    exact h0
  | true =>
    simp only [if_true, true_and]
    cases hr : languageRows[k.rows]? with
    | none => simp only [Option.map_none]; rw [h0]; simp
    | some x =>
      dsimp only
      rw [slot_nil, h0]
      by_cases he : (languageRows.take k.rows).filter (fun r => r.2.language = s) = []
      · simp only [he, if_true, true_and, Option.map_some, Option.some.injEq]
      · rw [if_neg he, if_neg he, if_neg (by simp)]

/-! ### Calls -/

theorem isEmpty_iff' {ν : Type} (m : AMap Str ν) : m.isEmpty = true ↔ m = [] := List.isEmpty_iff

/-- `from_string`. -/
theorem string_mem (oom : Nat → Bool) (ct : CType) (s : Str) (g : Globals) (t : Nat) (k0 : Cut) (hd : DescP k0 g.plurals) :
    ∃ r m t', (Thread.fromString ct s).mem oom g t = (r, { g with plurals := m }, t') ∧ (∃ n, ∀ k : Cut, k.plurals = n → DescP k m) ∧
      (g.plurals ≠ [] → m = g.plurals) ∧ (∀ k : Cut, DescP k m → (r = none ∨ (m ≠ [] ∧ r = some (k.rule ct s)))) ∧ (r ≠ none → g.plurals = [] ∨ FullP g.plurals → FullP m) := by
  have tail : ∀ (m : AMap Str PluralForms) (t1 : Nat), m ≠ [] → ∃ r t', Thread.mem oom (.step (.pluralsFind (PluralForms.stripSpaces ct s)) fun (r : Option PluralForms) =>
      .ret (match r with
        | some p => p
        | none => PluralForms.undefined)) { g with plurals := m } t1 = (r, { g with plurals := m }, t') ∧
        ∀ k : Cut, DescP k m → (r = none ∨ (m ≠ [] ∧ r = some (k.rule ct s))) := by
    intro m t1 hm
    unfold Thread.mem
    by_cases h : oom t1 = true
    · refine ⟨none, t1 + 1, ?_, fun _ _ => .inl rfl⟩
      simp only [Access.allocates, h, Bool.and_self, if_true]
    · simp only [Access.allocates, h, Bool.and_false, Bool.false_eq_true, if_false, if_true]
      refine ⟨_, _, rfl, fun k hk => .inr ⟨hm, ?_⟩⟩
      rcases hk with hk | hk
      · exact absurd hk hm
      · show some (match m.get? _ with | some p => p | none => _) = _
        rw [hk]
        rfl
  unfold Thread.fromString
  unfold Thread.mem
  simp only [Access.allocates, Bool.false_and, Bool.false_eq_true, if_false]
  have hex : (Access.exec .pluralsEmpty g) = (g.plurals.isEmpty, g) := rfl
  rw [hex]
  dsimp only
  rw [mem_bind]
  by_cases he : g.plurals = []
  · rw [if_pos (by rw [he]; rfl)]
    rcases plurals_mem oom PluralForms.table g t with ⟨t1, h1⟩ | ⟨t1, j, hj, h1⟩
    · rw [h1, he]
      dsimp only
      have hf := fill_desc PluralForms.undefined PluralForms.table keys_table
      have hfull := full_plurals
      have hne := hfull.1
      generalize fill PluralForms.undefined PluralForms.table [] = m at hf hne hfull
      obtain ⟨r, t', h2, h3⟩ := tail m t1 hne
      refine ⟨r, m, t', h2, ⟨PluralForms.table.length, ?_⟩, fun h => absurd rfl h, h3, fun _ _ => hfull⟩
      intro k hk
      right
      intro s
      rw [hk, List.take_length]
      exact hf s
    · rw [h1, he]
      refine ⟨none, _, t1, rfl, ⟨j, ?_⟩, fun h => absurd rfl h, fun _ _ => .inl rfl, fun h => absurd rfl h⟩
      intro k hk
      right
      intro s
      rw [hk]
      exact fill_desc _ _ (take_keys _ _ keys_table) s
  · rw [if_neg (by rw [isEmpty_iff']; exact he)]
    unfold Thread.mem
    dsimp only
    obtain ⟨r, t', h2, h3⟩ := tail g.plurals t he
    refine ⟨r, g.plurals, t', h2, ⟨k0.plurals, ?_⟩, fun _ => rfl, h3, fun _ h => h.resolve_left he⟩
    intro k hk
    rcases hd with hd | hd
    · exact .inl hd
    · exact .inr (fun s => by rw [hd s, hk])

theorem half_get (k : Cut) (s : Str) : AMap.get? (half languageAliases k.aliases k.halfAlias) s =
    if k.halfAlias ∧ (languageAliases[k.aliases]?).map Prod.fst = some s then some [] else none := by
  unfold half
  cases k.halfAlias with
  | false => simp [AMap.get?]
  | true =>
    simp only [if_true, true_and]
    have e : (languageAliases.drop k.aliases).take 1 = (languageAliases[k.aliases]?).toList := by
      rw [List.take_one, List.head?_drop]
    rw [e]
    cases languageAliases[k.aliases]? with
    | none => rfl
    | some x =>
      simp only [Option.toList_some, List.map_cons, List.map_nil, AMap.get?, Option.map_some, Option.some.injEq]

/-- `resolve_language_alias`. -/
theorem alias_mem (oom : Nat → Bool) (ct : CType) (s : Str) (g : Globals) (t : Nat) (k0 : Cut) (hd : DescA k0 g.aliases) :
    ∃ r m t', (Thread.resolveAlias ct s).mem oom g t = (r, { g with aliases := m }, t') ∧ (∃ n b, ∀ k : Cut, k.aliases = n → k.halfAlias = b → DescA k m) ∧
      (g.aliases ≠ [] → m = g.aliases) ∧ (∀ k : Cut, DescA k m → (r = none ∨ (m ≠ [] ∧ r = some (k.alias ct s)))) ∧ (r ≠ none → g.aliases = [] ∨ FullA g.aliases → FullA m) := by
  have tail : ∀ (m : AMap Str Str) (t1 : Nat), m ≠ [] → ∃ r t', Thread.mem oom (.step (.aliasesFind (s.map ct.tolower)) fun (r : Option Str) =>
      .ret (match r with
        | some p => p
        | none => s)) { g with aliases := m } t1 = (r, { g with aliases := m }, t') ∧
        ∀ k : Cut, DescA k m → (r = none ∨ (m ≠ [] ∧ r = some (k.alias ct s))) := by
    intro m t1 hm
    unfold Thread.mem
    by_cases h : oom t1 = true
    · refine ⟨none, t1 + 1, ?_, fun _ _ => .inl rfl⟩
      simp only [Access.allocates, h, Bool.and_self, if_true]
    · simp only [Access.allocates, h, Bool.and_false, Bool.false_eq_true, if_false, if_true]
      refine ⟨_, _, rfl, fun k hk => .inr ⟨hm, ?_⟩⟩
      rcases hk with hk | hk
      · exact absurd hk hm
      · show some (match m.get? _ with | some p => p | none => _) = _
        rw [hk, get?_append, half_get]
        unfold Cut.alias
        cases AMap.get? (languageAliases.take k.aliases) (s.map ct.tolower) with
        | some v => rfl
        | none =>
          dsimp only
          by_cases hh : k.halfAlias = true ∧ (languageAliases[k.aliases]?).map Prod.fst = some (s.map ct.tolower)
          · rw [if_pos hh, if_pos hh]
          · rw [if_neg hh, if_neg hh]
  unfold Thread.resolveAlias
  unfold Thread.mem
  simp only [Access.allocates, Bool.false_and, Bool.false_eq_true, if_false]
  have hex : (Access.exec .aliasesEmpty g) = (g.aliases.isEmpty, g) := rfl
  rw [hex]
  dsimp only
  rw [mem_bind]
  by_cases he : g.aliases = []
  · rw [if_pos (by rw [he]; rfl)]
    rcases aliases_mem oom languageAliases keys_aliases g t (by intro k _; rw [he]; rfl) with ⟨t1, h1⟩ | ⟨t1, j, b, hj, h1⟩
    · rw [h1, he]
      dsimp only
      have hf := fill_desc [] languageAliases keys_aliases
      have hfull := full_aliases
      have hne := hfull.1
      generalize fill [] languageAliases [] = m at hf hne hfull
      obtain ⟨r, t', h2, h3⟩ := tail m t1 hne
      refine ⟨r, m, t', h2, ⟨languageAliases.length, false, ?_⟩, fun h => absurd rfl h, h3, fun _ _ => hfull⟩
      intro k hk hb
      right
      intro s
      rw [hk, hb, List.take_length]
      simpa [half] using hf s
    · rw [h1, he]
      refine ⟨none, _, t1, rfl, ⟨j, b, ?_⟩, fun h => absurd rfl h, fun _ _ => .inl rfl, fun h => absurd rfl h⟩
      intro k hk hb
      right
      intro s
      rw [hk, hb]
      exact fill_desc _ _ (half_keys _ _ _ keys_aliases) s
  · rw [if_neg (by rw [isEmpty_iff']; exact he)]
    unfold Thread.mem
    dsimp only
    obtain ⟨r, t', h2, h3⟩ := tail g.aliases t he
    refine ⟨r, g.aliases, t', h2, ⟨k0.aliases, k0.halfAlias, ?_⟩, fun _ => rfl, h3, fun _ h => h.resolve_left he⟩
    intro k hk hb
    rcases hd with hd | hd
    · exact .inl hd
    · exact .inr (fun s => by rw [hd s, hk, hb])

/-- What is found in the table decides. -/
theorem found_spec (k : Cut) (l c md : Str) :
    (match rowsFound k l with
      | some lst =>
        let tmp : LanguageSpec := ⟨cstr l, some (cstr c), some (cstr md), [], none⟩
        match (lst.foldl (fun best i => Language.bestStep tmp best (i, derefLang i)) (none, 0)).1 with
        | some i => some (some i)
        | none => (none : Option Language)
      | none => some none) = k.spec l c md := by
  unfold rowsFound Cut.spec
  dsimp only
  by_cases h : (languageRows.take k.rows).filter (fun r => r.2.language = l) = []
  · rw [if_pos h, h]
    simp only [List.isEmpty_nil, if_true]
    by_cases hh : k.halfRow = true ∧ (languageRows[k.rows]?).map (fun r => r.2.language) = some l
    · rw [if_pos hh, if_pos hh]; rfl
    · rw [if_neg hh, if_neg hh]
  · rw [if_neg h]
    have h' : ((languageRows.take k.rows).filter (fun r => r.2.language = l)).isEmpty = false := by
      cases hl : (languageRows.take k.rows).filter (fun r => r.2.language = l) with
      | nil => exact absurd hl h
      | cons a t => rfl
    rw [h']
    simp only [Bool.false_eq_true, if_false]
    rw [List.foldl_map]
    have hr : ∀ r ∈ (languageRows.take k.rows).filter (fun r => r.2.language = l), (r.1, derefLang r.1) = r := by
      intro r hr
      have := List.mem_of_mem_take (List.mem_filter.1 hr).1
      rw [Lang.rows_eq] at this
      obtain ⟨i, _, rfl⟩ := List.mem_map.1 this
      rfl
    generalize (languageRows.take k.rows).filter (fun r => r.2.language = l) = lst at hr
    have : ∀ (lst : List (Fin 241 × LanguageSpec)) (b : Option (Fin 241) × Nat), (∀ r ∈ lst, (r.1, derefLang r.1) = r) →
        lst.foldl (fun best y => Language.bestStep ⟨cstr l, some (cstr c), some (cstr md), [], none⟩ best (y.1, derefLang y.1)) b
          = lst.foldl (Language.bestStep ⟨cstr l, some (cstr c), some (cstr md), [], none⟩) b := by
      intro lst
      induction lst with
      | nil => intro b _; rfl
      | cons x t ih =>
        intro b h
        rw [List.foldl_cons, List.foldl_cons, h x List.mem_cons_self]
        exact ih _ (fun r hr => h r (List.mem_cons_of_mem _ hr))
    rw [this lst _ hr]
    generalize (lst.foldl (Language.bestStep ⟨cstr l, some (cstr c), some (cstr md), [], none⟩) (none, 0)).1 = o
    cases o <;> rfl

/-- `from_spec`. -/
theorem spec_mem (oom : Nat → Bool) (l c md : Str) (g : Globals) (t : Nat) (k0 : Cut) (hd : DescL k0 g.langs) :
    ∃ r m t', (Thread.fromSpecChecked l c md).mem oom g t = (r, { g with langs := m }, t') ∧ (∃ n b, ∀ k : Cut, k.rows = n → k.halfRow = b → DescL k m) ∧
      (g.langs ≠ [] → m = g.langs) ∧ (∀ k : Cut, DescL k m → (r = none ∨ (m ≠ [] ∧ r = some (k.spec l c md)))) ∧ (r ≠ none → g.langs = [] ∨ FullL g.langs → FullL m) := by
  have tail : ∀ (m : AMap Str (List (Fin 241))) (t1 : Nat), m ≠ [] → ∃ r t', Thread.mem oom (.step (.langsFind l) fun (r : Option (List (Fin 241))) =>
      .ret (match r with
          | some lst =>
            let tmp : LanguageSpec := ⟨cstr l, some (cstr c), some (cstr md), [], none⟩
            match (lst.foldl (fun best i => Language.bestStep tmp best (i, derefLang i)) (none, 0)).1 with
            | some i => some (some i)
            | none => (none : Option Language)
          | none => some none)) { g with langs := m } t1 = (r, { g with langs := m }, t') ∧
        ∀ k : Cut, DescL k m → (r = none ∨ (m ≠ [] ∧ r = some (k.spec l c md))) := by
    intro m t1 hm
    unfold Thread.mem
    simp only [Access.allocates, Bool.false_and, Bool.false_eq_true, if_false]
    refine ⟨_, _, rfl, fun k hk => .inr ⟨hm, ?_⟩⟩
    rcases hk with hk | hk
    · exact absurd hk hm
    · rw [← found_spec, ← hk l]
      rfl
  unfold Thread.fromSpecChecked
  unfold Thread.mem
  by_cases ho : oom t = true
  · simp only [Access.allocates, ho, Bool.and_self, if_true]
    refine ⟨none, g.langs, t + 1, rfl, ⟨k0.rows, k0.halfRow, ?_⟩, fun _ => rfl, fun _ _ => .inl rfl, fun h => absurd rfl h⟩
    intro k hk hb
    rcases hd with hd | hd
    · exact .inl hd
    · exact .inr (fun s => by rw [hd s]; unfold rowsFound; rw [hk, hb])
  simp only [Access.allocates, ho, Bool.and_false, Bool.false_eq_true, if_false, if_true]
  have hex : (Access.exec .langsEmpty g) = (g.langs.isEmpty, g) := rfl
  rw [hex]
  dsimp only
  rw [mem_bind]
  by_cases he : g.langs = []
  · rw [if_pos (by rw [he]; rfl)]
    rcases langs_mem oom languageRows g (t + 1) with ⟨t1, h1⟩ | ⟨t1, j, b, hj, h1⟩
    · rw [h1, he]
      dsimp only
      have hf : ∀ s, (fillRows languageRows []).get? s = rowsFound ⟨0, 0, false, languageRows.length, false⟩ s := by
        intro s
        rw [← rows_desc]
        simp only [rowsHalf, Bool.false_eq_true, if_false, List.take_length]
      have hfull := full_langs
      have hne := hfull.1
      generalize fillRows languageRows [] = m at hf hne hfull
      obtain ⟨r, t', h2, h3⟩ := tail m t1 hne
      refine ⟨r, m, t', h2, ⟨languageRows.length, false, ?_⟩, fun h => absurd rfl h, h3, fun _ _ => hfull⟩
      intro k hk hb
      right
      intro s
      rw [hf s]
      unfold rowsFound
      rw [hk, hb]
    · rw [h1, he]
      refine ⟨none, _, t1, rfl, ⟨j, b, ?_⟩, fun h => absurd rfl h, fun _ _ => .inl rfl, fun h => absurd rfl h⟩
      intro k hk hb
      right
      intro s
      rw [← hk, ← hb]
      exact rows_desc k s
  · rw [if_neg (by rw [isEmpty_iff']; exact he)]
    unfold Thread.mem
    dsimp only
    obtain ⟨r, t', h2, h3⟩ := tail g.langs (t + 1) he
    refine ⟨r, g.langs, t', h2, ⟨k0.rows, k0.halfRow, ?_⟩, fun _ => rfl, h3, fun _ h => h.resolve_left he⟩
    intro k hk hb
    rcases hd with hd | hd
    · exact .inl hd
    · exact .inr (fun s => by rw [hd s]; unfold rowsFound; rw [hk, hb])

/-- The tables came to be filled this far (or not at all yet). -/
structure Desc (k : Cut) (g : Globals) : Prop where
  plurals : DescP k g.plurals
  aliases : DescA k g.aliases
  langs : DescL k g.langs

/-- One call. -/
theorem call_mem (oom : Nat → Bool) (ct : CType) (c : Asking) (g : Globals) (t : Nat) (hd : ∃ k, Desc k g) :
    (∃ k, Desc k (c.mem oom ct g t).2.1) ∧ ∀ k, Desc k (c.mem oom ct g t).2.1 → Desc k g ∧ ((c.mem oom ct g t).1 = .badAlloc ∨ (c.mem oom ct g t).1 = c.cut k ct) := by
  obtain ⟨k0, hd⟩ := hd
  have back : ∀ {ν : Type} {m m' : AMap Str ν} {P : AMap Str ν → Prop}, P [] → (m ≠ [] → m' = m) → P m' → P m := by
    intro ν m m' P h0 h1 h2
    cases m with
    | nil => exact h0
    | cons a l => rw [← h1 (by simp)]; exact h2
  have spec : ∀ (l c' md : Str) (g : Globals) (t : Nat) (k0 : Cut), Desc k0 g →
      (∃ k, Desc k ((Thread.fromSpecChecked l c' md).mem oom g t).2.1 ∧ k.plurals = k0.plurals ∧ k.aliases = k0.aliases ∧ k.halfAlias = k0.halfAlias) ∧
      ∀ k, Desc k ((Thread.fromSpecChecked l c' md).mem oom g t).2.1 → Desc k g ∧
        (CallEnd.ofLang ((Thread.fromSpecChecked l c' md).mem oom g t).1 = .badAlloc ∨
          CallEnd.ofLang ((Thread.fromSpecChecked l c' md).mem oom g t).1 = .ofLang (some (k.spec l c' md))) := by
    intro l c' md g t k0 hd
    obtain ⟨r, m, t', h1, ⟨n, b, h2⟩, h3, h4, _⟩ := spec_mem oom l c' md g t k0 hd.langs
    rw [h1]
    refine ⟨⟨⟨k0.plurals, k0.aliases, k0.halfAlias, n, b⟩, ⟨?_, ?_, ?_⟩, rfl, rfl, rfl⟩, fun k hk => ⟨⟨hk.plurals, hk.aliases, ?_⟩, ?_⟩⟩
    · exact hd.plurals
    · exact hd.aliases
    · exact h2 _ rfl rfl
    · exact back (.inl rfl) h3 hk.langs
    · rcases h4 k hk.langs with rfl | ⟨_, rfl⟩
      · exact .inl rfl
      · exact .inr rfl
  cases c with
  | fromString s =>
    obtain ⟨r, m, t', h1, ⟨n, h2⟩, h3, h4, _⟩ := string_mem oom ct s g t k0 hd.plurals
    have hm : Asking.mem oom ct (.fromString s) g t = (.ofRule ((Thread.fromString ct s).mem oom g t).1, ((Thread.fromString ct s).mem oom g t).2) := rfl
    rw [hm, h1]
    refine ⟨⟨⟨n, k0.aliases, k0.halfAlias, k0.rows, k0.halfRow⟩, ⟨?_, ?_, ?_⟩⟩, fun k hk => ⟨⟨?_, hk.aliases, hk.langs⟩, ?_⟩⟩
    · exact h2 _ rfl
    · exact hd.aliases
    · exact hd.langs
    · exact back (.inl rfl) h3 hk.plurals
    · rcases h4 k hk.plurals with rfl | ⟨_, rfl⟩
      · exact .inl rfl
      · exact .inr rfl
  | fromSpec l c' md =>
    obtain ⟨⟨k, h, _⟩, h'⟩ := spec l c' md g t k0 hd
    exact ⟨⟨k, h⟩, h'⟩
  | fromEnv s =>
    obtain ⟨⟨k, h, _⟩, h'⟩ := spec (Thread.envParts s).1 (Thread.envParts s).2.1 (Thread.envParts s).2.2 g t k0 hd
    exact ⟨⟨k, h⟩, h'⟩
  | fromName s =>
    obtain ⟨r, m, t', h1, ⟨n, b, h2⟩, h3, h4, _⟩ := alias_mem oom ct s g t k0 hd.aliases
    have hm : Asking.mem oom ct (.fromName s) g t = (.ofLang ((Thread.fromNameChecked ct s).mem oom g t).1, ((Thread.fromNameChecked ct s).mem oom g t).2) := rfl
    rw [hm]
    unfold Thread.fromNameChecked
    rw [mem_bind, h1]
    have hd1 : Desc ⟨k0.plurals, n, b, k0.rows, k0.halfRow⟩ { g with aliases := m } := ⟨hd.plurals, h2 _ rfl rfl, hd.langs⟩
    cases r with
    | none =>
      refine ⟨⟨_, hd1⟩, fun k hk => ⟨⟨hk.plurals, ?_, hk.langs⟩, .inl rfl⟩⟩
      exact back (.inl rfl) h3 hk.aliases
    | some a =>
      dsimp only
      obtain ⟨⟨k, h, _⟩, h'⟩ := spec (Thread.envParts a).1 (Thread.envParts a).2.1 (Thread.envParts a).2.2 { g with aliases := m } t' _ hd1
      refine ⟨⟨k, h⟩, fun k hk => ?_⟩
      obtain ⟨hk1, hk2⟩ := h' k hk
      refine ⟨⟨hk1.plurals, back (.inl rfl) h3 hk1.aliases, hk1.langs⟩, ?_⟩
      rcases h4 k hk1.aliases with he | ⟨_, he⟩
      · cases he
      · cases he
        exact hk2

/-- All calls. -/
theorem endings_mem (oom : Nat → Bool) (ct : CType) (cs : List Asking) : ∀ (g : Globals) (t : Nat), (∃ k, Desc k g) →
    ∃ k, Desc k g ∧ ∀ (i : Nat) (c : Asking) (e : CallEnd), cs[i]? = some c → (endings oom ct cs g t)[i]? = some e → e = .badAlloc ∨ e = c.cut k ct := by
  induction cs with
  | nil => intro g t ⟨k, h⟩; exact ⟨k, h, fun i c e h => by simp at h⟩
  | cons c0 cs ih =>
    intro g t hd
    obtain ⟨h1, h2⟩ := call_mem oom ct c0 g t hd
    obtain ⟨k, h3, h4⟩ := ih (c0.mem oom ct g t).2.1 (c0.mem oom ct g t).2.2 h1
    obtain ⟨h5, h6⟩ := h2 k h3
    refine ⟨k, h5, ?_⟩
    intro i c e hc he
    cases i with
    | zero =>
      cases hc
      have : e = (c0.mem oom ct g t).1 := by
        simpa [endings] using he.symm
      rw [this]
      exact h6
    | succ i => exact h4 i c e hc he

/-- A call that comes back leaves full tables, if the tables were empty or full. -/
theorem call_full (oom : Nat → Bool) (ct : CType) (c : Asking) (g : Globals) (t : Nat) (hd : ∃ k, Desc k g) (ho : Okay g)
    (hr : (c.mem oom ct g t).1 ≠ .badAlloc) :
    Okay (c.mem oom ct g t).2.1 ∧ (∀ x ∈ c.uses, Full (c.mem oom ct g t).2.1 x) ∧ ∀ x, Full g x → Full (c.mem oom ct g t).2.1 x := by
  obtain ⟨k0, hd⟩ := hd
  have spec : ∀ (l c' md : Str) (g : Globals) (t : Nat) (k0 : Cut), Desc k0 g → Okay g → CallEnd.ofLang ((Thread.fromSpecChecked l c' md).mem oom g t).1 ≠ .badAlloc →
      Okay ((Thread.fromSpecChecked l c' md).mem oom g t).2.1 ∧ Full ((Thread.fromSpecChecked l c' md).mem oom g t).2.1 .langs ∧
      ∀ x, Full g x → Full ((Thread.fromSpecChecked l c' md).mem oom g t).2.1 x := by
    intro l c' md g t k0 hd ho hr
    obtain ⟨r, m, t', h1, -, -, -, h5⟩ := spec_mem oom l c' md g t k0 hd.langs
    rw [h1] at hr ⊢
    have hn : r ≠ none := by rintro rfl; exact hr rfl
    have hf := h5 hn ho.langs
    refine ⟨⟨ho.plurals, ho.aliases, .inr hf⟩, hf, ?_⟩
    intro x hx
    cases x with
    | langs => exact hf
    | _ => exact hx
  cases c with
  | fromString s =>
    obtain ⟨r, m, t', h1, -, -, -, h5⟩ := string_mem oom ct s g t k0 hd.plurals
    have hm : Asking.mem oom ct (.fromString s) g t = (.ofRule ((Thread.fromString ct s).mem oom g t).1, ((Thread.fromString ct s).mem oom g t).2) := rfl
    rw [hm, h1] at hr ⊢
    have hn : r ≠ none := by rintro rfl; exact hr rfl
    have hf := h5 hn ho.plurals
    refine ⟨⟨.inr hf, ho.aliases, ho.langs⟩, ?_, ?_⟩
    · intro x hx
      simp [Asking.uses] at hx
      subst hx
      exact hf
    · intro x hx
      cases x with
      | plurals => exact hf
      | _ => exact hx
  | fromSpec l c' md =>
    obtain ⟨h1, h2, h3⟩ := spec l c' md g t k0 hd ho hr
    exact ⟨h1, by intro x hx; simp [Asking.uses] at hx; subst hx; exact h2, h3⟩
  | fromEnv s =>
    obtain ⟨h1, h2, h3⟩ := spec (Thread.envParts s).1 (Thread.envParts s).2.1 (Thread.envParts s).2.2 g t k0 hd ho hr
    exact ⟨h1, by intro x hx; simp [Asking.uses] at hx; subst hx; exact h2, h3⟩
  | fromName s =>
    obtain ⟨r, m, t', h1, ⟨n, b, h2⟩, h3, h4, h5⟩ := alias_mem oom ct s g t k0 hd.aliases
    have hm : Asking.mem oom ct (.fromName s) g t = (.ofLang ((Thread.fromNameChecked ct s).mem oom g t).1, ((Thread.fromNameChecked ct s).mem oom g t).2) := rfl
    rw [hm] at hr ⊢
    unfold Thread.fromNameChecked at hr ⊢
    rw [mem_bind, h1] at hr ⊢
    have hd1 : Desc ⟨k0.plurals, n, b, k0.rows, k0.halfRow⟩ { g with aliases := m } := ⟨hd.plurals, h2 _ rfl rfl, hd.langs⟩
    cases r with
    | none => exact absurd rfl hr
    | some a =>
      have hf := h5 (by simp) ho.aliases
      obtain ⟨g1, g2, g3⟩ := spec (Thread.envParts a).1 (Thread.envParts a).2.1 (Thread.envParts a).2.2 { g with aliases := m } t' _ hd1 ⟨ho.plurals, .inr hf, ho.langs⟩ hr
      refine ⟨g1, ?_, ?_⟩
      · intro x hx
        simp [Asking.uses] at hx
        rcases hx with rfl | rfl
        · exact g3 .aliases hf
        · exact g2
      · intro x hx
        refine g3 x ?_
        cases x with
        | aliases => exact hf
        | _ => exact hx

/-- The tables after some calls. -/
def left (oom : Nat → Bool) (ct : CType) : List Asking → Globals → Nat → Globals × Nat
  | [], g, t => (g, t)
  | c :: rest, g, t => left oom ct rest (c.mem oom ct g t).2.1 (c.mem oom ct g t).2.2

theorem endings_append (oom : Nat → Bool) (ct : CType) (a b : List Asking) : ∀ (g : Globals) (t : Nat),
    endings oom ct (a ++ b) g t = endings oom ct a g t ++ endings oom ct b (left oom ct a g t).1 (left oom ct a g t).2 := by
  induction a with
  | nil => intro g t; rfl
  | cons c a ih =>
    intro g t
    show _ :: endings oom ct (a ++ b) _ _ = _ :: (endings oom ct a _ _ ++ _)
    rw [ih]
    rfl

theorem endings_length (oom : Nat → Bool) (ct : CType) (a : List Asking) : ∀ (g : Globals) (t : Nat), (endings oom ct a g t).length = a.length := by
  induction a with
  | nil => intro g t; rfl
  | cons c a ih => intro g t; show (_ :: endings oom ct a _ _).length = _; rw [List.length_cons, List.length_cons, ih]

theorem left_full (oom : Nat → Bool) (ct : CType) (cs : List Asking) : ∀ (g : Globals) (t : Nat), (∃ k, Desc k g) → Okay g → CallEnd.badAlloc ∉ endings oom ct cs g t →
    (∃ k, Desc k (left oom ct cs g t).1) ∧ Okay (left oom ct cs g t).1 ∧ (∀ c ∈ cs, ∀ x ∈ c.uses, Full (left oom ct cs g t).1 x) ∧ ∀ x, Full g x → Full (left oom ct cs g t).1 x := by
  induction cs with
  | nil => intro g t hd ho _; exact ⟨hd, ho, by simp, fun _ h => h⟩
  | cons c cs ih =>
    intro g t hd ho hn
    have hn' : (c.mem oom ct g t).1 ≠ .badAlloc ∧ CallEnd.badAlloc ∉ endings oom ct cs (c.mem oom ct g t).2.1 (c.mem oom ct g t).2.2 := by
      constructor
      · intro e; exact hn (by simp [endings, e])
      · intro e; exact hn (by simp [endings, e])
    obtain ⟨f1, f2, f3⟩ := call_full oom ct c g t hd ho hn'.1
    obtain ⟨i1, i2, i3, i4⟩ := ih _ (c.mem oom ct g t).2.2 (call_mem oom ct c g t hd).1 f1 hn'.2
    refine ⟨i1, i2, ?_, fun x h => i4 x (f3 x h)⟩
    intro c' hc x hx
    rcases List.mem_cons.1 hc with rfl | hc
    · exact i4 x (f2 x hx)
    · exact i3 c' hc x hx

theorem desc_none : ∃ k, Desc k noTables := ⟨.whole, .inl rfl, .inl rfl, .inl rfl⟩

theorem rows_length : languageRows.length = 241 := by decide +kernel

theorem whole_spec (l c m : Str) : Cut.whole.spec l c m = Language.fromSpecChecked l c m := by
  unfold Cut.spec Language.fromSpecChecked
  have : languageRows.take Cut.whole.rows = languageRows := by
    show languageRows.take 241 = _
    exact List.take_of_length_le (Nat.le_of_eq rows_length)
  rw [this]
  simp only [Cut.whole, Bool.false_eq_true, false_and, if_false]
  by_cases h : (languageRows.filter (fun r => r.2.language = l)).isEmpty = true
  · rw [if_pos h, if_pos h]
  · rw [if_neg h, if_neg h]
    cases ((languageRows.filter (fun r => r.2.language = l)).foldl (Language.bestStep ⟨cstr l, some (cstr c), some (cstr m), [], none⟩) (none, 0)).1 <;> rfl

end Tgt.TabMem
