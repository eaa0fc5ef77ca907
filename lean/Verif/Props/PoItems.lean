import Verif.Proofs.Items
import Verif.Props.PoHeader
/-
Properties of parses of arbitrary texts: C59, C40, C31.
-/
namespace Tgt
open Spec Spec.Po POParser

/-- How a parse of tape code goes on after its events. -/
def tailOf : TRes Unit → Ending
  | .ok _ _ => .returned
  | .err _ => .unfinished
  | .overflow => .crashed .signedOverflow
  | .diverge => .unfinished

theorem endingOf_load (res : TRes Unit) (r : Res Core Unit) (h : ∀ k, r ≠ .poError k) :
    endingOf res r = (loadRes r).1.andThen (tailOf res) ∧ effectOf r = (loadRes r).2 := by
  cases r with
  | ok a k => cases res <;> exact ⟨rfl, rfl⟩
  | poError k => exact absurd rfl (h k)
  | _ => exact ⟨rfl, rfl⟩

theorem lineAt_tail (s : Str) (p : Nat) (h : (splitLines s).1.length ≤ p) : lineAt s p = lineAt s (splitLines s).1.length := by
  unfold lineAt
  simp [List.getD, List.getElem?_eq_none h]

theorem splitLines_len (s : Str) : (splitLines (withoutBom s)).1.length ≤ s.length := by
  have h1 : (splitLines (withoutBom s)).1.length ≤ (withoutBom s).length := by
    have := lineCount_le (withoutBom s)
    unfold lineCount at this
    omega
  have h2 : (withoutBom s).length ≤ s.length := by
    unfold withoutBom
    split
    · simp only [List.length_cons]; omega
    · exact Nat.le_refl _
  omega

/-! ### C59: what a text says -/

/-- C59.  For every text there is a list of entries, each a block of lines of the text that forms an entry of a PO
file, in order and without overlap, such that whatever the converter library, the settings and the dictionary,
parsing the text does what loading these entries does — until that fails, and unless the line counter
overflows or the parser does not finish. -/
theorem C59_text_is_entries (ct : CType) (fuel : Nat) (s : Str) (hF : s.length < fuel) :
    ∃ (is : List Item) (m : Nat) (tail : Ending), Found ct (lineAt (withoutBom s)) false 0 is m ∧
      (tail = .returned ∨ tail = .crashed .signedOverflow ∨ tail = .unfinished) ∧
      ∀ (c : Cfg) (d : Dictionary), c.ct = ct → c.fuel = fuel →
        (observe (run c (.ofBytes s) d)).noLog
          = ((loadItems ct c.lib c.useFuzzy d.charset is .init ⟨[], none⟩).1.andThen tail).at
              ((loadItems ct c.lib c.useFuzzy d.charset is .init ⟨[], none⟩).2.applyTo d) := by
  obtain ⟨is, m, h1, h2⟩ := items_mainLoop (ct := ct) (fuel := fuel) (T := startTape (.ofBytes s)) (L := lineAt (withoutBom s))
    (fun p => (startTape_lines s p).1) (N := (splitLines (withoutBom s)).1.length)
    (fun p hp => by rw [(startTape_lines s p).1, (startTape_lines s _).1]; exact lineAt_tail _ _ hp)
    (by have := splitLines_len s; omega) fuel false 0
  refine ⟨is.filterMap id, m, tailOf (events ct fuel (.ofBytes s)).2, h2, ?_, ?_⟩
  · cases (events ct fuel (.ofBytes s)).2 <;> simp [tailOf]
  · intro c d hct hfu
    subst hct hfu
    rw [run_effect c _ d hF]
    have hl := items_load c.ct c.lib c.useFuzzy d.charset is (found_ok h2) core0
    rw [← h1, coreInterp_essence] at hl
    obtain ⟨e1, e2⟩ := endingOf_load (events c.ct c.fuel (.ofBytes s)).2 (parseCore c (.ofBytes s) d.charset)
      (fun k => coreInterp_no_poError _ _ _ _ _ _ k)
    rw [e1, e2]
    have hl' : loadRes (parseCore c (.ofBytes s) d.charset) = loadItems c.ct c.lib c.useFuzzy d.charset (is.filterMap id) .init ⟨[], none⟩ := hl
    rw [hl']

/-! ### C40: what is stored -/

theorem load_adds (ct : CType) (lib : IconvLib) (cs : Str) (es : List Entry)
    (hidx : ∀ en ∈ es, ∀ idp strs, en.body = .plural idp strs → ∀ x ∈ strs, x.1 ≤ 9) : ∀ (cv : IConv) (e : Effect),
    ∀ a ∈ (load ct lib false cs es cv e).2.adds, a ∈ e.adds ∨ ∃ en ∈ es, en.fuzzy = false ∧ Came lib en a := by
  induction es with
  | nil => intro cv e a ha; exact .inl ha
  | cons en es ih =>
    have ih := ih (fun x hx => hidx x (List.mem_cons_of_mem _ hx))
    have up : ∀ (cv : IConv) (e e' : Effect), (∀ a ∈ e'.adds, a ∈ e.adds ∨ (en.fuzzy = false ∧ Came lib en a)) →
        ∀ a ∈ (load ct lib false cs es cv e').2.adds, a ∈ e.adds ∨ ∃ x ∈ en :: es, x.fuzzy = false ∧ Came lib x a := by
      intro cv e e' he a ha
      rcases ih cv e' a ha with h | ⟨x, hx, h⟩
      · rcases he a h with h | h
        · exact .inl h
        · exact .inr ⟨en, List.mem_cons_self, h⟩
      · exact .inr ⟨x, List.mem_cons_of_mem _ hx, h⟩
    intro cv e a ha
    obtain ⟨fz, c, i, body⟩ := en
    unfold load at ha
    cases body with
    | single t =>
      by_cases hi : i = []
      · have hh : Entry.header? ⟨fz, c, i, .single t⟩ = some t := by simp [Entry.header?, hi]
        rw [hh] at ha
        dsimp only at ha
        split at ha
        · exact up _ e { e with rule := e.rule.or (headerRule ct t) } (fun a ha => .inl ha) a ha
        · exact .inl ha
      · have hh : Entry.header? ⟨fz, c, i, .single t⟩ = none := by simp [Entry.header?, hi]
        rw [hh] at ha
        dsimp only at ha
        split at ha
        · rename_i hcond
          split at ha
          · cases ha
          · rename_i t' cv' l hcv
            refine up _ e _ (fun a ha => ?_) a ha
            rcases List.mem_append.1 ha with h | h
            · exact .inl h
            · simp only [List.mem_singleton] at h
              subst h
              exact .inr ⟨by simpa using hcond.2, .singular hi hcond.1 hcv⟩
        · exact up _ e _ (fun a ha => .inl ha) a ha
    | plural idp strs =>
      have hh : Entry.header? ⟨fz, c, i, .plural idp strs⟩ = none := rfl
      rw [hh] at ha
      dsimp only at ha
      split at ha
      · cases ha
      · rename_i strs' cv' hcv
        split at ha
        · rename_i hcond
          refine up _ e _ (fun a ha => ?_) a ha
          rcases List.mem_append.1 ha with h | h
          · exact .inl h
          · simp only [List.mem_singleton] at h
            subst h
            exact .inr ⟨by simpa using hcond.2, .plural hcond.1 (hidx _ List.mem_cons_self _ _ rfl) hcv⟩
        · exact up _ e _ (fun a ha => .inl ha) a ha

theorem pluralLines_idx {ct : CType} {b st : Bool} {ls : List Str} {strs : List (Nat × Str)} (h : PluralLines ct b st ls strs) : ∀ x ∈ strs, x.1 ≤ 9 := by
  induction h with
  | one hn _ => intro x hx; simp only [List.mem_singleton] at hx; subst hx; exact hn
  | more hn _ _ ih =>
    intro x hx
    rcases List.mem_cons.1 hx with rfl | hx
    · exact hn
    · exact ih x hx

theorem entryLines_idx {ct : CType} {b st : Bool} {ls : List Str} {e : Entry} (h : EntryLines ct b st ls e) :
    ∀ idp strs, e.body = .plural idp strs → ∀ x ∈ strs, x.1 ≤ 9 := by
  intro idp strs hb
  cases h with
  | single => cases hb
  | plural _ _ _ _ _ hp => cases hb; exact pluralLines_idx hp

theorem found_entry {ct : CType} {L : Nat → Str} {b : Bool} {n m : Nat} {is : List Item} (h : Found ct L b n is m) :
    ∀ i ∈ is, ∃ b p k, EntryLines ct b false (block L p k) i.entry := by
  induction h with
  | nil => intro i hi; cases hi
  | whole _ h2 _ _ ih =>
    intro i hi
    rcases List.mem_cons.1 hi with rfl | hi
    · exact ⟨_, _, _, h2⟩
    · exact ih i hi
  | broken _ h2 _ _ _ ih =>
    intro i hi
    rcases List.mem_cons.1 hi with rfl | hi
    · exact ⟨_, _, _, h2⟩
    · exact ih i hi

theorem came_flag {lib : IconvLib} {e : Entry} {a : Add} (fz : Bool) (h : Came lib e a) : Came lib { e with fuzzy := fz } a := by
  cases h with
  | singular h1 h2 h3 => exact .singular h1 h2 h3
  | plural h1 h2 h3 => exact .plural h1 h2 h3

/-- C40.  For every text, setting and dictionary: what a parse adds to the dictionary are translations, each given by
an entry of the text (a block of its lines): the msgid and context of that entry, a non-empty msgid and the conversion of
its non-empty msgstr, or the conversions of its msgstr[N], at least one of which is not empty; and without
use_fuzzy the entry is not flagged. -/
theorem C40_only_translated (c : Cfg) (s : Str) (d d' : Dictionary) (hF : s.length < c.fuel)
    (h : (observe (run c (.ofBytes s) d)).dict? = some d') :
    ∃ e : Effect, d' = e.applyTo d ∧ ∀ a ∈ e.adds, ∃ (b : Bool) (p k : Nat) (en : Entry),
      EntryLines c.ct b false (block (lineAt (withoutBom s)) p k) en ∧ Came c.lib en a ∧ (c.useFuzzy = true ∨ en.fuzzy = false) := by
  obtain ⟨is, m, tail, h1, _, h3⟩ := C59_text_is_entries c.ct c.fuel s hF
  have h3 := h3 c d rfl rfl
  rw [← noLog_dict, h3] at h
  refine ⟨(loadItems c.ct c.lib c.useFuzzy d.charset is .init ⟨[], none⟩).2, ?_, ?_⟩
  · generalize ((loadItems c.ct c.lib c.useFuzzy d.charset is .init ⟨[], none⟩).1.andThen tail) = en at h
    cases en <;> simp [Ending.at, Observed.dict?] at h <;> exact h.symm
  · intro a ha
    have hidx : ∀ en ∈ is.map (Item.counted c.useFuzzy), ∀ idp strs, en.body = .plural idp strs → ∀ x ∈ strs, x.1 ≤ 9 := by
      intro en hen
      obtain ⟨i, hi, rfl⟩ := List.mem_map.1 hen
      rw [counted_body]
      obtain ⟨_, _, _, hE⟩ := found_entry h1 i hi
      exact entryLines_idx hE
    rcases load_adds c.ct c.lib d.charset _ hidx .init ⟨[], none⟩ a ha with h | ⟨en, hen, hfz, hc⟩
    · cases h
    · obtain ⟨i, hi, rfl⟩ := List.mem_map.1 hen
      obtain ⟨b, p, k, hE⟩ := found_entry h1 i hi
      refine ⟨b, p, k, i.entry, hE, ?_, ?_⟩
      · have := came_flag i.entry.fuzzy hc
        cases i <;> exact this
      · cases i with
        | whole e =>
          have : (e.fuzzy && !c.useFuzzy) = false := hfz
          cases hu : c.useFuzzy with
          | true => exact .inl rfl
          | false => rw [hu] at this; simp at this; exact .inr this
        | broken e => cases hfz

theorem pluralVec_length (strs : List (Nat × Str)) (h : ∀ x ∈ strs, x.1 ≤ 9) : 1 ≤ (pluralVec strs).length ∧ (pluralVec strs).length ≤ 10 := by
  unfold pluralVec
  rw [List.length_map, List.length_range]
  refine ⟨by omega, ?_⟩
  have : ∀ (l : List Nat) (a : Nat), a ≤ 9 → (∀ x ∈ l, x ≤ 9) → l.foldl max a ≤ 9 := by
    intro l
    induction l with
    | nil => intro a ha _; exact ha
    | cons x l ih =>
      intro a ha hl
      exact ih _ (by have := hl x List.mem_cons_self; omega) (fun y hy => hl y (List.mem_cons_of_mem _ hy))
  have := this (strs.map Prod.fst) 0 (by omega) (by
    intro x hx
    obtain ⟨y, hy, rfl⟩ := List.mem_map.1 hx
    exact h y hy)
  omega

theorem convertAll_idx {lib : IconvLib} : ∀ {cv cv' : IConv} {strs strs' : List (Nat × Str)}, convertAll lib cv strs = .ok (strs', cv') →
    strs'.map Prod.fst = strs.map Prod.fst := by
  intro cv cv' strs
  induction strs generalizing cv cv' with
  | nil => intro strs' h; unfold convertAll at h; cases h; rfl
  | cons x r ih =>
    intro strs' h
    obtain ⟨n, t⟩ := x
    unfold convertAll at h
    split at h
    · cases h
    · split at h
      · cases h
      · rename_i hr
        cases h
        rw [List.map_cons, List.map_cons, ih hr]

theorem came_plural_length {lib : IconvLib} {en : Entry} {c : Option Str} {i ip : Str} {v : List Str} (h : Came lib en (.plural c i ip v)) :
    1 ≤ v.length ∧ v.length ≤ 10 := by
  cases h with
  | plural h1 h2 h3 =>
    refine pluralVec_length _ (fun x hx => ?_)
    have hm : x.1 ∈ (_ : List (Nat × Str)).map Prod.fst := List.mem_map.2 ⟨x, hx, rfl⟩
    rw [convertAll_idx h3] at hm
    obtain ⟨y, hy, hxy⟩ := List.mem_map.1 hm
    rw [← hxy]
    exact h2 y hy

/-- All entries of a dictionary have between one and ten strings. -/
def Sized (d : Dictionary) : Prop :=
  (∀ i v, (i, v) ∈ d.foreach → 1 ≤ v.length ∧ v.length ≤ 10) ∧ ∀ c i v, (c, i, v) ∈ d.foreachCtxt → 1 ≤ v.length ∧ v.length ≤ 10

theorem amap_mem_set {κ ν : Type} [DecidableEq κ] {m : AMap κ ν} {k k' : κ} {v v' : ν} (h : (k', v') ∈ m.set k v) :
    (k' = k ∧ v' = v) ∨ (k', v') ∈ m := by
  induction m with
  | nil =>
    simp only [AMap.set, List.mem_singleton, Prod.mk.injEq] at h
    exact .inl h
  | cons x m ih =>
    obtain ⟨k0, v0⟩ := x
    unfold AMap.set at h
    split at h
    · rename_i hk
      rcases List.mem_cons.1 h with h | h
      · simp only [Prod.mk.injEq] at h
        exact .inl h
      · exact .inr (List.mem_cons_of_mem _ h)
    · rcases List.mem_cons.1 h with h | h
      · exact .inr (by rw [h]; exact List.mem_cons_self)
      · rcases ih h with h | h
        · exact .inl h
        · exact .inr (List.mem_cons_of_mem _ h)

/-- Additions of at most ten strings. -/
def SizedAdd : Add → Prop
  | .singular _ _ _ => True
  | .plural _ _ _ v => 1 ≤ v.length ∧ v.length ≤ 10

theorem sized_vec {a : Nat} (ctxt : Option Str) (i ip t : Str) (w v : List Str) (hw : w.length ≤ a) (ha : 1 ≤ a) :
    (1 ≤ (Dictionary.addSingularVec ctxt i w t).1.length ∧ (Dictionary.addSingularVec ctxt i w t).1.length ≤ a) ∧
    (1 ≤ v.length → v.length ≤ a → 1 ≤ (Dictionary.addPluralVec ctxt i ip w v).1.length ∧ (Dictionary.addPluralVec ctxt i ip w v).1.length ≤ a) := by
  constructor
  · unfold Dictionary.addSingularVec
    cases w with
    | nil => simp; omega
    | cons v0 rest =>
      simp only [List.length_cons] at hw
      dsimp only
      split <;> simp only [List.length_cons] <;> omega
  · intro h1 h2
    unfold Dictionary.addPluralVec
    split
    · exact ⟨h1, h2⟩
    · split
      · exact ⟨h1, h2⟩
      · rename_i h0 h
        have : w = v := by simpa using h
        subst this
        exact ⟨h1, h2⟩

theorem sized_apply {d : Dictionary} (h : Sized d) {a : Add} (ha : SizedAdd a) : Sized (a.apply d).1 := by
  obtain ⟨h1, h2⟩ := h
  have hv : ∀ i, (Dictionary.vecAt d.entries i).length ≤ 10 := by
    intro i
    unfold Dictionary.vecAt
    split
    · rename_i v hv
      exact (h1 i v (AMap.get?_mem hv)).2
    · simp
  have hm : ∀ c m, (c, m) ∈ d.ctxtEntries → ∀ i v, (i, v) ∈ m → 1 ≤ v.length ∧ v.length ≤ 10 := by
    intro c m hcm i v hiv
    refine h2 c i v ?_
    unfold Dictionary.foreachCtxt
    exact List.mem_flatMap.2 ⟨_, hcm, List.mem_map.2 ⟨_, hiv, rfl⟩⟩
  have hc : ∀ c i v, (i, v) ∈ Dictionary.ctxtAt d.ctxtEntries c → 1 ≤ v.length ∧ v.length ≤ 10 := by
    intro c i v hiv
    unfold Dictionary.ctxtAt at hiv
    split at hiv
    · rename_i m hcm
      exact hm c m (AMap.get?_mem hcm) i v hiv
    · cases hiv
  have hcv : ∀ c i, (Dictionary.vecAt (Dictionary.ctxtAt d.ctxtEntries c) i).length ≤ 10 := by
    intro c i
    unfold Dictionary.vecAt
    split
    · rename_i v hv
      exact (hc c i v (AMap.get?_mem hv)).2
    · simp
  have plain : ∀ i (w : List Str), 1 ≤ w.length ∧ w.length ≤ 10 → Sized { d with entries := d.entries.set i w } := by
    intro i w hw
    refine ⟨fun i' v hv => ?_, h2⟩
    rcases amap_mem_set (show (i', v) ∈ d.entries.set i w from hv) with ⟨_, rfl⟩ | h
    · exact hw
    · exact h1 i' v h
  have ctx : ∀ c i (w : List Str), 1 ≤ w.length ∧ w.length ≤ 10 →
      Sized { d with ctxtEntries := d.ctxtEntries.set c ((Dictionary.ctxtAt d.ctxtEntries c).set i w) } := by
    intro c i w hw
    refine ⟨h1, fun c' i' v hv => ?_⟩
    unfold Dictionary.foreachCtxt at hv
    obtain ⟨⟨c1, m⟩, hcm, hx⟩ := List.mem_flatMap.1 hv
    obtain ⟨⟨i1, v1⟩, hiv, hx⟩ := List.mem_map.1 hx
    simp only [Prod.mk.injEq] at hx
    obtain ⟨rfl, rfl, rfl⟩ := hx
    rcases amap_mem_set hcm with ⟨_, rfl⟩ | h
    · rcases amap_mem_set hiv with ⟨_, rfl⟩ | h
      · exact hw
      · exact hc c i1 v1 h
    · exact hm c1 m h i1 v1 hiv
  cases a with
  | singular c i t =>
    cases c with
    | none => exact plain _ _ (sized_vec none i [] t _ [] (hv i) (by omega)).1
    | some c => exact ctx _ _ _ (sized_vec (some c) i [] t _ [] (hcv c i) (by omega)).1
  | plural c i ip v =>
    cases c with
    | none => exact plain _ _ ((sized_vec none i ip [] _ v (hv i) (by omega)).2 ha.1 ha.2)
    | some c => exact ctx _ _ _ ((sized_vec (some c) i ip [] _ v (hcv c i) (by omega)).2 ha.1 ha.2)

/-- C40.  Parsing any text, with any settings, into a dictionary all of whose entries have between one and ten strings (a new
one, say) leaves it so. -/
theorem C40_one_to_ten (c : Cfg) (s : Str) (d d' : Dictionary) (hF : s.length < c.fuel)
    (h : (observe (run c (.ofBytes s) d)).dict? = some d') (hd : Sized d) : Sized d' := by
  obtain ⟨e, rfl, he⟩ := C40_only_translated c s d d' hF h
  have key : ∀ (l : List Add) (d : Dictionary), (∀ a ∈ l, SizedAdd a) → Sized d → Sized (addAll d l) := by
    intro l
    induction l with
    | nil => intro d _ h; exact h
    | cons a l ih =>
      intro d hl h
      exact ih _ (fun x hx => hl x (List.mem_cons_of_mem _ hx)) (sized_apply h (hl a List.mem_cons_self))
  exact key e.adds d (fun a ha => by
    obtain ⟨_, _, _, en, _, hc, _⟩ := he a ha
    cases a with
    | singular => trivial
    | plural => exact came_plural_length hc) hd

example (cs : Str) : Sized (.init cs) := ⟨fun _ _ h => (by cases h), fun _ _ _ h => (by cases h)⟩

/-- Untranslated entries, a broken plural entry and translated entries. -/
def demoMixed : Str := b!"msgid \"a\"\nmsgstr \"\"\n\nmsgid \"b\"\nmsgid_plural \"bs\"\nmsgstr[0] \"\"\nmsgstr[1] \"\"\n\n" ++
  b!"msgid \"c\"\nmsgid_plural \"cs\"\nmsgstr[0] \"C\"\nfoo\n\nmsgid \"d\"\nmsgid_plural \"ds\"\nmsgstr[1] \"D\"\n\nmsgid \"e\"\nmsgstr \"E\"\nfoo\n"

example : (observe (run ⟨.c, demoLib, true, b!"f", true, 400⟩ (.ofBytes demoMixed) (.init b!"UTF-8"))).dict?
    = some (addAll (.init b!"UTF-8") [.plural none b!"d" b!"ds" [[], b!"D"], .singular none b!"e" b!"E"]) := by decide +kernel

end Tgt
