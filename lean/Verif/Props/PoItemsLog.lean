import Verif.Proofs.ItemsLog
import Verif.Props.PoItems
import Verif.Props.PoConv
/-
Messages of parses of arbitrary texts (C59), and what follows from them for C38 and C39.
-/
namespace Tgt
open Spec Spec.Po POParser

namespace Spec.Po
/-- What is observed, if the parse would end otherwise after everything has been loaded. -/
def endedBy (tail : Ending) : Observed → Observed
  | .returned d l => match tail with
    | .returned => .returned d l
    | .threw w => .threw w d l
    | .crashed f => .crashed f
    | .unfinished => .unfinished
  | o => o
end Spec.Po

namespace Spec.Po
/-- `is` is what the text `s` says: a list of entries, each a block of lines of the text that forms an entry of a PO file, in
order and without overlap, such that whatever the converter library, the settings and the dictionary, parsing the text gives the
dictionary, the exception and all the messages that loading these entries gives — apart from messages about the form of the
text, and unless (`tail`) the line counter overflows or the parser does not finish. -/
structure Says (ct : CType) (fuel : Nat) (s : Str) (is : List Item) (tail : Ending) : Prop where
  found : ∃ m, Found ct (lineAt (withoutBom s)) false 0 is m
  ends : tail = .returned ∨ tail = .crashed .signedOverflow ∨ tail = .unfinished
  loads : ∀ (c : Cfg) (d : Dictionary), c.ct = ct → c.fuel = fuel →
    (observe (run c (.ofBytes s) d)).mapLog contentLog
      = endedBy tail (loadFull ct c.lib false c.filename (is.map (Item.counted c.useFuzzy)) .init d [])
end Spec.Po

/-- C59, with messages.  Every text says something. -/
theorem C59_says (ct : CType) (fuel : Nat) (s : Str) (hF : s.length < fuel) : ∃ (is : List Item) (tail : Ending), Says ct fuel s is tail := by
  obtain ⟨is, m, h1, h2⟩ := items_mainLoop (ct := ct) (fuel := fuel) (T := startTape (.ofBytes s)) (L := lineAt (withoutBom s))
    (fun p => (startTape_lines s p).1) (N := (splitLines (withoutBom s)).1.length)
    (fun p hp => by rw [(startTape_lines s p).1, (startTape_lines s _).1]; exact lineAt_tail _ _ hp)
    (by have := splitLines_len s; omega) fuel false 0
  refine ⟨is.filterMap id, tailOf (events ct fuel (.ofBytes s)).2, ⟨m, h2⟩, ?_, ?_⟩
  · cases (events ct fuel (.ofBytes s)).2 <;> simp [tailOf]
  · intro c d hct hfu
    subst hct hfu
    rw [run_obs c _ d hF]
    have hq : ∀ x ∈ (events c.ct c.fuel (.ofBytes s)).1, x.formOnly = true := by
      intro x hx
      exact ev_mainLoop formOnly_ok c.ct c.fuel (startTape (.ofBytes s)) c.fuel false 0 x hx
    have e1 := lInterp_eq c (startTape (.ofBytes s)) (events c.ct c.fuel (.ofBytes s)).1 ([], initState (.ofBytes s) d)
    have e2 := fInterp c.ct c.lib c.useFuzzy c.filename c.pedantic _ hq (lOf ([], initState (.ofBytes s) d))
    have e3 := items_loadFull c.ct c.lib c.useFuzzy c.filename c.pedantic is (found_ok h2) (fOf (lOf ([], initState (.ofBytes s) d)))
    have h1' : essence (events c.ct c.fuel (.ofBytes s)).1 = is.flatMap evsOf' := h1
    rw [← h1', ← e2, ← e1] at e3
    have e4 : loadFull c.ct c.lib false c.filename ((is.filterMap id).map (Item.counted c.useFuzzy))
        (fOf (lOf ([], initState (.ofBytes s) d))).conv (fOf (lOf ([], initState (.ofBytes s) d))).dict
        (fOf (lOf ([], initState (.ofBytes s) d))).log
        = loadFull c.ct c.lib false c.filename ((is.filterMap id).map (Item.counted c.useFuzzy)) .init d [] := rfl
    rw [← e4, ← e3]
    unfold obsE
    cases interp c (startTape (.ofBytes s)) (events c.ct c.fuel (.ofBytes s)).1 ([], initState (.ofBytes s) d) with
    | ok a x =>
      cases hres : (events c.ct c.fuel (.ofBytes s)).2 with
      | ok a q =>
        simp only [lRes, fRes, lObs, endedBy, tailOf, Observed.mapLog, fOf, lOf, filter_unplaced]
      | err q => exact absurd hres (mainLoopE_not_err _ _ _ _ _ _ _)
      | _ => rfl
    | exn w x => simp only [lRes, fRes, lObs, endedBy, Observed.mapLog, fOf, lOf, filter_unplaced]
    | poError x => simp only [lRes, fRes, lObs, endedBy, Observed.mapLog, fOf, lOf, filter_unplaced]
    | fault f => rfl
    | diverge => rfl

/-! ### What loading does to the plural rule, and what it says about it -/

/-- The Plural-Forms lines of the headers among entries. -/
def Spec.Po.RuleLine (es : List Entry) (l : Str) : Prop :=
  ∃ e ∈ es, ∃ t, e.header? = some t ∧ l ∈ (splitLines t).1 ∧ b!"Plural-Forms:" <+: l

theorem withHeaderRule_pf (ct : CType) (t : Str) (d : Dictionary) : (withHeaderRule ct t d).pluralForms
    = if d.pluralForms.isDefined then d.pluralForms else (headerRule ct t).getD d.pluralForms := rfl

/-- Everything about the plural rule. -/
theorem loadFull_rules (ct : CType) (lib : IconvLib) (uf : Bool) (file : Str) (es : List Entry) :
    ∀ (cv : IConv) (d d' : Dictionary) (l l' : List Diag), loadFull ct lib uf file es cv d l = .returned d' l' →
    d'.pluralForms = (if d.pluralForms.isDefined then d.pluralForms
      else (((es.filterMap Entry.header?).filterMap (headerRule ct)).head?).getD d.pluralForms) := by
  induction es with
  | nil =>
    intro cv d d' l l' h
    simp only [loadFull, Observed.returned.injEq] at h
    obtain ⟨rfl, rfl⟩ := h
    simp
  | cons en es ih =>
    intro cv d d' l l' h
    unfold loadFull at h
    cases hh : en.header? with
    | some t =>
      rw [hh] at h
      dsimp only at h
      split at h
      · rw [ih _ _ _ _ _ h, withHeaderRule_pf]
        simp only [List.filterMap_cons, hh]
        by_cases hd : d.pluralForms.isDefined = true
        · simp [hd]
        · cases hr : headerRule ct t with
          | none => simp [hd]
          | some r => simp [hd, headerRule_defined ct t r hr]
      · cases h
    | none =>
      rw [hh] at h
      have hf : (en :: es).filterMap Entry.header? = es.filterMap Entry.header? := by simp [hh]
      rw [hf]
      cases hb : en.body with
      | single t =>
        rw [hb] at h
        dsimp only at h
        split at h
        · split at h
          · cases h
          · rw [ih _ _ _ _ _ h, apply_pf]
        · exact ih _ _ _ _ _ h
      | plural idp strs =>
        rw [hb] at h
        dsimp only at h
        split at h
        · cases h
        · split at h
          · rw [ih _ _ _ _ _ h, apply_pf]
          · exact ih _ _ _ _ _ h

theorem po_not_apply (d : Dictionary) (a : Add) (lv f n m cur) : Diag.po lv f n m cur ∉ (a.apply d).2 := by
  intro h
  rcases apply_quotes d a _ h with ⟨_, _, _, _, _, h⟩ | ⟨_, _, _, _, h⟩ <;> cases h

theorem po_not_convert {lib : IconvLib} {cv cv' : IConv} {t r : Str} {l : List Diag} (h : cv.convert lib t = .ok r cv' l)
    (lv f n m cur) : Diag.po lv f n m cur ∉ l := by
  intro hx
  obtain ⟨y, hy⟩ := convert_quotes _ _ _ _ _ _ h _ hx
  cases hy

theorem po_not_convertMessages {lib : IconvLib} (lv f n m cur) : ∀ (strs : List (Nat × Str)) (cv : IConv),
    Diag.po lv f n m cur ∉ convertMessages lib cv strs := by
  intro strs
  induction strs with
  | nil => intro cv h; cases h
  | cons x strs ih =>
    intro cv h
    obtain ⟨k, t⟩ := x
    unfold convertMessages at h
    split at h
    · cases h
    · rename_i hc
      rcases List.mem_append.1 h with h | h
      · exact po_not_convert hc _ _ _ _ _ h
      · exact ih _ h

theorem pluralWarnings_other {r : PluralForms} {n : Nat} {m : Str} (h : m ∈ pluralWarnings r n) :
    m ≠ b!"unknown Plural-Forms given" ∧ m ≠ b!"Plural-Forms missmatch between .po file and dictionary" := by
  unfold pluralWarnings at h
  split at h
  · simp only [List.mem_singleton] at h; subst h; decide
  · split at h
    · simp only [List.mem_singleton] at h; subst h; decide
    · cases h

/-- The messages about plural rules in a header. -/
theorem headerMessages_iff (ct : CType) : ∀ (ls : List Str) (r : PluralForms),
    (b!"unknown Plural-Forms given" ∈ headerMessages ct r ls ↔
      ∃ l ∈ ls, b!"Plural-Forms:" <+: l ∧ (PluralForms.fromString ct l).isDefined = false) ∧
    (b!"Plural-Forms missmatch between .po file and dictionary" ∈ headerMessages ct r ls ↔
      ∃ l ∈ ls, b!"Plural-Forms:" <+: l ∧ (PluralForms.fromString ct l).isDefined = true ∧
        PluralForms.fromString ct l ≠ if r.isDefined then r else (firstRule ct ls).getD r) := by
  intro ls
  induction ls with
  | nil => intro r; constructor <;> simp [headerMessages]
  | cons l ls ih =>
    intro r
    have hskip : ∀ r', (¬ b!"Plural-Forms:" <+: l) → firstRule ct (l :: ls) = firstRule ct ls ∧
        ((∃ x ∈ l :: ls, b!"Plural-Forms:" <+: x ∧ (PluralForms.fromString ct x).isDefined = false) ↔
          ∃ x ∈ ls, b!"Plural-Forms:" <+: x ∧ (PluralForms.fromString ct x).isDefined = false) ∧
        ((∃ x ∈ l :: ls, b!"Plural-Forms:" <+: x ∧ (PluralForms.fromString ct x).isDefined = true ∧ PluralForms.fromString ct x ≠ r') ↔
          ∃ x ∈ ls, b!"Plural-Forms:" <+: x ∧ (PluralForms.fromString ct x).isDefined = true ∧ PluralForms.fromString ct x ≠ r') := by
      intro r' hp
      have hpb : hasPrefix b!"Plural-Forms:" l = false := by
        unfold hasPrefix
        cases h : b!"Plural-Forms:".isPrefixOf l with
        | false => rfl
        | true => exact absurd (List.isPrefixOf_iff_prefix.1 h) hp
      refine ⟨?_, ?_, ?_⟩
      · conv => lhs; unfold firstRule
        rw [hpb]; simp
      · constructor
        · rintro ⟨x, hx, h1, h2⟩
          rcases List.mem_cons.1 hx with rfl | hx
          · exact absurd h1 hp
          · exact ⟨x, hx, h1, h2⟩
        · rintro ⟨x, hx, h⟩; exact ⟨x, List.mem_cons_of_mem _ hx, h⟩
      · constructor
        · rintro ⟨x, hx, h1, h2⟩
          rcases List.mem_cons.1 hx with rfl | hx
          · exact absurd h1 hp
          · exact ⟨x, hx, h1, h2⟩
        · rintro ⟨x, hx, h⟩; exact ⟨x, List.mem_cons_of_mem _ hx, h⟩
    by_cases hp : b!"Plural-Forms:" <+: l
    · have h2 : b!"Plural-Forms:".isPrefixOf l = true := List.isPrefixOf_iff_prefix.2 hp
      have hct := (plural_prefix hp).2
      unfold headerMessages
      rw [if_neg (by rw [hct]; simp), if_pos h2]
      have hfr : firstRule ct (l :: ls) = if (PluralForms.fromString ct l).isDefined then some (PluralForms.fromString ct l) else firstRule ct ls := by
        conv => lhs; unfold firstRule
        have h3 : hasPrefix b!"Plural-Forms:" l = true := h2
        have h4 : hasPrefix b!"Content-Type:" l = false := hct
        rw [h3, h4]; simp
      rw [hfr]
      cases hd : (PluralForms.fromString ct l).isDefined with
      | false =>
        rw [if_pos rfl]
        obtain ⟨i1, i2⟩ := ih r
        constructor
        · constructor
          · intro _; exact ⟨l, List.mem_cons_self, hp, hd⟩
          · intro _; exact List.mem_cons_self
        · rw [if_neg (by simp : ¬ (false = true))]
          constructor
          · intro h
            rcases List.mem_cons.1 h with h | h
            · exact absurd h (by decide)
            · obtain ⟨x, hx, h⟩ := i2.1 h; exact ⟨x, List.mem_cons_of_mem _ hx, h⟩
          · rintro ⟨x, hx, h1, h2, h3⟩
            rcases List.mem_cons.1 hx with rfl | hx
            · simp_all
            · exact List.mem_cons_of_mem _ (i2.2 ⟨x, hx, h1, h2, h3⟩)
      | true =>
        rw [if_neg (by simp)]
        have hunk : ∀ r', (b!"unknown Plural-Forms given" ∈ headerMessages ct r' ls ↔
            ∃ x ∈ l :: ls, b!"Plural-Forms:" <+: x ∧ (PluralForms.fromString ct x).isDefined = false) := by
          intro r'
          rw [(ih r').1]
          constructor
          · rintro ⟨x, hx, h⟩; exact ⟨x, List.mem_cons_of_mem _ hx, h⟩
          · rintro ⟨x, hx, h1, h2⟩
            rcases List.mem_cons.1 hx with rfl | hx
            · simp_all
            · exact ⟨x, hx, h1, h2⟩
        by_cases hr : r.isDefined = true
        · have i2 := (ih r).2
          rw [if_pos hr] at i2
          simp only [hr, if_true, Bool.true_eq_false, if_false]
          by_cases he : r = PluralForms.fromString ct l
          · rw [if_neg (by simpa using he)]
            refine ⟨hunk r, i2.trans ?_⟩
            constructor
            · rintro ⟨x, hx, h⟩; exact ⟨x, List.mem_cons_of_mem _ hx, h⟩
            · rintro ⟨x, hx, h1, h2, h3⟩
              rcases List.mem_cons.1 hx with rfl | hx
              · exact absurd he.symm h3
              · exact ⟨x, hx, h1, h2, h3⟩
          · rw [if_pos he]
            constructor
            · rw [← hunk r]
              constructor
              · intro h
                rcases List.mem_cons.1 h with h | h
                · exact absurd h (by decide)
                · exact h
              · exact List.mem_cons_of_mem _
            · constructor
              · intro _; exact ⟨l, List.mem_cons_self, hp, hd, fun h => he h.symm⟩
              · intro _; exact List.mem_cons_self
        · have hrf : r.isDefined = false := by simpa using hr
          have i2 := (ih (PluralForms.fromString ct l)).2
          rw [if_pos hd] at i2
          simp only [hrf, if_true, Bool.false_eq_true, if_false, Option.getD_some]
          refine ⟨hunk _, i2.trans ?_⟩
          constructor
          · rintro ⟨x, hx, h⟩; exact ⟨x, List.mem_cons_of_mem _ hx, h⟩
          · rintro ⟨x, hx, h1, h2, h3⟩
            rcases List.mem_cons.1 hx with rfl | hx
            · exact absurd rfl h3
            · exact ⟨x, hx, h1, h2, h3⟩
    · have h2 : ¬ (b!"Plural-Forms:".isPrefixOf l = true) := fun h => hp (List.isPrefixOf_iff_prefix.1 h)
      obtain ⟨e1, e2, e3⟩ := hskip (if r.isDefined then r else (firstRule ct (l :: ls)).getD r) hp
      rw [e2, e3, e1]
      obtain ⟨i1, i2⟩ := ih r
      unfold headerMessages
      split
      · split
        · exact ⟨i1, i2⟩
        · constructor
          · rw [← i1]
            constructor
            · intro h
              rcases List.mem_cons.1 h with h | h
              · exact absurd h (by decide)
              · exact h
            · exact List.mem_cons_of_mem _
          · rw [← i2]
            constructor
            · intro h
              rcases List.mem_cons.1 h with h | h
              · exact absurd h (by decide)
              · exact h
            · exact List.mem_cons_of_mem _
      · exact ⟨i1, i2⟩

theorem headerWarnings_rules (ct : CType) (d : Dictionary) (t : Str) :
    (b!"unknown Plural-Forms given" ∈ headerWarnings ct d.pluralForms t ↔
      ∃ l ∈ (splitLines t).1, b!"Plural-Forms:" <+: l ∧ (PluralForms.fromString ct l).isDefined = false) ∧
    (b!"Plural-Forms missmatch between .po file and dictionary" ∈ headerWarnings ct d.pluralForms t ↔
      ∃ l ∈ (splitLines t).1, b!"Plural-Forms:" <+: l ∧ (PluralForms.fromString ct l).isDefined = true ∧
        PluralForms.fromString ct l ≠ (withHeaderRule ct t d).pluralForms) := by
  obtain ⟨h1, h2⟩ := headerMessages_iff ct (splitLines t).1 d.pluralForms
  rw [withHeaderRule_pf, ← firstRule_eq, headerLines_nil, ← h1, ← h2]
  unfold headerWarnings
  constructor
  · constructor
    · intro h
      rcases List.mem_append.1 h with h | h
      · exact h
      · split at h
        · exact absurd (List.mem_singleton.1 h) (by decide)
        · cases h
    · exact List.mem_append_left _
  · constructor
    · intro h
      rcases List.mem_append.1 h with h | h
      · exact h
      · split at h
        · exact absurd (List.mem_singleton.1 h) (by decide)
        · cases h
    · exact List.mem_append_left _

theorem ruleLine_cons (e : Entry) (es : List Entry) (P : Str → Prop) :
    (∃ l, RuleLine (e :: es) l ∧ P l) ↔ (∃ t, e.header? = some t ∧ ∃ l ∈ (splitLines t).1, b!"Plural-Forms:" <+: l ∧ P l) ∨ ∃ l, RuleLine es l ∧ P l := by
  constructor
  · rintro ⟨l, ⟨x, hx, t, h1, h2, h3⟩, hP⟩
    rcases List.mem_cons.1 hx with rfl | hx
    · exact .inl ⟨t, h1, l, h2, h3, hP⟩
    · exact .inr ⟨l, ⟨x, hx, t, h1, h2, h3⟩, hP⟩
  · rintro (⟨t, h1, l, h2, h3, hP⟩ | ⟨l, ⟨x, hx, t, h1, h2, h3⟩, hP⟩)
    · exact ⟨l, ⟨e, List.mem_cons_self, t, h1, h2, h3⟩, hP⟩
    · exact ⟨l, ⟨x, List.mem_cons_of_mem _ hx, t, h1, h2, h3⟩, hP⟩

theorem headerRule_none_lines {ct : CType} {t : Str} (h : headerRule ct t = none) :
    ∀ l ∈ (splitLines t).1, b!"Plural-Forms:" <+: l → (PluralForms.fromString ct l).isDefined = false := by
  intro l hl hp
  unfold headerRule at h
  rw [List.head?_eq_none_iff, List.filterMap_eq_nil_iff] at h
  have := h l hl
  rw [ite_eq_right_iff] at this
  cases hd : (PluralForms.fromString ct l).isDefined with
  | false => rfl
  | true => exact absurd (this ⟨List.isPrefixOf_iff_prefix.2 hp, hd⟩) (by simp)

/-- What loading says about plural rules. -/
theorem loadFull_rule_log (ct : CType) (lib : IconvLib) (uf : Bool) (file : Str) (es : List Entry) :
    ∀ (cv : IConv) (d d' : Dictionary) (l l' : List Diag), loadFull ct lib uf file es cv d l = .returned d' l' →
    (Diag.po .warning file 0 b!"unknown Plural-Forms given" [] ∈ l' ↔
      Diag.po .warning file 0 b!"unknown Plural-Forms given" [] ∈ l ∨
      ∃ x, RuleLine es x ∧ (PluralForms.fromString ct x).isDefined = false) ∧
    (Diag.po .warning file 0 b!"Plural-Forms missmatch between .po file and dictionary" [] ∈ l' ↔
      Diag.po .warning file 0 b!"Plural-Forms missmatch between .po file and dictionary" [] ∈ l ∨
      ∃ x, RuleLine es x ∧ (PluralForms.fromString ct x).isDefined = true ∧ PluralForms.fromString ct x ≠ d'.pluralForms) := by
  induction es with
  | nil =>
    intro cv d d' l l' h
    simp only [loadFull, Observed.returned.injEq] at h
    obtain ⟨rfl, rfl⟩ := h
    constructor <;> simp [RuleLine]
  | cons en es ih =>
    intro cv d d' l l' h
    rw [ruleLine_cons, ruleLine_cons]
    have hrules := loadFull_rules ct lib uf file (en :: es) cv d d' l l' h
    unfold loadFull at h
    cases hh : en.header? with
    | some t =>
      rw [hh] at h
      dsimp only at h
      split at h
      · obtain ⟨i1, i2⟩ := ih _ _ _ _ _ h
        have hpf := loadFull_rules _ _ _ _ _ _ _ _ _ _ h
        rw [i1, i2, List.mem_append, List.mem_append]
        obtain ⟨w1, w2⟩ := headerWarnings_rules ct d t
        have hmem : ∀ m, Diag.po .warning file 0 m [] ∈ (headerWarnings ct d.pluralForms t).map (Diag.po .warning file 0 · []) ↔ m ∈ headerWarnings ct d.pluralForms t := by
          intro m
          constructor
          · intro h
            obtain ⟨m', hm', he⟩ := List.mem_map.1 h
            simp only [Diag.po.injEq, true_and, and_true] at he
            exact he ▸ hm'
          · intro h; exact List.mem_map.2 ⟨m, h, rfl⟩
        rw [hmem, hmem, w1, w2]
        have hl : ∀ (P : Str → Prop), (∃ t', some t = some t' ∧ ∃ l ∈ (splitLines t').1, b!"Plural-Forms:" <+: l ∧ P l) ↔
            ∃ l ∈ (splitLines t).1, b!"Plural-Forms:" <+: l ∧ P l := by
          intro P
          constructor
          · rintro ⟨t', ht, h⟩; cases ht; exact h
          · intro h; exact ⟨t, rfl, h⟩
        rw [hl, hl]
        refine ⟨or_assoc, or_assoc.trans (or_congr Iff.rfl (or_congr ?_ Iff.rfl))⟩
        by_cases hr : (withHeaderRule ct t d).pluralForms.isDefined = true
        · rw [if_pos hr] at hpf
          rw [hpf]
        · have hn : headerRule ct t = none := by
            cases hx : headerRule ct t with
            | none => rfl
            | some r =>
              exfalso
              apply hr
              rw [withHeaderRule_pf, hx]
              split
              · assumption
              · exact headerRule_defined ct t r hx
          constructor <;> rintro ⟨x, hx, h1, h2, _⟩ <;> exact absurd h2 (by rw [headerRule_none_lines hn x hx h1]; simp)
      · cases h
    | none =>
      rw [hh] at h
      have hno : ∀ (P : Str → Prop), (∃ t, (none : Option Str) = some t ∧ ∃ l ∈ (splitLines t).1, b!"Plural-Forms:" <+: l ∧ P l) ↔ False := by
        intro P
        constructor
        · rintro ⟨t, h, _⟩; cases h
        · exact False.elim
      rw [hno, hno, false_or, false_or]
      cases hb : en.body with
      | single t =>
        rw [hb] at h
        dsimp only at h
        split at h
        · split at h
          · cases h
          · rename_i hc
            obtain ⟨i1, i2⟩ := ih _ _ _ _ _ h
            rw [i1, i2]
            refine ⟨or_congr ?_ Iff.rfl, or_congr ?_ Iff.rfl⟩ <;>
              simp [List.mem_append, po_not_convert hc, po_not_apply]
        · exact ih _ _ _ _ _ h
      | plural idp strs =>
        rw [hb] at h
        dsimp only at h
        split at h
        · cases h
        · split at h
          · obtain ⟨i1, i2⟩ := ih _ _ _ _ _ h
            rw [i1, i2]
            have hw : ∀ m, (m = b!"unknown Plural-Forms given" ∨ m = b!"Plural-Forms missmatch between .po file and dictionary") → ∀ r n,
                Diag.po .warning file 0 m [] ∉ (pluralWarnings r n).map (Diag.po .warning file 0 · []) := by
              intro m hm r n h
              obtain ⟨m', hm', he⟩ := List.mem_map.1 h
              simp only [Diag.po.injEq, true_and, and_true] at he
              subst he
              obtain ⟨h1, h2⟩ := pluralWarnings_other hm'
              rcases hm with hm | hm
              · exact h1 hm
              · exact h2 hm
            refine ⟨or_congr ?_ Iff.rfl, or_congr ?_ Iff.rfl⟩
            · rw [List.mem_append, List.mem_append, List.mem_append]
              constructor
              · rintro (((h | h) | h) | h)
                · exact h
                · exact absurd h (po_not_convertMessages _ _ _ _ _ _ _)
                · exact absurd h (hw _ (.inl rfl) _ _)
                · exact absurd h (po_not_apply _ _ _ _ _ _ _)
              · exact fun h => .inl (.inl (.inl h))
            · rw [List.mem_append, List.mem_append, List.mem_append]
              constructor
              · rintro (((h | h) | h) | h)
                · exact h
                · exact absurd h (po_not_convertMessages _ _ _ _ _ _ _)
                · exact absurd h (hw _ (.inr rfl) _ _)
                · exact absurd h (po_not_apply _ _ _ _ _ _ _)
              · exact fun h => .inl (.inl (.inl h))
          · obtain ⟨i1, i2⟩ := ih _ _ _ _ _ h
            rw [i1, i2]
            refine ⟨or_congr ?_ Iff.rfl, or_congr ?_ Iff.rfl⟩ <;>
              simp [List.mem_append, po_not_convertMessages]

theorem mem_contentLog {log : List Diag} {lv : Level} {f m : Str} (hn : ¬ FormMessage (.po lv f 0 m [])) :
    Diag.po lv f 0 m [] ∈ contentLog log ↔ ∃ n cur, Diag.po lv f n m cur ∈ log := by
  unfold contentLog
  constructor
  · intro h
    obtain ⟨x, hx, hu⟩ := List.mem_map.1 h
    have hx := (List.mem_filter.1 hx).1
    cases x with
    | po lv' f' n' m' cur' =>
      simp only [unplaced, Diag.po.injEq, true_and, and_true] at hu
      obtain ⟨rfl, rfl, rfl⟩ := hu
      exact ⟨n', cur', hx⟩
    | _ => simp [unplaced] at hu
  · rintro ⟨n, cur, h⟩
    refine List.mem_map.2 ⟨_, List.mem_filter.2 ⟨h, ?_⟩, rfl⟩
    have : ¬ FormMessage (.po lv f n m cur) := fun h => hn ((formMessage_unplaced (.po lv f n m cur)).2 h)
    simpa using this

theorem counted_header (uf : Bool) (is : List Item) : (is.map (Item.counted uf)).filterMap Entry.header? = (is.map Item.entry).filterMap Entry.header? := by
  rw [List.filterMap_map, List.filterMap_map]
  congr 1
  funext i
  cases i <;> rfl

theorem counted_ruleLine (uf : Bool) (is : List Item) (l : Str) : RuleLine (is.map (Item.counted uf)) l ↔ RuleLine (is.map Item.entry) l := by
  have hh : ∀ i : Item, (i.counted uf).header? = i.entry.header? := by intro i; cases i <;> rfl
  constructor
  · rintro ⟨e, he, t, h⟩
    obtain ⟨i, hi, rfl⟩ := List.mem_map.1 he
    exact ⟨i.entry, List.mem_map.2 ⟨i, hi, rfl⟩, t, by rw [← hh]; exact h⟩
  · rintro ⟨e, he, t, h⟩
    obtain ⟨i, hi, rfl⟩ := List.mem_map.1 he
    exact ⟨i.counted uf, List.mem_map.2 ⟨i, hi, rfl⟩, t, by rw [hh]; exact h⟩

theorem says_returned {c : Cfg} {s : Str} {is : List Item} {tail : Ending} (h : Says c.ct c.fuel s is tail) {d d' : Dictionary} {log : List Diag}
    (hr : observe (run c (.ofBytes s) d) = .returned d' log) :
    loadFull c.ct c.lib false c.filename (is.map (Item.counted c.useFuzzy)) .init d [] = .returned d' (contentLog log) := by
  have hl := h.loads c d rfl rfl
  rw [hr] at hl
  simp only [Observed.mapLog] at hl
  cases hx : loadFull c.ct c.lib false c.filename (is.map (Item.counted c.useFuzzy)) .init d [] with
  | returned d1 l1 =>
    rw [hx] at hl
    cases tail <;> simp only [endedBy, Observed.returned.injEq, reduceCtorEq] at hl
    rw [hl.1, hl.2]
  | _ => rw [hx] at hl; cases hl

/-- C38.  For every text at all that is parsed to the end (`Says`, `C59_says`: the entries it says): the plural rule afterwards is
the one the dictionary had, if any, otherwise that of the first recognised Plural-Forms line of the headers; there is a warning
about an unknown rule if and only if some header has an unrecognised Plural-Forms line, and one about a mismatch if and only if
some header has a recognised one that is not the rule that stays. -/
theorem C38_any_text (c : Cfg) (s : Str) (is : List Item) (tail : Ending) (h : Says c.ct c.fuel s is tail) (d d' : Dictionary)
    (log : List Diag) (hr : observe (run c (.ofBytes s) d) = .returned d' log) :
    d'.pluralForms = (if d.pluralForms.isDefined then d.pluralForms
      else ((((is.map Item.entry).filterMap Entry.header?).filterMap (headerRule c.ct)).head?).getD d.pluralForms) ∧
    ((∃ n cur, .po .warning c.filename n b!"unknown Plural-Forms given" cur ∈ log) ↔
      ∃ l, RuleLine (is.map Item.entry) l ∧ (PluralForms.fromString c.ct l).isDefined = false) ∧
    ((∃ n cur, .po .warning c.filename n b!"Plural-Forms missmatch between .po file and dictionary" cur ∈ log) ↔
      ∃ l, RuleLine (is.map Item.entry) l ∧ (PluralForms.fromString c.ct l).isDefined = true ∧
        PluralForms.fromString c.ct l ≠ d'.pluralForms) := by
  have hl := says_returned h hr
  have h1 := loadFull_rules _ _ _ _ _ _ _ _ _ _ hl
  obtain ⟨h2, h3⟩ := loadFull_rule_log _ _ _ _ _ _ _ _ _ _ hl
  rw [counted_header] at h1
  refine ⟨h1, ?_, ?_⟩
  · rw [← mem_contentLog (show ¬ FormMessage (.po .warning c.filename 0 b!"unknown Plural-Forms given" []) from notForm_list _ (by simp)), h2]
    simp [counted_ruleLine]
  · rw [← mem_contentLog (show ¬ FormMessage (.po .warning c.filename 0 b!"Plural-Forms missmatch between .po file and dictionary" []) from notForm_list _ (by simp)), h3]
    simp [counted_ruleLine]

theorem apply_charset (d : Dictionary) (a : Add) : (a.apply d).1.charset = d.charset := (Dict.apply_other d a).1

/-- Where loading stops. -/
theorem loadFull_threw (ct : CType) (lib : IconvLib) (uf : Bool) (file : Str) (es : List Entry) :
    ∀ (cv : IConv) (d : Dictionary) (l : List Diag),
    (∀ w d' l', loadFull ct lib uf file es cv d l = .threw w d' l' → ∃ es1 e es2 t d1 l1, es = es1 ++ e :: es2 ∧ e.header? = some t ∧
      unavailable ct lib (Po.sourceCharset ct t) d.charset = some w ∧
      (∀ e' ∈ es1, ∀ t', e'.header? = some t' → unavailable ct lib (Po.sourceCharset ct t') d.charset = none) ∧
      loadFull ct lib uf file es1 cv d l = .returned d1 l1 ∧ d' = withHeaderRule ct t d1) ∧
    (∀ d' l', loadFull ct lib uf file es cv d l = .returned d' l' →
      ∀ e' ∈ es, ∀ t', e'.header? = some t' → unavailable ct lib (Po.sourceCharset ct t') d.charset = none) := by
  induction es with
  | nil =>
    intro cv d l
    constructor
    · intro w d' l' h; cases h
    · intro d' l' h e' he'; cases he'
  | cons en es ih =>
    intro cv d l
    have step : ∀ (cv1 : IConv) (d1 : Dictionary) (l1 : List Diag), d1.charset = d.charset →
        (∀ t', en.header? = some t' → unavailable ct lib (Po.sourceCharset ct t') d.charset = none) →
        (∀ es', loadFull ct lib uf file (en :: es') cv d l = loadFull ct lib uf file es' cv1 d1 l1) →
        (∀ w d' l', loadFull ct lib uf file (en :: es) cv d l = .threw w d' l' → ∃ es1 e es2 t d1 l1, en :: es = es1 ++ e :: es2 ∧ e.header? = some t ∧
          unavailable ct lib (Po.sourceCharset ct t) d.charset = some w ∧
          (∀ e' ∈ es1, ∀ t', e'.header? = some t' → unavailable ct lib (Po.sourceCharset ct t') d.charset = none) ∧
          loadFull ct lib uf file es1 cv d l = .returned d1 l1 ∧ d' = withHeaderRule ct t d1) ∧
        (∀ d' l', loadFull ct lib uf file (en :: es) cv d l = .returned d' l' →
          ∀ e' ∈ en :: es, ∀ t', e'.header? = some t' → unavailable ct lib (Po.sourceCharset ct t') d.charset = none) := by
      intro cv1 d1 l1 hcs hav hstep
      obtain ⟨i1, i2⟩ := ih cv1 d1 l1
      rw [hcs] at i1 i2
      constructor
      · intro w d' l' h
        rw [hstep] at h
        obtain ⟨es1, e, es2, t, d2, l2, h1, h2, h3, h4, h5, h6⟩ := i1 w d' l' h
        refine ⟨en :: es1, e, es2, t, d2, l2, by rw [h1]; rfl, h2, h3, ?_, by rw [hstep]; exact h5, h6⟩
        intro e' he'
        rcases List.mem_cons.1 he' with rfl | he'
        · exact hav
        · exact h4 e' he'
      · intro d' l' h e' he'
        rw [hstep] at h
        rcases List.mem_cons.1 he' with rfl | he'
        · exact hav
        · exact i2 d' l' h e' he'
    cases hh : en.header? with
    | some t =>
      have hs := setCharsets_unavailable ct lib cv (Po.sourceCharset ct t) d.charset
      rcases hx : cv.setCharsets ct lib (Po.sourceCharset ct t) d.charset with ⟨cv', o⟩
      rw [hx] at hs
      dsimp only at hs
      cases o with
      | none =>
        refine step cv' (withHeaderRule ct t d) (l ++ (headerWarnings ct d.pluralForms t).map (Diag.po .warning file 0 · [])) rfl ?_ ?_
        · intro t' ht'; rw [hh] at ht'; cases ht'; exact hs.symm
        · intro es'; rw [loadFull, hh]; dsimp only; rw [hx]
      | some w =>
        have hl : loadFull ct lib uf file (en :: es) cv d l = .threw w (withHeaderRule ct t d)
            (l ++ (headerWarnings ct d.pluralForms t).map (Diag.po .warning file 0 · [])) := by
          rw [loadFull, hh]; dsimp only; rw [hx]
        rw [hl]
        constructor
        · intro w' d' l' h
          cases h
          exact ⟨[], en, es, t, d, l, rfl, hh, hs.symm, fun e' he' => (by cases he'), rfl, rfl⟩
        · intro d' l' h; cases h
    | none =>
      have hav : ∀ t', en.header? = some t' → unavailable ct lib (Po.sourceCharset ct t') d.charset = none := by
        intro t' ht'; rw [hh] at ht'; cases ht'
      have crash : (∃ f, loadFull ct lib uf file (en :: es) cv d l = .crashed f) → (∀ w d' l', loadFull ct lib uf file (en :: es) cv d l = .threw w d' l' → ∃ es1 e es2 t d1 l1, en :: es = es1 ++ e :: es2 ∧ e.header? = some t ∧
          unavailable ct lib (Po.sourceCharset ct t) d.charset = some w ∧
          (∀ e' ∈ es1, ∀ t', e'.header? = some t' → unavailable ct lib (Po.sourceCharset ct t') d.charset = none) ∧
          loadFull ct lib uf file es1 cv d l = .returned d1 l1 ∧ d' = withHeaderRule ct t d1) ∧
        (∀ d' l', loadFull ct lib uf file (en :: es) cv d l = .returned d' l' →
          ∀ e' ∈ en :: es, ∀ t', e'.header? = some t' → unavailable ct lib (Po.sourceCharset ct t') d.charset = none) := by
        rintro ⟨f, hf⟩
        rw [hf]
        constructor
        · intro w d' l' h; cases h
        · intro d' l' h; cases h
      cases hb : en.body with
      | single t =>
        by_cases hc : t ≠ [] ∧ (uf = true ∨ en.fuzzy = false)
        · cases hv : cv.convert lib t with
          | ok r cv' l1 =>
            refine step cv' ((Add.singular en.ctxt en.msgid r).apply d).1 (l ++ l1 ++ ((Add.singular en.ctxt en.msgid r).apply d).2) (apply_charset _ _) hav ?_
            intro es'; rw [loadFull, hh, hb]; dsimp only; rw [if_pos hc, hv]
          | fault f => exact crash ⟨f, by rw [loadFull, hh, hb]; dsimp only; rw [if_pos hc, hv]⟩
        · refine step cv d l rfl hav ?_
          intro es'; rw [loadFull, hh, hb]; dsimp only; rw [if_neg hc]
      | plural idp strs =>
        cases hv : convertAll lib cv strs with
        | error f => exact crash ⟨f, by rw [loadFull, hh, hb]; dsimp only; rw [hv]⟩
        | ok x =>
          obtain ⟨strs', cv'⟩ := x
          by_cases hc : (∃ x ∈ strs, x.2 ≠ []) ∧ (uf = true ∨ en.fuzzy = false)
          · refine step cv' ((Add.plural en.ctxt en.msgid idp (pluralVec strs')).apply d).1
              (l ++ convertMessages lib cv strs ++
              (pluralWarnings d.pluralForms (pluralVec strs').length).map (Diag.po .warning file 0 · []) ++
              ((Add.plural en.ctxt en.msgid idp (pluralVec strs')).apply d).2) (apply_charset _ _) hav ?_
            intro es'; rw [loadFull, hh, hb]; dsimp only; rw [hv]; dsimp only; rw [if_pos hc]
          · refine step cv' d (l ++ convertMessages lib cv strs) rfl hav ?_
            intro es'; rw [loadFull, hh, hb]; dsimp only; rw [hv]; dsimp only; rw [if_neg hc]

/-- C39.  For every text at all (`Says`, `C59_says`: the entries it says): if the parse ends with an exception, it is because of the first
header whose charset cannot be converted to that of the dictionary, the text of the exception tells about it, and the dictionary
holds exactly what loading the entries before that header gives, with the plural rule of the header if there was none.  If it
returns, there is no such header. -/
theorem C39_any_text (c : Cfg) (s : Str) (is : List Item) (tail : Ending) (h : Says c.ct c.fuel s is tail) (d d' : Dictionary) (log : List Diag) :
    (∀ w, observe (run c (.ofBytes s) d) = .threw w d' log → ∃ is1 i is2 t d1 l1, is = is1 ++ i :: is2 ∧ i.entry.header? = some t ∧
      unavailable c.ct c.lib (Po.sourceCharset c.ct t) d.charset = some w ∧
      (∀ i' ∈ is1, ∀ t', i'.entry.header? = some t' → unavailable c.ct c.lib (Po.sourceCharset c.ct t') d.charset = none) ∧
      loadFull c.ct c.lib false c.filename (is1.map (Item.counted c.useFuzzy)) .init d [] = .returned d1 l1 ∧
      d' = { d1 with pluralForms := if d1.pluralForms.isDefined then d1.pluralForms else (headerRule c.ct t).getD d1.pluralForms }) ∧
    (observe (run c (.ofBytes s) d) = .returned d' log →
      ∀ i ∈ is, ∀ t, i.entry.header? = some t → unavailable c.ct c.lib (Po.sourceCharset c.ct t) d.charset = none) := by
  have hh : ∀ i : Item, (i.counted c.useFuzzy).header? = i.entry.header? := by intro i; cases i <;> rfl
  obtain ⟨h1, h2⟩ := loadFull_threw c.ct c.lib false c.filename (is.map (Item.counted c.useFuzzy)) .init d []
  constructor
  · intro w hw
    have hl := h.loads c d rfl rfl
    rw [hw] at hl
    simp only [Observed.mapLog] at hl
    have hl' : ∃ l', loadFull c.ct c.lib false c.filename (is.map (Item.counted c.useFuzzy)) .init d [] = .threw w d' l' := by
      cases hx : loadFull c.ct c.lib false c.filename (is.map (Item.counted c.useFuzzy)) .init d [] with
      | returned d1 l1 =>
        rw [hx] at hl
        exfalso
        rcases h.ends with ht | ht | ht <;> rw [ht] at hl <;> cases hl
      | threw w1 d1 l1 =>
        rw [hx] at hl
        simp only [endedBy, Observed.threw.injEq] at hl
        obtain ⟨rfl, rfl, _⟩ := hl
        exact ⟨l1, rfl⟩
      | _ => rw [hx] at hl; cases hl
    obtain ⟨l', hl'⟩ := hl'
    obtain ⟨es1, e, es2, t, d1, l1, e1, e2, e3, e4, e5, e6⟩ := h1 w d' l' hl'
    obtain ⟨is1, isr, rfl, rfl, he⟩ := List.map_eq_append_iff.1 e1
    obtain ⟨i, is2, rfl, rfl, rfl⟩ := List.map_eq_cons_iff.1 he
    refine ⟨is1, i, is2, t, d1, l1, rfl, by rw [← hh]; exact e2, e3, ?_, e5, e6⟩
    intro i' hi' t' ht'
    exact e4 _ (List.mem_map.2 ⟨i', hi', rfl⟩) t' (by rw [hh]; exact ht')
  · intro hr i hi t ht
    exact h2 d' _ (says_returned h hr) _ (List.mem_map.2 ⟨i, hi, rfl⟩) t (by rw [hh]; exact ht)

/-- A text that is not well-formed, with three headers. -/
def demoHeaders : Str := b!"garbage\n\nmsgid \"\"\nmsgstr \"Content-Type: text/plain; charset=UTF-8\\n\"\n\"Plural-Forms: x\\n\"\n\n" ++
  b!"msgid \"a\"\nmsgstr \"A\"\nmsgid \"b\"\n\nmsgid \"\"\nmsgstr \"Plural-Forms: nplurals=2; plural=(n != 1);\\n\"\n\n" ++
  b!"msgid \"\"\nmsgstr \"Plural-Forms: nplurals=1; plural=0;\\n\"\n\nmsgid \"c\"\nmsgstr \"C\"\n"

/-- What it is parsed to. -/
def demoHeadersLog : List Diag :=
  [.po .error b!"f" 1 b!"expected 'msgid'" b!"garbage", .po .warning b!"f" 6 b!"unknown Plural-Forms given" [],
   .po .error b!"f" 9 b!"expected empty line" b!"msgid \"b\"", .po .warning b!"f" 13 b!"charset not specified for .po, fallback to utf-8" [],
   .po .warning b!"f" 16 b!"Plural-Forms missmatch between .po file and dictionary" [],
   .po .warning b!"f" 16 b!"charset not specified for .po, fallback to utf-8" []]

-- it says something, and it is parsed to the end
example : (∃ is tail, Says .c 400 demoHeaders is tail) ∧
    observe (run ⟨.c, demoLib, false, b!"f", false, 400⟩ (.ofBytes demoHeaders) (.init b!"UTF-8"))
      = .returned { (addAll (.init b!"UTF-8") [.singular none b!"a" b!"A", .singular none b!"c" b!"C"]) with
          pluralForms := PluralForms.fromString .c b!"Plural-Forms: nplurals=2; plural=(n != 1);" } demoHeadersLog :=
  ⟨C59_says .c 400 demoHeaders (by decide +kernel), by decide +kernel⟩

-- the same text, where the converter library has nothing
example : ∃ log, observe (run ⟨.c, { demoLib with iconvOpen := fun _ _ => .einval }, false, b!"f", false, 400⟩ (.ofBytes demoHeaders) (.init b!"X"))
      = .threw b!"IConv construction failed: conversion from 'UTF-8' to 'X' not available" (.init b!"X") log :=
  ⟨[.po .error b!"f" 1 b!"expected 'msgid'" b!"garbage", .po .warning b!"f" 6 b!"unknown Plural-Forms given" []], by decide +kernel⟩

end Tgt
