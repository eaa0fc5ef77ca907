import Verif.Proofs.Grammar4
import Verif.Proofs.Writer
import Verif.Proofs.Dict
import Verif.Spec.Recode
/-
Loading canonical files.
-/
namespace Tgt.POParser
open Spec Spec.Po

theorem convert_null {lib : IconvLib} {cv : IConv} (h : cv.cd = .null) (t : Str) : cv.convert lib t = .ok t cv [] := by
  unfold IConv.convert; rw [h]

theorem convertAll_null {lib : IconvLib} {cv : IConv} (h : cv.cd = .null) (strs : List (Nat × Str)) :
    convertAll lib cv strs = .ok (strs, cv) := by
  induction strs with
  | nil => rfl
  | cons x r ih => obtain ⟨n, t⟩ := x; unfold convertAll; rw [convert_null h]; dsimp only; rw [ih]

theorem convertMessages_null {lib : IconvLib} {cv : IConv} (h : cv.cd = .null) (strs : List (Nat × Str)) :
    convertMessages lib cv strs = [] := by
  induction strs with
  | nil => rfl
  | cons x r ih => obtain ⟨n, t⟩ := x; unfold convertMessages; rw [convert_null h]; dsimp only; rw [ih]; rfl

theorem setAt_end (v : List Str) (s : Str) : setAt v v.length s = v ++ [s] := by
  unfold setAt
  rw [if_pos (Nat.le_refl _)]
  have : v.length + 1 - v.length = 1 := by omega
  rw [this]
  simp

/-- The vector of strings numbered in order. -/
theorem pluralVec_seq (strs : List Str) (h : strs ≠ []) : pluralVec ((List.range' 0 strs.length).zip strs) = strs := by
  rw [← collect_eq]
  · have : ∀ (r v : List Str), ((List.range' v.length r.length).zip r).foldl (fun v x => setAt v x.1 x.2) v = v ++ r := by
      intro r
      induction r with
      | nil => intro v; simp
      | cons s r ih =>
        intro v
        rw [List.length_cons, List.range'_succ, List.zip_cons_cons, List.foldl_cons, setAt_end]
        have := ih (v ++ [s])
        simp only [List.length_append, List.length_singleton] at this
        rw [this]; simp
    simpa using this strs []
  · cases strs with
    | nil => exact absurd rfl h
    | cons s r => simp [List.range'_succ]

theorem apply_pf (d : Dictionary) (a : Add) : (a.apply d).1.pluralForms = d.pluralForms := (Dict.apply_other d a).2.1

/-- The converter turns the strings of `S` into what `f` says, whatever it has converted. -/
def ConvActs (lib : IconvLib) (f : Str → Str) (S : Str → Prop) (cv : IConv) : Prop :=
  cv.cd = .null ∧ (∀ s, f s = s) ∨
  ∃ id to «from» hist, cv.cd = .opened id to «from» hist ∧ ∀ hist s, S s → lib.conv to «from» hist s (4 * s.length) = ⟨f s, .ok⟩

theorem convActs_convert {lib : IconvLib} {f : Str → Str} {S : Str → Prop} {cv : IConv} (h : ConvActs lib f S cv) {t : Str} (ht : S t) :
    ∃ cv', cv.convert lib t = .ok (f t) cv' [] ∧ ConvActs lib f S cv' := by
  rcases h with ⟨h, hf⟩ | ⟨id, to, fr, hist, h, hc⟩
  · exact ⟨cv, by rw [convert_null h, hf], .inl ⟨h, hf⟩⟩
  · have h1 := hc hist t ht
    have hcap := lib.conv_cap to fr hist t (4 * t.length)
    unfold IConv.convert
    rw [h]
    dsimp only
    rw [h1] at hcap ⊢
    dsimp only at hcap ⊢
    refine ⟨{ cv with trace := .used id :: cv.trace, cd := .opened id to fr (hist ++ [t]) }, ?_, .inr ⟨id, to, fr, hist ++ [t], rfl, hc⟩⟩
    have : IConv.resizeResult (4 * t.length) (f t) = f t := by
      unfold IConv.resizeResult
      dsimp only
      rw [show 4 * t.length - (4 * t.length - (f t).length) = (f t).length by omega, List.take_left]
    rw [this]

theorem convActs_convertAll {lib : IconvLib} {f : Str → Str} {S : Str → Prop} (strs : List (Nat × Str)) : ∀ {cv : IConv}, ConvActs lib f S cv →
    (∀ x ∈ strs, S x.2) → ∃ cv', convertAll lib cv strs = .ok (strs.map (fun x => (x.1, f x.2)), cv') ∧ ConvActs lib f S cv' ∧
      convertMessages lib cv strs = [] := by
  induction strs with
  | nil => intro cv h _; exact ⟨cv, rfl, h, rfl⟩
  | cons x r ih =>
    intro cv h hS
    obtain ⟨n, t⟩ := x
    obtain ⟨cv1, h1, h2⟩ := convActs_convert h (hS (n, t) List.mem_cons_self)
    obtain ⟨cv2, h3, h4, h5⟩ := ih h2 (fun y hy => hS y (List.mem_cons_of_mem _ hy))
    refine ⟨cv2, ?_, h4, ?_⟩
    · unfold convertAll
      dsimp only at h1
      rw [h1]
      dsimp only
      rw [h3]
      rfl
    · unfold convertMessages
      dsimp only at h1
      rw [h1]
      dsimp only
      rw [h5]; rfl

/-- Canonical messages, with conversion. -/
theorem load_messages_conv {ct : CType} {lib : IconvLib} {uf : Bool} {file : Str} {f : Str → Str} {S : Str → Prop} (ms : List Message)
    (hms : ∀ m ∈ ms, m.Ok) (hS : ∀ m ∈ ms, ∀ s ∈ m.strs, S s) : ∀ {cv : IConv}, ConvActs lib f S cv → ∀ (d : Dictionary) (l : List Diag),
    (∀ m ∈ ms, m.plural ≠ none → d.pluralForms.isDefined = true ∧ m.strs.length = d.pluralForms.getNplural) →
    loadFull ct lib uf file (ms.map entryOf) cv d l
      = .returned (addAll d ((ms.map (Message.recode f)).map Message.add)) (l ++ addLog d ((ms.map (Message.recode f)).map Message.add)) := by
  induction ms with
  | nil => intro cv _ d l _; simp [loadFull, addAll, addLog]
  | cons m ms ih =>
    intro cv h d l hp
    have ih := @ih (fun x hx => hms x (List.mem_cons_of_mem _ hx)) (fun x hx => hS x (List.mem_cons_of_mem _ hx))
    have hm := hms m List.mem_cons_self
    have hSm := hS m List.mem_cons_self
    have hpm := hp m List.mem_cons_self
    rw [List.map_cons, List.map_cons, List.map_cons]
    unfold loadFull
    rw [ok_header hm]
    unfold Message.Ok at hm
    cases hpl : m.plural with
    | none =>
      rw [hpl] at hm
      obtain ⟨_, s, hs, hne⟩ := hm
      have hb : (entryOf m).body = .single s := by unfold entryOf; rw [hpl, hs]; rfl
      have ha : (m.recode f).add = .singular m.ctxt m.msgid (f s) := by unfold Message.add Message.recode; dsimp only; rw [hpl, hs]; rfl
      rw [hb]
      dsimp only
      obtain ⟨cv1, c1, c2⟩ := convActs_convert h (hSm s (by rw [hs]; simp))
      rw [if_pos ⟨hne, .inr rfl⟩, c1]
      dsimp only
      have he : (entryOf m).ctxt = m.ctxt ∧ (entryOf m).msgid = m.msgid := ⟨rfl, rfl⟩
      rw [he.1, he.2, ← ha, ih c2 _ _ (by
        intro x hx hx2
        rw [apply_pf]
        exact hp x (List.mem_cons_of_mem _ hx) hx2)]
      simp [addAll, addLog]
    | some p =>
      rw [hpl] at hm
      obtain ⟨h10, s, hs, hne⟩ := hm
      have hnil : m.strs ≠ [] := List.ne_nil_of_mem hs
      have hb : (entryOf m).body = .plural p ((List.range' 0 m.strs.length).zip m.strs) := by unfold entryOf; rw [hpl]
      have ha : (m.recode f).add = .plural m.ctxt m.msgid p (m.strs.map f) := by unfold Message.add Message.recode; dsimp only; rw [hpl]
      rw [hb]
      dsimp only
      obtain ⟨cv1, c1, c2, c3⟩ := convActs_convertAll ((List.range' 0 m.strs.length).zip m.strs) h
        (fun x hx => hSm x.2 (List.of_mem_zip hx).2)
      rw [c1, c3]
      dsimp only
      have hz : ((List.range' 0 m.strs.length).zip m.strs).map (fun x => (x.1, f x.2)) = (List.range' 0 (m.strs.map f).length).zip (m.strs.map f) := by
        rw [List.length_map, List.zip_map_right]
        rfl
      rw [hz, pluralVec_seq (m.strs.map f) (by simpa using hnil)]
      have hex : ∃ x ∈ (List.range' 0 m.strs.length).zip m.strs, x.2 ≠ [] := by
        obtain ⟨i, hi, rfl⟩ := List.getElem_of_mem hs
        refine ⟨(0 + i, m.strs[i]), ?_, hne⟩
        rw [List.mem_iff_getElem]
        exact ⟨i, by simpa using hi, by simp⟩
      rw [if_pos ⟨hex, .inr rfl⟩]
      have he : (entryOf m).ctxt = m.ctxt ∧ (entryOf m).msgid = m.msgid := ⟨rfl, rfl⟩
      obtain ⟨hd1, hd2⟩ := hpm (by rw [hpl]; simp)
      have hw : pluralWarnings d.pluralForms (m.strs.map f).length = [] := by
        unfold pluralWarnings
        rw [hd1]
        simp [hd2]
      rw [he.1, he.2, ← ha, hw, ih c2 _ _ (by
        intro x hx hx2
        rw [apply_pf]
        exact hp x (List.mem_cons_of_mem _ hx) hx2)]
      simp [addAll, addLog]

/-- Canonical messages, without conversion. -/
theorem load_messages {ct : CType} {lib : IconvLib} {uf : Bool} {file : Str} {cv : IConv} (h : cv.cd = .null) (ms : List Message)
    (hms : ∀ m ∈ ms, m.Ok) (d : Dictionary) (l : List Diag)
    (hp : ∀ m ∈ ms, m.plural ≠ none → d.pluralForms.isDefined = true ∧ m.strs.length = d.pluralForms.getNplural) :
    loadFull ct lib uf file (ms.map entryOf) cv d l
      = .returned (addAll d (ms.map Message.add)) (l ++ addLog d (ms.map Message.add)) := by
  have := load_messages_conv (ct := ct) (lib := lib) (uf := uf) (file := file) (f := id) (S := fun _ => True) ms hms (fun _ _ _ _ => trivial)
    (.inl ⟨h, fun _ => rfl⟩) d l hp
  have hid : ms.map (Message.recode id) = ms := by
    have : Message.recode id = id := by funext m; simp [Message.recode]
    rw [this, List.map_id]
  rw [hid] at this
  exact this

/-! ### The canonical header -/

theorem headerText_lines (cs : Str) (pl : Option Str) (h1 : (10 : Byte) ∉ cs) (h2 : ∀ l, pl = some l → (10 : Byte) ∉ l) :
    (splitLines (headerText cs pl)).1 = (b!"Content-Type: text/plain; charset=" ++ cs) :: pl.toList := by
  have hu : headerText cs pl = unlines ((b!"Content-Type: text/plain; charset=" ++ cs) :: pl.toList) ++ [] := by
    cases pl with
    | none => simp [headerText, unlines]
    | some l => simp [headerText, unlines]
  rw [hu, splitLines_unlines]
  · intro l hl
    rcases List.mem_cons.1 hl with rfl | hl
    · rw [List.mem_append]
      rintro (h | h)
      · revert h; decide
      · exact h1 h
    · exact h2 l (by simpa using hl)
  · simp

theorem afterPrefix_append (p l : Str) : afterPrefix p (p ++ l) = some l := by
  induction p with
  | nil => rfl
  | cons a p ih => simp [afterPrefix, ih]

theorem plural_prefix {l : Str} (h : b!"Plural-Forms:" <+: l) :
    afterPrefix b!"Content-Type: text/plain; charset=" l = none ∧ (b!"Content-Type:".isPrefixOf l) = false := by
  obtain ⟨t, rfl⟩ := h
  exact ⟨rfl, rfl⟩

theorem headerText_charset (ct : CType) (cs : Str) (pl : Option Str) (h1 : (10 : Byte) ∉ cs)
    (h2 : ∀ l, pl = some l → (10 : Byte) ∉ l ∧ b!"Plural-Forms:" <+: l) :
    declaredCharset ct (headerText cs pl) = cs.map ct.toupper := by
  unfold declaredCharset
  rw [headerText_lines cs pl h1 (fun l hl => (h2 l hl).1), List.filterMap_cons, afterPrefix_append]
  cases pl with
  | none => rfl
  | some l =>
    have := (plural_prefix (h2 l rfl).2).1
    simp only [Option.toList_some, List.filterMap_cons, this, List.filterMap_nil]
    rfl

theorem content_not_plural (cs : Str) : (b!"Plural-Forms:".isPrefixOf (b!"Content-Type: text/plain; charset=" ++ cs)) = false := rfl
theorem content_prefix (cs : Str) : (b!"Content-Type:".isPrefixOf (b!"Content-Type: text/plain; charset=" ++ cs)) = true := rfl
theorem content_prefix2 (cs : Str) : (b!"Content-Type: text/plain; charset=".isPrefixOf (b!"Content-Type: text/plain; charset=" ++ cs)) = true := by
  rw [List.isPrefixOf_iff_prefix]; exact List.prefix_append _ _

theorem headerText_rule (ct : CType) (cs : Str) (pl : Option Str) (h1 : (10 : Byte) ∉ cs)
    (h2 : ∀ l, pl = some l → (10 : Byte) ∉ l ∧ b!"Plural-Forms:" <+: l ∧ (PluralForms.fromString ct l).isDefined = true) :
    headerRule ct (headerText cs pl) = pl.map (PluralForms.fromString ct) := by
  unfold headerRule
  rw [headerText_lines cs pl h1 (fun l hl => (h2 l hl).1), List.filterMap_cons, content_not_plural]
  simp only [Bool.false_eq_true, false_and, if_false]
  cases pl with
  | none => rfl
  | some l =>
    obtain ⟨_, h3, h4⟩ := h2 l rfl
    simp only [Option.toList_some, List.filterMap_cons, List.filterMap_nil]
    rw [if_pos ⟨List.isPrefixOf_iff_prefix.2 h3, h4⟩]
    rfl

theorem headerText_warnings (ct : CType) (r : PluralForms) (cs : Str) (pl : Option Str) (h1 : (10 : Byte) ∉ cs)
    (h2 : ∀ l, pl = some l → (10 : Byte) ∉ l ∧ b!"Plural-Forms:" <+: l ∧ (PluralForms.fromString ct l).isDefined = true ∧
      (r.isDefined = true → r = PluralForms.fromString ct l))
    (h3 : cs.map ct.toupper ≠ [] ∧ cs.map ct.toupper ≠ b!"CHARSET") :
    headerWarnings ct r (headerText cs pl) = [] := by
  unfold headerWarnings
  rw [headerText_charset ct cs pl h1 (fun l hl => ⟨(h2 l hl).1, (h2 l hl).2.1⟩),
    headerText_lines cs pl h1 (fun l hl => (h2 l hl).1), if_neg (by rintro (h | h); exact h3.1 h; exact h3.2 h), List.append_nil]
  unfold headerMessages
  rw [if_pos (content_prefix cs), if_pos (content_prefix2 cs)]
  cases pl with
  | none => rfl
  | some l =>
    obtain ⟨_, h4, h5, h6⟩ := h2 l rfl
    simp only [Option.toList_some]
    unfold headerMessages
    rw [(plural_prefix h4).2]
    rw [if_neg (by simp), if_pos (List.isPrefixOf_iff_prefix.2 h4), h5, if_neg (by simp)]
    by_cases hr : r.isDefined = true
    · rw [hr, if_neg (by simp), if_neg (by simpa using h6 hr)]; rfl
    · rw [if_pos (by simpa using hr)]; rfl

theorem toupper_toupper (ct : CType) (cs : Str) (h : ∀ b ∈ cs, b < 128) : (cs.map ct.toupper).map ct.toupper = cs.map ct.toupper := by
  rw [List.map_map]
  apply List.map_congr_left
  intro b hb
  have hb := h b hb
  show ct.toupper (ct.toupper b) = ct.toupper b
  have hup := ct.toupper_ascii b hb
  by_cases hc : (decide (97 ≤ b) && decide (b ≤ 122)) = true
  · rw [if_pos hc] at hup
    rw [hup]
    have h1 : b - 32 < 128 ∧ ¬ ((decide (97 ≤ b - 32) && decide (b - 32 ≤ 122)) = true) := by
      simp only [Bool.and_eq_true, decide_eq_true_eq, UInt8.le_iff_toNat_le, UInt8.lt_iff_toNat_lt] at hc ⊢
      have e1 : (97 : UInt8).toNat = 97 := rfl
      have e2 : (122 : UInt8).toNat = 122 := rfl
      have e3 : (32 : UInt8).toNat = 32 := rfl
      have e4 : (128 : UInt8).toNat = 128 := rfl
      have : (b - 32).toNat = b.toNat - 32 := by
        rw [UInt8.toNat_sub_of_le _ _ (by rw [UInt8.le_iff_toNat_le]; omega)]; rfl
      rw [this]
      omega
    rw [ct.toupper_ascii _ h1.1, if_neg h1.2]
  · rw [if_neg hc] at hup
    rw [hup, hup]

/-- A declared charset that is the dictionary's. -/
theorem setCharsets_same {ct : CType} {lib : IconvLib} {cv : IConv} {a b : Str} (h : a.map ct.toupper = b.map ct.toupper) :
    (cv.setCharsets ct lib a b).2 = none ∧ (cv.setCharsets ct lib a b).1.cd = .null := by
  unfold IConv.setCharsets
  dsimp only
  rw [if_pos h.symm]
  exact ⟨rfl, rfl⟩

theorem setCharsets_acts {ct : CType} {lib : IconvLib} {cv : IConv} {src dst : Str} {f : Str → Str} {S : Str → Prop} (ha : ∀ b ∈ src, b < 128)
    (h : src.map ct.toupper = dst.map ct.toupper ∧ (∀ s, f s = s) ∨
     src.map ct.toupper ≠ dst.map ct.toupper ∧ lib.iconvOpen (libName ct dst) (libName ct src) = .ok ∧
       ∀ s, S s → ∀ hist, lib.conv (libName ct dst) (libName ct src) hist s (4 * s.length) = ⟨f s, .ok⟩) :
    (cv.setCharsets ct lib (src.map ct.toupper) dst).2 = none ∧ ConvActs lib f S (cv.setCharsets ct lib (src.map ct.toupper) dst).1 := by
  rcases h with ⟨h, hf⟩ | ⟨hne, ho, hc⟩
  · have := setCharsets_same (lib := lib) (cv := cv) (ct := ct) (a := src.map ct.toupper) (b := dst) (by rw [toupper_toupper ct src ha, h])
    exact ⟨this.1, .inl ⟨this.2, hf⟩⟩
  · have e : ∀ n : Str, cstr (n.map ct.toupper) = libName ct n := fun n => by
      unfold cstr libName; congr 1; funext b; simp [bne, BEq.beq]
    unfold IConv.setCharsets
    dsimp only
    rw [toupper_toupper ct src ha, if_neg (fun h => hne h.symm), e, e, ho]
    exact ⟨rfl, .inr ⟨_, _, _, _, rfl, fun hist s hs => hc s hs hist⟩⟩

/-! ### Fresh messages -/

theorem apply_fresh (d : Dictionary) (a : Add) (h : d.lookup (target a) = none) : (a.apply d).2 = [] := by
  rcases a with ⟨_ | c, i, s⟩ | ⟨_ | c, i, p, v⟩
  · simp only [Add.apply, Dictionary.addSingular, Dict.vecAt_eq]
    simp only [target, Dictionary.lookup] at h
    rw [h]; rfl
  · simp only [Add.apply, Dictionary.addCtxtSingular, Dict.vecAt_eq, Dict.ctxtAt_get?]
    simp only [target] at h
    rw [h]; rfl
  · simp only [Add.apply, Dictionary.addPlural, Dict.vecAt_eq]
    simp only [target, Dictionary.lookup] at h
    rw [h]; rfl
  · simp only [Add.apply, Dictionary.addCtxtPlural, Dict.vecAt_eq, Dict.ctxtAt_get?]
    simp only [target] at h
    rw [h]; rfl

theorem addLog_fresh (adds : List Add) : ∀ (d : Dictionary), (∀ a ∈ adds, d.lookup (target a) = none) →
    (adds.map target).Nodup → addLog d adds = [] := by
  induction adds with
  | nil => intro d _ _; rfl
  | cons a r ih =>
    intro d h1 h2
    simp only [List.map_cons, List.nodup_cons] at h2
    simp only [addLog]
    rw [apply_fresh d a (h1 a List.mem_cons_self), ih]
    · rfl
    · intro b hb
      rw [Dict.lookup_apply, if_neg, h1 b (List.mem_cons_of_mem _ hb)]
      intro heq
      exact h2.1 (heq ▸ List.mem_map.2 ⟨b, hb, rfl⟩)
    · exact h2.2

theorem lookup_addAll_other (adds : List Add) (key : Option Str × Str) : ∀ (d : Dictionary), key ∉ adds.map target →
    (addAll d adds).lookup key = d.lookup key := by
  induction adds with
  | nil => intro d _; rfl
  | cons a r ih =>
    intro d h
    simp only [List.map_cons, List.mem_cons, not_or] at h
    show (addAll (a.apply d).1 r).lookup key = _
    rw [ih _ h.2, Dict.lookup_apply, if_neg (fun e => h.1 e.symm)]

theorem lookup_addAll (adds : List Add) (a : Add) (ha : a ∈ adds) : ∀ (d : Dictionary), (∀ b ∈ adds, d.lookup (target b) = none) →
    (adds.map target).Nodup → (addAll d adds).lookup (target a) = some (a.newVec []) := by
  induction adds with
  | nil => cases ha
  | cons b r ih =>
    intro d h1 h2
    simp only [List.map_cons, List.nodup_cons] at h2
    show (addAll (b.apply d).1 r).lookup _ = _
    rcases List.mem_cons.1 ha with rfl | ha
    · rw [lookup_addAll_other _ _ _ h2.1, Dict.lookup_apply, if_pos rfl, h1 _ List.mem_cons_self]
      rfl
    · refine ih ha _ ?_ h2.2
      intro x hx
      rw [Dict.lookup_apply, if_neg, h1 x (List.mem_cons_of_mem _ hx)]
      intro heq
      exact h2.1 (heq ▸ List.mem_map.2 ⟨x, hx, rfl⟩)

end Tgt.POParser
