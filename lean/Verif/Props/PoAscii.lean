import Verif.Proofs.Split
import Verif.Proofs.Post
/-
7-bit files are parsed alike in all locales: C42.
-/
namespace Tgt
open Spec Spec.Po POParser

/-- Only 7-bit bytes. -/
def Spec.SevenBit (s : Str) : Prop := ∀ b ∈ s, b < 128

instance (s : Str) : Decidable (SevenBit s) := inferInstanceAs (Decidable (∀ b ∈ s, _))

namespace POParser
variable (ct ct' : CType)

theorem sp_ascii {b : Byte} (h : b < 128) : ct.isspace b = ct'.isspace b := by rw [ct.isspace_ascii b h, ct'.isspace_ascii b h]
theorem up_ascii {b : Byte} (h : b < 128) : ct.toupper b = ct'.toupper b := by rw [ct.toupper_ascii b h, ct'.toupper_ascii b h]

theorem map_ascii {s : Str} (h : SevenBit s) : s.map ct.toupper = s.map ct'.toupper :=
  List.map_congr_left (fun b hb => up_ascii ct ct' (h b hb))

theorem toupper_sevenBit {s : Str} (h : SevenBit s) : SevenBit (s.map ct.toupper) := by
  intro b hb
  obtain ⟨x, hx, rfl⟩ := List.mem_map.1 hb
  have h1 := h x hx
  rw [ct.toupper_ascii x h1]
  split
  · rename_i h2
    simp only [Bool.and_eq_true, decide_eq_true_eq] at h2
    have e : (x - 32).toNat = x.toNat - 32 := by
      rw [UInt8.toNat_sub_of_le]
      · rfl
      · exact UInt8.le_trans (by decide) h2.1
    rw [UInt8.lt_iff_toNat_lt, e]
    have := UInt8.lt_iff_toNat_lt.1 h1
    omega
  · exact h1

theorem all_ascii {s : Str} (h : SevenBit s) : s.all ct.isspace = s.all ct'.isspace := by
  induction s with
  | nil => rfl
  | cons x s ih =>
    rw [List.all_cons, List.all_cons, sp_ascii ct ct' (h x List.mem_cons_self), ih (fun y hy => h y (List.mem_cons_of_mem _ hy))]

theorem any_ascii {s : Str} (h : SevenBit s) : s.any (fun b => !ct.isspace b) = s.any (fun b => !ct'.isspace b) := by
  induction s with
  | nil => rfl
  | cons x s ih =>
    rw [List.any_cons, List.any_cons, sp_ascii ct ct' (h x List.mem_cons_self), ih (fun y hy => h y (List.mem_cons_of_mem _ hy))]

theorem empty_ascii {l : Str} (h : SevenBit l) : emptyLine ct l = emptyLine ct' l := by
  unfold emptyLine
  split
  · rfl
  · split
    · rfl
    · rename_i b _
      exact sp_ascii ct ct' (h b (by simp))
  · exact all_ascii ct ct' h

theorem scan_ascii {l : Str} (h : SevenBit l) : ∀ i, scanQuote ct l i = scanQuote ct' l i := by
  induction l with
  | nil => intro i; rfl
  | cons x l ih =>
    intro i
    unfold scanQuote
    rw [sp_ascii ct ct' (h x List.mem_cons_self), ih (fun y hy => h y (List.mem_cons_of_mem _ hy))]

theorem skip_ascii {l : Str} (h : SevenBit l) : ∀ i, skipTo ct l i = skipTo ct' l i := by
  induction l with
  | nil => intro i; rfl
  | cons x l ih =>
    intro i
    unfold skipTo
    rw [sp_ascii ct ct' (h x List.mem_cons_self), ih (fun y hy => h y (List.mem_cons_of_mem _ hy))]

theorem strip_ascii {l : Str} (h : SevenBit l) : PluralForms.stripSpaces ct l = PluralForms.stripSpaces ct' l := by
  induction l with
  | nil => rfl
  | cons x l ih =>
    unfold PluralForms.stripSpaces
    rw [sp_ascii ct ct' (h x List.mem_cons_self), ih (fun y hy => h y (List.mem_cons_of_mem _ hy))]

theorem lit_ascii {b : Bool} {body text : Str} {u : List Byte} (h : Lit b body text u) : SevenBit body → SevenBit text := by
  induction h with
  | nil => intro h; exact h
  | plain _ _ _ _ ih =>
    intro h x hx
    rcases List.mem_cons.1 hx with rfl | hx
    · exact h x List.mem_cons_self
    · exact ih (fun y hy => h y (List.mem_cons_of_mem _ hy)) x hx
  | pair _ _ _ ih =>
    intro h x hx
    rcases List.mem_cons.1 hx with rfl | hx
    · exact h x List.mem_cons_self
    · rcases List.mem_cons.1 hx with rfl | hx
      · exact h x (by simp)
      · exact ih (fun y hy => h y (by simp [hy])) x hx
  | @esc e r _ _ _ he _ ih =>
    intro h x hx
    rcases List.mem_cons.1 hx with rfl | hx
    · have : ∀ y ∈ escapes, y.2 < 128 := by decide
      exact this _ he
    · exact ih (fun y hy => h y (by simp [hy])) x hx
  | unknown _ _ ih =>
    intro h x hx
    rcases List.mem_cons.1 hx with rfl | hx
    · decide
    · rcases List.mem_cons.1 hx with rfl | hx
      · exact h x (by simp)
      · exact ih (fun y hy => h y (by simp [hy])) x hx

theorem lex_ascii {b : Bool} {s t rest : Str} (h : (lex b s).res = .ok (t, rest)) (hs : SevenBit s) : SevenBit t ∧ SevenBit rest := by
  obtain ⟨body, h1, h2⟩ := lit_lex b s.length s t rest (Nat.le_refl _) h
  subst h1
  exact ⟨lit_ascii h2 (fun y hy => hs y (List.mem_append_left _ hy)), fun y hy => hs y (by simp [hy])⟩

theorem _root_.Tgt.Spec.SevenBit.drop {s : Str} (h : SevenBit s) (n : Nat) : SevenBit (s.drop n) := fun b hb => h b (List.mem_of_mem_drop hb)
theorem _root_.Tgt.Spec.SevenBit.take {s : Str} (h : SevenBit s) (n : Nat) : SevenBit (s.take n) := fun b hb => h b (List.mem_of_mem_take hb)
theorem _root_.Tgt.Spec.SevenBit.append {s t : Str} (h : SevenBit s) (h' : SevenBit t) : SevenBit (s ++ t) := by
  intro b hb
  rcases List.mem_append.1 hb with hb | hb
  · exact h b hb
  · exact h' b hb

theorem rdLine_ascii {b : Bool} {l t : Str} {skip : Nat} (h : rdLine b l skip = some t) (hl : SevenBit l) : SevenBit t := by
  unfold rdLine at h
  split at h
  · cases h
  · split at h
    · cases h
    · split at h
      · cases h
      · rename_i t' rest hr
        cases h
        exact (lex_ascii hr (hl.drop _)).1

theorem reads_ascii {T : Tape} (hT : ∀ p, SevenBit (T p).line) : Reads ct T (fun _ t => SevenBit t) := by
  refine ⟨fun b p skip t _ h => ?_, fun b p skip t out h ho => ?_⟩
  · unfold rdKw at h
    split at h
    · cases h
    · split at h
      · exact rdLine_ascii h (hT p)
      · split at h
        · cases h
        · exact rdLine_ascii h (hT p)
  · unfold rdCont at h
    cases hs : scanQuote ct (T p).line 0 with
    | none => rw [hs] at h; cases h
    | some i =>
      rw [hs] at h
      simp only [Option.map_some, Option.some.injEq] at h
      exact ho.append (rdLine_ascii h (hT p))

/-- Header texts are 7-bit. -/
def AsciiEvs (w : List Ev) : Prop := ∀ p t, Ev.header p t ∈ w → SevenBit t

theorem asciiEvs_spec : EvSpec (fun _ t => SevenBit t) AsciiEvs AsciiEvs := by
  have hg : GOk AsciiEvs := by
    refine ⟨fun p t he => (by cases he), fun w w' h h' p t he => ?_, fun lv p m b p t he => ?_⟩
    · rcases List.mem_append.1 he with h1 | h1
      · exact h p t h1
      · exact h' p t h1
    · simp at he
  refine ⟨hg, hg, fun w h p t he => ?_, fun _ _ _ _ p t he => ?_, fun _ _ _ _ _ _ _ _ p t he => ?_, fun _ _ _ _ _ _ _ _ _ p t he => ?_, fun q t _ h p t' he => ?_⟩
  · exact h p t (by simpa using he)
  · simp at he
  · simp at he
  · simp at he
  · simp only [List.mem_singleton, Ev.header.injEq] at he
    rw [he.2]; exact h

/-! ### The same events -/

section
variable {α β : Type} {T : Tape}

theorem line_congr {f f' : Str → E β} (h : ∀ p, f (T p).line p = f' (T p).line p) : (lineE T >>= f) = (lineE T >>= f') := by
  funext p
  exact h p

theorem bind_congr' {e e' : E α} {f f' : α → E β} (he : e = e') (h : ∀ a, f a = f' a) : (e >>= f) = (e' >>= f') := by
  subst he
  have : f = f' := funext h
  rw [this]
end

variable {T : Tape} (fuel : Nat) (hT : ∀ p, SevenBit (T p).line)
include hT

theorem as_recover : ∀ f, recoverE ct T f = recoverE ct' T f := by
  intro f
  induction f with
  | zero => rfl
  | succ f ih =>
    unfold recoverE
    refine bind_congr' rfl (fun _ => line_congr (fun p => ?_))
    rw [ih, empty_ascii ct ct' (hT p)]

theorem as_error {α : Type} (m : Str) : errorE (α := α) ct fuel T m = errorE ct' fuel T m := by
  unfold errorE
  rw [as_recover ct ct' hT]

theorem as_getStringLine (b : Bool) (out : Str) (skip : Nat) : getStringLineE ct fuel T b out skip = getStringLineE ct' fuel T b out skip := by
  unfold getStringLineE
  refine line_congr (fun p => ?_)
  simp only [as_error ct ct' fuel hT]
  by_cases h1 : skip + 1 ≥ u32 (T p).line.length
  · rw [if_pos h1, if_pos h1]
  rw [if_neg h1, if_neg h1]
  by_cases h2 : (T p).line[skip]? ≠ some 34
  · rw [if_pos h2, if_pos h2]
  rw [if_neg h2, if_neg h2]
  refine congrFun (bind_congr' rfl (fun _ => ?_)) p
  cases hr : (lex b ((T p).line.drop (skip + 1))).res with
  | error m => rfl
  | ok x =>
    obtain ⟨t, rest⟩ := x
    dsimp only
    rw [any_ascii ct ct' (lex_ascii hr ((hT p).drop _)).2]

theorem as_contLoop (b : Bool) : ∀ f out, contLoopE ct fuel T b f out = contLoopE ct' fuel T b f out := by
  intro f
  induction f with
  | zero => intro out; rfl
  | succ f ih =>
    intro out
    unfold contLoopE
    refine bind_congr' rfl (fun _ => line_congr (fun p => ?_))
    rw [scan_ascii ct ct' (hT p)]
    cases scanQuote ct' (T p).line 0 with
    | none => rfl
    | some i =>
      dsimp only
      simp only [as_getStringLine ct ct' fuel hT, ih]

theorem as_getString (b : Bool) (skip : Nat) : getStringE ct fuel T b skip = getStringE ct' fuel T b skip := by
  unfold getStringE
  refine line_congr (fun p => ?_)
  simp only [as_error ct ct' fuel hT, as_getStringLine ct ct' fuel hT, as_contLoop ct ct' fuel hT, skip_ascii ct ct' ((hT p).take _ |>.drop _)]

theorem as_pluralLoop (b : Bool) : ∀ f first saw, pluralLoopE ct fuel T b f first saw = pluralLoopE ct' fuel T b f first saw := by
  intro f
  induction f with
  | zero => intro _ _; rfl
  | succ f ih =>
    intro first saw
    unfold pluralLoopE
    refine line_congr (fun p => ?_)
    rw [empty_ascii ct ct' (hT p)]
    simp only [as_error ct ct' fuel hT, as_getString ct ct' fuel hT, ih]

theorem as_entry (b : Bool) : entryE ct fuel T b = entryE ct' fuel T b := by
  have e1 : ∀ fz c i, pluralEntryE ct fuel T b fz c i = pluralEntryE ct' fuel T b fz c i := by
    intro fz c i
    unfold pluralEntryE
    refine bind_congr' (as_getString ct ct' fuel hT b _) (fun _ => bind_congr' rfl (fun _ => bind_congr' (as_pluralLoop ct ct' fuel hT b _ _ _) (fun _ => line_congr (fun p => ?_))))
    rw [empty_ascii ct ct' (hT p), as_error ct ct' fuel hT]
  have e2 : ∀ fz c i, singularEntryE ct fuel T b fz c i = singularEntryE ct' fuel T b fz c i := by
    intro fz c i
    unfold singularEntryE
    rw [as_getString ct ct' fuel hT]
  have e3 : ∀ fz, entryBodyE ct fuel T b fz = entryBodyE ct' fuel T b fz := by
    intro fz
    unfold entryBodyE ctxtE msgidE
    simp only [as_getString ct ct' fuel hT, as_error ct ct' fuel hT, e1, e2]
  unfold entryE
  refine bind_congr' rfl (fun fz => line_congr (fun p => ?_))
  rw [e3, empty_ascii ct ct' (hT p)]
  have e4 : finishE ct fuel T = finishE ct' fuel T := by
    unfold finishE
    refine line_congr (fun p => ?_)
    rw [empty_ascii ct ct' (hT p), as_error ct ct' fuel hT]
  rw [e4]

omit hT in
theorem headerCharset_ascii {t : Str} (ht : SevenBit t) : headerCharset ct t = headerCharset ct' t := by
  have : ∀ (t acc fr : Str), SevenBit t → SevenBit acc → headerCharset.go ct t acc fr = headerCharset.go ct' t acc fr := by
    intro t
    induction t with
    | nil => intro acc fr _ _; rfl
    | cons x t ih =>
      intro acc fr h ha
      unfold headerCharset.go
      have h' : SevenBit t := fun y hy => h y (List.mem_cons_of_mem _ hy)
      rw [map_ascii ct ct' (ha.drop 34)]
      split
      · exact ih _ _ h' (fun y hy => by cases hy)
      · exact ih _ _ h' (ha.append (fun y hy => by simp at hy; subst hy; exact h y List.mem_cons_self))
  exact this t [] [] ht (fun y hy => by cases hy)

omit hT in
theorem big5After_ascii (b : Bool) {w : List Ev} (h : AsciiEvs w) : big5After ct b w = big5After ct' b w := by
  unfold big5After
  congr 1
  induction w with
  | nil => rfl
  | cons e w ih =>
    rw [List.any_cons, List.any_cons, ih (fun p t ht => h p t (List.mem_cons_of_mem _ ht))]
    cases e with
    | header p t => dsimp only; rw [headerCharset_ascii ct ct' (h p t List.mem_cons_self)]
    | _ => rfl

theorem as_mainLoop : ∀ f b, mainLoopE ct fuel T f b = mainLoopE ct' fuel T f b := by
  intro f
  induction f with
  | zero => intro b; rfl
  | succ f ih =>
    intro b
    funext p
    unfold mainLoopE
    have hp := (post_entry (fuel := fuel) (b := b) asciiEvs_spec (reads_ascii ct hT) p).1
    rw [← as_entry ct ct' fuel hT b]
    rcases hx : entryE ct fuel T b p with ⟨w, r⟩
    rw [hx] at hp
    dsimp only at hp
    cases r <;> dsimp only <;> (try rw [big5After_ascii ct ct' b hp, ih])

/-! ### The same effect -/
omit hT

theorem headerLines_ascii : ∀ (t acc : Str), SevenBit t → SevenBit acc → ∀ l ∈ headerLines t acc, SevenBit l := by
  intro t
  induction t with
  | nil => intro acc _ _ l hl; cases hl
  | cons x t ih =>
    intro acc h ha l hl
    have h' : SevenBit t := fun y hy => h y (List.mem_cons_of_mem _ hy)
    unfold headerLines at hl
    split at hl
    · rcases List.mem_cons.1 hl with rfl | hl
      · exact ha
      · exact ih [] h' (fun y hy => by cases hy) l hl
    · exact ih _ h' (ha.append (fun y hy => by simp at hy; subst hy; exact h y List.mem_cons_self)) l hl

theorem hdrEffects_ascii (c : Cfg) (n : Nat) (cur : Str) : ∀ (ls : List Str) (x : Dictionary × List Diag), (∀ l ∈ ls, SevenBit l) →
    hdrEffects c n cur ls x = hdrEffects { c with ct := ct' } n cur ls x := by
  intro ls
  induction ls with
  | nil => intro x _; rfl
  | cons l ls ih =>
    intro x h
    have e : hdrEffect c n cur x l = hdrEffect { c with ct := ct' } n cur x l := by
      unfold hdrEffect PluralForms.fromString
      rw [strip_ascii c.ct ct' (h l List.mem_cons_self)]
    show hdrEffects c n cur ls (hdrEffect c n cur x l) = hdrEffects _ n cur ls (hdrEffect _ n cur x l)
    rw [e]
    exact ih _ (fun y hy => h y (List.mem_cons_of_mem _ hy))

theorem hdrEffects_charset (c : Cfg) (n : Nat) (cur : Str) : ∀ (ls : List Str) (x : Dictionary × List Diag),
    (hdrEffects c n cur ls x).1.charset = x.1.charset := by
  intro ls
  induction ls with
  | nil => intro x; rfl
  | cons l ls ih =>
    intro x
    show (hdrEffects c n cur ls (hdrEffect c n cur x l)).1.charset = _
    rw [ih]
    unfold hdrEffect
    repeat' split
    all_goals rfl

theorem header_sevenBit {t : Str} (h : SevenBit t) : SevenBit (headerCharset ct t) := by
  have : ∀ (t acc fr : Str), SevenBit t → SevenBit acc → SevenBit fr → SevenBit (headerCharset.go ct t acc fr) := by
    intro t
    induction t with
    | nil => intro acc fr _ _ h; exact h
    | cons x t ih =>
      intro acc fr h ha hf
      have h' : SevenBit t := fun y hy => h y (List.mem_cons_of_mem _ hy)
      unfold headerCharset.go
      split
      · refine ih _ _ h' (fun y hy => by cases hy) ?_
        split
        · exact toupper_sevenBit ct (ha.drop 34)
        · exact hf
      · exact ih _ _ h' (ha.append (fun y hy => by simp at hy; subst hy; exact h y List.mem_cons_self)) hf
  exact this t [] [] h (fun y hy => by cases hy) (fun y hy => by cases hy)

theorem parseHeader_ascii (c : Cfg) {t : Str} (h : SevenBit t) (s : PState) (hs : SevenBit s.dict.charset) :
    parseHeader c t s = parseHeader { c with ct := ct' } t s := by
  rw [parseHeader_eq, parseHeader_eq]
  have e1 : afterHeader c t s = afterHeader { c with ct := ct' } t s := by
    unfold afterHeader
    rw [hdrEffects_ascii ct' c _ _ _ _ (headerLines_ascii t [] h (fun y hy => by cases hy)), headerCharset_ascii c.ct ct' h]
  have hc : SevenBit (afterHeader { c with ct := ct' } t s).dict.charset := by
    show SevenBit (hdrEffects _ _ _ _ (s.dict, s.log)).1.charset
    rw [hdrEffects_charset]; exact hs
  rw [e1, headerCharset_ascii c.ct ct' h]
  have hsrc : SevenBit (POParser.sourceCharset (headerCharset ct' t)) := by
    unfold POParser.sourceCharset
    split
    · decide
    · exact header_sevenBit ct' h
  unfold setCharsets IConv.setCharsets
  dsimp only
  rw [map_ascii c.ct ct' hc, map_ascii c.ct ct' hsrc]

theorem evStep_charset (c : Cfg) (e : Ev) (x y : List Str × PState) (h : evStep c T e x = .ok () y) : y.2.dict.charset = x.2.dict.charset := by
  have hc : ∀ (t r : Str) (s s' : PState), convert c t s = .ok r s' → s'.dict = s.dict := by
    intro t r s s' h
    unfold convert at h
    split at h
    · cases h; rfl
    · cases h
  cases e with
  | diag lv p m pd => simp only [evStep] at h; split at h <;> cases h <;> rfl
  | clear => cases h; rfl
  | conv n t =>
    simp only [evStep] at h
    split at h <;> cases h
    rename_i hh; rw [hc _ _ _ _ hh]
  | singular fz cx i t =>
    simp only [evStep] at h
    split at h
    · split at h <;> cases h
      rename_i hh
      rw [← hc _ _ _ _ hh]; exact apply_charset _ _
    · cases h; rfl
  | plural p fz cx i ip =>
    simp only [evStep] at h
    split at h <;> cases h
    · exact apply_charset _ _
    · rfl
  | header p t =>
    simp only [evStep, parseHeader_eq] at h
    split at h <;> cases h
    rename_i hh
    unfold setCharsets at hh
    dsimp only at hh
    split at hh <;> cases hh
    exact hdrEffects_charset _ _ _ _ _

theorem interp_ascii (c : Cfg) : ∀ (w : List Ev) (x : List Str × PState), AsciiEvs w → SevenBit x.2.dict.charset →
    interp c T w x = interp { c with ct := ct' } T w x := by
  intro w
  induction w with
  | nil => intro x _ _; rfl
  | cons e w ih =>
    intro x h hx
    have e1 : evStep c T e x = evStep { c with ct := ct' } T e x := by
      cases e with
      | header p t => simp only [evStep]; rw [parseHeader_ascii ct' c (h p t List.mem_cons_self) (mv T x.2 p) hx]
      | _ => rfl
    simp only [interp, bind_apply]
    rw [← e1]
    cases he : evStep c T e x with
    | ok a y => exact ih y (fun p t ht => h p t (List.mem_cons_of_mem _ ht)) (by rw [evStep_charset c e x y he]; exact hx)
    | _ => rfl

theorem lineAt_sevenBit {s : Str} (h : SevenBit s) (p : Nat) : SevenBit (lineAt s p) := by
  have : ∀ s : Str, SevenBit s → (∀ l ∈ (splitLines s).1, SevenBit l) ∧ SevenBit (splitLines s).2 := by
    intro s
    induction s with
    | nil => intro h; exact ⟨fun l hl => (by cases hl), h⟩
    | cons x s ih =>
      intro h
      obtain ⟨h1, h2⟩ := ih (fun y hy => h y (List.mem_cons_of_mem _ hy))
      unfold splitLines
      split
      · refine ⟨fun l hl => ?_, h2⟩
        rcases List.mem_cons.1 hl with rfl | hl
        · exact fun y hy => (by cases hy)
        · exact h1 l hl
      · split
        · refine ⟨fun l hl => (by cases hl), fun y hy => ?_⟩
          rcases List.mem_cons.1 hy with rfl | hy
          · exact h y List.mem_cons_self
          · exact h2 y hy
        · rename_i l0 ls he
          refine ⟨fun l hl => ?_, h2⟩
          rcases List.mem_cons.1 hl with rfl | hl
          · intro y hy
            rcases List.mem_cons.1 hy with rfl | hy
            · exact h y List.mem_cons_self
            · exact h1 l0 (by rw [he]; exact List.mem_cons_self) y hy
          · exact h1 l (by rw [he]; exact List.mem_cons_of_mem _ hl)
  unfold lineAt
  rw [List.getD_eq_getElem?_getD]
  cases hx : (splitLines s).1[p]? with
  | none => exact (this s h).2
  | some l => exact (this s h).1 l (List.mem_of_getElem? hx)

end POParser

/-- C42.  Parsing a 7-bit text into a dictionary with a 7-bit charset name does not depend on what the C library makes
of bytes from 0x80 on: for any two such behaviours the dictionary, the outcome and all messages are the same. -/
theorem C42_locale_independent (c : Cfg) (ct' : CType) (s : Str) (d : Dictionary) (hs : SevenBit s) (hd : SevenBit d.charset)
    (hF : s.length < c.fuel) :
    observe (run c (.ofBytes s) d) = observe (run { c with ct := ct' } (.ofBytes s) d) := by
  rw [run_obs c _ d hF, run_obs { c with ct := ct' } _ d hF]
  have hT : ∀ p, SevenBit (startTape (.ofBytes s) p).line := by
    intro p
    rw [(startTape_lines s p).1]
    apply lineAt_sevenBit
    unfold withoutBom
    split
    · exact fun b hb => hs b (by simp [hb])
    · exact hs
  have e1 : events c.ct c.fuel (.ofBytes s) = events ct' c.fuel (.ofBytes s) := by
    unfold events
    rw [as_mainLoop c.ct ct' c.fuel hT]
  have e2 : AsciiEvs (events c.ct c.fuel (.ofBytes s)).1 := by
    unfold events
    exact post_mainLoop asciiEvs_spec (reads_ascii c.ct hT) _ _ _
  unfold obsE
  rw [← e1, interp_ascii ct' c _ _ e2 hd]

/-- A library under which 0xA0 is white space and 0xE4 has the upper case 0xC4, as in Latin-1 locales. -/
def CType.latin1 : CType where
  isspace b := CType.c.isspace b || b == 0xa0
  isalpha b := CType.c.isalpha b || 0xc0 ≤ b
  toupper b := if b = 0xe4 then 0xc4 else CType.c.toupper b
  tolower b := if b = 0xc4 then 0xe4 else CType.c.tolower b
  isspace_ascii := fun b h => by
    have h2 : b ≠ 0xa0 := by rintro rfl; revert h; decide
    rw [CType.c.isspace_ascii b h]; simp [h2]
  isalpha_ascii := fun b h => by
    have h2 : ¬ (0xc0 : Byte) ≤ b := fun h' => by
      have := UInt8.lt_of_le_of_lt h' h
      revert this; decide
    rw [CType.c.isalpha_ascii b h]; simp [h2]
  toupper_ascii := fun b h => by
    have h2 : b ≠ 0xe4 := by rintro rfl; revert h; decide
    rw [if_neg h2, CType.c.toupper_ascii b h]
  tolower_ascii := fun b h => by
    have h2 : b ≠ 0xc4 := by rintro rfl; revert h; decide
    rw [if_neg h2, CType.c.tolower_ascii b h]

/-- A header and an entry with a string in two pieces. -/
def asciiDemo : Str := unlines [b!"msgid \"\"", b!"msgstr \"Content-Type: text/plain; charset=iso-8859-1\\n\"", [], b!"msgid \"a\"", b!" \"b\"", b!"msgstr \"AB\" x"]

-- the hypotheses of C42
example : observe (run ⟨.c, demoLib, true, b!"f", true, 400⟩ (.ofBytes asciiDemo) (.init b!"UTF-8"))
    = observe (run ⟨.latin1, demoLib, true, b!"f", true, 400⟩ (.ofBytes asciiDemo) (.init b!"UTF-8")) :=
  C42_locale_independent ⟨.c, demoLib, true, b!"f", true, 400⟩ .latin1 asciiDemo (.init b!"UTF-8") (by decide +kernel) (by decide +kernel) (by decide +kernel)

-- beyond 7 bits the two differ: 0xA0 before a string
example : observe (run ⟨.c, demoLib, false, b!"f", true, 400⟩ (.ofBytes (b!"msgid" ++ 0xa0 :: b!"\"a\"\nmsgstr \"A\"\n")) (.init b!"UTF-8"))
    ≠ observe (run ⟨.latin1, demoLib, false, b!"f", true, 400⟩ (.ofBytes (b!"msgid" ++ 0xa0 :: b!"\"a\"\nmsgstr \"A\"\n")) (.init b!"UTF-8")) := by
  decide +kernel

end Tgt
