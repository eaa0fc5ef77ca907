import Verif.Props.PoGarbage
import Verif.Props.PoRead
import Verif.Proofs.ReadBlank
import Verif.Spec.Concat
import Verif.Spec.Loading
/-
C102: texts one after the other.
-/
namespace Tgt
open Spec Spec.Po POParser

namespace POParser

theorem firstRule_defined (ct : CType) (ls : List Str) : ∀ p, firstRule ct ls = some p → p.isDefined = true := by
  induction ls with
  | nil => intro p h; cases h
  | cons l ls ih =>
    intro p h
    unfold firstRule at h
    split at h
    · rename_i hc
      simp only [Bool.and_eq_true] at hc
      cases h; exact hc.2
    · exact ih p h

/-- The rule of an effect, if any, is a rule. -/
def Ruled (e : Effect) : Prop := ∀ p, e.rule = some p → p.isDefined = true

/-- Interpreting events keeps that. -/
def RuledRes : Res Core Unit → Prop
  | .ok _ k => Ruled k.eff
  | .exn _ k => Ruled k.eff
  | .fault _ => True
  | _ => False

theorem ruled_interp (ct : CType) (lib : IconvLib) (uf : Bool) (cs : Str) (w : List Ev) : ∀ k : Core, Ruled k.eff → RuledRes (coreInterp ct lib uf cs w k) := by
  induction w with
  | nil => intro k h; exact h
  | cons e w ih =>
    intro k h
    simp only [coreInterp, bind_apply]
    cases e with
    | diag lv p m pd => exact ih k h
    | clear => exact ih _ h
    | conv n t =>
      simp only [coreStep]
      cases hc : k.conv.convert lib t with
      | ok r cv l => exact ih _ h
      | fault f => trivial
    | singular fz c i t =>
      simp only [coreStep]
      by_cases hu : (uf || !fz) = true
      · rw [if_pos hu]
        cases hc : k.conv.convert lib t with
        | ok r cv l => exact ih _ h
        | fault f => trivial
      · rw [if_neg hu]; exact ih k h
    | plural p fz c i ip =>
      simp only [coreStep]
      by_cases hu : (uf || !fz) = true
      · rw [if_pos hu]; exact ih _ h
      · rw [if_neg hu]; exact ih k h
    | header p t =>
      have h' : Ruled { k.eff with rule := k.eff.rule.or (firstRule ct (headerLines t [])) } := by
        intro p hp
        dsimp only at hp
        cases hr : k.eff.rule with
        | some q => rw [hr] at hp; exact h p (by rw [hr]; exact hp)
        | none => rw [hr] at hp; exact firstRule_defined ct _ p hp
      simp only [coreStep]
      cases (k.conv.setCharsets ct lib (Tgt.POParser.sourceCharset (headerCharset ct t)) cs).2 with
      | none => exact ih _ h'
      | some m => exact h'

/-- After a header, it does not matter what was before. -/
theorem krel_header (ct : CType) (lib : IconvLib) (uf : Bool) (cs : Str) (e e' : Effect) (p : Nat) (t : Str) (w : List Ev) (k k' : Core) (hg : Guarded false w)
    (he : ∃ x : Effect, k.eff = e.plus x ∧ k'.eff = e'.plus x) :
    KRes lib e e' (coreInterp ct lib uf cs (.header p t :: w) k) (coreInterp ct lib uf cs (.header p t :: w) k') := by
  obtain ⟨x, hx, hx'⟩ := he
  simp only [coreInterp]
  rw [bind_apply, bind_apply]
  simp only [coreStep]
  obtain ⟨h1, h2⟩ := ConvSame.setCharsets ct lib k.conv k'.conv (Tgt.POParser.sourceCharset (headerCharset ct t)) cs
  rw [← h1]
  cases hw : (k.conv.setCharsets ct lib (Tgt.POParser.sourceCharset (headerCharset ct t)) cs).2 with
  | none =>
    exact krel ct lib uf cs e e' w false _ _ hg
      ⟨(fun h => by cases h), h2, { x with rule := x.rule.or (firstRule ct (headerLines t [])) }, by rw [← plus_rule, ← hx], by rw [← plus_rule, ← hx']⟩
  | some m =>
    exact ⟨rfl, (fun h => by cases h), h2, { x with rule := x.rule.or (firstRule ct (headerLines t [])) }, by rw [← plus_rule, ← hx], by rw [← plus_rule, ← hx']⟩

theorem Effect.plus_applyTo' (e x : Effect) (d : Dictionary) (h : Ruled e) : (e.plus x).applyTo d = x.applyTo (e.applyTo d) := by
  have hpf : ∀ (l : List Add) (d : Dictionary) (p : PluralForms), addAll { d with pluralForms := p } l = { addAll d l with pluralForms := p } := by
    intro l
    induction l with
    | nil => intro d p; rfl
    | cons a l ih =>
      intro d p
      show addAll (a.apply { d with pluralForms := p }).1 l = _
      rw [apply_withPf, ih]
      rfl
  have h2 : addAll d (e.adds ++ x.adds) = addAll (addAll d e.adds) x.adds := by simp [addAll]
  have e1 : e.applyTo d = { addAll d e.adds with pluralForms := if d.pluralForms.isDefined then d.pluralForms else e.rule.getD d.pluralForms } := rfl
  rw [e1]
  unfold Effect.applyTo Effect.plus
  dsimp only
  rw [h2]
  have h3 := hpf x.adds (addAll d e.adds) (if d.pluralForms.isDefined then d.pluralForms else e.rule.getD d.pluralForms)
  dsimp only at h3
  rw [h3]
  by_cases hd : d.pluralForms.isDefined = true
  · simp only [hd, if_true]
  · cases hr : e.rule with
    | none => simp [hd]
    | some p => simp [h p hr, hd]

/-- The events of lines that start with a header start with it. -/
theorem evb_header {ct : CType} {fuel : Nat} {B : List Str} (hB : TextOk B) (h : HeaderFirst ct B) (hf : B.length + 4 ≤ fuel) :
    ∃ t w, essence (evb ct fuel false B).1 = .header 0 t :: w := by
  obtain ⟨st, hls, e, sep, rest, rfl, he, hh, hsep⟩ := h
  obtain ⟨t1, t2, t3, t4⟩ := text_tape _ hB
  obtain ⟨a1, a2⟩ := At_append.1 t1
  have hfew := hB.few
  simp only [List.length_append, List.length_cons] at hf hfew
  obtain ⟨v, e1, e2, _⟩ := y_entry (fuel := fuel) t4 he 0 a1 (by omega) (by unfold intMax; omega) (by rw [a2.1]; exact (separator_iff _).1 hsep)
  have hev : evsOf e = [.header 0 (e.header?.getD [])] := by
    rcases e with ⟨fz, c, id, (t | ⟨a, b⟩)⟩
    · by_cases hid : id = []
      · subst hid; rfl
      · exact absurd (by simp [Entry.header?, hid]) hh
    · exact absurd rfl hh
  obtain ⟨f, rfl⟩ : ∃ f, fuel = f + 1 := ⟨fuel - 1, by omega⟩
  unfold evb
  have hstep : mainLoopE ct (f + 1) (startTape (.ofBytes (unlines (hls ++ sep :: rest)))) (f + 1) false 0
      = (v ++ (mainLoopE ct (f + 1) (startTape (.ofBytes (unlines (hls ++ sep :: rest)))) f (big5After ct false v) (0 + hls.length + 1)).1,
         (mainLoopE ct (f + 1) (startTape (.ofBytes (unlines (hls ++ sep :: rest)))) f (big5After ct false v) (0 + hls.length + 1)).2) := by
    conv => lhs; unfold mainLoopE
    rw [t2]
    have : ¬ (hls ++ sep :: rest).length ≤ 0 := by simp
    rw [decide_eq_false this]
    simp only [Bool.not_false, if_true]
    rw [e1]
  rw [hstep]
  dsimp only
  rw [essence_append, e2, hev]
  exact ⟨_, _, rfl⟩

/-- A text announces Big5 exactly if it turns it on. -/
theorem evb_big5 {ct : CType} {fuel : Nat} {A : List Str} (hA : TextOk A) (hf : (unlines A).length + 8 < fuel) :
    AnnouncesBig5 ct (unlines A) ↔ big5After ct false (evb ct fuel false A).1 = true := by
  suffices hall : ∀ ps e, Reading ct (lineAt (withoutBom (unlines A))) (lineCount (unlines A)) false 0 ps e →
      big5After ct false (evb ct fuel false A).1 = ps.any (saysBig5 ct) by
    constructor
    · rintro ⟨ps, e, hr, h⟩
      rw [hall ps e hr, h]
    · intro h
      obtain ⟨ps, e, hr⟩ := C63_total ct (unlines A)
      exact ⟨ps, e, hr, by rw [← hall ps e hr]; exact h⟩
  intro ps e hr
  have hline : ∀ p, lineAt (withoutBom (unlines A)) p = A.getD p [] := by
    intro p
    rw [← (startTape_lines (unlines A) p).1, text_line hA]
  have hlc := lineCount_le (unlines A)
  have hcount : lineCount (unlines A) = A.length := by
    have hw := withoutBom_unlines A hA.noBom
    have hsp := splitLines_unlines A [] hA.noNl (by simp)
    rw [List.append_nil] at hsp
    unfold lineCount
    first | (rw [hw, hsp]; simp) | (rw [hsp]; simp)
  have hcalm := calm_of ct fuel (unlines A) (by
      intro p
      rw [hline]
      by_cases hp : p < A.length
      · rw [List.getD_eq_getElem?_getD, List.getElem?_eq_getElem hp]
        exact hA.short _ (List.getElem_mem hp)
      · rw [List.getD_eq_getElem?_getD, List.getElem?_eq_none (by omega)]; decide)
    (by rw [hcount]; exact hA.few) hf
  obtain ⟨q, w, r, h1, h2⟩ := a_main' hcalm (fun _ w _ => w = []) hr (fun _ _ _ => rfl) (fun _ n f b hn he => by
    refine absurd ?_ (nb_endless he (Nat.le_of_lt hn))
    rw [hline, List.getD_eq_getElem?_getD, List.getElem?_eq_none (by rw [hcount]; exact Nat.le_refl _)]
    intro x hx; cases hx) fuel (by omega) (by omega)
  have hev : (evb ct fuel false A).1 = ps.flatMap pieceEvs := by
    unfold evb
    rw [h1, h2, List.append_nil]
  rw [hev, big5_pieces, Bool.false_or]

end POParser

/-! ### C102: texts one after the other -/

/-- C102.  A text put after another one does what it does alone, if the reader is between entries after the first one (`Closed`: a well-formed file and a blank
line, or anything and two blank lines), the first one does not announce Big5 and the second one starts with a header: parsing the whole gives the dictionary
(or the exception, with the dictionary) that parsing the first text and then, if that returns, the second text gives. -/
theorem C102_concatenated_partial (c : Cfg) (d : Dictionary) {A B : List Str} (hA : Closed c.ct A) (hb : ¬ AnnouncesBig5 c.ct (unlines A)) (hh : HeaderFirst c.ct B)
    (ht : TextOk (A ++ B)) (hB : TextOk B) (hf : (unlines (A ++ B)).length + 8 < c.fuel) :
    (observe (run c (.ofBytes (unlines (A ++ B))) d)).noLog
      = match (observe (run c (.ofBytes (unlines A)) d)).noLog with
        | .returned d' _ => (observe (run c (.ofBytes (unlines B)) d')).noLog
        | o => o := by
  have hA2 : TextOk A := by
    cases A with
    | nil => exact textOk_nil
    | cons a A => exact textOk_prefix ht (by simp)
  rw [unlines_append, List.length_append] at hf
  have hl1 := unlines_length A
  have hl2 := unlines_length B
  have hbig : big5After c.ct false (evb c.ct c.fuel false A).1 = false := by
    cases hx : big5After c.ct false (evb c.ct c.fuel false A).1 with
    | false => rfl
    | true => exact absurd ((evb_big5 hA2 (by omega)).2 hx) hb
  obtain ⟨t, w, hw⟩ := evb_header (fuel := c.fuel) hB hh (by omega)
  have hgw : Guarded false w := by
    have := (guarded_mainLoop c.ct c.fuel (startTape (.ofBytes (unlines B))) c.fuel false 0).norm
    have e : essence (mainLoopE c.ct c.fuel (startTape (.ofBytes (unlines B))) c.fuel false 0).1 = .header 0 t :: w := hw
    rw [e] at this
    exact this
  rw [run_evb c ht (by rw [unlines_append, List.length_append]; omega), run_evb c hA2 (by omega),
    closed_split c.ct hA ht hB (by simp only [List.length_append]; omega), hbig, hw, coreInterp_append, bind_apply]
  have hru := ruled_interp c.ct c.lib c.useFuzzy d.charset (essence (evb c.ct c.fuel false A).1) core0 (by intro p hp; cases hp)
  cases hi : coreInterp c.ct c.lib c.useFuzzy d.charset (essence (evb c.ct c.fuel false A).1) core0 with
  | ok u k =>
    rw [hi] at hru
    show _ = (observe (run c (.ofBytes (unlines B)) (k.eff.applyTo d))).noLog
    rw [run_evb c hB (by omega), applyTo_charset, hw]
    have hz : ∀ x : Effect, (Effect.plus ⟨[], none⟩ x) = x := by intro x; simp [Effect.plus]
    have hp : ∀ x : Effect, (k.eff.plus x).applyTo d = x.applyTo (k.eff.applyTo d) := fun x => Effect.plus_applyTo' _ _ _ hru
    have := krel_header c.ct c.lib c.useFuzzy d.charset ⟨[], none⟩ k.eff 0 t w core0 k hgw ⟨⟨[], none⟩, rfl, by simp [Effect.plus]⟩
    cases hx : coreInterp c.ct c.lib c.useFuzzy d.charset (.header 0 t :: w) core0 <;>
      cases hy : coreInterp c.ct c.lib c.useFuzzy d.charset (.header 0 t :: w) k <;>
      rw [hx, hy] at this <;> (try exact this.elim)
    · obtain ⟨x, e1, e2⟩ := this.eff
      dsimp only
      rw [hy]
      simp only [obsCore]
      rw [e1, e2, hz, hp]
    · obtain ⟨rfl, this⟩ := this
      obtain ⟨x, e1, e2⟩ := this.eff
      dsimp only
      rw [hy]
      simp only [obsCore]
      rw [e1, e2, hz, hp]
    · have hff : _ = _ := this
      dsimp only
      rw [hy]
      simp only [obsCore]; rw [hff]
  | exn m k => rfl
  | fault f => rfl
  | poError k => rw [hi] at hru; exact hru.elim
  | diverge => rw [hi] at hru; exact hru.elim

/-- C102 in full: what comes first does not matter to what comes after it. -/
def C102_Statement : Prop :=
  ∀ (c : Cfg) (d : Dictionary) (A B : List Str), Closed c.ct A → TextOk (A ++ B) → TextOk B → (unlines (A ++ B)).length + 8 < c.fuel →
    (observe (run c (.ofBytes (unlines (A ++ B))) d)).noLog
      = match (observe (run c (.ofBytes (unlines A)) d)).noLog with
        | .returned d' _ => (observe (run c (.ofBytes (unlines B)) d')).noLog
        | o => o

/-! ### Catalogues to put together -/

/-- A header that names a charset. -/
def charsetHeader (cs : Str) : Message := ⟨none, [], none, [b!"Content-Type: text/plain; charset=" ++ cs ++ b!"\n"]⟩

/-- A German catalogue in ISO-8859-1. -/
def latinCatalogue : List Str := writeMessage (charsetHeader b!"ISO-8859-1") ++ [] :: writeMessage ⟨none, b!"street", none, [b!"Stra" ++ [0xdf] ++ b!"e"]⟩

/-- A catalogue without header, in UTF-8. -/
def bareCatalogue : List Str := writeMessage ⟨none, b!"euro", none, [[0xe2, 0x82, 0xac]]⟩

/-- The same with header. -/
def utfCatalogue : List Str := writeMessage (charsetHeader b!"UTF-8") ++ [] :: bareCatalogue

/-- One in Big5. -/
def big5Catalogue : List Str := writeMessage (charsetHeader b!"BIG5") ++ [] :: writeMessage ⟨none, b!"cat", none, [[0xbf, 0xdf]]⟩

/-- A converter that takes everything as it is. -/
def asIsLib : IconvLib where
  iconvOpen _ _ := .ok
  conv _ _ _ text cap := ⟨text.take cap, if cap < text.length then .e2big else .ok⟩
  conv_cap := by
    intro to fr hist text cap
    simp only [List.length_take]
    exact Nat.min_le_left _ _

def concatCfg (lib : IconvLib) : Cfg := ⟨.c, lib, false, b!"f", false, 400⟩

-- a catalogue in ISO-8859-1, a blank line and one in UTF-8: all that C102_concatenated_partial asks for, and what comes of it
example : Closed .c (latinCatalogue ++ [[]]) ∧ ¬ AnnouncesBig5 .c (unlines (latinCatalogue ++ [[]])) ∧ HeaderFirst .c utfCatalogue ∧
    TextOk (latinCatalogue ++ [[]] ++ utfCatalogue) ∧ TextOk utfCatalogue ∧ (unlines (latinCatalogue ++ [[]] ++ utfCatalogue)).length + 8 < 400 ∧
    ((observe (run (concatCfg demoLib) (.ofBytes (unlines (latinCatalogue ++ [[]] ++ utfCatalogue))) (.init b!"UTF-8"))).dict?.map
      (fun d => (stored d none b!"street", stored d none b!"euro"))) = some (some [b!"Stra" ++ [0xc3, 0x9f] ++ b!"e"], some [[0xe2, 0x82, 0xac]]) := by
  have ht : TextOk (latinCatalogue ++ [[]]) := ⟨by decide +kernel, by decide +kernel, by decide +kernel, by decide +kernel⟩
  refine ⟨.file (st := true) (.entry (writeMessage_entry (charsetHeader b!"ISO-8859-1") (by simp [charsetHeader])) (.inl blank_nil)
      (.last (writeMessage_entry ⟨none, b!"street", none, [b!"Stra" ++ [0xdf] ++ b!"e"]⟩ (by simp)))) blank_nil, ?_,
    ⟨true, _, _, [], bareCatalogue, rfl, writeMessage_entry (charsetHeader b!"UTF-8") (by simp [charsetHeader]), by decide, .inl blank_nil⟩,
    ⟨by decide +kernel, by decide +kernel, by decide +kernel, by decide +kernel⟩,
    ⟨by decide +kernel, by decide +kernel, by decide +kernel, by decide +kernel⟩, by decide +kernel, by decide +kernel⟩
  rw [evb_big5 (fuel := 200) ht (by decide +kernel)]
  decide +kernel

/-- C102 is false of this code: a text without header is taken to be in the charset of the text before. -/
theorem C102_false : ¬ C102_Statement := by
  intro h
  have := h (concatCfg demoLib) (.init b!"UTF-8") (latinCatalogue ++ [[], []]) bareCatalogue (.blanks blank_nil blank_nil)
    ⟨by decide +kernel, by decide +kernel, by decide +kernel, by decide +kernel⟩
    ⟨by decide +kernel, by decide +kernel, by decide +kernel, by decide +kernel⟩ (by decide +kernel)
  revert this
  decide +kernel

/-- C102.  Nor does a header help after a text in Big5: what says that strings are in Big5 is never taken back, so a UTF-8 string that ends with three
bytes for one character swallows its quote, and the entry is lost. -/
theorem C102_false_big5 : HeaderFirst .c utfCatalogue ∧ Closed .c (big5Catalogue ++ [[], []]) ∧
    ((observe (run (concatCfg asIsLib) (.ofBytes (unlines (big5Catalogue ++ [[], []] ++ utfCatalogue))) (.init b!"UTF-8"))).dict?.map (fun d => stored d none b!"euro")) = some none ∧
    ((observe (run (concatCfg asIsLib) (.ofBytes (unlines utfCatalogue)) (.init b!"UTF-8"))).dict?.map (fun d => stored d none b!"euro")) = some (some [[0xe2, 0x82, 0xac]]) :=
  ⟨⟨true, _, _, [], bareCatalogue, rfl, writeMessage_entry (charsetHeader b!"UTF-8") (by simp [charsetHeader]), by decide, .inl blank_nil⟩,
    .blanks blank_nil blank_nil, by decide +kernel, by decide +kernel⟩

end Tgt
