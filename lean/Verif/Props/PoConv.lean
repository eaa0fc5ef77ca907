import Verif.Props.PoHeader
import Verif.Props.PoString
/-
Properties of conversion and of fuzzy entries: C31, C39, C41.
-/
namespace Tgt
open Spec Spec.Po POParser

/-! ### C39: unavailable charsets -/

theorem load_append (ct : CType) (lib : IconvLib) (uf : Bool) (cs : Str) (es1 : List Entry) : ∀ (cv : IConv) (e e1 : Effect),
    load ct lib uf cs es1 cv e = (.returned, e1) →
    ∃ cv1, ∀ es2, load ct lib uf cs (es1 ++ es2) cv e = load ct lib uf cs es2 cv1 e1 := by
  induction es1 with
  | nil =>
    intro cv e e1 h
    simp only [load, Prod.mk.injEq, true_and] at h
    subst h
    exact ⟨cv, fun es2 => rfl⟩
  | cons en es ih =>
    intro cv e e1 h
    rw [load] at h
    simp only [List.cons_append, load]
    cases hh : en.header? with
    | some t =>
      rw [hh] at h
      dsimp only at h ⊢
      rcases hx : cv.setCharsets ct lib (Po.sourceCharset ct t) cs with ⟨cv', o⟩
      rw [hx] at h
      cases o with
      | none => exact ih _ _ _ h
      | some w => simp at h
    | none =>
      rw [hh] at h
      cases hb : en.body with
      | single t =>
        rw [hb] at h
        dsimp only at h ⊢
        split at h
        · rename_i hc
          simp only [if_pos hc]
          cases hv : cv.convert lib t with
          | ok r cv' l => rw [hv] at h; exact ih _ _ _ h
          | fault f => rw [hv] at h; simp at h
        · rename_i hc
          simp only [if_neg hc]
          exact ih _ _ _ h
      | plural idp strs =>
        rw [hb] at h
        dsimp only at h ⊢
        cases hv : convertAll lib cv strs with
        | error f => rw [hv] at h; simp at h
        | ok x =>
          obtain ⟨strs', cv'⟩ := x
          rw [hv] at h
          dsimp only at h ⊢
          split at h
          · rename_i hc
            simp only [if_pos hc]
            exact ih _ _ _ h
          · rename_i hc
            simp only [if_neg hc]
            exact ih _ _ _ h

theorem setCharsets_unavailable (ct : CType) (lib : IconvLib) (cv : IConv) (src dst : Str) :
    (cv.setCharsets ct lib src dst).2 = unavailable ct lib src dst := by
  unfold IConv.setCharsets unavailable
  dsimp only
  split
  · rfl
  · cases lib.iconvOpen (cstr (dst.map ct.toupper)) (cstr (src.map ct.toupper)) <;> rfl

theorem headerRule_defined (ct : CType) (t : Str) (r : PluralForms) (h : headerRule ct t = some r) : r.isDefined = true := by
  rw [← firstRule_eq] at h
  obtain ⟨_, _, _, _, h'⟩ := firstRule_some ct _ r h
  exact h'

/-- C39.  Take a well-formed file with entries `es1`, a header, and entries `es2`, where no conversion from the charset
that the header declares to that of the dictionary is available.  If a file with the entries `es1` alone loads, giving
`d1`, then parsing the whole file ends with an exception that tells about it, and the dictionary is `d1`, with the
plural rule of the header if there was none: no entry after the header is loaded. -/
theorem C39_unavailable (c : Cfg) (d d1 : Dictionary) {st : Bool} {ls ls1 : List Str} {e : Entry} {es1 es2 : List Entry} {t w : Str}
    (h : File c.ct st false ls (es1 ++ e :: es2)) (he : e.header? = some t) (h1 : File c.ct st false ls1 es1)
    (ht : TextOk ls) (ht1 : TextOk ls1) (hf : (unlines ls).length + 2 ≤ c.fuel) (hf1 : (unlines ls1).length + 2 ≤ c.fuel)
    (hd1 : (observe (run c (.ofBytes (unlines ls1)) d)).noLog = .returned d1 [])
    (hw : unavailable c.ct c.lib (Po.sourceCharset c.ct t) d.charset = some w) :
    (observe (run c (.ofBytes (unlines ls)) d)).noLog
      = .threw w { d1 with pluralForms := if d1.pluralForms.isDefined then d1.pluralForms
          else (headerRule c.ct t).getD d1.pluralForms } [] := by
  rw [run_file c h1 ht1 hf1] at hd1
  rw [run_file c h ht hf]
  rcases hl : load c.ct c.lib c.useFuzzy d.charset es1 .init ⟨[], none⟩ with ⟨en, eff⟩
  rw [hl] at hd1
  cases en with
  | returned =>
    simp only [Ending.at, Observed.returned.injEq, and_true] at hd1
    obtain ⟨cv1, ha⟩ := load_append c.ct c.lib c.useFuzzy d.charset es1 _ _ _ hl
    rw [ha, load, he]
    dsimp only
    have hs := setCharsets_unavailable c.ct c.lib cv1 (Po.sourceCharset c.ct t) d.charset
    rw [hw] at hs
    rcases hx : cv1.setCharsets c.ct c.lib (Po.sourceCharset c.ct t) d.charset with ⟨cv', o⟩
    rw [hx] at hs
    dsimp only at hs
    subst hs
    dsimp only [Ending.at]
    congr 1
    rw [← hd1]
    have hdef : ∀ r, eff.rule = some r → r.isDefined = true := by
      intro r hr
      have h2 := load_rule _ _ _ _ _ _ _ _ hl
      rw [hr, Option.none_or] at h2
      have h3 := List.mem_of_head? h2.symm
      obtain ⟨t', _, h4⟩ := List.mem_filterMap.1 h3
      exact headerRule_defined c.ct t' r h4
    unfold Effect.applyTo
    dsimp only
    congr 1
    by_cases hd : d.pluralForms.isDefined = true
    · simp [hd]
    · cases hr : eff.rule with
      | none => simp [hd]
      | some r => simp [hd, hdef r hr]
  | _ => simp [Ending.at] at hd1

theorem coreInterp_threw (ct : CType) (lib : IconvLib) (uf : Bool) (cs w : Str) (evs : List Ev) : ∀ (k k' : Core),
    coreInterp ct lib uf cs evs k = .exn w k' → ∃ src, unavailable ct lib src cs = some w := by
  induction evs with
  | nil => intro k k' h; cases h
  | cons e evs ih =>
    intro k k' h
    simp only [coreInterp, bind_apply] at h
    cases hs : coreStep ct lib uf cs e k with
    | ok a k1 => rw [hs] at h; exact ih k1 k' h
    | exn m k1 =>
      rw [hs] at h
      cases h
      cases e with
      | header p t =>
        simp only [coreStep] at hs
        cases hu : (k.conv.setCharsets ct lib (sourceCharset (headerCharset ct t)) cs).2 with
        | none => rw [hu] at hs; cases hs
        | some w' =>
          rw [hu] at hs
          cases hs
          exact ⟨_, by rw [← setCharsets_unavailable ct lib k.conv, hu]⟩
      | conv n t => simp only [coreStep] at hs; split at hs <;> cases hs
      | singular fz c i t => simp only [coreStep] at hs; split at hs <;> (try split at hs) <;> cases hs
      | plural p fz c i ip => simp only [coreStep] at hs; split at hs <;> cases hs
      | diag => simp [coreStep] at hs
      | clear => simp [coreStep] at hs
    | _ => rw [hs] at h; cases h

/-- C39.  For every input at all, this is the only reason for an exception: if a parse ends with one, its text is what
the library says about a conversion to the charset of the dictionary that is not available. -/
theorem C39_only_cause (c : Cfg) (input : Stream) (d d' : Dictionary) (w : Str) (log : List Diag) (hF : input.rest.length < c.fuel)
    (h : observe (run c input d) = .threw w d' log) : ∃ src, unavailable c.ct c.lib src d.charset = some w := by
  have h2 := run_effect c input d hF
  rw [h] at h2
  cases hk : parseCore c input d.charset with
  | ok a k =>
    rw [hk] at h2
    cases hr : (events c.ct c.fuel input).2 <;> rw [hr] at h2 <;> simp [endingOf, Ending.at, Observed.noLog, Observed.mapLog] at h2
  | exn w' k =>
    rw [hk] at h2
    simp only [endingOf, Ending.at, Observed.noLog, Observed.mapLog, Observed.threw.injEq] at h2
    rw [h2.1]
    exact coreInterp_threw _ _ _ _ _ _ _ _ hk
  | poError k => exact absurd hk (coreInterp_no_poError _ _ _ _ _ _ k)
  | fault f => rw [hk] at h2; simp [endingOf, Ending.at, Observed.noLog, Observed.mapLog] at h2
  | diverge => rw [hk] at h2; simp [endingOf, Ending.at, Observed.noLog, Observed.mapLog] at h2

-- an entry, a header with a charset the library does not know, another entry
example : (observe (run ⟨.c, demoLib, true, b!"f", true, 400⟩ (.ofBytes (unlines
      [writeField b!"msgid" b!"a", writeField b!"msgstr" b!"A", [],
       writeField b!"msgid" [], writeField b!"msgstr" b!"Content-Type: text/plain; charset=klingon\n", [],
       writeField b!"msgid" b!"b", writeField b!"msgstr" b!"B"])) (.init b!"UTF-8")))
    = .threw b!"IConv construction failed: conversion from 'KLINGON' to 'UTF-8' not available"
        ((Add.singular none b!"a" b!"A").apply (.init b!"UTF-8")).1 [] := by decide +kernel

/-! ### C31: fuzzy entries -/

theorem load_unflagged (ct : CType) (lib : IconvLib) (cs : Str) (es : List Entry) : ∀ (cv : IConv) (e : Effect),
    load ct lib true cs (es.map unflagged) cv e = load ct lib true cs es cv e := by
  induction es with
  | nil => intro cv e; rfl
  | cons en es ih =>
    intro cv e
    simp only [List.map_cons, load]
    have h1 : (unflagged en).header? = en.header? := rfl
    have h2 : (unflagged en).body = en.body := rfl
    rw [h1, h2]
    simp only [ih, true_or, and_true]
    rfl

theorem loadFull_unflagged (ct : CType) (lib : IconvLib) (file : Str) (es : List Entry) : ∀ (cv : IConv) (d : Dictionary) (l : List Diag),
    loadFull ct lib true file (es.map unflagged) cv d l = loadFull ct lib true file es cv d l := by
  induction es with
  | nil => intro cv d l; rfl
  | cons en es ih =>
    intro cv d l
    simp only [List.map_cons, loadFull]
    have h1 : (unflagged en).header? = en.header? := rfl
    have h2 : (unflagged en).body = en.body := rfl
    rw [h1, h2]
    simp only [ih, true_or, and_true]
    rfl

/-- C31.  With `use_fuzzy`, flags have no effect: well-formed files whose entries differ only in their fuzzy flags do the
same. -/
theorem C31_flags_ignored (c : Cfg) (d : Dictionary) {st st' : Bool} {ls ls' : List Str} {es es' : List Entry} (hu : c.useFuzzy = true)
    (h : File c.ct st false ls es) (h' : File c.ct st' false ls' es') (hes : es.map unflagged = es'.map unflagged)
    (ht : TextOk ls) (ht' : TextOk ls') (hf : (unlines ls).length + 2 ≤ c.fuel) (hf' : (unlines ls').length + 2 ≤ c.fuel) :
    (observe (run c (.ofBytes (unlines ls)) d)).noLog = (observe (run c (.ofBytes (unlines ls')) d)).noLog := by
  rw [run_file c h ht hf, run_file c h' ht' hf', hu, ← load_unflagged, hes, load_unflagged]

/-- C31.  If the files are strictly well-formed, the messages are the same, too, up to the lines they refer to. -/
theorem C31_flags_ignored_messages (c : Cfg) (d : Dictionary) {ls ls' : List Str} {es es' : List Entry} (hu : c.useFuzzy = true)
    (h : File c.ct true false ls es) (h' : File c.ct true false ls' es') (hes : es.map unflagged = es'.map unflagged)
    (ht : TextOk ls) (ht' : TextOk ls') (hf : (unlines ls).length + 2 ≤ c.fuel) (hf' : (unlines ls').length + 2 ≤ c.fuel) :
    (observe (run c (.ofBytes (unlines ls)) d)).mapLog (List.map unplaced)
      = (observe (run c (.ofBytes (unlines ls')) d)).mapLog (List.map unplaced) := by
  rw [run_file_log c h ht hf, run_file_log c h' ht' hf', hu, ← loadFull_unflagged, hes, loadFull_unflagged]

/-- Converters without memory that never fail but for invalid input: the only converters for which it makes no
difference whether a string has been converted before. -/
def Stateless (lib : IconvLib) : Prop :=
  TameLib lib ∧ ∀ to fr hist text cap, lib.conv to fr hist text cap = lib.conv to fr [] text cap

/-- Descriptors for the same conversion. -/
def SameCd (lib : IconvLib) : Cd → Cd → Prop
  | .null, .null => True
  | .opened _ to fr _, .opened _ to' fr' _ => to = to' ∧ fr = fr' ∧ lib.iconvOpen to fr = .ok
  | _, _ => False

theorem convert_same {lib : IconvLib} (hl : Stateless lib) {cv cv' : IConv} (h : SameCd lib cv.cd cv'.cd) (t : Str) :
    ∃ r cv1 cv1' l l', cv.convert lib t = .ok r cv1 l ∧ cv'.convert lib t = .ok r cv1' l' ∧ SameCd lib cv1.cd cv1'.cd ∧ SameCd lib cv.cd cv1.cd := by
  cases h1 : cv.cd with
  | null =>
    cases h2 : cv'.cd with
    | null =>
      refine ⟨t, cv, cv', [], [], convert_null h1 t, convert_null h2 t, h, ?_⟩
      rw [h1]; trivial
    | _ => rw [h1, h2] at h; exact h.elim
  | opened id to fr hist =>
    cases h2 : cv'.cd with
    | opened id' to' fr' hist' =>
      rw [h1, h2] at h
      obtain ⟨rfl, rfl, ho⟩ := h
      unfold IConv.convert
      rw [h1, h2]
      dsimp only
      rw [hl.2 to fr hist, hl.2 to fr hist']
      rcases hl.1 to fr ho [] t with hs | hs | hs <;> rw [hs] <;>
        exact ⟨_, _, _, _, _, rfl, rfl, ⟨rfl, rfl, ho⟩, ⟨rfl, rfl, ho⟩⟩
    | _ => rw [h1, h2] at h; exact h.elim
  | invalid =>
    cases h2 : cv'.cd <;> rw [h1, h2] at h <;> exact h.elim

theorem SameCd.trans {lib : IconvLib} {a b c : Cd} (h : SameCd lib a b) (h' : SameCd lib b c) : SameCd lib a c := by
  cases a <;> cases b <;> cases c <;> first | exact h.elim | exact h'.elim | trivial | exact ⟨h.1.trans h'.1, h.2.1.trans h'.2.1, h.2.2⟩

theorem SameCd.symm {lib : IconvLib} {a b : Cd} (h : SameCd lib a b) : SameCd lib b a := by
  cases a <;> cases b <;> first | exact h.elim | trivial | exact ⟨h.1.symm, h.2.1.symm, by rw [← h.1, ← h.2.1]; exact h.2.2⟩

theorem convertAll_same {lib : IconvLib} (hl : Stateless lib) (strs : List (Nat × Str)) : ∀ {cv cv' : IConv}, SameCd lib cv.cd cv'.cd →
    ∃ r cv1 cv1', convertAll lib cv strs = .ok (r, cv1) ∧ convertAll lib cv' strs = .ok (r, cv1') ∧ SameCd lib cv1.cd cv1'.cd ∧ SameCd lib cv.cd cv1.cd := by
  induction strs with
  | nil =>
    intro cv cv' h
    have hr : SameCd lib cv.cd cv.cd := h.trans h.symm
    exact ⟨[], cv, cv', rfl, rfl, h, hr⟩
  | cons x strs ih =>
    obtain ⟨n, t⟩ := x
    intro cv cv' h
    obtain ⟨r, cv1, cv1', l, l', h1, h2, h3, h4⟩ := convert_same hl h t
    obtain ⟨r2, cv2, cv2', h5, h6, h7, h8⟩ := ih h3
    refine ⟨(n, r) :: r2, cv2, cv2', ?_, ?_, h7, h4.trans h8⟩
    · simp only [convertAll, h1, h5]
    · simp only [convertAll, h2, h6]

theorem setCharsets_sameCd (ct : CType) (lib : IconvLib) (cv cv' : IConv) (src dst : Str) :
    (cv.setCharsets ct lib src dst).2 = (cv'.setCharsets ct lib src dst).2 ∧
    ((cv.setCharsets ct lib src dst).2 = none → SameCd lib (cv.setCharsets ct lib src dst).1.cd (cv'.setCharsets ct lib src dst).1.cd) := by
  refine ⟨by rw [setCharsets_unavailable, setCharsets_unavailable], ?_⟩
  unfold IConv.setCharsets
  dsimp only
  split
  · intro _; trivial
  · cases ho : lib.iconvOpen (cstr (dst.map ct.toupper)) (cstr (src.map ct.toupper)) with
    | ok => intro _; exact ⟨rfl, rfl, ho⟩
    | _ => intro h; cases h

theorem load_same (ct : CType) {lib : IconvLib} (hl : Stateless lib) (cs : Str) (es : List Entry) : ∀ (cv cv' : IConv) (e : Effect), SameCd lib cv.cd cv'.cd →
    load ct lib false cs es cv e = load ct lib false cs (es.filter (fun e => !e.fuzzy || e.header?.isSome)) cv' e := by
  induction es with
  | nil => intro cv cv' e _; rfl
  | cons en es ih =>
    intro cv cv' e h
    rw [load]
    cases hh : en.header? with
    | some t =>
      rw [List.filter_cons_of_pos (by simp [hh]), load, hh]
      dsimp only
      obtain ⟨h1, h2⟩ := setCharsets_sameCd ct lib cv cv' (Po.sourceCharset ct t) cs
      rcases hx : cv.setCharsets ct lib (Po.sourceCharset ct t) cs with ⟨cv1, o⟩
      rcases hx' : cv'.setCharsets ct lib (Po.sourceCharset ct t) cs with ⟨cv1', o'⟩
      rw [hx, hx'] at h1 h2
      dsimp only at h1 h2
      subst h1
      cases o with
      | none => exact ih _ _ _ (h2 rfl)
      | some w => rfl
    | none =>
      cases hz : en.fuzzy with
      | false =>
        rw [List.filter_cons_of_pos (by simp [hz]), load, hh, hz]
        cases hb : en.body with
        | single t =>
          dsimp only
          by_cases hc : t ≠ [] ∧ (false = true ∨ false = false)
          · rw [if_pos hc, if_pos hc]
            obtain ⟨r, cv1, cv1', l, l', h1, h2, h3, h4⟩ := convert_same hl h t
            rw [h1, h2]
            exact ih _ _ _ h3
          · rw [if_neg hc, if_neg hc]
            exact ih _ _ _ h
        | plural idp strs =>
          dsimp only
          obtain ⟨r, cv1, cv1', h1, h2, h3, _⟩ := convertAll_same hl strs h
          rw [h1, h2]
          dsimp only
          by_cases hc : (∃ x, x ∈ strs ∧ x.2 ≠ []) ∧ (false = true ∨ false = false)
          · rw [if_pos hc, if_pos hc]; exact ih _ _ _ h3
          · rw [if_neg hc, if_neg hc]; exact ih _ _ _ h3
      | true =>
        rw [List.filter_cons_of_neg (by simp [hz, hh])]
        cases hb : en.body with
        | single t =>
          dsimp only
          rw [if_neg (by simp)]
          exact ih _ _ _ h
        | plural idp strs =>
          dsimp only
          obtain ⟨r, cv1, cv1', h1, h2, h3, h4⟩ := convertAll_same hl strs h
          rw [h1]
          dsimp only
          rw [if_neg (by simp)]
          exact ih _ _ _ (h4.symm.trans h)

/-- C31.  Without `use_fuzzy`, exactly the flagged entries are left out (headers count even if flagged): a well-formed
file does the same as one without these entries.  (The strings of flagged plural entries are converted all the same;
so this needs a converter without memory that does not crash on them.) -/
theorem C31_flagged_left_out (c : Cfg) (d : Dictionary) {st st' : Bool} {ls ls' : List Str} {es : List Entry} (hu : c.useFuzzy = false)
    (hl : Stateless c.lib) (h : File c.ct st false ls es)
    (h' : File c.ct st' false ls' (es.filter (fun e => !e.fuzzy || e.header?.isSome)))
    (ht : TextOk ls) (ht' : TextOk ls') (hf : (unlines ls).length + 2 ≤ c.fuel) (hf' : (unlines ls').length + 2 ≤ c.fuel) :
    (observe (run c (.ofBytes (unlines ls)) d)).noLog = (observe (run c (.ofBytes (unlines ls')) d)).noLog := by
  rw [run_file c h ht hf, run_file c h' ht' hf', hu, ← load_same c.ct hl d.charset es .init .init ⟨[], none⟩ trivial]

/-- A flagged and an unflagged entry. -/
def demoFuzzy : List Str :=
  [b!"#: x.cpp", b!"#, c-format, fuzzy", writeField b!"msgid" b!"a", writeField b!"msgstr" b!"A", [],
   writeField b!"msgid" b!"b", writeField b!"msgstr" b!"B"]

example : observe (run ⟨.c, demoLib, true, b!"f", true, 400⟩ (.ofBytes (unlines demoFuzzy)) (.init b!"UTF-8"))
      = .returned (addAll (.init b!"UTF-8") [.singular none b!"a" b!"A", .singular none b!"b" b!"B"]) [] ∧
    observe (run ⟨.c, demoLib, true, b!"f", false, 400⟩ (.ofBytes (unlines demoFuzzy)) (.init b!"UTF-8"))
      = .returned (addAll (.init b!"UTF-8") [.singular none b!"b" b!"B"]) [] := by decide +kernel

example : File .c true false demoFuzzy [⟨true, none, b!"a", .single b!"A"⟩, ⟨false, none, b!"b", .single b!"B"⟩] := by
  have hc : ∀ l ∈ [b!"#: x.cpp", b!"#, c-format, fuzzy"], Comment l := by simp [Comment]
  refine .entry (ls := [b!"#: x.cpp", b!"#, c-format, fuzzy", writeField b!"msgid" b!"a", writeField b!"msgstr" b!"A"]) (sep := [])
    (.single (cs := [b!"#: x.cpp", b!"#, c-format, fuzzy"]) hc ?_ .none (writeField_field b!"msgid" b!"a") (writeField_field b!"msgstr" b!"A"))
    (.inl blank_nil) (.last (writeMessage_entry ⟨none, b!"b", none, [b!"B"]⟩ (by simp)))
  simp only [true_iff]
  exact ⟨b!"#, c-format, fuzzy", by decide, b!" c-format, ", [], by decide⟩

/-! ### C41: Big5 -/

theorem lit_chars (cs : List Str) (h : ∀ c ∈ cs, (∃ a b, c = [a, b] ∧ isLead a) ∨ ∃ b, c = [b] ∧ b ≠ 34 ∧ b ≠ 92 ∧ ¬ isLead b) :
    Lit true cs.flatten cs.flatten [] := by
  induction cs with
  | nil => exact .nil
  | cons c cs ih =>
    have hi := ih (fun x hx => h x (List.mem_cons_of_mem _ hx))
    rcases h c List.mem_cons_self with ⟨a, b, rfl, ha⟩ | ⟨b, rfl, h1, h2, h3⟩
    · exact .pair rfl ha hi
    · exact .plain h1 h2 (fun hx => h3 hx.2) hi

theorem lit_field {ct : CType} {b st : Bool} {body text : Str} (kw : Str) (h : Lit b body text []) :
    Field ct b st kw [kw ++ [32, 34] ++ body ++ [34]] text := by
  have h1 : Quoted ct b st (34 :: body ++ 34 :: []) text := .mk h (fun _ => ⟨rfl, blank_nil⟩)
  have h2 : Blank ct [32] := by
    intro x hx
    simp at hx
    subst hx
    rw [ct.isspace_ascii 32 (by decide)]; decide
  have := Field.mk (kw := kw) h2 (fun _ => rfl) h1 (Conts.nil (ct := ct) (big5 := b) (strict := st))
  simpa using this

/-- A file that declares the given charset and has one entry, whose strings are given verbatim. -/
def big5File (charset idBody body : Str) : List Str :=
  [writeField b!"msgid" [], writeField b!"msgstr" (headerText charset none), [],
   b!"msgid" ++ [32, 34] ++ idBody ++ [34], b!"msgstr" ++ [32, 34] ++ body ++ [34]]

/-- C41.  In a file that declares Big5 (in any case), strings are sequences of characters, each either a lead byte
0x81…0xfe with *any* second byte, or a single byte other than quote and backslash: the string means exactly its bytes,
even if the second byte of a character is a quote or a backslash.  The msgid is stored as it is, the msgstr as converted from
Big5 to the charset of the dictionary, whatever that is. -/
theorem C41_big5_converted (c : Cfg) (d : Dictionary) (charset : Str) (idChars chars : List Str)
    (hid : ∀ x ∈ idChars, (∃ a b, x = [a, b] ∧ isLead a) ∨ ∃ b, x = [b] ∧ b ≠ 34 ∧ b ≠ 92 ∧ ¬ isLead b)
    (hch : ∀ x ∈ chars, (∃ a b, x = [a, b] ∧ isLead a) ∨ ∃ b, x = [b] ∧ b ≠ 34 ∧ b ≠ 92 ∧ ¬ isLead b)
    (hne : idChars.flatten ≠ []) (hne' : chars.flatten ≠ []) (hnl : (10 : Byte) ∉ idChars.flatten) (hnl' : (10 : Byte) ∉ chars.flatten)
    (hcnl : (10 : Byte) ∉ charset) (hcs : charset.map c.ct.toupper = b!"BIG5")
    (hsize : (unlines (big5File charset idChars.flatten chars.flatten)).length + 8 < 2147483647)
    (hfuel : (unlines (big5File charset idChars.flatten chars.flatten)).length + 2 ≤ c.fuel) :
    (observe (run c (.ofBytes (unlines (big5File charset idChars.flatten chars.flatten))) d)).mapLog (List.map unplaced)
      = match IConv.init.setCharsets c.ct c.lib b!"BIG5" d.charset with
        | (_, some w) => .threw w d []
        | (cv, none) => match cv.convert c.lib chars.flatten with
          | .fault f => .crashed f
          | .ok t _ l => .returned ((Add.singular none idChars.flatten t).apply d).1
              (l ++ ((Add.singular none idChars.flatten t).apply d).2) := by
  have hdecl := headerText_charset c.ct charset none hcnl (by simp)
  rw [hcs] at hdecl
  have hfile : File c.ct true false (big5File charset idChars.flatten chars.flatten)
      [⟨false, none, [], .single (headerText charset none)⟩, ⟨false, none, idChars.flatten, .single chars.flatten⟩] := by
    have he := writeMessage_entry (ct := c.ct) (st := true) ⟨none, [], none, [headerText charset none]⟩ (by simp)
    have h2 : EntryLines c.ct true true ([] ++ [] ++ [b!"msgid" ++ [32, 34] ++ idChars.flatten ++ [34]] ++ [b!"msgstr" ++ [32, 34] ++ chars.flatten ++ [34]])
        ⟨false, none, idChars.flatten, .single chars.flatten⟩ :=
      .single (cs := []) (by simp) (by simp) .none (lit_field b!"msgid" (lit_chars _ hid)) (lit_field b!"msgstr" (lit_chars _ hch))
    refine File.entry (ls := writeMessage ⟨none, [], none, [headerText charset none]⟩) (sep := []) he (.inl blank_nil) ?_
    have hb : (false || Option.any (fun t => declaredCharset c.ct t == b!"BIG5") (Entry.mk false none [] (.single (headerText charset none))).header?) = true := by
      simp [ Entry.header?, hdecl]
    rw [hb]
    exact .last h2
  have htext : TextOk (big5File charset idChars.flatten chars.flatten) := by
    refine textOk_small _ ?_ hsize (by simp [big5File, writeField])
    intro l hl
    simp only [big5File, List.mem_cons, List.not_mem_nil, or_false] at hl
    rcases hl with rfl | rfl | rfl | rfl | rfl
    · exact writeField_no_nl _ _ (by decide)
    · exact writeField_no_nl _ _ (by decide)
    · simp
    · simp only [List.mem_append, not_or]
      exact ⟨⟨by decide, hnl⟩, by decide⟩
    · simp only [List.mem_append, not_or]
      exact ⟨⟨by decide, hnl'⟩, by decide⟩
  have hrun := run_file_log c hfile htext hfuel d
  rw [hrun, loadFull]
  have hhd : (Entry.mk false none [] (.single (headerText charset none))).header? = some (headerText charset none) := rfl
  rw [hhd]
  dsimp only
  have hsrc : Po.sourceCharset c.ct (headerText charset none) = b!"BIG5" := by
    unfold Po.sourceCharset
    rw [hdecl, if_neg (by decide)]
  rw [hsrc, headerText_warnings c.ct d.pluralForms charset none hcnl (by simp) (by rw [hcs]; decide)]
  have hrule := headerText_rule c.ct charset none hcnl (by simp)
  have hw : withHeaderRule c.ct (headerText charset none) d = d := by
    unfold withHeaderRule
    rw [hrule]
    simp
  rcases hx : IConv.setCharsets c.ct c.lib .init b!"BIG5" d.charset with ⟨cv, o⟩
  cases o with
  | some w => dsimp only; rw [hw]; rfl
  | none =>
    dsimp only
    rw [hw, loadFull]
    have hh2 : (Entry.mk false none idChars.flatten (.single chars.flatten)).header? = none := by
      unfold Entry.header?
      dsimp only
      rw [if_neg hne]
    rw [hh2]
    dsimp only
    rw [if_pos ⟨hne', .inr rfl⟩]
    cases cv.convert c.lib chars.flatten with
    | fault f => rfl
    | ok t cv' l => simp [loadFull]

/-- C41, for a Big5 dictionary: nothing is converted, and there is no message. -/
theorem C41_big5_verbatim (c : Cfg) (d : Dictionary) (charset : Str) (idChars chars : List Str) (hd : d.charset.map c.ct.toupper = b!"BIG5")
    (hid : ∀ x ∈ idChars, (∃ a b, x = [a, b] ∧ isLead a) ∨ ∃ b, x = [b] ∧ b ≠ 34 ∧ b ≠ 92 ∧ ¬ isLead b)
    (hch : ∀ x ∈ chars, (∃ a b, x = [a, b] ∧ isLead a) ∨ ∃ b, x = [b] ∧ b ≠ 34 ∧ b ≠ 92 ∧ ¬ isLead b)
    (hne : idChars.flatten ≠ []) (hne' : chars.flatten ≠ []) (hnl : (10 : Byte) ∉ idChars.flatten) (hnl' : (10 : Byte) ∉ chars.flatten)
    (hcnl : (10 : Byte) ∉ charset) (hcs : charset.map c.ct.toupper = b!"BIG5")
    (hsize : (unlines (big5File charset idChars.flatten chars.flatten)).length + 8 < 2147483647)
    (hfuel : (unlines (big5File charset idChars.flatten chars.flatten)).length + 2 ≤ c.fuel) :
    observe (run c (.ofBytes (unlines (big5File charset idChars.flatten chars.flatten))) d)
      = .returned ((Add.singular none idChars.flatten chars.flatten).apply d).1
          ((Add.singular none idChars.flatten chars.flatten).apply d).2 := by
  have hrun := C41_big5_converted c d charset idChars chars hid hch hne hne' hnl hnl' hcnl hcs hsize hfuel
  have hpo : ∀ x ∈ ((Add.singular none idChars.flatten chars.flatten).apply d).2, ∀ lv f n m cur, x ≠ .po lv f n m cur := by
    intro x hx lv f n m cur
    rcases apply_quotes d _ x hx with ⟨_, _, _, _, _, rfl⟩ | ⟨_, _, _, _, rfl⟩ <;> simp
  apply observed_placed _ _ _ ?_ hpo
  rw [hrun]
  have hup : (b!"BIG5" : Str).map c.ct.toupper = b!"BIG5" := by
    have := toupper_toupper c.ct b!"big5" (by decide)
    have h3 : (b!"big5" : Str).map c.ct.toupper = b!"BIG5" := by
      simp only [List.map_cons, List.map_nil]
      rw [c.ct.toupper_ascii 98 (by decide), c.ct.toupper_ascii 105 (by decide), c.ct.toupper_ascii 103 (by decide), c.ct.toupper_ascii 53 (by decide)]
      decide
    rw [h3] at this
    exact this
  have hset := setCharsets_same (lib := c.lib) (cv := .init) (ct := c.ct) (a := b!"BIG5") (b := d.charset) (by rw [hup, hd])
  rcases hx : IConv.setCharsets c.ct c.lib .init b!"BIG5" d.charset with ⟨cv, o⟩
  rw [hx] at hset
  obtain ⟨h1, h2⟩ := hset
  dsimp only at h1 h2
  subst h1
  dsimp only
  rw [convert_null h2]
  simp

-- a character whose second byte is a backslash, one whose second byte is a quote, and ASCII
example : ∀ x ∈ [[(0xa5 : Byte), 0x5c], [0xa5, 0x22], [65]],
    (∃ a b, x = [a, b] ∧ isLead a) ∨ ∃ b, x = [b] ∧ b ≠ 34 ∧ b ≠ 92 ∧ ¬ isLead b := by
  intro x hx
  simp only [List.mem_cons, List.not_mem_nil, or_false] at hx
  rcases hx with rfl | rfl | rfl
  · exact .inl ⟨_, _, rfl, by unfold isLead; decide⟩
  · exact .inl ⟨_, _, rfl, by unfold isLead; decide⟩
  · exact .inr ⟨_, rfl, by decide, by decide, by unfold isLead; decide⟩

example : observe (run ⟨.c, demoLib, true, b!"f", true, 400⟩ (.ofBytes (unlines (big5File b!"Big5" b!"a" [0xa5, 0x5c, 0xa5, 0x22, 65])))
      (.init b!"BIG5"))
    = .returned ((Add.singular none b!"a" [0xa5, 0x5c, 0xa5, 0x22, 65]).apply (.init b!"BIG5")).1 [] := by decide +kernel

end Tgt
