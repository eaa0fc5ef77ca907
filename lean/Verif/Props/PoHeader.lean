import Verif.Props.PoLayout
import Verif.Proofs.CoreInv
/-
Properties of headers of PO files: C37, C38, C39, C41.
-/
namespace Tgt
open Spec Spec.Po POParser

/-! ### C37: the source charset -/

/-- C37.  What the header does: a well-formed file that starts with a header with text `t` is loaded like its other
entries, with the converter set up from the source charset of `t` (see `Spec.Po.sourceCharset`: the charset of the
last `Content-Type: text/plain; charset=` line, upper-cased, or UTF-8 if there is none or it is `CHARSET`) to the
charset of the dictionary; if there is no such conversion, parsing ends with an exception. -/
theorem C37_source_charset (c : Cfg) (d : Dictionary) {st : Bool} {ls : List Str} {e : Entry} {es : List Entry} {t : Str}
    (h : File c.ct st false ls (e :: es)) (he : e.header? = some t) (ht : TextOk ls) (hf : (unlines ls).length + 2 ≤ c.fuel) :
    (observe (run c (.ofBytes (unlines ls)) d)).noLog
      = match IConv.init.setCharsets c.ct c.lib (Po.sourceCharset c.ct t) d.charset with
        | (cv, none) =>
          (load c.ct c.lib c.useFuzzy d.charset es cv ⟨[], headerRule c.ct t⟩).1.at
            ((load c.ct c.lib c.useFuzzy d.charset es cv ⟨[], headerRule c.ct t⟩).2.applyTo d)
        | (_, some w) => .threw w ((⟨[], headerRule c.ct t⟩ : Effect).applyTo d) [] := by
  rw [run_file c h ht hf]
  rw [load, he]
  dsimp only
  rcases hx : IConv.setCharsets c.ct c.lib .init (Po.sourceCharset c.ct t) d.charset with ⟨cv, o⟩
  cases o with
  | none => rfl
  | some w => rfl

/-- C37.  Nothing else in a header matters: headers with the same source charset and the same plural rule are
interchangeable. -/
theorem C37_other_lines (c : Cfg) (d : Dictionary) {st : Bool} {ls ls' : List Str} {e e' : Entry} {es : List Entry} {t t' : Str}
    (h : File c.ct st false ls (e :: es)) (h' : File c.ct st false ls' (e' :: es))
    (he : e.header? = some t) (he' : e'.header? = some t')
    (h1 : Po.sourceCharset c.ct t = Po.sourceCharset c.ct t') (h2 : headerRule c.ct t = headerRule c.ct t')
    (ht : TextOk ls) (ht' : TextOk ls') (hf : (unlines ls).length + 2 ≤ c.fuel) (hf' : (unlines ls').length + 2 ≤ c.fuel) :
    (observe (run c (.ofBytes (unlines ls)) d)).noLog = (observe (run c (.ofBytes (unlines ls')) d)).noLog := by
  rw [C37_source_charset c d h he ht hf, C37_source_charset c d h' he' ht' hf', h1, h2]

/-- C37.  The last `Content-Type: text/plain; charset=X` line decides, if `X` is not empty and not `CHARSET`. -/
theorem C37_last_wins (ct : CType) (pre post : List Str) (x : Str)
    (hnl : ∀ l ∈ pre ++ [b!"Content-Type: text/plain; charset=" ++ x] ++ post, (10 : Byte) ∉ l)
    (hpost : ∀ l ∈ post, ¬ b!"Content-Type: text/plain; charset=" <+: l) :
    Po.sourceCharset ct (unlines (pre ++ [b!"Content-Type: text/plain; charset=" ++ x] ++ post))
      = if x = [] ∨ x.map ct.toupper = b!"CHARSET" then b!"UTF-8" else x.map ct.toupper := by
  have hsp := splitLines_unlines _ [] hnl (by simp)
  rw [List.append_nil] at hsp
  have hd : declaredCharset ct (unlines (pre ++ [b!"Content-Type: text/plain; charset=" ++ x] ++ post)) = x.map ct.toupper := by
    unfold declaredCharset
    rw [hsp]
    have hp : post.filterMap (afterPrefix b!"Content-Type: text/plain; charset=") = [] := by
      rw [List.filterMap_eq_nil_iff]
      intro l hl
      rw [afterPrefix_eq, if_neg]
      intro hc
      exact hpost l hl (List.isPrefixOf_iff_prefix.1 hc)
    rw [List.filterMap_append, hp, List.append_nil, List.filterMap_append]
    simp only [List.filterMap_cons, afterPrefix_append, List.filterMap_nil]
    simp
  unfold Po.sourceCharset
  rw [hd]
  simp only [List.map_eq_nil_iff]

/-- C37.  Without such a line the charset is UTF-8, whatever else the header says. -/
theorem C37_default (ct : CType) (lines : List Str) (hnl : ∀ l ∈ lines, (10 : Byte) ∉ l)
    (h : ∀ l ∈ lines, ¬ b!"Content-Type: text/plain; charset=" <+: l) :
    Po.sourceCharset ct (unlines lines) = b!"UTF-8" := by
  have hsp := splitLines_unlines lines [] hnl (by simp)
  rw [List.append_nil] at hsp
  unfold Po.sourceCharset declaredCharset
  rw [hsp]
  have hp : lines.filterMap (afterPrefix b!"Content-Type: text/plain; charset=") = [] := by
    rw [List.filterMap_eq_nil_iff]
    intro l hl
    rw [afterPrefix_eq, if_neg]
    intro hc
    exact h l hl (List.isPrefixOf_iff_prefix.1 hc)
  rw [hp]
  rfl

-- two Content-Type lines, the last one wins; a malformed one and a placeholder do not count
example : Po.sourceCharset .c b!"Content-Type: text/plain; charset=utf-8\nX: y\nContent-Type: text/plain; charset=iso-8859-1\nContent-Type: text/html\n"
    = b!"ISO-8859-1" ∧ Po.sourceCharset .c b!"Content-Type: text/plain; charset=CHARSET\n" = b!"UTF-8" := by decide

/-! ### C38: plural rules -/

theorem load_rule (ct : CType) (lib : IconvLib) (uf : Bool) (cs : Str) (es : List Entry) : ∀ (cv : IConv) (e e' : Effect),
    load ct lib uf cs es cv e = (.returned, e') → e'.rule = e.rule.or ((es.filterMap Entry.header?).filterMap (headerRule ct)).head? := by
  induction es with
  | nil =>
    intro cv e e' h
    simp only [load, Prod.mk.injEq, true_and] at h
    subst h
    simp
  | cons en es ih =>
    intro cv e e' h
    unfold load at h
    cases hh : en.header? with
    | some t =>
      rw [hh] at h
      dsimp only at h
      split at h
      · have := ih _ _ _ h
        rw [this]
        simp only [List.filterMap_cons, hh]
        cases hr : headerRule ct t with
        | none => simp
        | some r => cases e.rule <;> simp
      · simp at h
    | none =>
      rw [hh] at h
      have hf : (en :: es).filterMap Entry.header? = es.filterMap Entry.header? := by simp [hh]
      rw [hf]
      cases hb : en.body with
      | single t =>
        rw [hb] at h
        dsimp only at h
        split at h
        · split at h
          · simp at h
          · have := ih _ _ _ h; exact this
        · exact ih _ _ _ h
      | plural idp strs =>
        rw [hb] at h
        dsimp only at h
        split at h
        · simp at h
        · split at h
          · have := ih _ _ _ h; exact this
          · exact ih _ _ _ h

/-- C38.  The plural rule after parsing a well-formed file: the one the dictionary had, if any; otherwise that of the
first recognised Plural-Forms line of the first header that has one. -/
theorem C38_first_wins (c : Cfg) (d d' : Dictionary) {st : Bool} {ls : List Str} {es : List Entry}
    (h : File c.ct st false ls es) (ht : TextOk ls) (hf : (unlines ls).length + 2 ≤ c.fuel)
    (hr : (observe (run c (.ofBytes (unlines ls)) d)).noLog = .returned d' []) :
    d'.pluralForms = if d.pluralForms.isDefined then d.pluralForms
      else (((es.filterMap Entry.header?).filterMap (headerRule c.ct)).head?).getD d.pluralForms := by
  rw [run_file c h ht hf] at hr
  rcases hl : load c.ct c.lib c.useFuzzy d.charset es .init ⟨[], none⟩ with ⟨en, eff⟩
  rw [hl] at hr
  cases en with
  | returned =>
    simp only [Ending.at, Observed.returned.injEq, and_true] at hr
    rw [← hr]
    have := load_rule _ _ _ _ _ _ _ _ hl
    show (if d.pluralForms.isDefined then d.pluralForms else eff.rule.getD d.pluralForms) = _
    rw [this]
    rfl
  | _ => simp [Ending.at] at hr

theorem firstRule_some (ct : CType) : ∀ (ls : List Str) (r : PluralForms), firstRule ct ls = some r →
    ∃ l ∈ ls, b!"Plural-Forms:" <+: l ∧ PluralForms.fromString ct l = r ∧ r.isDefined = true := by
  intro ls
  induction ls with
  | nil => intro r h; simp [firstRule] at h
  | cons l ls ih =>
    intro r h
    unfold firstRule at h
    split at h
    · rename_i hc
      cases h
      simp only [Bool.and_eq_true] at hc
      exact ⟨l, List.mem_cons_self, List.isPrefixOf_iff_prefix.1 hc.1.2, rfl, hc.2⟩
    · obtain ⟨x, hx, h'⟩ := ih r h
      exact ⟨x, List.mem_cons_of_mem _ hx, h'⟩

theorem noLog_dict (o : Observed) : o.noLog.dict? = o.dict? := by cases o <;> rfl

/-- The dictionary after a parse that came back. -/
theorem run_dict (c : Cfg) (input : Stream) (d d' : Dictionary) (hF : input.rest.length < c.fuel)
    (h : (observe (run c input d)).dict? = some d') :
    ∃ k, Res.state? (parseCore c input d.charset) = some k ∧ d' = k.eff.applyTo d := by
  rw [← noLog_dict, run_effect c input d hF] at h
  cases hk : parseCore c input d.charset with
  | ok a k =>
    rw [hk] at h
    refine ⟨k, rfl, ?_⟩
    cases hr : (events c.ct c.fuel input).2 <;> rw [hr] at h <;> simp [endingOf, Ending.at, Observed.dict?, effectOf] at h <;> exact h.symm
  | exn w k =>
    rw [hk] at h
    refine ⟨k, rfl, ?_⟩
    simp [endingOf, Ending.at, Observed.dict?, effectOf] at h
    exact h.symm
  | poError k => exact absurd hk (coreInterp_no_poError _ _ _ _ _ _ k)
  | fault f => rw [hk] at h; simp [endingOf, Ending.at, Observed.dict?] at h
  | diverge => rw [hk] at h; simp [endingOf, Ending.at, Observed.dict?] at h

/-- C38.  For every input at all: a parse that changes the plural rule of a dictionary does so only if there was none
before, and the new one is that of a recognised `Plural-Forms:` line. -/
theorem C38_only_recognised (c : Cfg) (input : Stream) (d d' : Dictionary) (hF : input.rest.length < c.fuel)
    (h : (observe (run c input d)).dict? = some d') (hne : d'.pluralForms ≠ d.pluralForms) :
    d.pluralForms.isDefined = false ∧
    ∃ l, b!"Plural-Forms:" <+: l ∧ PluralForms.fromString c.ct l = d'.pluralForms ∧ d'.pluralForms.isDefined = true := by
  obtain ⟨k, hk, rfl⟩ := run_dict c input d d' hF h
  have hinv : ∀ r, k.eff.rule = some r → ∃ l, b!"Plural-Forms:" <+: l ∧ PluralForms.fromString c.ct l = r ∧ r.isDefined = true := by
    refine Keeps.interp (Q := fun _ => True)
      (I := fun k => ∀ r, k.eff.rule = some r → ∃ l, b!"Plural-Forms:" <+: l ∧ PluralForms.fromString c.ct l = r ∧ r.isDefined = true)
      ⟨fun k h => h, fun k n t r cv l _ h _ => h, fun k fz c i t r cv l _ h _ _ => h, fun k p fz c i ip _ h _ => h, ?_⟩
      _ core0 k (fun _ _ => trivial) (fun r hr => by cases hr) hk
    intro k p t _ h r hr
    cases hkr : k.eff.rule with
    | none =>
      simp only [hkr, Option.none_or] at hr
      obtain ⟨l, _, h'⟩ := firstRule_some c.ct _ r hr
      exact ⟨l, h'⟩
    | some r0 =>
      simp only [hkr, Option.some_or, Option.some.injEq] at hr
      subst hr
      exact h r0 hkr
  have hpf : (k.eff.applyTo d).pluralForms = if d.pluralForms.isDefined then d.pluralForms else k.eff.rule.getD d.pluralForms := rfl
  cases hd : d.pluralForms.isDefined with
  | true => rw [hpf, hd] at hne; exact absurd rfl hne
  | false =>
    refine ⟨rfl, ?_⟩
    rw [hpf, hd] at hne ⊢
    simp only [Bool.false_eq_true, if_false] at hne ⊢
    cases hr : k.eff.rule with
    | none => rw [hr] at hne; exact absurd rfl hne
    | some r => exact hinv r hr

theorem headerMessages_mismatch (ct : CType) (r : PluralForms) (hr : r.isDefined = true) : ∀ (ls : List Str) (l : Str), l ∈ ls →
    b!"Plural-Forms:" <+: l → (PluralForms.fromString ct l).isDefined = true → PluralForms.fromString ct l ≠ r →
    b!"Plural-Forms missmatch between .po file and dictionary" ∈ headerMessages ct r ls := by
  intro ls l hl hp hd hne
  induction ls with
  | nil => cases hl
  | cons x ls ih =>
    rcases List.mem_cons.1 hl with rfl | hl
    · unfold headerMessages
      have h2 : b!"Plural-Forms:".isPrefixOf l = true := List.isPrefixOf_iff_prefix.2 hp
      rw [if_neg (by rw [(plural_prefix hp).2]; simp), if_pos h2, if_neg (by rw [hd]; simp), if_neg (by rw [hr]; simp),
        if_pos (fun h => hne h.symm)]
      exact List.mem_cons_self
    · have hi := ih hl
      unfold headerMessages
      split
      · split
        · exact hi
        · exact List.mem_cons_of_mem _ hi
      · split
        · split
          · exact List.mem_cons_of_mem _ hi
          · rw [if_neg (by rw [hr]; simp)]
            split
            · exact List.mem_cons_of_mem _ hi
            · exact hi
        · exact hi

theorem headerMessages_unknown (ct : CType) : ∀ (ls : List Str) (r : PluralForms) (l : Str), l ∈ ls →
    b!"Plural-Forms:" <+: l → (PluralForms.fromString ct l).isDefined = false →
    b!"unknown Plural-Forms given" ∈ headerMessages ct r ls := by
  intro ls
  induction ls with
  | nil => intro r l hl; cases hl
  | cons x ls ih =>
    intro r l hl hp hd
    rcases List.mem_cons.1 hl with rfl | hl
    · unfold headerMessages
      have h2 : b!"Plural-Forms:".isPrefixOf l = true := List.isPrefixOf_iff_prefix.2 hp
      rw [if_neg (by rw [(plural_prefix hp).2]; simp), if_pos h2, if_pos hd]
      exact List.mem_cons_self
    · have hi := fun r => ih r l hl hp hd
      unfold headerMessages
      repeat (first | split | exact hi _ | exact List.mem_cons_of_mem _ (hi _))

theorem loadFull_log (ct : CType) (lib : IconvLib) (uf : Bool) (file : Str) (es : List Entry) : ∀ (cv : IConv) (d : Dictionary) (l : List Diag),
    (∃ f, loadFull ct lib uf file es cv d l = .crashed f) ∨ ∃ l', (loadFull ct lib uf file es cv d l).log = l ++ l' := by
  induction es with
  | nil => intro cv d l; exact .inr ⟨[], by simp [loadFull, Observed.log]⟩
  | cons en es ih =>
    have hih : ∀ cv d l m, (∃ f, loadFull ct lib uf file es cv d (l ++ m) = .crashed f) ∨
        ∃ l', (loadFull ct lib uf file es cv d (l ++ m)).log = l ++ l' := by
      intro cv d l m
      rcases ih cv d (l ++ m) with h | ⟨l', h⟩
      · exact .inl h
      · exact .inr ⟨m ++ l', by rw [h, List.append_assoc]⟩
    intro cv d l
    unfold loadFull
    cases en.header? with
    | some t =>
      dsimp only
      split
      · exact hih _ _ _ _
      · exact .inr ⟨_, rfl⟩
    | none =>
      cases en.body with
      | single t =>
        dsimp only
        split
        · split
          · exact .inl ⟨_, rfl⟩
          · rw [List.append_assoc]; exact hih _ _ _ _
        · exact ih _ _ _
      | plural idp strs =>
        dsimp only
        split
        · exact .inl ⟨_, rfl⟩
        · split
          · rw [List.append_assoc, List.append_assoc]; exact hih _ _ _ _
          · exact hih _ _ _ _

theorem header_warns (c : Cfg) (d : Dictionary) {ls : List Str} {e : Entry} {es : List Entry} {t : Str} (m : Str)
    (h : File c.ct true false ls (e :: es)) (he : e.header? = some t) (ht : TextOk ls) (hf : (unlines ls).length + 2 ≤ c.fuel)
    (hm : m ∈ headerWarnings c.ct d.pluralForms t) :
    (∃ f, observe (run c (.ofBytes (unlines ls)) d) = .crashed f) ∨
    ∃ n cur, .po .warning c.filename n m cur ∈ (observe (run c (.ofBytes (unlines ls)) d)).log := by
  have hrun := run_file_log c h ht hf d
  have hcr : ∀ (o : Observed) f, o.mapLog (List.map unplaced) = .crashed f → o = .crashed f := by
    intro o f h; cases o <;> simp [Observed.mapLog] at h; rw [h]
  have hlg : ∀ o : Observed, (o.mapLog (List.map unplaced)).log = o.log.map unplaced := by intro o; cases o <;> rfl
  have hmem : ∀ l' : List Diag, (observe (run c (.ofBytes (unlines ls)) d)).log.map unplaced
      = (headerWarnings c.ct d.pluralForms t).map (Diag.po .warning c.filename 0 · []) ++ l' →
      ∃ n cur, .po .warning c.filename n m cur ∈ (observe (run c (.ofBytes (unlines ls)) d)).log := by
    intro l' hl
    have : Diag.po .warning c.filename 0 m [] ∈ (observe (run c (.ofBytes (unlines ls)) d)).log.map unplaced := by
      rw [hl]
      exact List.mem_append_left _ (List.mem_map.2 ⟨m, hm, rfl⟩)
    obtain ⟨x, hx, hu⟩ := List.mem_map.1 this
    cases x with
    | po lv f n m' cur =>
      simp only [unplaced, Diag.po.injEq, true_and, and_true] at hu
      obtain ⟨rfl, rfl, rfl⟩ := hu
      exact ⟨n, cur, hx⟩
    | _ => simp [unplaced] at hu
  unfold loadFull at hrun
  rw [he] at hrun
  dsimp only at hrun
  rcases hx : IConv.setCharsets c.ct c.lib .init (Po.sourceCharset c.ct t) d.charset with ⟨cv, o⟩
  rw [hx] at hrun
  cases o with
  | none =>
    dsimp only at hrun
    rw [List.nil_append] at hrun
    rcases loadFull_log c.ct c.lib c.useFuzzy c.filename es cv (withHeaderRule c.ct t d)
      ((headerWarnings c.ct d.pluralForms t).map (Diag.po .warning c.filename 0 · [])) with ⟨f, hf⟩ | ⟨l', hl⟩
    · rw [hf] at hrun
      exact .inl ⟨f, hcr _ f hrun⟩
    · right
      apply hmem l'
      rw [← hlg, hrun, hl]
  | some w =>
    right
    apply hmem []
    rw [← hlg, hrun]
    simp [Observed.log]

/-- C38.  If the dictionary has a plural rule and the header of a strictly well-formed file has a recognised
Plural-Forms line with a different one, a warning says so (and the rule stays, `C38_rule_stays`), unless the converter
crashes. -/
theorem C38_mismatch_warning (c : Cfg) (d : Dictionary) {ls : List Str} {e : Entry} {es : List Entry} {t l : Str}
    (h : File c.ct true false ls (e :: es)) (he : e.header? = some t) (ht : TextOk ls) (hf : (unlines ls).length + 2 ≤ c.fuel)
    (hl : l ∈ (splitLines t).1) (hp : b!"Plural-Forms:" <+: l) (hd : (PluralForms.fromString c.ct l).isDefined = true)
    (hr : d.pluralForms.isDefined = true) (hne : PluralForms.fromString c.ct l ≠ d.pluralForms) :
    (∃ f, observe (run c (.ofBytes (unlines ls)) d) = .crashed f) ∨
    ∃ n cur, .po .warning c.filename n b!"Plural-Forms missmatch between .po file and dictionary" cur
      ∈ (observe (run c (.ofBytes (unlines ls)) d)).log :=
  header_warns c d _ h he ht hf (List.mem_append_left _ (headerMessages_mismatch c.ct _ hr _ l hl hp hd hne))

/-- C38.  A Plural-Forms line that is not recognised gives a warning. -/
theorem C38_unknown_warning (c : Cfg) (d : Dictionary) {ls : List Str} {e : Entry} {es : List Entry} {t l : Str}
    (h : File c.ct true false ls (e :: es)) (he : e.header? = some t) (ht : TextOk ls) (hf : (unlines ls).length + 2 ≤ c.fuel)
    (hl : l ∈ (splitLines t).1) (hp : b!"Plural-Forms:" <+: l) (hd : (PluralForms.fromString c.ct l).isDefined = false) :
    (∃ f, observe (run c (.ofBytes (unlines ls)) d) = .crashed f) ∨
    ∃ n cur, .po .warning c.filename n b!"unknown Plural-Forms given" cur
      ∈ (observe (run c (.ofBytes (unlines ls)) d)).log :=
  header_warns c d _ h he ht hf (List.mem_append_left _ (headerMessages_unknown c.ct _ _ l hl hp hd))

/-- A header with a recognised, a different recognised and an unknown rule. -/
def demoRules : Str :=
  b!"Content-Type: text/plain; charset=UTF-8\nPlural-Forms: nplurals=2; plural=(n != 1);\nPlural-Forms: nplurals=1; plural=0;\nPlural-Forms: x\n"

example : observe (run ⟨.c, demoLib, true, b!"f", false, 400⟩ (.ofBytes (unlines [writeField b!"msgid" [], writeField b!"msgstr" demoRules])) (.init b!"UTF-8"))
    = .returned { (Dictionary.init b!"UTF-8") with pluralForms := PluralForms.fromString .c b!"Plural-Forms: nplurals=2; plural=(n != 1);" }
        [.po .warning b!"f" 3 b!"Plural-Forms missmatch between .po file and dictionary" [],
         .po .warning b!"f" 3 b!"unknown Plural-Forms given" []] := by decide +kernel

example : File .c true false [writeField b!"msgid" [], writeField b!"msgstr" demoRules] [⟨false, none, [], .single demoRules⟩] :=
  .last (writeMessage_entry ⟨none, [], none, [demoRules]⟩ (by simp))

end Tgt
