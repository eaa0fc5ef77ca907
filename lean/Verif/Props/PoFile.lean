import Verif.Proofs.Canon
import Verif.Props.Dictionary
import Verif.Props.Parse
/-
Properties of well-formed PO files: C27, C28, C29, C31, C37, C38, C39, C41.
-/
namespace Tgt
open Spec Spec.Po POParser

/-! ### C27: round trip -/

theorem unplaced_inj (l l' : List Diag) (h : l.map unplaced = l') (h' : ∀ x ∈ l', ∀ lv f n m cur, x ≠ .po lv f n m cur) : l = l' := by
  subst h
  induction l with
  | nil => rfl
  | cons x l ih =>
    rw [List.map_cons] at h' ⊢
    rw [← ih (fun y hy => h' y (List.mem_cons_of_mem _ hy))]
    congr 1
    have := h' _ List.mem_cons_self
    cases x with
    | po lv f n m cur => exact absurd rfl (this lv f 0 m [])
    | _ => rfl

theorem addLog_not_po (adds : List Add) : ∀ (d : Dictionary), ∀ x ∈ addLog d adds, ∀ lv f n m cur, x ≠ .po lv f n m cur := by
  induction adds with
  | nil => intro d x hx; cases hx
  | cons a r ih =>
    intro d x hx lv f n m cur
    simp only [addLog, List.mem_append] at hx
    rcases hx with hx | hx
    · rcases apply_quotes d a x hx with ⟨_, _, _, _, _, rfl⟩ | ⟨_, _, _, _, rfl⟩ <;> simp
    · exact ih _ x hx lv f n m cur

theorem observed_placed (o : Observed) (d : Dictionary) (l : List Diag) (h : o.mapLog (List.map unplaced) = .returned d l)
    (hl : ∀ x ∈ l, ∀ lv f n m cur, x ≠ .po lv f n m cur) : o = .returned d l := by
  cases o with
  | returned d' l' =>
    simp only [Observed.mapLog, Observed.returned.injEq] at h
    rw [h.1, unplaced_inj l' l h.2 hl]
  | _ => simp [Observed.mapLog] at h

theorem line_le_unlines (ls : List Str) : ∀ l ∈ ls, l.length ≤ (unlines ls).length := by
  induction ls with
  | nil => intro l hl; cases hl
  | cons a ls ih =>
    intro l hl
    simp only [unlines, List.length_append, List.length_cons]
    rcases List.mem_cons.1 hl with rfl | hl
    · omega
    · have := ih l hl; omega

theorem textOk_small (ls : List Str) (h1 : ∀ l ∈ ls, (10 : Byte) ∉ l) (h2 : (unlines ls).length + 8 < 2147483647)
    (h3 : (ls.headD []).head? ≠ some 0xef) : TextOk ls := by
  refine ⟨h1, fun l hl => ?_, ?_, ?_⟩
  · have := line_le_unlines ls l hl; omega
  · have := unlines_length ls; omega
  · rintro ⟨t, ht⟩
    apply h3
    rw [← ht]; rfl

theorem writeMessages_head (ms : List Message) : ((writeMessages ms).headD []).head? ≠ some 0xef := by
  cases ms with
  | nil => simp [writeMessages]
  | cons m ms =>
    unfold writeMessages
    rw [List.flatMap_cons]
    unfold writeMessage
    cases m.ctxt with
    | none => simp [writeCtxt, writeField]
    | some c => simp [writeCtxt, writeField]

/-- C74.  Write any list of messages (`file`) as a canonical PO file that declares any charset, and parse it into a dictionary of any
charset: if the library can convert the translations (or the charsets are the same), the result is the dictionary after exactly the
`add_translation` calls with the converted translations and the msgids and contexts as they stand in the file, and the parser has
nothing to say. -/
theorem C74_recoded_round_trip (c : Cfg) (d : Dictionary) (cs : Str) (pl : Option Str) (file ms : List Message)
    (hms : ∀ m ∈ file, m.Ok)
    (hascii : ∀ b ∈ cs, b < 128) (hnl : (10 : Byte) ∉ cs)
    (hcs : cs.map c.ct.toupper ∉ [[], b!"CHARSET", b!"BIG5"])
    (hrec : Recoded c.ct c.lib cs d.charset file ms)
    (hpl : ∀ l, pl = some l → (10 : Byte) ∉ l ∧ b!"Plural-Forms:" <+: l ∧ (PluralForms.fromString c.ct l).isDefined = true ∧
      (d.pluralForms.isDefined = true → d.pluralForms = PluralForms.fromString c.ct l))
    (hn : ∀ m ∈ file, m.plural ≠ none →
      ((pl.map (PluralForms.fromString c.ct)).getD d.pluralForms).isDefined = true ∧
      m.strs.length = ((pl.map (PluralForms.fromString c.ct)).getD d.pluralForms).getNplural)
    (hsize : (unlines (writeCatalog cs pl file)).length + 8 < 2147483647)
    (hfuel : (unlines (writeCatalog cs pl file)).length + 2 ≤ c.fuel) :
    observe (run c (.ofBytes (unlines (writeCatalog cs pl file))) d)
      = .returned ((⟨ms.map Message.add, pl.map (PluralForms.fromString c.ct)⟩ : Effect).applyTo d)
          (addLog d (ms.map Message.add)) := by
  simp only [List.mem_cons, List.not_mem_nil, or_false, not_or] at hcs
  obtain ⟨hc1, hc2, hc3⟩ := hcs
  have hdecl := headerText_charset c.ct cs pl hnl (fun l hl => ⟨(hpl l hl).1, (hpl l hl).2.1⟩)
  have hfile := writeCatalog_file (ct := c.ct) (st := true) cs pl file hms (by rw [hdecl]; exact hc3)
  have htext := textOk_small _ (writeCatalog_no_nl cs pl file hms) hsize (by simp [writeCatalog, writeField])
  have hrun := run_file_log c hfile htext hfuel d
  apply observed_placed _ _ _ ?_ (addLog_not_po _ d)
  rw [hrun]
  unfold loadFull
  have hsrc : Po.sourceCharset c.ct (headerText cs pl) = cs.map c.ct.toupper := by
    unfold Po.sourceCharset
    rw [hdecl, if_neg (by rintro (h | h); exact hc1 h; exact hc2 h)]
  obtain ⟨f, hms', hact⟩ := hrec
  have hset := setCharsets_acts (lib := c.lib) (cv := .init) (ct := c.ct) (src := cs) (dst := d.charset) (f := f)
    (S := fun s => ∃ m ∈ file, s ∈ m.strs) hascii (by
      rcases hact with h | ⟨h1, h2, h3⟩
      · exact .inl h
      · exact .inr ⟨h1, h2, fun s ⟨m, hm, hs⟩ hist => h3 m hm s hs hist⟩)
  have hhd : (Entry.mk false none [] (.single (headerText cs pl))).header? = some (headerText cs pl) := rfl
  rw [hhd]
  dsimp only
  rw [hsrc, headerText_warnings c.ct d.pluralForms cs pl hnl hpl ⟨hc1, hc2⟩]
  rcases hx : IConv.setCharsets c.ct c.lib .init (cs.map c.ct.toupper) d.charset with ⟨cv, o⟩
  rw [hx] at hset
  dsimp only at hset
  obtain ⟨rfl, hcd⟩ := hset
  dsimp only
  have hrule := headerText_rule c.ct cs pl hnl (fun l hl => ⟨(hpl l hl).1, (hpl l hl).2.1, (hpl l hl).2.2.1⟩)
  have hw : withHeaderRule c.ct (headerText cs pl) d = { d with pluralForms :=
      if d.pluralForms.isDefined then d.pluralForms else (pl.map (PluralForms.fromString c.ct)).getD d.pluralForms } := by
    unfold withHeaderRule; rw [hrule]
  have hpf : (if d.pluralForms.isDefined then d.pluralForms else (pl.map (PluralForms.fromString c.ct)).getD d.pluralForms)
      = (pl.map (PluralForms.fromString c.ct)).getD d.pluralForms := by
    split
    · rename_i hd
      cases pl with
      | none => rfl
      | some l => exact (hpl l rfl).2.2.2 hd
    · rfl
  rw [hw, load_messages_conv file hms (fun m hm s hs => ⟨m, hm, hs⟩) hcd _ _ (by
    intro m hm hmp
    dsimp only
    rw [hpf]
    exact hn m hm hmp)]
  have hadd : ∀ (adds : List Add) (d : Dictionary) (p : PluralForms),
      addAll { d with pluralForms := p } adds = { addAll d adds with pluralForms := p } := by
    intro adds
    induction adds with
    | nil => intro d p; rfl
    | cons a r ih =>
      intro d p
      show addAll (a.apply { d with pluralForms := p }).1 r = _
      rw [apply_withPf, ih]; rfl
  have hlog : ∀ (adds : List Add) (d : Dictionary) (p : PluralForms), addLog { d with pluralForms := p } adds = addLog d adds := by
    intro adds
    induction adds with
    | nil => intro d p; rfl
    | cons a r ih =>
      intro d p
      simp only [addLog]
      rw [apply_withPf, ih]
      congr 1
      rcases a with ⟨_ | c, i, s⟩ | ⟨_ | c, i, p, v⟩ <;> rfl
  rw [hadd, hlog, ← hms']
  simp [Effect.applyTo]

/-- C27.  Write any list of messages (optional context, msgid, one translation or one to ten plural
translations) as a canonical PO file that declares a charset equal (up to case) to that of the dictionary and
optionally a recognised plural rule that does not contradict the one of the dictionary, and parse it into any
dictionary: the result is the dictionary after exactly these `add_translation` calls, in order; the parser
itself has nothing to say, so that the messages logged are those of the calls.  Plural messages must have as
many strings as the rule asks for (otherwise the parser warns). -/
theorem C27_round_trip (c : Cfg) (d : Dictionary) (cs : Str) (pl : Option Str) (ms : List Message)
    (hms : ∀ m ∈ ms, m.Ok)
    (hascii : ∀ b ∈ cs, b < 128) (hnl : (10 : Byte) ∉ cs)
    (hcs : cs.map c.ct.toupper ∉ [[], b!"CHARSET", b!"BIG5"])
    (hsame : cs.map c.ct.toupper = d.charset.map c.ct.toupper)
    (hpl : ∀ l, pl = some l → (10 : Byte) ∉ l ∧ b!"Plural-Forms:" <+: l ∧ (PluralForms.fromString c.ct l).isDefined = true ∧
      (d.pluralForms.isDefined = true → d.pluralForms = PluralForms.fromString c.ct l))
    (hn : ∀ m ∈ ms, m.plural ≠ none →
      ((pl.map (PluralForms.fromString c.ct)).getD d.pluralForms).isDefined = true ∧
      m.strs.length = ((pl.map (PluralForms.fromString c.ct)).getD d.pluralForms).getNplural)
    (hsize : (unlines (writeCatalog cs pl ms)).length + 8 < 2147483647)
    (hfuel : (unlines (writeCatalog cs pl ms)).length + 2 ≤ c.fuel) :
    observe (run c (.ofBytes (unlines (writeCatalog cs pl ms))) d)
      = .returned ((⟨ms.map Message.add, pl.map (PluralForms.fromString c.ct)⟩ : Effect).applyTo d)
          (addLog d (ms.map Message.add)) :=
  C74_recoded_round_trip c d cs pl ms ms hms hascii hnl hcs
    ⟨id, by rw [show Message.recode id = id from funext (fun m => by simp [Message.recode]), List.map_id], .inl ⟨hsame, fun _ => rfl⟩⟩
    hpl hn hsize hfuel

/-- C27.  The same without any header: then nothing is converted, whatever the charset of the dictionary. -/
theorem C27_round_trip_no_header (c : Cfg) (d : Dictionary) (ms : List Message) (hms : ∀ m ∈ ms, m.Ok)
    (hn : ∀ m ∈ ms, m.plural ≠ none → d.pluralForms.isDefined = true ∧ m.strs.length = d.pluralForms.getNplural)
    (hsize : (unlines (writeMessages ms)).length + 8 < 2147483647)
    (hfuel : (unlines (writeMessages ms)).length + 2 ≤ c.fuel) :
    observe (run c (.ofBytes (unlines (writeMessages ms))) d)
      = .returned (addAll d (ms.map Message.add)) (addLog d (ms.map Message.add)) := by
  have hfile := writeMessages_file (ct := c.ct) (st := true) ms hms
  have htext := textOk_small _ (writeMessages_no_nl ms hms) hsize (writeMessages_head ms)
  have hrun := run_file_log c hfile htext hfuel d
  apply observed_placed _ _ _ ?_ (addLog_not_po _ d)
  rw [hrun, load_messages rfl ms hms d [] hn]
  rfl

/-- C27.  If no two of the messages have the same context and msgid, the calls of `C27_round_trip` log nothing
on a fresh dictionary (possibly with a plural rule), and afterwards every message translates to the strings written. -/
theorem C27_distinct (cs : Str) (r : PluralForms) (ms : List Message) (hms : ∀ m ∈ ms, m.Shaped)
    (hdis : (ms.map (fun m => (m.ctxt, m.msgid))).Nodup) :
    addLog (.init cs) (ms.map Message.add) = [] ∧
    ∀ m ∈ ms, ∀ heap fuel log d', d' = (⟨ms.map Message.add, some r⟩ : Effect).applyTo (.init cs) →
      (m.plural = none → m.ctxt = none → d'.translate heap (fuel + 1) m.msgid log = .ok (m.strs.headD []) log) ∧
      (∀ x, m.plural = none → m.ctxt = some x →
        d'.translateCtxt heap (fuel + 1) x m.msgid log = .ok (m.strs.headD []) log) ∧
      (∀ p n s, m.plural = some p → m.ctxt = none → m.strs[r.getPlural n]? = some s → s ≠ [] →
        d'.translatePlural m.msgid p n = (s, [])) ∧
      (∀ x p n s, m.plural = some p → m.ctxt = some x → m.strs[r.getPlural n]? = some s → s ≠ [] →
        d'.translateCtxtPlural x m.msgid p n = (s, [])) := by
  have ht : ∀ m : Message, target m.add = (m.ctxt, m.msgid) := by
    intro m
    unfold Message.add
    cases m.plural <;> rfl
  have h0 : ∀ key, (Dictionary.init cs).lookup key = none := by
    rintro ⟨_ | x, i⟩ <;> rfl
  have h2 : ((ms.map Message.add).map target).Nodup := by
    rw [List.map_map]
    have : (target ∘ Message.add) = fun m => (m.ctxt, m.msgid) := funext ht
    rw [this]; exact hdis
  refine ⟨addLog_fresh _ _ (fun a _ => h0 _) h2, fun m hm heap fuel log d' hd => ?_⟩
  have hl := lookup_addAll _ m.add (List.mem_map.2 ⟨m, hm, rfl⟩) (Dictionary.init cs) (fun b _ => h0 _) h2
  rw [ht m] at hl
  have hnew : (m.add).newVec [] = m.strs := by
    unfold Message.add
    cases hp : m.plural with
    | none =>
      obtain ⟨s, hs⟩ := hms m hm hp
      rw [hs]; rfl
    | some p => rfl
  rw [hnew] at hl
  have hd1 : d'.lookup (m.ctxt, m.msgid) = some m.strs := by
    rw [hd]
    have : ∀ key, ((⟨ms.map Message.add, some r⟩ : Effect).applyTo (.init cs)).lookup key
        = (addAll (.init cs) (ms.map Message.add)).lookup key := by
      rintro ⟨_ | x, i⟩ <;> rfl
    rw [this]; exact hl
  have hpf : d'.pluralForms = r := by rw [hd]; rfl
  have hstr : m.plural = none → ∃ s, m.strs = [s] := hms m hm
  have hE : ∀ (e : Entries), e.get? m.msgid = some m.strs → m.plural = none →
      Dictionary.translateIn heap (fuel + 1) d' e m.msgid log = .ok (m.strs.headD []) log := by
    intro e he hp
    obtain ⟨s, hs⟩ := hstr hp
    unfold Dictionary.translateIn
    rw [he, hs]; rfl
  have hP : ∀ (e : Entries) p n s, e.get? m.msgid = some m.strs → m.strs[r.getPlural n]? = some s → s ≠ [] →
      d'.translatePluralIn e m.msgid p n = (s, []) := by
    intro e p n s he hs hne
    unfold Dictionary.translatePluralIn
    rw [he]
    dsimp only
    rw [hpf, hs]
    dsimp only
    rw [if_pos (by simpa using hne)]
  have hctx : ∀ x, m.ctxt = some x → ∃ e, d'.ctxtEntries.get? x = some e ∧ e.get? m.msgid = some m.strs := by
    intro x hx
    rw [hx] at hd1
    unfold Dictionary.lookup at hd1
    dsimp only at hd1
    split at hd1
    · rename_i e he; exact ⟨e, he, hd1⟩
    · cases hd1
  refine ⟨?_, ?_, ?_, ?_⟩
  · intro hp hc
    rw [hc] at hd1
    exact hE _ hd1 hp
  · intro x hp hc
    obtain ⟨e, he1, he2⟩ := hctx x hc
    unfold Dictionary.translateCtxt
    rw [he1]
    exact hE e he2 hp
  · intro p n s _ hc hs hne
    rw [hc] at hd1
    exact hP _ p n s hd1 hs hne
  · intro x p n s _ hc hs hne
    obtain ⟨e, he1, he2⟩ := hctx x hc
    unfold Dictionary.translateCtxtPlural
    rw [he1]
    exact hP e p n s he2 hs hne

/-- Messages of every kind, with bytes that need escapes. -/
def demoMessages : List Message :=
  [⟨none, b!"Hello \"World\"", none, [b!"Hallo\n\t\\ \"Welt\""]⟩, ⟨some b!"menu", b!"File", none, [[0x44, 0xc3, 0xa4, 0xff, 7, 0]]⟩,
   ⟨none, b!"%d file", some b!"%d files", [b!"%d Datei", b!"%d Dateien"]⟩, ⟨some b!"", b!"a", some b!"b", [[], b!"x"]⟩]

example : (∀ m ∈ demoMessages, m.Ok) ∧ (demoMessages.map (fun m => (m.ctxt, m.msgid))).Nodup ∧
    (∀ m ∈ demoMessages, m.plural ≠ none → (PluralForms.fromString .c b!"Plural-Forms: nplurals=2; plural=(n != 1);").isDefined = true ∧
      m.strs.length = (PluralForms.fromString .c b!"Plural-Forms: nplurals=2; plural=(n != 1);").getNplural) := by
  refine ⟨?_, by decide, by decide +kernel⟩
  intro m hm
  simp only [demoMessages, List.mem_cons, List.not_mem_nil, or_false] at hm
  rcases hm with rfl | rfl | rfl | rfl <;> simp [Message.Ok]

-- the file, parsed
example : observe (run ⟨.c, demoLib, true, b!"f", false, 400⟩ (.ofBytes (unlines (writeCatalog b!"utf-8"
      (some b!"Plural-Forms: nplurals=2; plural=(n != 1);") demoMessages))) (.init b!"UTF-8"))
    = .returned ((⟨demoMessages.map Message.add, some (PluralForms.fromString .c b!"Plural-Forms: nplurals=2; plural=(n != 1);")⟩ : Effect).applyTo
        (.init b!"UTF-8")) [] := by decide +kernel

end Tgt
