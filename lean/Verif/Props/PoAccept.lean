import Verif.Proofs.Accept
import Verif.Props.PoHeader
/-
C61: the parser accepts without an error message exactly the well-formed files.
-/
namespace Tgt
open Spec Spec.Po POParser

theorem accept_core (c : Cfg) (ls : List Str) (st : Bool) (ht : TextOk ls) (hf : (unlines ls).length + 2 ≤ c.fuel)
    (hst : st = true → c.pedantic = true) (d d' : Dictionary) (log : List Diag)
    (hr : observe (run c (.ofBytes (unlines ls)) d) = .returned d' log) (hl : ∀ m ∈ log, ¬ Form st m) :
    ∃ es, File c.ct st false ls es := by
  rw [run_obs c _ d (by show (unlines ls).length < _; omega)] at hr
  obtain ⟨⟨a, q, h1⟩, h2⟩ := (log_form c _ _ (.ofBytes (unlines ls)) d st).2 d' log hr
  have hclean : ∀ x ∈ (events c.ct c.fuel (.ofBytes (unlines ls))).1, ¬ x.Bad st := by
    intro x hx hb
    obtain ⟨m, g1, g2⟩ := h2 ⟨x, hx, hb⟩ hst
    exact hl m g1 g2
  obtain ⟨k1, k2, k3, k4⟩ := text_tape ls ht
  have hline : ∀ q, (startTape (.ofBytes (unlines ls)) q).line = ls.getD q [] := by
    intro q
    rw [(startTape_lines _ q).1, withoutBom_unlines ls ht.noBom]
    unfold lineAt
    have hsp := splitLines_unlines ls [] ht.noNl (by simp)
    rw [List.append_nil] at hsp
    rw [hsp]
  have := unlines_length ls
  have hfew : ls.length + 8 < intMax := ht.few
  exact file_of_clean k4 hline k2 (by omega) (by omega) c.fuel false 0 q a h1 hclean

theorem silent_core (c : Cfg) (ls : List Str) (es : List Entry) (st : Bool) (hfile : File c.ct st false ls es) (ht : TextOk ls)
    (hf : (unlines ls).length + 2 ≤ c.fuel) (d : Dictionary) :
    ∀ m ∈ (observe (run c (.ofBytes (unlines ls)) d)).log, ¬ Form st m := by
  intro m hm hfm
  rw [run_obs c _ d (by show (unlines ls).length < _; omega)] at hm
  obtain ⟨x, h1, h2⟩ := (log_form c _ _ (.ofBytes (unlines ls)) d st).1 ⟨m, hm, hfm⟩
  obtain ⟨w, q, e1, _, e3⟩ := file_events hfile ht hf
  rw [e1] at h1
  obtain ⟨g1, g2⟩ := e3 x h1
  rcases h2 with h2 | ⟨h2, h3⟩
  · rw [g1] at h2; cases h2
  · rw [g2 h2] at h3; cases h3

/-- C61.  Parse a text in any mode into any dictionary.  If the parse returns, the parser has reported no error exactly
if the text is a well-formed PO file: with every error message absent, no line of the text has been skipped over. -/
theorem C61_accepted_iff (c : Cfg) (ls : List Str) (ht : TextOk ls) (hf : (unlines ls).length + 2 ≤ c.fuel) (d d' : Dictionary) (log : List Diag)
    (hr : observe (run c (.ofBytes (unlines ls)) d) = .returned d' log) :
    (∀ m ∈ log, ¬ FormError m) ↔ ∃ es, File c.ct false false ls es := by
  constructor
  · exact accept_core c ls false ht hf (fun h => by cases h) d d' log hr
  · rintro ⟨es, hes⟩
    have := silent_core c ls es false hes ht hf d
    rw [hr] at this
    exact this

/-- C61.  So nothing is lost silently: if no error is reported, the text is a well-formed PO file and the dictionary is what loading
all of its entries, in order, gives. -/
theorem C61_nothing_lost (c : Cfg) (ls : List Str) (ht : TextOk ls) (hf : (unlines ls).length + 2 ≤ c.fuel) (d d' : Dictionary) (log : List Diag)
    (hr : observe (run c (.ofBytes (unlines ls)) d) = .returned d' log) (hl : ∀ m ∈ log, ¬ FormError m) :
    ∃ es eff, File c.ct false false ls es ∧ load c.ct c.lib c.useFuzzy d.charset es .init ⟨[], none⟩ = (.returned, eff) ∧ d' = eff.applyTo d := by
  obtain ⟨es, hes⟩ := accept_core c ls false ht hf (fun h => by cases h) d d' log hr hl
  have hrun := run_file c hes ht hf d
  rw [hr] at hrun
  rcases hx : load c.ct c.lib c.useFuzzy d.charset es .init ⟨[], none⟩ with ⟨e, eff⟩
  rw [hx] at hrun
  cases e with
  | returned =>
    refine ⟨es, eff, hes, hx, ?_⟩
    have : Observed.returned d' [] = .returned (eff.applyTo d) [] := hrun
    cases this; rfl
  | _ => cases hrun

/-- C61.  Well-formed files never give rise to an error message, whatever the outcome of the parse, in any mode. -/
theorem C61_wellformed_silent (c : Cfg) (ls : List Str) (es : List Entry) (h : File c.ct false false ls es) (ht : TextOk ls)
    (hf : (unlines ls).length + 2 ≤ c.fuel) (d : Dictionary) :
    ∀ m ∈ (observe (run c (.ofBytes (unlines ls)) d)).log, ¬ FormError m :=
  silent_core c ls es false h ht hf d

/-- C61.  In pedantic mode, a parse that returns has had nothing at all to say about the form of the text exactly if it is a
strictly well-formed PO file: single spaces after keywords, known escapes only, nothing after strings. -/
theorem C61_pedantic_iff (c : Cfg) (hp : c.pedantic = true) (ls : List Str) (ht : TextOk ls) (hf : (unlines ls).length + 2 ≤ c.fuel)
    (d d' : Dictionary) (log : List Diag) (hr : observe (run c (.ofBytes (unlines ls)) d) = .returned d' log) :
    (∀ m ∈ log, ¬ FormMessage m) ↔ ∃ es, File c.ct true false ls es := by
  constructor
  · exact accept_core c ls true ht hf (fun _ => hp) d d' log hr
  · rintro ⟨es, hes⟩
    have := silent_core c ls es true hes ht hf d
    rw [hr] at this
    exact this

/-- A well-formed text with comments, odd spacing, an unknown escape and trailing text, without an error message: -/
def demoAccept : List Str :=
  [b!"# comment", b!"", b!"#, fuzzy", b!"msgctxt \"c\"", b!"msgid  \"a\\q\" tail", b!"\"b\"", b!"msgstr \"x\"", b!"#", b!"msgid \"p\"",
   b!"msgid_plural \"ps\"", b!"msgstr[1] \"one\"", b!"msgstr[0] \"zero\""]

example : TextOk demoAccept ∧
    observe (run ⟨.c, demoLib, true, b!"f", true, 400⟩ (.ofBytes (unlines demoAccept)) (.init b!"UTF-8"))
      = .returned ((addAll (.init b!"UTF-8") [.singular (some b!"c") b!"a\\qb" b!"x", .plural none b!"p" b!"ps" [b!"zero", b!"one"]]))
        [.po .warning b!"f" 5 b!"keyword and string must be seperated by a single space" b!"msgid  \"a\\q\" tail",
         .po .warning b!"f" 5 b!"unhandled escape '\\q'" b!"msgid  \"a\\q\" tail",
         .po .warning b!"f" 5 b!"unexpected garbage after string ignoren" b!"msgid  \"a\\q\" tail",
         .po .warning b!"f" 13 b!"msgstr[N] seen, but no Plural-Forms given" b!""] := by
  exact ⟨textOk_small _ (by decide) (by decide +kernel) (by decide), by decide +kernel⟩

-- so, by C61, it is a well-formed file, but not a strictly well-formed one
example : (∃ es, File CType.c false false demoAccept es) ∧ ¬ ∃ es, File CType.c true false demoAccept es := by
  have hr : ∃ d' log, observe (run ⟨.c, demoLib, true, b!"f", true, 400⟩ (.ofBytes (unlines demoAccept)) (.init b!"UTF-8")) = .returned d' log ∧
      (∀ m ∈ log, ¬ FormError m) ∧ ∃ m ∈ log, FormMessage m := by
    refine ⟨(addAll (.init b!"UTF-8") [.singular (some b!"c") b!"a\\qb" b!"x", .plural none b!"p" b!"ps" [b!"zero", b!"one"]]),
        [.po .warning b!"f" 5 b!"keyword and string must be seperated by a single space" b!"msgid  \"a\\q\" tail",
         .po .warning b!"f" 5 b!"unhandled escape '\\q'" b!"msgid  \"a\\q\" tail",
         .po .warning b!"f" 5 b!"unexpected garbage after string ignoren" b!"msgid  \"a\\q\" tail",
         .po .warning b!"f" 13 b!"msgstr[N] seen, but no Plural-Forms given" b!""], by decide +kernel, ?_, _, List.mem_cons_self, .inl rfl⟩
    intro m hm
    simp only [List.mem_cons, List.not_mem_nil, or_false] at hm
    rcases hm with rfl | rfl | rfl | rfl <;> exact fun h => h
  obtain ⟨d', log, h1, h2, m, h3, h4⟩ := hr
  have ht : TextOk demoAccept := textOk_small _ (by decide) (by decide +kernel) (by decide)
  have hf : (unlines demoAccept).length + 2 ≤ 400 := by decide +kernel
  refine ⟨(C61_accepted_iff _ _ ht hf _ _ _ h1).1 h2, fun hx => ?_⟩
  exact (C61_pedantic_iff _ rfl _ ht hf _ _ _ h1).2 hx m h3 h4

/-- A text that is not well-formed: the error of the second entry is reported, -/
example : observe (run ⟨.c, demoLib, false, b!"f", false, 400⟩
      (.ofBytes (unlines [b!"msgid \"a\"", b!"msgstr \"x\"", b!"", b!"msgid \"b\"", b!"mgstr \"y\"", b!""])) (.init b!"UTF-8"))
    = .returned (addAll (.init b!"UTF-8") [.singular none b!"a" b!"x"])
        [.po .error b!"f" 5 b!"expected 'msgstr' or 'msgid_plural'" b!"mgstr \"y\""] := by decide +kernel

end Tgt
