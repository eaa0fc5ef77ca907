import Verif.Props.ReadErrors
import Verif.Spec.Programs
import Verif.Props.PoAccept
import Verif.Props.Language
import Verif.Props.EndToEnd
/-
C66 …: the command line programs.
-/
namespace Tgt
open Spec POParser Po Program

namespace Progs

theorem say_all (c : Callbacks LogFn) (ds : List Diag) : ∀ (calls : List (LogFn × Str)),
    ds.foldl (Logger.say (fun _ _ c => c)) ⟨c, calls⟩ =
      ⟨c, calls ++ ds.filterMap (fun d => (c.installed d.level).map (·, d.text))⟩ := by
  induction ds with
  | nil => intro calls; simp
  | cons d t ih =>
    intro calls
    simp only [List.foldl_cons, Logger.say, List.filterMap_cons]
    cases c.installed d.level with
    | none => simpa using ih calls
    | some k => simpa using ih (calls ++ [(k, d.text)])

/-- All channels go to the same callback. -/
def All (k : LogFn) (p : Proc) : Prop := p.callbacks = .default k

theorem deliver_all {k : LogFn} {p : Proc} (h : All k p) (ds : List Diag) :
    deliver p ds = { p with output := p.output ++ ds.map (fun d => k.call d.text) } := by
  unfold deliver
  rw [say_all, h]
  have : ds.filterMap (fun d => ((Callbacks.default k).installed d.level).map (·, d.text)) = ds.map (fun d => (k, d.text)) := by
    induction ds with
    | nil => rfl
    | cons d t ih => rw [List.filterMap_cons, List.map_cons, ← ih]; cases d.level <;> rfl
  rw [this]
  simp [List.map_map, Function.comp_def]

theorem mainLoop_no_po (c : Cfg) : ∀ (f : Nat) (s s' : PState), mainLoop c f s ≠ .poError s' := by
  intro f
  induction f with
  | zero => intro s s' h; cases h
  | succ f ih =>
    intro s s' h
    simp only [mainLoop, prog_bind, bind_apply, Prog.get] at h
    split at h
    · simp only [bind_apply] at h
      cases ht : tryEntry c s with
      | ok a s1 => rw [ht] at h; exact ih _ _ h
      | poError s1 =>
        unfold tryEntry at ht
        cases he : entry c s <;> rw [he] at ht <;> cases ht
      | exn w s1 => rw [ht] at h; cases h
      | fault f => rw [ht] at h; cases h
      | diverge => rw [ht] at h; cases h
    · cases h

theorem run_no_po (c : Cfg) (input : Stream) (d : Dictionary) (s : PState) : POParser.run c input d ≠ .poError s := by
  intro h
  unfold POParser.run at h
  cases hb : parseBody c (initState input d) with
  | poError s1 =>
    simp only [parseBody, prog_bind, bind_apply] at hb
    cases hn : nextLine (initState input d) with
    | ok a s2 =>
      rw [hn] at hb
      dsimp only at hb
      cases hk : skipBom s2 with
      | ok a s3 => rw [hk] at hb; exact mainLoop_no_po c _ _ _ hb
      | poError s3 => unfold skipBom at hk; split at hk <;> cases hk
      | exn w s3 => rw [hk] at hb; cases hb
      | fault f => rw [hk] at hb; cases hb
      | diverge => rw [hk] at hb; cases hb
    | poError s2 => unfold nextLine at hn; split at hn <;> cases hn
    | exn w s2 => rw [hn] at hb; cases hb
    | fault f => rw [hn] at hb; cases hb
    | diverge => rw [hn] at hb; cases hb
  | _ => rw [hb] at h; cases h

/-- A parse by a program. -/
theorem parse_ended {y : Sys} {k : LogFn} {p : Proc} (h : All k p) (file text : Str) (he : (parsed y file text).Ended) :
    (∃ d l, parsed y file text = .returned d l ∧
      Program.parseFile y file ⟨text, true, y.os.readFails file⟩ (.init b!"UTF-8") p = .ok d { p with output := p.output ++ l.map (fun d => k.call d.text) }) ∨
    (∃ w d l, parsed y file text = .threw w d l ∧
      Program.parseFile y file ⟨text, true, y.os.readFails file⟩ (.init b!"UTF-8") p = .exn w { p with output := p.output ++ l.map (fun d => k.call d.text) }) := by
  unfold Program.parseFile POParser.parse
  have hc : ({ (⟨y.ct, y.lib, true, file, true, y.fuel⟩ : Cfg) with useFuzzy := true } : Cfg) = progCfg y file := rfl
  rw [hc]
  unfold parsed at he ⊢
  cases hr : POParser.run (progCfg y file) ⟨text, true, y.os.readFails file⟩ (.init b!"UTF-8") with
  | ok a s => left; exact ⟨s.dict, s.log, rfl, by dsimp only; rw [deliver_all h]⟩
  | exn w s => right; exact ⟨w, s.dict, s.log, rfl, by dsimp only; rw [deliver_all h]⟩
  | poError s => exact absurd hr (run_no_po _ _ _ _)
  | fault f => rw [hr] at he; exact he.elim
  | diverge => rw [hr] at he; exact he.elim

theorem checkFile_ended {y : Sys} {name file : Str} {p : Proc} (h : All .mine p)
    (he : ∀ text, y.os.content file = some text → (parsed y file text).Ended) :
    checkFile y name file p = .ok () { p with output := p.output ++ report y name file } := by
  unfold checkFile report
  cases hc : y.os.content file with
  | none => rfl
  | some text =>
    dsimp only
    rcases parse_ended h file text (he text hc) with ⟨d, l, h1, h2⟩ | ⟨w, d, l, h1, h2⟩
    · rw [h2, h1]
      simp [Observed.log, LogFn.call]
    · rw [h2, h1]
      simp [Observed.log, LogFn.call, printLine, print]

theorem checkFiles_ended {y : Sys} {name : Str} : ∀ (files : List Str) {p : Proc}, All .mine p →
    (∀ f ∈ files, ∀ text, y.os.content f = some text → (parsed y f text).Ended) →
    checkFiles y name files p = .ok () { p with output := p.output ++ files.flatMap (report y name) } := by
  intro files
  induction files with
  | nil => intro p _ _; simp [checkFiles, Prog.pure]
  | cons f t ih =>
    intro p h he
    simp only [checkFiles, prog_bind, bind_apply]
    rw [checkFile_ended h (he f (by simp))]
    dsimp only
    rw [ih (p := { p with output := p.output ++ report y name f }) h (fun g hg => he g (by simp [hg]))]
    simp

end Progs
open Progs

/-- C66.  po_parser_test on any number of files whose parses come to an end: it exits normally, and what it has written is exactly
one report after the other in the order of the files — for a file that cannot be opened one line on the error output; for the
others the text of every message, once, on the error output, and an exception, if one ended the parse, on the standard
output.  What is reported on a file does not depend on the other files. -/
theorem C66_reports (y : Sys) (name : Str) (files : List Str) (hne : files ≠ [])
    (hend : ∀ f ∈ files, ∀ text, y.os.content f = some text → (parsed y f text).Ended) :
    Exits (poParserTest y name files start) 0 (files.flatMap (report y name)) := by
  cases files with
  | nil => exact absurd rfl hne
  | cons f t =>
    simp only [Exits, poParserTest, prog_bind, bind_apply, setCallback]
    have h := checkFiles_ended (y := y) (name := name) (p := ⟨((start.callbacks.set (some .mine) .info).set (some .mine) .warning).set (some .mine) .error,
      start.manager, start.output⟩) (f :: t) rfl hend
    rw [h]
    exact ⟨_, rfl, rfl⟩

theorem Progs.terminated_unlines {ls : List Str} (h : ∀ l ∈ ls, (10 : Byte) ∉ l) : Terminated (unlines ls) := by
  have hsp := splitLines_unlines ls [] h (by simp)
  rw [List.append_nil] at hsp
  unfold Terminated; rw [hsp]

/-- A read error after the last line does not matter. -/
theorem Progs.parsed_plain (y : Sys) (file : Str) {text : Str} (ht : Terminated text) (hf : text.length < y.fuel) :
    parsed y file text = observe (POParser.run (progCfg y file) (.ofBytes text) (.init b!"UTF-8")) := run_fails _ _ _ _ ht hf

theorem Progs.text_ended (y : Sys) (hlib : TameLib y.lib) (file : Str) (ls : List Str) (ht : TextOk ls) (hf : (unlines ls).length + 8 < y.fuel) :
    (parsed y file (unlines ls)).Ended := by
  have hsp := splitLines_unlines ls [] ht.noNl (by simp)
  rw [List.append_nil] at hsp
  have hterm : Terminated (unlines ls) := by unfold Terminated; rw [hsp]
  have hlc : lineCount (unlines ls) = ls.length := by unfold lineCount; rw [hsp]; simp
  rw [parsed_plain y file hterm (by omega)]
  rcases C25_terminates (progCfg y file) (unlines ls) (.init b!"UTF-8") hterm (by rw [hlc]; exact ht.few) (by show _ < y.fuel; omega) with h | h
  · exact h
  · have := C24_no_abort (progCfg y file) hlib _ _ _ h
    cases this

theorem Progs.text_silent (y : Sys) (file : Str) (ls : List Str) (ht : TextOk ls) (hf : (unlines ls).length + 8 < y.fuel) :
    (∃ d, parsed y file (unlines ls) = .returned d []) ↔
    ∃ es d, File y.ct true false ls es ∧ loadFull y.ct y.lib true file es .init (.init b!"UTF-8") [] = .returned d [] := by
  have hf' : (unlines ls).length + 2 ≤ (progCfg y file).fuel := by show _ ≤ y.fuel; omega
  rw [parsed_plain y file (terminated_unlines ht.noNl) (by omega)]
  constructor
  · rintro ⟨d, h⟩
    obtain ⟨es, hes⟩ := (C61_pedantic_iff (progCfg y file) rfl ls ht hf' (.init b!"UTF-8") d [] h).1 (by simp)
    have hl := run_file_log (progCfg y file) hes ht hf' (.init b!"UTF-8")
    have h : observe (POParser.run (progCfg y file) (.ofBytes (unlines ls)) (.init b!"UTF-8")) = _ := h
    rw [h] at hl
    exact ⟨es, d, hes, hl.symm⟩
  · rintro ⟨es, d, hes, hl⟩
    have h := run_file_log (progCfg y file) hes ht hf' (.init b!"UTF-8")
    have hl' : loadFull (progCfg y file).ct (progCfg y file).lib (progCfg y file).useFuzzy (progCfg y file).filename es .init (.init b!"UTF-8") [] =
      .returned d [] := hl
    rw [hl'] at h
    refine ⟨d, ?_⟩
    cases ho : observe (POParser.run (progCfg y file) (.ofBytes (unlines ls)) (.init b!"UTF-8")) with
    | returned d' l =>
      rw [ho] at h
      simp only [Observed.mapLog, Observed.returned.injEq, List.map_eq_nil_iff] at h
      rw [h.1, h.2]
    | _ => rw [ho] at h; cases h

/-- C66.  po_parser_test is silent exactly if every file can be opened, is a strictly well-formed PO file, and loading its entries
gives no cause for a message either. -/
theorem C66_silent_iff (y : Sys) (hlib : TameLib y.lib) (name : Str) (files : List Str) (hne : files ≠ [])
    (htext : ∀ f ∈ files, ∀ text, y.os.content f = some text → ∃ ls, text = unlines ls ∧ TextOk ls ∧ text.length + 8 < y.fuel) :
    Exits (poParserTest y name files start) 0 [] ↔
    ∀ f ∈ files, ∃ ls es d, y.os.content f = some (unlines ls) ∧ TextOk ls ∧ File y.ct true false ls es ∧
      loadFull y.ct y.lib true f es .init (.init b!"UTF-8") [] = .returned d [] := by
  have hend : ∀ f ∈ files, ∀ text, y.os.content f = some text → (parsed y f text).Ended := by
    intro f hf text hc
    obtain ⟨ls, rfl, h1, h2⟩ := htext f hf text hc
    exact text_ended y hlib f ls h1 h2
  obtain ⟨p, hp, ho⟩ := C66_reports y name files hne hend
  have key : Exits (poParserTest y name files start) 0 [] ↔ ∀ f ∈ files, report y name f = [] := by
    unfold Exits
    rw [hp]
    constructor
    · rintro ⟨q, hq, hn⟩
      cases hq
      rw [ho] at hn
      intro f hf
      exact List.flatMap_eq_nil_iff.1 hn f hf
    · intro h
      exact ⟨p, rfl, by rw [ho]; exact List.flatMap_eq_nil_iff.2 h⟩
  rw [key]
  constructor
  · intro h f hf
    have hr := h f hf
    unfold report at hr
    cases hc : y.os.content f with
    | none => rw [hc] at hr; cases hr
    | some text =>
      obtain ⟨ls, rfl, h1, h2⟩ := htext f hf text hc
      rw [hc] at hr
      dsimp only at hr
      simp only [List.append_eq_nil_iff, List.map_eq_nil_iff] at hr
      have hE := hend f hf _ hc
      obtain ⟨es, d, h3, h4⟩ := (text_silent y f ls h1 h2).1 (by
        cases hx : parsed y f (unlines ls) with
        | returned d l => rw [hx] at hr; exact ⟨d, by rw [show l = [] from hr.1]⟩
        | threw w d l => rw [hx] at hr; exact absurd hr.2 (by simp)
        | threwPo d l =>
          unfold parsed at hx
          cases hy : POParser.run (progCfg y f) ⟨unlines ls, true, y.os.readFails f⟩ (.init b!"UTF-8") with
          | poError s => exact absurd hy (run_no_po _ _ _ _)
          | _ => rw [hy] at hx; cases hx
        | crashed f => rw [hx] at hE; exact hE.elim
        | unfinished => rw [hx] at hE; exact hE.elim)
      exact ⟨ls, es, d, rfl, h1, h3, h4⟩
  · intro h f hf
    obtain ⟨ls, es, d, hc, h0, h3, h4⟩ := h f hf
    obtain ⟨ls', he, h1, h2⟩ := htext f hf _ hc
    have : ls = ls' := by
      have e1 := splitLines_unlines ls [] h0.noNl (by simp)
      have e2 := splitLines_unlines ls' [] h1.noNl (by simp)
      rw [he, e2] at e1
      exact (Prod.mk.inj e1).1.symm
    subst this
    obtain ⟨d', hd⟩ := (text_silent y f ls h1 h2).2 ⟨es, d, h3, h4⟩
    unfold report
    rw [hc]
    dsimp only
    rw [hd]
    rfl

namespace Progs

/-- Code that returns `a` and writes `os`, and does nothing else. -/
def Writes {α : Type} (m : Main α) (a : α) (os : List Out) : Prop := ∀ p, All .standard p → m p = .ok a { p with output := p.output ++ os }

theorem writes_pure {α : Type} (a : α) : Writes (Prog.pure a) a [] := fun p _ => by simp [Prog.pure]

theorem writes_bind {α β : Type} {m : Main α} {f : α → Main β} {a : α} {b : β} {os os' : List Out} (h : Writes m a os) (h' : Writes (f a) b os') :
    Writes (m >>= f) b (os ++ os') := by
  intro p hp
  rw [prog_bind, bind_apply, h p hp]
  dsimp only
  rw [h' _ (show All .standard { p with output := p.output ++ os } from hp)]
  simp

theorem writes_print (t : Str) : Writes (print t) () [.out t] := fun _ _ => rfl

theorem writes_printLine (t : Str) : Writes (printLine t) () [.out (t ++ [10])] := fun _ _ => rfl

theorem writes_printAll : ∀ ts : List Str, Writes (printAll ts) () (ts.map (fun t => .out (t ++ [10]))) := by
  intro ts
  induction ts with
  | nil => exact writes_pure ()
  | cons t ts ih => exact writes_bind (writes_printLine t) ih

/-- The writes for one message. -/
def msgOut (x : Str × List Str) : List Out := .out (b!"Msgid: " ++ x.1 ++ [10]) :: x.2.map (fun t => .out (t ++ [10]))

/-- The writes for one message in a context. -/
def ctxtOut (x : Str × Str × List Str) : List Out := .out (b!"Msgctxt: " ++ x.1 ++ [10]) :: msgOut x.2

theorem writes_printMsgs : ∀ l, Writes (printMsgs l) () (l.flatMap msgOut) := by
  intro l
  induction l with
  | nil => exact writes_pure ()
  | cons x l ih =>
    have := writes_bind (writes_printLine (b!"Msgid: " ++ x.1)) (f := fun _ => do printAll x.2; printMsgs l)
      (writes_bind (f := fun _ => printMsgs l) (writes_printAll x.2) ih)
    simpa [msgOut, printMsgs] using this

theorem writes_printMsgsCtxt : ∀ l, Writes (printMsgsCtxt l) () (l.flatMap ctxtOut) := by
  intro l
  induction l with
  | nil => exact writes_pure ()
  | cons x l ih =>
    have := writes_bind (writes_printLine (b!"Msgctxt: " ++ x.1)) (f := fun _ => do printLine (b!"Msgid: " ++ x.2.1); printAll x.2.2; printMsgsCtxt l)
      (writes_bind (writes_printLine (b!"Msgid: " ++ x.2.1)) (f := fun _ => do printAll x.2.2; printMsgsCtxt l)
      (writes_bind (f := fun _ => printMsgsCtxt l) (writes_printAll x.2.2) ih))
    simpa [msgOut, ctxtOut, printMsgsCtxt] using this

/-- The writes that describe a language. -/
def langOut (l : Language) : List Out :=
  [.out (b!"Env:       " ++ l.str ++ [10]), .out (b!"Name:      " ++ l.getName ++ [10]), .out (b!"Language:  " ++ l.getLanguage ++ [10]),
   .out (b!"Country:   " ++ l.getCountry ++ [10]), .out (b!"Modifier:  " ++ l.getModifier ++ [10])]

theorem writes_describe (l : Language) : Writes (describe l) () (langOut l) :=
  writes_bind (writes_printLine _) (writes_bind (writes_printLine _) (writes_bind (writes_printLine _)
    (writes_bind (writes_printLine _) (writes_printLine _))))

theorem writes_describeAll : ∀ ls, Writes (describeAll ls) () (ls.flatMap (fun l => langOut l ++ [.out [10]])) := by
  intro ls
  induction ls with
  | nil => exact writes_pure ()
  | cons l ls ih =>
    have := writes_bind (f := fun _ => do printLine []; describeAll ls) (writes_describe l) (writes_bind (f := fun _ => describeAll ls) (writes_printLine []) ih)
    simpa [describeAll] using this

theorem stdout_append (a b : List Out) : stdout (a ++ b) = stdout a ++ stdout b := by simp [stdout]
theorem stderr_append (a b : List Out) : stderr (a ++ b) = stderr a ++ stderr b := by simp [stderr]

theorem stdout_langOut (l : Language) : stdout (langOut l) = description l := by
  simp [stdout, langOut, description]

theorem stderr_langOut (l : Language) : stderr (langOut l) = [] := rfl

theorem stdout_log (ds : List Diag) : stdout (ds.map (fun d => LogFn.standard.call d.text)) = [] := by
  induction ds with
  | nil => rfl
  | cons d t ih => exact ih

theorem stderr_log (ds : List Diag) : stderr (ds.map (fun d => LogFn.standard.call d.text)) = defaultLog ds := by
  induction ds with
  | nil => rfl
  | cons d t ih =>
    show (b!"tinygettext: " ++ d.text) ++ stderr (t.map (fun d => LogFn.standard.call d.text)) = _
    rw [ih]; rfl

theorem writes_read {y : Sys} {file text : Str} {d : Dictionary} {l : List Diag} (hc : y.os.content file = some text)
    (hp : parsed y file text = .returned d l) : Writes (readDictionary y file) d (l.map (fun d => LogFn.standard.call d.text)) := by
  intro p h
  unfold readDictionary
  rw [hc]
  dsimp only
  rcases parse_ended h file text (by rw [hp]; trivial) with ⟨d', l', h1, h2⟩ | ⟨w, d', l', h1, h2⟩
  · rw [hp] at h1; cases h1; exact h2
  · rw [hp] at h1; cases h1

theorem writes_lookup {y : Sys} {d : Dictionary} {q : Manager.Query} {t : Str} {l : List Diag}
    (h : q.on (fun _ => none) y.fuel d [] = .ok t l) : Writes (lookup y d q) t (l.map (fun d => LogFn.standard.call d.text)) := by
  intro p hp
  unfold lookup
  rw [h]
  dsimp only
  rw [deliver_all hp]

theorem shows_of {y : Sys} {name : Str} {args : List Str} {os : List Out} {code : Nat} (h : Writes (branch y name args) code os) :
    Exits (tinygettextTest y name args start) code os := by
  unfold Exits tinygettextTest
  rw [h start rfl]
  exact ⟨_, rfl, rfl⟩

/-- Loading a catalogue with a program. -/
theorem parsed_cat {y : Sys} {file : Str} {c : Catalogue} {r : PluralForms} (hg : c.Good (Program.env y) b!"UTF-8" r) :
    parsed y file c.text = .returned ((⟨c.messages.map Message.add, some r⟩ : Effect).applyTo (.init b!"UTF-8")) [] := by
  have h := C74_recoded_round_trip (progCfg y file) (.init b!"UTF-8") c.charset (some c.rule) c.file c.messages hg.messages hg.ascii hg.oneLine.1 hg.named hg.charset
    (by
      intro l hl
      cases hl
      refine ⟨hg.oneLine.2, hg.rule.1, ?_, fun h => by cases h⟩
      rw [show (progCfg y file).ct = (Program.env y).ct from rfl, hg.rule.2.1]
      exact hg.rule.2.2)
    (by
      intro m hm hp
      show (PluralForms.fromString (Program.env y).ct c.rule).isDefined = true ∧ _ = (PluralForms.fromString (Program.env y).ct c.rule).getNplural
      rw [hg.rule.2.1]
      exact ⟨hg.rule.2.2, hg.plurals m hm hp⟩)
    hg.size hg.fuel
  rw [(C27_distinct b!"UTF-8" r c.messages (hg.charset.shaped hg.messages) hg.distinct).1] at h
  have e : (some c.rule).map (PluralForms.fromString (progCfg y file).ct) = some r := congrArg some hg.rule.2.1
  rw [e] at h
  have hfu : c.text.length + 2 ≤ y.fuel := hg.fuel
  have hte : Terminated c.text := terminated_unlines (ls := writeCatalog c.charset (some c.rule) c.file) (writeCatalog_no_nl _ _ _ hg.messages)
  rw [parsed_plain y file hte (by omega)]
  exact h

theorem digits_decimal (rest : Str) (hr : ∀ b t, rest = b :: t → ¬ ((48 : Byte) ≤ b ∧ b ≤ 57)) :
    ∀ (s : Str) (acc : Nat), (∀ b ∈ s, (48 : Byte) ≤ b ∧ b ≤ 57) → digits acc (s ++ rest) = s.foldl (fun acc b => acc * 10 + (b.toNat - 48)) acc := by
  intro s
  induction s with
  | nil =>
    intro acc _
    cases rest with
    | nil => rfl
    | cons b t =>
      have : isdigit b = false := by
        have := hr b t rfl
        unfold isdigit
        simpa using this
      simp [digits, this]
  | cons b t ih =>
    intro acc hb
    obtain ⟨b1, b2⟩ := hb b (by simp)
    have : isdigit b = true := by unfold isdigit; simp [b1, b2]
    simp only [List.cons_append, digits, this, if_true, List.foldl_cons]
    exact ih _ (fun c hc => hb c (by simp [hc]))

theorem signed_numeral {y : Sys} {n : Int} {s : Str} (h : Numeral y.ct n s) : signed (s.dropWhile y.ct.isspace) = n := by
  obtain ⟨ws, sign, ds, rest, k, rfl, hws, ⟨h0, h1, h2⟩, hr, hs⟩ := h
  have hdig : digits 0 (ds ++ rest) = k := by rw [digits_decimal rest hr ds 0 h1, ← h2]
  cases ds with
  | nil => exact absurd rfl h0
  | cons b t =>
    obtain ⟨b1, b2⟩ := h1 b (by simp)
    have b1' : 48 ≤ b.toNat := UInt8.le_iff_toNat_le.1 b1
    have b2' : b.toNat ≤ 57 := UInt8.le_iff_toNat_le.1 b2
    have hsp : y.ct.isspace b = false := by
      rw [y.ct.isspace_ascii b (UInt8.lt_iff_toNat_lt.2 (Nat.lt_of_le_of_lt b2' (by decide)))]
      have e1 : ¬ b = 32 := by rintro rfl; exact absurd b1' (by decide)
      have e2 : ¬ b ≤ 13 := by intro h; have := UInt8.le_iff_toNat_le.1 h; have : b.toNat ≤ 13 := this; omega
      simp [e1, e2]
    have hpl : y.ct.isspace 43 = false := by rw [y.ct.isspace_ascii 43 (by decide)]; decide
    have hmi : y.ct.isspace 45 = false := by rw [y.ct.isspace_ascii 45 (by decide)]; decide
    have hdrop : ∀ u : Str, (ws ++ u).dropWhile y.ct.isspace = u.dropWhile y.ct.isspace := by
      intro u
      induction ws with
      | nil => rfl
      | cons w ws ih =>
        have hw := hws w (by simp)
        rw [List.cons_append, List.dropWhile_cons_of_pos hw]
        exact ih (fun b hb => hws b (by simp [hb]))
    have hplain : signed ((b :: t) ++ rest) = (k : Int) := by
      unfold signed
      split
      · rename_i heq; injection heq with h3 _; rw [h3] at b1'; exact absurd b1' (by decide)
      · rename_i heq; injection heq with h3 _; rw [h3] at b1'; exact absurd b1' (by decide)
      · rw [hdig]
    show signed ((ws ++ (sign ++ ((b :: t) ++ rest))).dropWhile y.ct.isspace) = n
    rw [hdrop]
    rcases hs with ⟨rfl | rfl, rfl⟩ | ⟨rfl, rfl⟩
    · have : ([] ++ ((b :: t) ++ rest) : Str).dropWhile y.ct.isspace = (b :: t) ++ rest := by simp [hsp]
      rw [this, hplain]
    · have : (b!"+" ++ ((b :: t) ++ rest) : Str).dropWhile y.ct.isspace = 43 :: ((b :: t) ++ rest) := by simp [hpl]
      rw [this]
      show ((digits 0 ((b :: t) ++ rest) : Nat) : Int) = _
      rw [hdig]
    · have : (b!"-" ++ ((b :: t) ++ rest) : Str).dropWhile y.ct.isspace = 45 :: ((b :: t) ++ rest) := by simp [hmi]
      rw [this]
      show -((digits 0 ((b :: t) ++ rest) : Nat) : Int) = _
      rw [hdig]

/-- A number that is an `int` is read as that number … -/
theorem atoi_numeral {y : Sys} {n : Int} {s : Str} (h : Numeral y.ct n s) (hn : IntRange n) : Writes (atoi y s) n [] := by
  unfold atoi
  dsimp only
  rw [signed_numeral h, if_pos (show -2147483648 ≤ n ∧ n ≤ 2147483647 from hn)]
  exact writes_pure _

/-- … a number that is not an `int` is undefined behaviour … -/
theorem atoi_overflow {y : Sys} {n : Int} {s : Str} (h : Numeral y.ct n s) (hn : ¬ IntRange n) : atoi y s = Prog.fault .signedOverflow := by
  unfold atoi
  dsimp only
  rw [signed_numeral h, if_neg (show ¬ (-2147483648 ≤ n ∧ n ≤ 2147483647) from hn)]

theorem mem_takeWhile {f : Byte → Bool} {b : Byte} : ∀ {t : Str}, b ∈ t.takeWhile f → f b = true
  | [], h => by cases h
  | c :: t, h => by
    rw [List.takeWhile_cons] at h
    split at h
    · rename_i hc
      rcases List.mem_cons.1 h with rfl | h
      · exact hc
      · exact mem_takeWhile h
    · cases h

theorem isdigit_range {b : Byte} : isdigit b = true ↔ 48 ≤ b ∧ b ≤ 57 := by unfold isdigit; simp

theorem digits_split (t : Str) : (∃ ds rest k, t = ds ++ rest ∧ DigitString k ds ∧ (∀ b u, rest = b :: u → ¬ (48 ≤ b ∧ b ≤ 57)) ∧ digits 0 t = k) ∨
    digits 0 t = 0 := by
  have hrest : ∀ b u, t.dropWhile isdigit = b :: u → ¬ (48 ≤ b ∧ b ≤ 57) := by
    intro b u h hb
    have := List.head?_dropWhile_not isdigit t
    rw [h] at this
    simp [isdigit_range.2 hb] at this
  have hds : ∀ b ∈ t.takeWhile isdigit, 48 ≤ b ∧ b ≤ 57 := fun b hb => isdigit_range.1 (mem_takeWhile hb)
  have hd := digits_decimal (t.dropWhile isdigit) hrest (t.takeWhile isdigit) 0 hds
  rw [List.takeWhile_append_dropWhile] at hd
  by_cases h0 : t.takeWhile isdigit = []
  · right; rw [hd, h0]; rfl
  · exact .inl ⟨_, _, _, (List.takeWhile_append_dropWhile).symm, ⟨h0, hds, rfl⟩, hrest, hd⟩

/-- … and a text that is no number counts as 0. -/
theorem atoi_total {y : Sys} {s : Str} (h : ∀ n, Numeral y.ct n s → IntRange n) : ∃ v, atoi y s = Prog.pure v := by
  have hws : ∀ b ∈ s.takeWhile y.ct.isspace, y.ct.isspace b := fun b hb => mem_takeWhile hb
  have hs : s.takeWhile y.ct.isspace ++ s.dropWhile y.ct.isspace = s := List.takeWhile_append_dropWhile
  have key : IntRange (signed (s.dropWhile y.ct.isspace)) := by
    have z : IntRange 0 := ⟨by decide, by decide⟩
    unfold signed
    split
    · rename_i t ht
      rcases digits_split t with ⟨ds, rest, k, h1, h2, h3, h4⟩ | h4
      · rw [h4]
        exact h _ ⟨_, b!"-", ds, rest, k, by rw [ht] at hs; rw [← h1]; exact hs.symm, hws, h2, h3, .inr ⟨rfl, rfl⟩⟩
      · rw [h4]; exact z
    · rename_i t ht
      rcases digits_split t with ⟨ds, rest, k, h1, h2, h3, h4⟩ | h4
      · rw [h4]
        exact h _ ⟨_, b!"+", ds, rest, k, by rw [ht] at hs; rw [← h1]; exact hs.symm, hws, h2, h3, .inl ⟨.inr rfl, rfl⟩⟩
      · rw [h4]; exact z
    · generalize ht : s.dropWhile y.ct.isspace = t
      rcases digits_split t with ⟨ds, rest, k, h1, h2, h3, h4⟩ | h4
      · rw [h4]
        exact h _ ⟨_, [], ds, rest, k, by rw [List.nil_append, ← h1, ← ht]; exact hs.symm, hws, h2, h3, .inl ⟨.inl rfl, rfl⟩⟩
      · rw [h4]; exact z
  exact ⟨_, by unfold atoi; dsimp only; exact if_pos key⟩

end Progs

/-- C67.  `tinygettext_test translate FILE MESSAGE` and `translate FILE CONTEXT MESSAGE`: for a file that holds a catalogue in UTF-8 and
a message of it, the translation that is written there is printed, and nothing else. -/
theorem C67_translated (y : Sys) (name file : Str) (c : Catalogue) (r : PluralForms) (hg : c.Good (Program.env y) b!"UTF-8" r)
    (hf : y.os.content file = some c.text) (m : Message) (hm : m ∈ c.messages) (hp : m.plural = none) :
    (m.ctxt = none → Shows (tinygettextTest y name [b!"translate", file, m.msgid] start) 0
      (b!"TRANSLATION: \"\"\"" ++ m.strs.headD [] ++ b!"\"\"\"" ++ [10]) []) ∧
    (∀ x, m.ctxt = some x → Shows (tinygettextTest y name [b!"translate", file, x, m.msgid] start) 0 (m.strs.headD [] ++ [10]) []) := by
  have hread := writes_read hf (parsed_cat hg)
  have hfuel : ∃ k, y.fuel = k + 1 := ⟨y.fuel - 1, by have := hg.fuel; have : _ ≤ y.fuel := this; omega⟩
  obtain ⟨k, hk⟩ := hfuel
  have hd := (C27_distinct b!"UTF-8" r c.messages (hg.charset.shaped hg.messages) hg.distinct).2 m hm (fun _ => none) k [] _ rfl
  constructor
  · intro hc
    have hl : (Manager.Query.translate m.msgid).on (fun _ => none) y.fuel
        ((⟨c.messages.map Message.add, some r⟩ : Effect).applyTo (.init b!"UTF-8")) [] = .ok (m.strs.headD []) [] := by
      rw [hk]; exact hd.1 hp hc
    refine ⟨_, shows_of (writes_bind hread (writes_bind (writes_print _) (writes_bind (writes_lookup hl)
      (writes_bind (writes_printLine _) (writes_pure _))))), ?_, ?_⟩
    · simp [stdout]
    · simp [stderr]
  · intro x hc
    have hl : (Manager.Query.ctxt x m.msgid).on (fun _ => none) y.fuel
        ((⟨c.messages.map Message.add, some r⟩ : Effect).applyTo (.init b!"UTF-8")) [] = .ok (m.strs.headD []) [] := by
      rw [hk]; exact hd.2.1 x hp hc
    refine ⟨_, shows_of (writes_bind hread (writes_bind (writes_lookup hl) (writes_bind (writes_printLine _) (writes_pure _)))), ?_, ?_⟩
    · simp [stdout]
    · simp [stderr]

/-- C67.  `translate FILE SINGULAR PLURAL NUM` and `translate FILE CONTEXT SINGULAR PLURAL NUM`: the string that the plural rule of the
catalogue selects for the number is printed, and nothing else. -/
theorem C67_plural (y : Sys) (name file : Str) (c : Catalogue) (r : PluralForms) (hg : c.Good (Program.env y) b!"UTF-8" r)
    (hf : y.os.content file = some c.text) (m : Message) (hm : m ∈ c.messages) (p : Str) (hp : m.plural = some p)
    (n : Int) (num : Str) (hnum : Numeral y.ct n num) (hn : IntRange n) (t : Str) (ht : m.strs[r.getPlural n]? = some t) (hne : t ≠ []) :
    (m.ctxt = none → Shows (tinygettextTest y name [b!"translate", file, m.msgid, p, num] start) 0 (t ++ [10]) []) ∧
    (∀ x, m.ctxt = some x → Shows (tinygettextTest y name [b!"translate", file, x, m.msgid, p, num] start) 0 (t ++ [10]) []) := by
  have hread := writes_read hf (parsed_cat hg)
  have hd := (C27_distinct b!"UTF-8" r c.messages (hg.charset.shaped hg.messages) hg.distinct).2 m hm (fun _ => none) 0 [] _ rfl
  constructor
  · intro hc
    have hl : (Manager.Query.plural m.msgid p n).on (fun _ => none) y.fuel
        ((⟨c.messages.map Message.add, some r⟩ : Effect).applyTo (.init b!"UTF-8")) [] = .ok t [] := by
      simp only [Manager.Query.on, hd.2.2.1 p n t hp hc ht hne, List.append_nil]
    refine ⟨_, shows_of (writes_bind (atoi_numeral hnum hn) (writes_bind hread (writes_bind (writes_lookup hl)
      (writes_bind (writes_printLine _) (writes_pure _))))), ?_, ?_⟩
    · simp [stdout]
    · simp [stderr]
  · intro x hc
    have hl : (Manager.Query.ctxtPlural x m.msgid p n).on (fun _ => none) y.fuel
        ((⟨c.messages.map Message.add, some r⟩ : Effect).applyTo (.init b!"UTF-8")) [] = .ok t [] := by
      simp only [Manager.Query.on, hd.2.2.2 x p n t hp hc ht hne, List.append_nil]
    refine ⟨_, shows_of (writes_bind (atoi_numeral hnum hn) (writes_bind hread (writes_bind (writes_lookup hl)
      (writes_bind (writes_printLine _) (writes_pure _))))), ?_, ?_⟩
    · simp [stdout]
    · simp [stderr]

/-- C67.  A message that the catalogue does not have is printed as it is, and a message on the error output says so. -/
theorem C67_missing (y : Sys) (name file : Str) (c : Catalogue) (r : PluralForms) (hg : c.Good (Program.env y) b!"UTF-8" r)
    (hf : y.os.content file = some c.text) (msgid : Str) (hm : ¬ c.Has none msgid) :
    Shows (tinygettextTest y name [b!"translate", file, msgid] start) 0
      (b!"TRANSLATION: \"\"\"" ++ msgid ++ b!"\"\"\"" ++ [10]) (b!"tinygettext: Couldn't translate: " ++ msgid ++ [10]) := by
  have hread := writes_read hf (parsed_cat hg)
  have hfuel : ∃ k, y.fuel = k + 1 := ⟨y.fuel - 1, by have := hg.fuel; have : _ ≤ y.fuel := this; omega⟩
  obtain ⟨k, hk⟩ := hfuel
  have hnone : ((⟨c.messages.map Message.add, some r⟩ : Effect).applyTo (.init b!"UTF-8")).lookup (none, msgid) = none := by
    have := Mgr.catEff_lacks (r := r) (x := (file, some c)) (ctxt := none) (msgid := msgid) (fun _ h => by cases h; exact hm) (.init b!"UTF-8")
    exact this
  have hl : (Manager.Query.translate msgid).on (fun _ => none) y.fuel
      ((⟨c.messages.map Message.add, some r⟩ : Effect).applyTo (.init b!"UTF-8")) [] = .ok msgid [.couldntTranslate msgid] := by
    have h0 : ((⟨c.messages.map Message.add, some r⟩ : Effect).applyTo (.init b!"UTF-8")).entries.get? msgid = none := hnone
    have h1 : ((⟨c.messages.map Message.add, some r⟩ : Effect).applyTo (.init b!"UTF-8")).hasFallback = false :=
      (Mgr.like_applyTo _ _).2.1
    rw [hk]
    simp only [Manager.Query.on, Dictionary.translate, Dictionary.translateIn, h0, h1]
    rfl
  refine ⟨_, shows_of (writes_bind hread (writes_bind (writes_print _) (writes_bind (writes_lookup hl)
    (writes_bind (writes_printLine _) (writes_pure _))))), ?_, ?_⟩
  · simp [stdout, LogFn.call]
  · simp [stderr, LogFn.call, Diag.text]

/-- C67.  A file that cannot be opened: all commands that read a file say so, and nothing else. -/
theorem C67_cannot_open (y : Sys) (name file : Str) (hf : y.os.content file = none) (args : List Str)
    (hargs : args = [b!"list-msgstrs", file] ∨ (∃ a, args = [b!"translate", file, a]) ∨ (∃ a b, args = [b!"translate", file, a, b]) ∨
      (∃ a b n num, args = [b!"translate", file, a, b, num] ∧ Numeral y.ct n num ∧ IntRange n) ∨
      ∃ x a b n num, args = [b!"translate", file, x, a, b, num] ∧ Numeral y.ct n num ∧ IntRange n) :
    Shows (tinygettextTest y name args start) 0 (b!"Exception: Couldn't open " ++ file ++ [10]) [] := by
  have hread : ∀ p, readDictionary y file p = .exn (b!"Couldn't open " ++ file) p := by
    intro p
    unfold readDictionary
    rw [hf]; rfl
  have key : branch y name args start = .exn (b!"Couldn't open " ++ file) start := by
    rcases hargs with rfl | ⟨a, rfl⟩ | ⟨a, b, rfl⟩ | ⟨a, b, n, num, rfl, h1, h2⟩ | ⟨x, a, b, n, num, rfl, h1, h2⟩
    · show Prog.bind (readDictionary y file) _ start = _
      rw [bind_apply, hread]
    · show Prog.bind (readDictionary y file) _ start = _
      rw [bind_apply, hread]
    · show Prog.bind (readDictionary y file) _ start = _
      rw [bind_apply, hread]
    · show Prog.bind (atoi y num) (fun num => Prog.bind (readDictionary y file) _) start = _
      rw [bind_apply, atoi_numeral h1 h2 start rfl]
      dsimp only
      rw [bind_apply, hread]
      rfl
    · show Prog.bind (atoi y num) (fun num => Prog.bind (readDictionary y file) _) start = _
      rw [bind_apply, atoi_numeral h1 h2 start rfl]
      dsimp only
      rw [bind_apply, hread]
      rfl
  refine ⟨[.out (b!"Exception: Couldn't open " ++ file ++ [10])], ⟨{ start with output := [.out (b!"Exception: Couldn't open " ++ file ++ [10])] }, ?_, rfl⟩, ?_, rfl⟩
  · unfold tinygettextTest
    rw [key]
    rfl
  · simp [stdout]

/-- C68.  `tinygettext_test language NAME` describes the language that the name stands for, or says that it was not found. -/
theorem C68_language (y : Sys) (name lang : Str) :
    Shows (tinygettextTest y name [b!"language", lang] start) 0
      (if (Language.fromName y.ct lang).isDefined then description (Language.fromName y.ct lang) else b!"not found" ++ [10]) [] := by
  cases h : (Language.fromName y.ct lang).isDefined with
  | true =>
    have hb : branch y name [b!"language", lang] = (do describe (Language.fromName y.ct lang); Prog.pure 0) := by
      show (do (if (Language.fromName y.ct lang).isDefined = true then describe (Language.fromName y.ct lang) else printLine b!"not found"); Prog.pure 0 : Main Nat) = _
      rw [h]; rfl
    refine ⟨_, shows_of (by rw [hb]; exact writes_bind (writes_describe _) (writes_pure 0)), ?_, ?_⟩
    · rw [stdout_append, stdout_langOut]; simp [stdout]
    · rfl
  | false =>
    have hb : branch y name [b!"language", lang] = (do printLine b!"not found"; Prog.pure 0) := by
      show (do (if (Language.fromName y.ct lang).isDefined = true then describe (Language.fromName y.ct lang) else printLine b!"not found"); Prog.pure 0 : Main Nat) = _
      rw [h]; rfl
    exact ⟨_, shows_of (by rw [hb]; exact writes_bind (writes_printLine _) (writes_pure 0)), rfl, rfl⟩

/-- C68.  What is printed as `Env` can be given to the program as a name, and the same description is printed again. -/
theorem C68_env_again (y : Sys) (name : Str) (l : Language) (hl : l.isDefined = true) :
    Shows (tinygettextTest y name [b!"language", l.str] start) 0 (description l) [] := by
  have := C68_language y name l.str
  rw [C09_name_roundtrip, if_pos hl] at this
  exact this

/-! ### A system to run them in -/

/-- Files: those of `catOs`, a file with a mistake, and a file whose charset cannot be converted. -/
def progOs : OS where
  listing := catOs.listing
  content f :=
    if f = b!"bad.po" then some b!"msgid \"a\" x\nmsgstr \"b\"\n\nmsgid \"c\"\nmsgstr \"d\"\n"
    else if f = b!"alien.po" then some b!"msgid \"\"\nmsgstr \"Content-Type: text/plain; charset=alien\\n\"\n"
    else if f = b!"fine.po" then some b!"msgid \"c\"\nmsgstr \"d\"\n"
    else catOs.content f

/-- A system; `unordered_map`s are traversed backwards. -/
def demoSys : Sys := ⟨.c, demoLib, progOs, fun _ => b!"No such file or directory", 1000, List.reverse, List.reverse, List.reverse_perm, List.reverse_perm⟩

/-- The catalogues can be written and are read as intended in this system too. -/
theorem demoSys_good : ∀ c ∈ [catHi, catLo, catAt], c.Good (Program.env demoSys) b!"UTF-8" catRule := by
  intro c hc
  have h := catEnv_good c hc
  exact ⟨h.messages, h.distinct, h.ascii, h.oneLine, h.named, h.charset, h.rule, h.plurals, h.size, h.fuel⟩

/-- What is seen of a run: exit status and output. -/
def seen (r : Res Proc Nat) : Option (Nat × List Out) :=
  match r with
  | .ok code p => some (code, p.output)
  | _ => none

/-- A run shows this if it is seen. -/
theorem shows_seen {r : Res Proc Nat} {status : Nat} {os : List Out} (h : seen r = some (status, os)) : Shows r status (stdout os) (stderr os) := by
  cases r with
  | ok code p => cases h; exact ⟨_, ⟨p, rfl, rfl⟩, rfl, rfl⟩
  | _ => cases h

-- C66: a file that is fine, one with a mistake, one in an unknown charset, one that is not there
example : seen (poParserTest demoSys b!"po_parser_test" [b!"fine.po", b!"bad.po", b!"alien.po", b!"gone.po"] start) =
    some (0, [.err b!"bad.po:1: warning: unexpected garbage after string ignoren: msgid \"a\" x\n",
      .out b!"alien.po: exception: IConv construction failed: conversion from 'ALIEN' to 'UTF-8' not available\n",
      .err b!"po_parser_test: cannot access gone.po: No such file or directory\n"]) := by decide +kernel

-- … the hypothesis of `C66_reports`
example : ∀ f ∈ [b!"fine.po", b!"bad.po", b!"alien.po", b!"gone.po"], ∀ text, demoSys.os.content f = some text → (parsed demoSys f text).Ended := by
  have key : ∀ o : Observed, (match o with | .returned .. | .threw .. | .threwPo .. => true | _ => false) = true → o.Ended := by
    intro o h
    cases o <;> first | trivial | cases h
  intro f hf text ht
  simp only [List.mem_cons, List.not_mem_nil, or_false] at hf
  apply key
  rcases hf with rfl | rfl | rfl | rfl
  · cases ht; decide +kernel
  · cases ht; decide +kernel
  · cases ht; decide +kernel
  · cases ht

-- … and that of `C66_silent_iff`
example : ∀ f ∈ [b!"fine.po", b!"gone.po"], ∀ text, demoSys.os.content f = some text →
    ∃ ls, text = unlines ls ∧ TextOk ls ∧ text.length + 8 < demoSys.fuel := by
  intro f hf text ht
  simp only [List.mem_cons, List.not_mem_nil, or_false] at hf
  rcases hf with rfl | rfl
  · cases ht
    exact ⟨[b!"msgid \"c\"", b!"msgstr \"d\""], by decide +kernel, ⟨by decide +kernel, by decide +kernel, by decide +kernel, by decide +kernel⟩, by decide +kernel⟩
  · cases ht

-- C67: the theorems applied
example : Shows (tinygettextTest demoSys b!"t" [b!"translate", b!"lo/de.po", b!"dog"] start) 0 b!"TRANSLATION: \"\"\"Koeter\"\"\"\n" [] :=
  (C67_translated demoSys b!"t" b!"lo/de.po" catLo catRule (demoSys_good catLo (by simp)) rfl ⟨none, b!"dog", none, [b!"Koeter"]⟩ (by simp [catLo]) rfl).1 rfl

example : Shows (tinygettextTest demoSys b!"t" [b!"translate", b!"hi/de.po", b!"%d file", b!"%d files", b!"12"] start) 0 b!"%d Dateien\n" [] :=
  (C67_plural demoSys b!"t" b!"hi/de.po" catHi catRule (demoSys_good catHi (by simp)) rfl
    ⟨none, b!"%d file", some b!"%d files", [b!"%d Datei", b!"%d Dateien"]⟩ (by simp [catHi]) b!"%d files" rfl 12 b!"12"
    ⟨[], [], b!"12", [], 12, rfl, by simp, ⟨by decide, by decide, by decide⟩, by simp, .inl ⟨.inl rfl, rfl⟩⟩ ⟨by decide, by decide⟩
    b!"%d Dateien" (by decide +kernel) (by decide)).1 rfl

-- … and run
example : seen (tinygettextTest demoSys b!"t" [b!"translate", b!"lo/de.po", b!"cat"] start) =
    some (0, [.out b!"TRANSLATION: \"\"\"", .err b!"tinygettext: Couldn't translate: cat\n", .out b!"cat\"\"\"\n"]) := by decide +kernel
example : seen (tinygettextTest demoSys b!"t" [b!"translate", b!"lo/de.po", b!"menu", b!"potato"] start) = some (0, [.out b!"Kartoffel\n"]) := by decide +kernel
example : seen (tinygettextTest demoSys b!"t" [b!"translate", b!"hi.po", b!"a", b!"b", b!"12"] start) =
    some (0, [.out b!"Exception: Couldn't open hi.po\n"]) := by decide +kernel

example : seen (tinygettextTest demoSys b!"t" [b!"translate", b!"hi/de.po", b!"%d file", b!"%d files", b!" -1x"] start) =
    some (0, [.out b!"%d Dateien\n"]) := by decide +kernel

-- C68
example : seen (tinygettextTest demoSys b!"t" [b!"language", b!"de_AT"] start) =
    some (0, [.out b!"Env:       de_AT\n", .out b!"Name:      German (Austria)\n", .out b!"Language:  de\n", .out b!"Country:   AT\n",
      .out b!"Modifier:  \n"]) := by decide +kernel
example : seen (tinygettextTest demoSys b!"t" [b!"language", b!"Klingon"] start) = some (0, [.out b!"not found\n"]) := by decide +kernel

end Tgt
