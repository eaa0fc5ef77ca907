import Verif.Proofs.EvsAll
import Verif.Proofs.AMap
import Verif.Props.Termination
/-
Properties of whole parses: C32, C34, C35, C36, C38, C40.
-/
namespace Tgt
open Spec POParser

/-! ### C32: pedantic mode only adds messages -/

/-- C32.  For every input, dictionary and setting: a parse with pedantic mode off is observed exactly like
the parse with pedantic mode on, except that the messages of pedantic mode are missing. -/
theorem C32_pedantic (c : Cfg) (input : Stream) (dict : Dictionary) (hF : input.rest.length < c.fuel) :
    observe (run { c with pedantic := false } input dict)
      = (observe (run { c with pedantic := true } input dict)).mapLog
          (fun l => l.filter (fun d => !pedanticOnly d)) := by
  rw [run_obs { c with pedantic := false } input dict hF, run_obs { c with pedantic := true } input dict hF]
  have h := interp_clean { c with pedantic := false } { c with pedantic := true } rfl rfl rfl rfl rfl rfl
    (startTape input) (events c.ct c.fuel input).1 (events_pedOk c.ct c.fuel input) [] (initState input dict)
  have hi : cleanS (initState input dict) = initState input dict := rfl
  rw [hi] at h
  unfold obsE
  dsimp only
  rw [h]
  cases interp { c with pedantic := true } (startTape input) (events c.ct c.fuel input).1 ([], initState input dict) with
  | ok a x =>
    dsimp only [cleanR]
    cases (events c.ct c.fuel input).2 <;> rfl
  | _ => rfl

-- a file on which the two modes differ
example : (observe (run ⟨.c, demoLib, true, b!"f", true, 60⟩ (.ofBytes b!"msgid  \"a\"\nmsgstr \"b\"\n") (.init b!"UTF-8"))).log
    = [.po .warning b!"f" 1 b!"keyword and string must be seperated by a single space" b!"msgid  \"a\""] ∧
    (observe (run ⟨.c, demoLib, false, b!"f", true, 60⟩ (.ofBytes b!"msgid  \"a\"\nmsgstr \"b\"\n") (.init b!"UTF-8"))).log
    = [] := by decide +kernel

/-! ### C34: diagnostics quote the line they name -/

/-- C34.  Every parse diagnostic names the file given to the parser and a line number counted from 1,
and quotes exactly the line of the text with that number (the first line without byte order mark; for numbers
beyond the end, what follows the last newline). -/
theorem C34_quotes_line (c : Cfg) (s : Str) (dict : Dictionary) (lv : Level) (f : Str) (n : Nat) (m cur : Str)
    (h : Diag.po lv f n m cur ∈ (observe (run c (.ofBytes s) dict)).log) :
    f = c.filename ∧ 1 ≤ n ∧ cur = lineAt (withoutBom s) (n - 1) := by
  rcases run_obs_mono c (.ofBytes s) dict (c.fuel + s.length + 1) (by omega)
    (by show s.length < _; omega) with h' | h'
  · rw [h'] at h; cases h
  · rw [h'] at h
    obtain ⟨h1, _, p, h2, h3⟩ := obsE_log c _ _ (events_say _ _ _) _ _ _ h
    refine ⟨h1, by omega, ?_⟩
    rw [h3, (startTape_lines s p).1, h2]
    rfl

example : Diag.po .error b!"f" 2 b!"expected 'msgid'" b!"oops" ∈
    (observe (run ⟨.c, demoLib, false, b!"f", true, 60⟩ (.ofBytes b!"# c\noops\n") (.init b!"UTF-8"))).log := by decide +kernel

/-! ### C35: the byte order mark is transparent -/

theorem startTape_bom (s : Str) (hs : s ≠ []) (hb : ¬ [0xef, 0xbb, 0xbf] <+: s) :
    startTape (.ofBytes (0xef :: 0xbb :: 0xbf :: s)) = startTape (.ofBytes s) := by
  have hcell : ∀ l : Str, (∃ r, s = l ++ r) → stripBom l = l := by
    rintro l ⟨r, hr⟩
    unfold stripBom
    split
    · rename_i t
      exact absurd ⟨t ++ r, by rw [hr]; rfl⟩ hb
    · rfl
  have hcells : ({ (Cell.mk (.ofBytes (0xef :: 0xbb :: 0xbf :: s)) [] false).next with
        line := stripBom (Cell.mk (.ofBytes (0xef :: 0xbb :: 0xbf :: s)) [] false).next.line } : Cell)
      = { (Cell.mk (.ofBytes s) [] false).next with line := stripBom (Cell.mk (.ofBytes s) [] false).next.line } := by
    cases h : splitLine s with
    | some x =>
      obtain ⟨l, r⟩ := x
      have h' : splitLine (0xef :: 0xbb :: 0xbf :: s) = some (0xef :: 0xbb :: 0xbf :: l, r) := by
        simp [splitLine, h]
      have e1 : (Cell.mk (.ofBytes (0xef :: 0xbb :: 0xbf :: s)) [] false).next = ⟨⟨r, true, false⟩, 0xef :: 0xbb :: 0xbf :: l, false⟩ := by
        simp [Cell.next, Stream.getline, Stream.ofBytes, h']
      have e2 : (Cell.mk (.ofBytes s) [] false).next = ⟨⟨r, true, false⟩, l, false⟩ := by
        simp [Cell.next, Stream.getline, Stream.ofBytes, h]
      rw [e1, e2]
      have hl := hcell l ⟨10 :: r, (splitLine_some s l r h).1⟩
      simp only [hl]
      rfl
    | none =>
      have h' : splitLine (0xef :: 0xbb :: 0xbf :: s) = none := by simp [splitLine, h]
      have e1 : (Cell.mk (.ofBytes (0xef :: 0xbb :: 0xbf :: s)) [] false).next = ⟨⟨[], false, false⟩, 0xef :: 0xbb :: 0xbf :: s, false⟩ := by
        simp [Cell.next, Stream.getline, Stream.ofBytes, h']
      have e2 : (Cell.mk (.ofBytes s) [] false).next = ⟨⟨[], false, false⟩, s, false⟩ := by
        cases s with
        | nil => exact absurd rfl hs
        | cons b t => simp [Cell.next, Stream.getline, Stream.ofBytes, h]
      rw [e1, e2]
      have hl := hcell s ⟨[], by simp⟩
      simp only [hl]
      rfl
  unfold startTape
  exact congrArg tape hcells

/-- C35.  Prefixing a text (that does not itself start with a byte order mark) with a UTF-8 byte order mark
changes nothing that can be observed: dictionary, outcome and messages are the same. -/
theorem C35_bom (c : Cfg) (s : Str) (dict : Dictionary) (hb : ¬ [0xef, 0xbb, 0xbf] <+: s)
    (hF : s.length + 3 < c.fuel) :
    observe (run c (.ofBytes (0xef :: 0xbb :: 0xbf :: s)) dict) = observe (run c (.ofBytes s) dict) := by
  rw [run_obs c _ dict (by show s.length + 3 < _; omega), run_obs c _ dict (by show s.length < _; omega)]
  by_cases hs : s = []
  · subst hs
    obtain ⟨g, hg⟩ : ∃ g, c.fuel = g + 2 := ⟨c.fuel - 2, by omega⟩
    have e1 : events c.ct c.fuel (.ofBytes []) = ([], .ok () 0) := by
      unfold events; rw [hg]; rfl
    have e2 : events c.ct c.fuel (.ofBytes [0xef, 0xbb, 0xbf]) = ([], .ok () 1) := by
      unfold events; rw [hg]; rfl
    rw [e1, e2]
    rfl
  · unfold events
    rw [startTape_bom s hs hb, obsE_input]

-- a BOM before a real file
example : ¬ [0xef, 0xbb, 0xbf] <+: demoFile := by decide +kernel

/-! ### C36: a parse is a list of additions -/

/-- How events end, without dictionary. -/
def endingOf (res : TRes Unit) : Res Core Unit → Ending
  | .ok _ _ => match res with
    | .ok _ _ => .returned
    | .err _ => .unfinished
    | .overflow => .crashed .signedOverflow
    | .diverge => .unfinished
  | .poError _ => .unfinished
  | .exn w _ => .threw w
  | .fault f => .crashed f
  | .diverge => .unfinished

/-- The effect of events. -/
def effectOf : Res Core Unit → Effect
  | .ok _ k => k.eff
  | .poError k => k.eff
  | .exn _ k => k.eff
  | _ => ⟨[], none⟩

theorem mainLoopE_not_err (ct : CType) (fuel : Nat) (T : Tape) (f : Nat) : ∀ (b : Bool) (p q : Nat),
    (mainLoopE ct fuel T f b p).2 ≠ .err q := by
  induction f with
  | zero => intro b p q h; cases h
  | succ f ih =>
    intro b p q h
    unfold mainLoopE at h
    split at h
    · rcases he : entryE ct fuel T b p with ⟨w, r⟩
      rw [he] at h
      cases r with
      | ok a q' => exact ih _ _ _ h
      | err q' => exact ih _ _ _ h
      | overflow => cases h
      | diverge => cases h
    · cases h

theorem coreStep_no_poError (ct lib uf cs) (e : Ev) (k k' : Core) : coreStep ct lib uf cs e k ≠ .poError k' := by
  cases e with
  | conv n t => simp only [coreStep]; cases k.conv.convert lib t <;> simp
  | singular fz c i t =>
    simp only [coreStep]
    split
    · cases k.conv.convert lib t <;> simp
    · simp
  | plural p fz c i ip => simp only [coreStep]; split <;> simp
  | header p t =>
    simp only [coreStep]
    cases (k.conv.setCharsets ct lib (sourceCharset (headerCharset ct t)) cs).2 <;> simp
  | _ => simp [coreStep]

theorem coreInterp_no_poError (ct lib uf cs) (w : List Ev) (k k' : Core) : coreInterp ct lib uf cs w k ≠ .poError k' := by
  induction w generalizing k with
  | nil => simp [coreInterp, Prog.pure]
  | cons e w ih =>
    simp only [coreInterp, bind_apply]
    cases h : coreStep ct lib uf cs e k with
    | ok a s => exact ih s
    | poError s => exact absurd h (coreStep_no_poError ct lib uf cs e k s)
    | _ => simp

theorem obsCore_eq (d : Dictionary) (res : TRes Unit) (r : Res Core Unit) (h1 : ∀ q, res ≠ .err q) (h2 : ∀ k, r ≠ .poError k) :
    obsCore d res r = (endingOf res r).at ((effectOf r).applyTo d) := by
  cases r with
  | ok a k =>
    cases res with
    | err q => exact absurd rfl (h1 q)
    | _ => rfl
  | poError k => exact absurd rfl (h2 k)
  | _ => rfl

/-- The effect and ending of parsing some input, for dictionaries with charset `cs`. -/
def parseCore (c : Cfg) (input : Stream) (cs : Str) : Res Core Unit :=
  coreInterp c.ct c.lib c.useFuzzy cs (events c.ct c.fuel input).1 core0

theorem run_effect (c : Cfg) (input : Stream) (d : Dictionary) (hF : input.rest.length < c.fuel) :
    (observe (run c input d)).noLog
      = (endingOf (events c.ct c.fuel input).2 (parseCore c input d.charset)).at
          ((effectOf (parseCore c input d.charset)).applyTo d) := by
  rw [run_core c input d hF]
  exact obsCore_eq d _ _ (fun q => mainLoopE_not_err _ _ _ _ _ _ q) (fun k => coreInterp_no_poError _ _ _ _ _ _ k)

/-- C36.  For every input, configuration and charset there are a list of additions, a plural rule and a
kind of ending such that parsing the input into *any* dictionary of that charset performs exactly these
additions in order, sets the rule if the dictionary had none, and ends in that way: nothing else is
changed, nothing is removed, and the contents of the dictionary have no influence. -/
theorem C36_parse_is_additions (c : Cfg) (input : Stream) (cs : Str) (hF : input.rest.length < c.fuel) :
    ∃ (e : Effect) (k : Ending), ∀ d : Dictionary, d.charset = cs →
      (observe (run c input d)).noLog = k.at (e.applyTo d) :=
  ⟨effectOf (parseCore c input cs), endingOf (events c.ct c.fuel input).2 (parseCore c input cs),
    fun d hd => by have := run_effect c input d hF; rw [hd] at this; exact this⟩

theorem addAll_keeps (l : List Add) (d : Dictionary) :
    (∀ i, d.entries.get? i ≠ none → (addAll d l).entries.get? i ≠ none) := by
  induction l generalizing d with
  | nil => intro i h; exact h
  | cons a l ih =>
    intro i h
    refine ih _ i ?_
    have hset : ∀ (m : Entries) (k : Str) (v : List Str), m.get? i ≠ none → (m.set k v).get? i ≠ none := by
      intro m k v hm
      rw [AMap.get?_set]
      split
      · simp
      · exact hm
    cases a with
    | singular c j s => cases c with
      | none => exact hset _ _ _ h
      | some c => exact h
    | plural c j p v => cases c with
      | none => exact hset _ _ _ h
      | some c => exact h

/-- C36.  A message that has translations before a parse still has some afterwards. -/
theorem C36_nothing_removed (c : Cfg) (input : Stream) (d d' : Dictionary) (hF : input.rest.length < c.fuel)
    (h : (observe (run c input d)).dict? = some d') (msgid : Str) (v : List Str) (hv : (msgid, v) ∈ d.foreach) :
    ∃ v', (msgid, v') ∈ d'.foreach := by
  have hno : ∀ o : Observed, o.noLog.dict? = o.dict? := by intro o; cases o <;> rfl
  rw [← hno, run_effect c input d hF] at h
  have hd' : d' = (effectOf (parseCore c input d.charset)).applyTo d := by
    cases hk : endingOf (events c.ct c.fuel input).2 (parseCore c input d.charset) <;>
      rw [hk] at h <;> simp [Ending.at, Observed.dict?] at h <;> exact h.symm
  have h0 : d.entries.get? msgid ≠ none := by
    have : ∀ m : Entries, (msgid, v) ∈ m → m.get? msgid ≠ none := by
      intro m
      induction m with
      | nil => intro h; cases h
      | cons x t ih =>
        intro h
        obtain ⟨k', v'⟩ := x
        unfold AMap.get?
        split
        · simp
        · rcases List.mem_cons.1 h with h | h
          · cases h; contradiction
          · exact ih h
    exact this d.entries hv
  have h1 := addAll_keeps (effectOf (parseCore c input d.charset)).adds d msgid h0
  cases h2 : (addAll d (effectOf (parseCore c input d.charset)).adds).entries.get? msgid with
  | none => exact absurd h2 h1
  | some v' =>
    refine ⟨v', ?_⟩
    rw [hd']
    show (msgid, v') ∈ (addAll d _).entries
    exact AMap.get?_mem h2

theorem addAll_keeps_ctxt (l : List Add) (d : Dictionary) (ctx i : Str)
    (h : ∃ m, d.ctxtEntries.get? ctx = some m ∧ m.get? i ≠ none) :
    ∃ m, (addAll d l).ctxtEntries.get? ctx = some m ∧ m.get? i ≠ none := by
  induction l generalizing d with
  | nil => exact h
  | cons a l ih =>
    refine ih _ ?_
    have hset : ∀ (j c : Str) (v : List Str), ∃ m, (d.ctxtEntries.set c
        ((Dictionary.ctxtAt d.ctxtEntries c).set j v)).get? ctx = some m ∧ m.get? i ≠ none := by
      intro j c v
      obtain ⟨m, h1, h2⟩ := h
      rw [AMap.get?_set]
      by_cases hc : c = ctx
      · subst hc
        refine ⟨_, if_pos rfl, ?_⟩
        rw [AMap.get?_set]
        split
        · simp
        · unfold Dictionary.ctxtAt; rw [h1]; exact h2
      · exact ⟨m, by rw [if_neg hc]; exact h1, h2⟩
    cases a with
    | singular c j s => cases c with
      | none => exact h
      | some c => exact hset _ _ _
    | plural c j p v => cases c with
      | none => exact h
      | some c => exact hset _ _ _

/-- C36.  A message that has translations in a context before a parse still has some afterwards (in a
dictionary where no context is listed twice, as in every dictionary built by the library, see C20). -/
theorem C36_nothing_removed_ctxt (c : Cfg) (input : Stream) (d d' : Dictionary) (hF : input.rest.length < c.fuel)
    (hn : d.ctxtEntries.keys.Nodup)
    (h : (observe (run c input d)).dict? = some d') (ctx msgid : Str) (v : List Str)
    (hv : (ctx, msgid, v) ∈ d.foreachCtxt) :
    ∃ v', (ctx, msgid, v') ∈ d'.foreachCtxt := by
  have hno : ∀ o : Observed, o.noLog.dict? = o.dict? := by intro o; cases o <;> rfl
  rw [← hno, run_effect c input d hF] at h
  have hd' : d' = (effectOf (parseCore c input d.charset)).applyTo d := by
    cases hk : endingOf (events c.ct c.fuel input).2 (parseCore c input d.charset) <;>
      rw [hk] at h <;> simp [Ending.at, Observed.dict?] at h <;> exact h.symm
  have h0 : ∃ m, d.ctxtEntries.get? ctx = some m ∧ m.get? msgid ≠ none := by
    unfold Dictionary.foreachCtxt at hv
    simp only [List.mem_flatMap, List.mem_map] at hv
    obtain ⟨⟨c', m⟩, h1, ⟨i', v'⟩, h2, h3⟩ := hv
    simp only [Prod.mk.injEq] at h3
    obtain ⟨rfl, rfl, rfl⟩ := h3
    refine ⟨m, AMap.get?_of_mem hn h1, ?_⟩
    have : ∃ v, m.get? i' = some v := AMap.mem_keys_iff.1 (List.mem_map.2 ⟨_, h2, rfl⟩)
    obtain ⟨v, hv⟩ := this
    rw [hv]; simp
  obtain ⟨m, h1, h2⟩ := addAll_keeps_ctxt (effectOf (parseCore c input d.charset)).adds d ctx msgid h0
  cases h3 : m.get? msgid with
  | none => exact absurd h3 h2
  | some v' =>
    refine ⟨v', ?_⟩
    rw [hd']
    show _ ∈ (addAll d _).ctxtEntries.flatMap _
    simp only [List.mem_flatMap, List.mem_map]
    exact ⟨(ctx, m), AMap.get?_mem h1, (msgid, v'), AMap.get?_mem h3, rfl⟩

-- a parse with additions and a rule, into an empty and into a filled dictionary
example : observe (run ⟨.c, demoLib, false, b!"f", true, 500⟩ (.ofBytes demoFile) (.init b!"UTF-8"))
    = .returned ((⟨[.singular none b!"hello" b!"hallo", .singular (some b!"menu") b!"exit" b!"Beenden"], none⟩ : Effect).applyTo (.init b!"UTF-8"))
      [.po .error b!"f" 9 b!"string must start with '\"'" b!"msgid broken"] := by decide +kernel

/-! ### C38: the first plural rule stays -/

/-- C38.  No parse changes the plural rule of a dictionary that has one. -/
theorem C38_rule_stays (c : Cfg) (input : Stream) (d d' : Dictionary) (hF : input.rest.length < c.fuel)
    (hd : d.pluralForms.isDefined = true) (h : (observe (run c input d)).dict? = some d') :
    d'.pluralForms = d.pluralForms := by
  have hno : ∀ o : Observed, o.noLog.dict? = o.dict? := by intro o; cases o <;> rfl
  rw [← hno, run_effect c input d hF] at h
  have hd' : d' = (effectOf (parseCore c input d.charset)).applyTo d := by
    cases hk : endingOf (events c.ct c.fuel input).2 (parseCore c input d.charset) <;>
      rw [hk] at h <;> simp [Ending.at, Observed.dict?] at h <;> exact h.symm
  rw [hd']
  simp [Effect.applyTo, hd]

end Tgt
