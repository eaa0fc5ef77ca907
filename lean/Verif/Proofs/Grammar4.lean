import Verif.Proofs.Grammar3
import Verif.Spec.PoLog
/-
Messages of strictly well-formed files.
-/
namespace Tgt.POParser
open Spec Spec.Po

/-- What a parse accumulates, messages without their place included. -/
structure LState where
  vec : List Str
  conv : IConv
  dict : Dictionary
  log : List Diag

/-- Events, interpreted with unplaced messages. -/
def lStep (ct : CType) (lib : IconvLib) (uf : Bool) (file : Str) (ped : Bool) (e : Ev) : Prog LState Unit := fun k =>
  match e with
  | .diag lv _ m p =>
    if p && !ped then .ok () k else .ok () { k with log := k.log ++ [.po lv file 0 m []] }
  | .clear => .ok () { k with vec := [] }
  | .conv n t =>
    match k.conv.convert lib t with
    | .ok r cv l => .ok () { k with vec := setAt k.vec n r, conv := cv, log := k.log ++ l }
    | .fault f => .fault f
  | .singular fz ctxt id t =>
    if uf || !fz then
      match k.conv.convert lib t with
      | .ok r cv l => .ok () { k with
          conv := cv
          dict := ((Add.singular ctxt id r).apply k.dict).1
          log := k.log ++ l ++ ((Add.singular ctxt id r).apply k.dict).2 }
      | .fault f => .fault f
    else .ok () k
  | .plural _ fz ctxt id idp =>
    if uf || !fz then
      .ok () { k with
        dict := ((Add.plural ctxt id idp k.vec).apply k.dict).1
        log := k.log ++ (pluralWarnings k.dict.pluralForms k.vec.length).map (Diag.po .warning file 0 · []) ++
          ((Add.plural ctxt id idp k.vec).apply k.dict).2 }
    else .ok () k
  | .header _ t =>
    match k.conv.setCharsets ct lib (Po.sourceCharset ct t) k.dict.charset with
    | (cv, none) => .ok () { k with
        conv := cv, dict := withHeaderRule ct t k.dict
        log := k.log ++ (headerWarnings ct k.dict.pluralForms t).map (Diag.po .warning file 0 · []) }
    | (cv, some w) => .exn w { k with
        conv := cv, dict := withHeaderRule ct t k.dict
        log := k.log ++ (headerWarnings ct k.dict.pluralForms t).map (Diag.po .warning file 0 · []) }

def lInterp (ct : CType) (lib : IconvLib) (uf : Bool) (file : Str) (ped : Bool) : List Ev → Prog LState Unit
  | [] => Prog.pure ()
  | e :: w => Prog.bind (lStep ct lib uf file ped e) (fun _ => lInterp ct lib uf file ped w)

theorem lInterp_append (ct lib uf file ped) (w1 w2 : List Ev) (k : LState) :
    lInterp ct lib uf file ped (w1 ++ w2) k
      = Prog.bind (lInterp ct lib uf file ped w1) (fun _ => lInterp ct lib uf file ped w2) k := by
  induction w1 generalizing k with
  | nil => rfl
  | cons e w ih =>
    simp only [List.cons_append, lInterp, bind_apply]
    cases lStep ct lib uf file ped e k with
    | ok a s => exact ih s
    | _ => rfl

/-- The part of a state. -/
def lOf (x : List Str × PState) : LState := ⟨x.1, x.2.conv, x.2.dict, x.2.log.map unplaced⟩

def lRes : Res (List Str × PState) Unit → Res LState Unit
  | .ok a x => .ok a (lOf x)
  | .poError x => .poError (lOf x)
  | .exn w x => .exn w (lOf x)
  | .fault f => .fault f
  | .diverge => .diverge

theorem hdr_unplaced (c : Cfg) (n : Nat) (cur : Str) : ∀ (ls : List Str) (d : Dictionary) (log : List Diag),
    ∃ p, (hdrEffects c n cur ls (d, log)).1 = { d with pluralForms := p } ∧
    (hdrEffects c n cur ls (d, log)).2.map unplaced
      = log.map unplaced ++ (headerMessages c.ct d.pluralForms ls).map (Diag.po .warning c.filename 0 · []) ∧
    p = if d.pluralForms.isDefined then d.pluralForms else (firstRule c.ct ls).getD d.pluralForms := by
  intro ls
  induction ls with
  | nil =>
    intro d log
    refine ⟨d.pluralForms, rfl, ?_, ?_⟩
    · simp [hdrEffects, headerMessages]
    · simp [firstRule]
  | cons l ls ih =>
    intro d log
    have hcons : hdrEffects c n cur (l :: ls) (d, log) = hdrEffects c n cur ls (hdrEffect c n cur (d, log) l) := rfl
    rw [hcons]
    unfold hdrEffect headerMessages firstRule
    by_cases h1 : hasPrefix b!"Content-Type:" l = true
    · have h1' := h1
      unfold hasPrefix at h1'
      simp only [h1, h1', if_true, Bool.not_true, Bool.false_and, Bool.false_eq_true, if_false]
      by_cases h2 : hasPrefix b!"Content-Type: text/plain; charset=" l = true
      · have h2' := h2
        unfold hasPrefix at h2'
        simp only [h2, h2', if_true]
        exact ih d log
      · have h2' : ¬ (b!"Content-Type: text/plain; charset=".isPrefixOf l = true) := h2
        rw [if_neg h2, if_neg h2']
        obtain ⟨p, e1, e2, e3⟩ := ih d (log ++ [.po .warning c.filename n b!"malformed Content-Type header" cur])
        refine ⟨p, e1, ?_, e3⟩
        rw [e2]; simp [unplaced]
    · have h1' : ¬ (b!"Content-Type:".isPrefixOf l = true) := h1
      have h1b : hasPrefix b!"Content-Type:" l = false := by simpa using h1
      rw [if_neg h1, if_neg h1']
      simp only [h1b, Bool.not_false, Bool.true_and]
      by_cases h2 : hasPrefix b!"Plural-Forms:" l = true
      · have h2' := h2
        unfold hasPrefix at h2'
        simp only [h2, h2', if_true, Bool.true_and]
        by_cases h3 : (PluralForms.fromString c.ct l).isDefined = true
        · simp only [h3, Bool.not_true, Bool.false_eq_true, if_false, if_true, reduceCtorEq]
          by_cases h4 : d.pluralForms.isDefined = true
          · simp only [h4, Bool.not_true, Bool.false_eq_true, if_false, if_true, reduceCtorEq]
            by_cases h5 : d.pluralForms = PluralForms.fromString c.ct l
            · rw [if_neg (by simpa using h5), if_neg (by simpa using h5)]
              obtain ⟨p, e1, e2, e3⟩ := ih d log
              rw [if_pos h4] at e3
              exact ⟨p, e1, e2, e3⟩
            · rw [if_pos h5, if_pos h5]
              obtain ⟨p, e1, e2, e3⟩ := ih d (log ++ [.po .warning c.filename n b!"Plural-Forms missmatch between .po file and dictionary" cur])
              rw [if_pos h4] at e3
              refine ⟨p, e1, ?_, e3⟩
              rw [e2]; simp [unplaced]
          · have h4b : d.pluralForms.isDefined = false := by simpa using h4
            simp only [h4b, Bool.not_false, if_true, Bool.false_eq_true, if_false]
            obtain ⟨p, e1, e2, e3⟩ := ih (d.setPluralForms (PluralForms.fromString c.ct l)) log
            have hp : (d.setPluralForms (PluralForms.fromString c.ct l)).pluralForms = PluralForms.fromString c.ct l := rfl
            rw [hp] at e2 e3
            rw [if_pos h3] at e3
            refine ⟨p, e1, e2, ?_⟩
            rw [e3]; rfl
        · have h3b : (PluralForms.fromString c.ct l).isDefined = false := by simpa using h3
          simp only [h3b, Bool.not_false, if_true, Bool.false_eq_true, if_false]
          obtain ⟨p, e1, e2, e3⟩ := ih d (log ++ [.po .warning c.filename n b!"unknown Plural-Forms given" cur])
          refine ⟨p, e1, ?_, e3⟩
          rw [e2]; simp [unplaced]
      · have h2' : ¬ (b!"Plural-Forms:".isPrefixOf l = true) := h2
        have h2b : hasPrefix b!"Plural-Forms:" l = false := by simpa using h2
        rw [if_neg h2, if_neg h2']
        simp only [h2b, Bool.false_and, Bool.false_eq_true, if_false]
        exact ih d log

theorem unplaced_id (l : List Diag) (h : ∀ x ∈ l, ∀ lv f n m cur, x ≠ .po lv f n m cur) : l.map unplaced = l := by
  induction l with
  | nil => rfl
  | cons x l ih =>
    rw [List.map_cons, ih (fun y hy => h y (List.mem_cons_of_mem _ hy))]
    have := h x List.mem_cons_self
    cases x with
    | po lv f n m cur => exact absurd rfl (this lv f n m cur)
    | _ => rfl

theorem unplaced_apply (d : Dictionary) (a : Add) : (a.apply d).2.map unplaced = (a.apply d).2 := by
  apply unplaced_id
  intro x hx lv f n m cur
  rcases apply_quotes d a x hx with ⟨_, _, _, _, _, rfl⟩ | ⟨_, _, _, _, rfl⟩ <;> simp

theorem unplaced_convert {lib : IconvLib} {cv cv' : IConv} {t r : Str} {l : List Diag} (h : cv.convert lib t = .ok r cv' l) :
    l.map unplaced = l := by
  apply unplaced_id
  intro x hx lv f n m cur
  obtain ⟨y, rfl⟩ := convert_quotes _ _ _ _ _ _ h x hx
  simp

theorem lStep_eq (c : Cfg) (T : Tape) (e : Ev) (x : List Str × PState) :
    lRes (evStep c T e x) = lStep c.ct c.lib c.useFuzzy c.filename c.pedantic e (lOf x) := by
  obtain ⟨v, s⟩ := x
  cases e with
  | diag lv p m ped =>
    simp only [evStep, lStep]
    split
    · rfl
    · simp [lRes, lOf, unplaced]
  | clear => rfl
  | conv n t =>
    simp only [evStep, lStep, convert, lOf]
    cases h : s.conv.convert c.lib t with
    | ok r cv l => simp [lRes, lOf, unplaced_convert h]
    | fault f => rfl
  | singular fz ctxt id t =>
    simp only [evStep, lStep, convert, lOf]
    split
    · cases h : s.conv.convert c.lib t with
      | ok r cv l => simp [lRes, lOf, unplaced_convert h, unplaced_apply]
      | fault f => rfl
    · rfl
  | plural p fz ctxt id idp =>
    simp only [evStep, lStep, lOf]
    split
    · simp only [lRes, lOf, List.map_append, unplaced_apply]
      have : List.map unplaced (if !s.dict.pluralForms.isDefined then
            [.po .warning c.filename (p + 1) b!"msgstr[N] seen, but no Plural-Forms given" (T p).line]
          else if v.length ≠ s.dict.pluralForms.getNplural then
            [.po .warning c.filename (p + 1) b!"msgstr[N] count doesn't match Plural-Forms.nplural" (T p).line]
          else []) = (pluralWarnings s.dict.pluralForms v.length).map (Diag.po .warning c.filename 0 · []) := by
        unfold pluralWarnings
        cases s.dict.pluralForms.isDefined with
        | false => rfl
        | true =>
          simp only [Bool.not_true, Bool.false_eq_true, if_false, reduceCtorEq]
          split <;> rfl
      rw [this]
    · rfl
  | header p t =>
    simp only [evStep, lStep]
    rw [parseHeader_eq]
    obtain ⟨pf, e1, e2, e3⟩ := hdr_unplaced c (mv T s p).lineNumber (mv T s p).currentLine (headerLines t []) s.dict s.log
    rw [firstRule_eq] at e3
    have hdict : (afterHeader c t (mv T s p)).dict = withHeaderRule c.ct t s.dict := by
      show (hdrEffects c (mv T s p).lineNumber (mv T s p).currentLine (headerLines t []) (s.dict, s.log)).1 = _
      rw [e1, e3]; rfl
    have hlog : (afterHeader c t (mv T s p)).log.map unplaced
        = s.log.map unplaced ++ (headerWarnings c.ct s.dict.pluralForms t).map (Diag.po .warning c.filename 0 · []) := by
      show ((hdrEffects c (mv T s p).lineNumber (mv T s p).currentLine (headerLines t []) (s.dict, s.log)).2 ++
        (if (headerCharset c.ct t).isEmpty || headerCharset c.ct t = b!"CHARSET" then
        [Diag.po .warning c.filename (mv T s p).lineNumber b!"charset not specified for .po, fallback to utf-8" (mv T s p).currentLine]
        else [])).map unplaced = _
      rw [List.map_append, e2, headerLines_nil]
      unfold headerWarnings
      rw [headerCharset_eq]
      by_cases h : declaredCharset c.ct t = [] ∨ declaredCharset c.ct t = b!"CHARSET"
      · rw [if_pos h, if_pos (by simpa using h)]; simp [unplaced]
      · rw [if_neg h, if_neg (by simpa using h)]; simp
    have hcv : (afterHeader c t (mv T s p)).conv = s.conv := rfl
    unfold setCharsets
    rw [hcv, hdict, sourceCharset_eq]
    have hcs : (withHeaderRule c.ct t s.dict).charset = s.dict.charset := rfl
    rw [hcs]
    simp only [lOf]
    generalize IConv.setCharsets c.ct c.lib s.conv (Po.sourceCharset c.ct t) s.dict.charset = g
    obtain ⟨cv, o⟩ := g
    cases o with
    | none => simp only [lRes, lOf, hdict, hlog]
    | some w => simp only [lRes, lOf, hdict, hlog]

theorem lInterp_eq (c : Cfg) (T : Tape) (w : List Ev) (x : List Str × PState) :
    lRes (interp c T w x) = lInterp c.ct c.lib c.useFuzzy c.filename c.pedantic w (lOf x) := by
  induction w generalizing x with
  | nil => rfl
  | cons e w ih =>
    simp only [interp, lInterp, bind_apply]
    rw [← lStep_eq c T e x]
    cases evStep c T e x with
    | ok a y => exact ih y
    | _ => rfl

theorem lStep_norm (ct lib uf file ped) (e : Ev) : lStep ct lib uf file ped e.norm = lStep ct lib uf file ped e := by
  cases e <;> rfl

theorem lInterp_norm (ct lib uf file ped) (w : List Ev) (k : LState) :
    lInterp ct lib uf file ped (w.map Ev.norm) k = lInterp ct lib uf file ped w k := by
  induction w generalizing k with
  | nil => rfl
  | cons e w ih =>
    simp only [List.map_cons, lInterp, bind_apply, lStep_norm]
    cases lStep ct lib uf file ped e k with
    | ok a s => exact ih s
    | _ => rfl

/-- What is visible of an accumulated state. -/
def lObs : Res LState Unit → Observed
  | .ok _ k => .returned k.dict k.log
  | .poError k => .threwPo k.dict k.log
  | .exn w k => .threw w k.dict k.log
  | .fault f => .crashed f
  | .diverge => .unfinished

theorem convertAll_lInterp (ct lib uf file ped) (strs : List (Nat × Str)) (k : LState) :
    lInterp ct lib uf file ped (strs.map (fun x => Ev.conv x.1 x.2)) k
      = match convertAll lib k.conv strs with
        | .error f => .fault f
        | .ok (strs', cv) => .ok () { k with
            vec := strs'.foldl (fun v x => setAt v x.1 x.2) k.vec, conv := cv
            log := k.log ++ convertMessages lib k.conv strs } := by
  induction strs generalizing k with
  | nil => simp [lInterp, convertAll, convertMessages, Prog.pure]
  | cons x strs ih =>
    obtain ⟨n, t⟩ := x
    simp only [List.map_cons, lInterp, bind_apply, lStep, convertAll, convertMessages]
    cases hc : k.conv.convert lib t with
    | fault f => rfl
    | ok t' cv' l =>
      dsimp only
      rw [ih]
      dsimp only
      cases convertAll lib cv' strs with
      | error f => rfl
      | ok y => simp [List.append_assoc]

theorem loadFull_eq (ct lib uf file ped) (es : List Entry)
    (hes : ∀ e ∈ es, ∀ idp, e.body ≠ .plural idp []) : ∀ (k : LState),
    lObs (lInterp ct lib uf file ped (es.flatMap evsOf) k) = loadFull ct lib uf file es k.conv k.dict k.log := by
  induction es with
  | nil => intro k; rfl
  | cons e es ih =>
    intro k
    have ih := ih (fun x hx => hes x (List.mem_cons_of_mem _ hx))
    rw [List.flatMap_cons, lInterp_append, bind_apply]
    unfold loadFull
    have hne := hes e List.mem_cons_self
    cases hb : e.body with
    | single t =>
      have hev : evsOf e = if e.msgid.isEmpty then [.header 0 t] else if !t.isEmpty then [.singular e.fuzzy e.ctxt e.msgid t] else [] := by
        unfold evsOf; rw [hb]
      have hhd : e.header? = if e.msgid = [] then some t else none := by
        unfold Entry.header?; rw [hb]
      rw [hev, hhd]
      by_cases h1 : e.msgid = []
      · rw [if_pos (by simp [h1]), if_pos h1]
        dsimp only
        simp only [lInterp, bind_apply, lStep]
        generalize k.conv.setCharsets ct lib (Po.sourceCharset ct t) k.dict.charset = g
        obtain ⟨cv, o⟩ := g
        cases o with
        | none =>
          dsimp only
          simp only [Prog.pure]
          rw [ih]
        | some w => rfl
      · rw [if_neg (by simpa using h1), if_neg h1]
        dsimp only
        by_cases h2 : t = []
        · subst h2
          rw [if_neg (by simp), if_neg (by simp)]
          simp only [lInterp, Prog.pure]
          rw [ih]
        · rw [if_pos (by simpa using h2)]
          simp only [lInterp, bind_apply, lStep]
          by_cases h3 : uf = true ∨ e.fuzzy = false
          · rw [if_pos (by simpa using h3), if_pos ⟨h2, h3⟩]
            cases hc : k.conv.convert lib t with
            | fault f => rfl
            | ok t' cv' l =>
              dsimp only
              simp only [Prog.pure]
              rw [ih]
          · rw [if_neg (by simpa using h3), if_neg (fun h => h3 h.2)]
            simp only [Prog.pure]
            rw [ih]
    | plural idp strs =>
      have hs : strs ≠ [] := by intro h; rw [h] at hb; exact hne idp hb
      have hev : evsOf e = [Ev.clear] ++ (strs.map (fun x => Ev.conv x.1 x.2) ++
          (if strs.any (fun x => !x.2.isEmpty) then [.plural 0 e.fuzzy e.ctxt e.msgid idp] else [])) := by
        unfold evsOf; rw [hb]; rfl
      have hhd : e.header? = none := by
        unfold Entry.header?; rw [hb]
      rw [hev, hhd]
      dsimp only
      rw [lInterp_append, bind_apply]
      simp only [lInterp, lStep, bind_apply, Prog.pure]
      rw [lInterp_append, bind_apply, convertAll_lInterp]
      dsimp only
      cases hc : convertAll lib k.conv strs with
      | error f => rfl
      | ok y =>
        obtain ⟨strs', cv'⟩ := y
        dsimp only
        rw [collect_eq strs' (convertAll_ne hs hc)]
        have hany : (strs.any (fun x => !x.2.isEmpty) = true) ↔ ∃ x ∈ strs, x.2 ≠ [] := by
          simp [List.any_eq_true]
        by_cases h1 : ∃ x ∈ strs, x.2 ≠ []
        · rw [if_pos (hany.2 h1)]
          simp only [lInterp, bind_apply, lStep]
          by_cases h3 : uf = true ∨ e.fuzzy = false
          · rw [if_pos (by simpa using h3), if_pos ⟨h1, h3⟩]
            simp only [Prog.pure]
            rw [ih]
          · rw [if_neg (by simpa using h3), if_neg (fun h => h3 h.2)]
            simp only [Prog.pure]
            rw [ih]
        · rw [if_neg (fun h => h1 (hany.1 h)), if_neg (fun h => h1 h.1)]
          simp only [lInterp, Prog.pure]
          rw [ih]

/-- A strictly well-formed file: everything that can be observed, messages up to their place. -/
theorem run_file_log (c : Cfg) {ls : List Str} {es : List Entry} (h : File c.ct true false ls es)
    (ht : TextOk ls) (hf : (unlines ls).length + 2 ≤ c.fuel) (d : Dictionary) :
    (observe (run c (.ofBytes (unlines ls)) d)).mapLog (List.map unplaced)
      = loadFull c.ct c.lib c.useFuzzy c.filename es .init d [] := by
  obtain ⟨w, q, e1, e2, e3⟩ := file_events h ht hf
  rw [run_obs c _ d (by show (unlines ls).length < _; omega), e1]
  have hw : w.map Ev.norm = es.flatMap evsOf := by
    rw [← e2]
    unfold essence
    congr 1
    rw [List.filter_eq_self.2]
    intro x hx
    rw [(e3 x hx).2 rfl]; rfl
  have h1 := lInterp_eq c (startTape (.ofBytes (unlines ls))) w ([], initState (.ofBytes (unlines ls)) d)
  rw [← lInterp_norm, hw] at h1
  have h2 := loadFull_eq c.ct c.lib c.useFuzzy c.filename c.pedantic es (file_strs h) (lOf ([], initState (.ofBytes (unlines ls)) d))
  rw [← h1] at h2
  have h3 : loadFull c.ct c.lib c.useFuzzy c.filename es .init d []
      = loadFull c.ct c.lib c.useFuzzy c.filename es (lOf ([], initState (.ofBytes (unlines ls)) d)).conv
        (lOf ([], initState (.ofBytes (unlines ls)) d)).dict (lOf ([], initState (.ofBytes (unlines ls)) d)).log := rfl
  rw [h3, ← h2]
  unfold obsE
  dsimp only
  cases interp c (startTape (.ofBytes (unlines ls))) w ([], initState (.ofBytes (unlines ls)) d) <;> rfl

end Tgt.POParser
