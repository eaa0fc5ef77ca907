import Verif.Proofs.Read3
import Verif.Proofs.Grammar4
/-
What the events of a text do, with all messages and their places.
-/
namespace Tgt.POParser
open Spec Spec.Po

theorem hdr_placed (c : Cfg) (n : Nat) (cur : Str) : ∀ (ls : List Str) (d : Dictionary) (log : List Diag),
    ∃ p, (hdrEffects c n cur ls (d, log)).1 = { d with pluralForms := p } ∧
    (hdrEffects c n cur ls (d, log)).2
      = log ++ (headerMessages c.ct d.pluralForms ls).map (Diag.po .warning c.filename n · cur) ∧
    p = if d.pluralForms.isDefined then d.pluralForms else (firstRule c.ct ls).getD d.pluralForms := by
  intro ls
  induction ls with
  | nil =>
    intro d log
    refine ⟨d.pluralForms, rfl, ?_, ?_⟩
    · simp [hdrEffects, headerMessages]
    · simp [firstRule]
  | cons l ls ih =>
    intro d log
    have hcons : hdrEffects c n cur (l :: ls) (d, log) = hdrEffects c n cur ls (hdrEffect c n cur (d, log) l) := rfl
    rw [hcons]
    unfold hdrEffect headerMessages firstRule
    by_cases h1 : hasPrefix b!"Content-Type:" l = true
    · have h1' := h1
      unfold hasPrefix at h1'
      simp only [h1, h1', if_true, Bool.not_true, Bool.false_and, Bool.false_eq_true, if_false]
      by_cases h2 : hasPrefix b!"Content-Type: text/plain; charset=" l = true
      · have h2' := h2
        unfold hasPrefix at h2'
        simp only [h2, h2', if_true]
        exact ih d log
      · have h2' : ¬ (b!"Content-Type: text/plain; charset=".isPrefixOf l = true) := h2
        rw [if_neg h2, if_neg h2']
        obtain ⟨p, e1, e2, e3⟩ := ih d (log ++ [.po .warning c.filename n b!"malformed Content-Type header" cur])
        refine ⟨p, e1, ?_, e3⟩
        rw [e2]; simp
    · have h1' : ¬ (b!"Content-Type:".isPrefixOf l = true) := h1
      have h1b : hasPrefix b!"Content-Type:" l = false := by simpa using h1
      rw [if_neg h1, if_neg h1']
      simp only [h1b, Bool.not_false, Bool.true_and]
      by_cases h2 : hasPrefix b!"Plural-Forms:" l = true
      · have h2' := h2
        unfold hasPrefix at h2'
        simp only [h2, h2', if_true, Bool.true_and]
        by_cases h3 : (PluralForms.fromString c.ct l).isDefined = true
        · simp only [h3, Bool.not_true, Bool.false_eq_true, if_false, if_true, reduceCtorEq]
          by_cases h4 : d.pluralForms.isDefined = true
          · simp only [h4, Bool.not_true, Bool.false_eq_true, if_false, if_true, reduceCtorEq]
            by_cases h5 : d.pluralForms = PluralForms.fromString c.ct l
            · rw [if_neg (by simpa using h5), if_neg (by simpa using h5)]
              obtain ⟨p, e1, e2, e3⟩ := ih d log
              rw [if_pos h4] at e3
              exact ⟨p, e1, e2, e3⟩
            · rw [if_pos h5, if_pos h5]
              obtain ⟨p, e1, e2, e3⟩ := ih d (log ++ [.po .warning c.filename n b!"Plural-Forms missmatch between .po file and dictionary" cur])
              rw [if_pos h4] at e3
              refine ⟨p, e1, ?_, e3⟩
              rw [e2]; simp
          · have h4b : d.pluralForms.isDefined = false := by simpa using h4
            simp only [h4b, Bool.not_false, if_true, Bool.false_eq_true, if_false]
            obtain ⟨p, e1, e2, e3⟩ := ih (d.setPluralForms (PluralForms.fromString c.ct l)) log
            have hp : (d.setPluralForms (PluralForms.fromString c.ct l)).pluralForms = PluralForms.fromString c.ct l := rfl
            rw [hp] at e2 e3
            rw [if_pos h3] at e3
            refine ⟨p, e1, e2, ?_⟩
            rw [e3]; rfl
        · have h3b : (PluralForms.fromString c.ct l).isDefined = false := by simpa using h3
          simp only [h3b, Bool.not_false, if_true, Bool.false_eq_true, if_false]
          obtain ⟨p, e1, e2, e3⟩ := ih d (log ++ [.po .warning c.filename n b!"unknown Plural-Forms given" cur])
          refine ⟨p, e1, ?_, e3⟩
          rw [e2]; simp
      · have h2' : ¬ (b!"Plural-Forms:".isPrefixOf l = true) := h2
        have h2b : hasPrefix b!"Plural-Forms:" l = false := by simpa using h2
        rw [if_neg h2, if_neg h2']
        simp only [h2b, Bool.false_and, Bool.false_eq_true, if_false]
        exact ih d log


/-- The part of a state, with all messages. -/
def eOf (x : List Str × PState) : LState := ⟨x.1, x.2.conv, x.2.dict, x.2.log⟩

def eRes : Res (List Str × PState) Unit → Res LState Unit
  | .ok a x => .ok a (eOf x)
  | .poError x => .poError (eOf x)
  | .exn w x => .exn w (eOf x)
  | .fault f => .fault f
  | .diverge => .diverge

/-- Events, with placed messages. -/
def eStep (c : Cfg) (line : Nat → Str) (e : Ev) : Prog LState Unit := fun k =>
  match e with
  | .diag lv p m ped =>
    if ped && !c.pedantic then .ok () k else .ok () { k with log := k.log ++ [Note.message c.filename line ⟨lv, p, m, ped⟩] }
  | .clear => .ok () { k with vec := [] }
  | .conv n t =>
    match k.conv.convert c.lib t with
    | .ok r cv l => .ok () { k with vec := setAt k.vec n r, conv := cv, log := k.log ++ l }
    | .fault f => .fault f
  | .singular fz ctxt id t =>
    if c.useFuzzy || !fz then
      match k.conv.convert c.lib t with
      | .ok r cv l => .ok () { k with
          conv := cv
          dict := ((Add.singular ctxt id r).apply k.dict).1
          log := k.log ++ l ++ ((Add.singular ctxt id r).apply k.dict).2 }
      | .fault f => .fault f
    else .ok () k
  | .plural p fz ctxt id idp =>
    if c.useFuzzy || !fz then
      .ok () { k with
        dict := ((Add.plural ctxt id idp k.vec).apply k.dict).1
        log := k.log ++ (pluralWarnings k.dict.pluralForms k.vec.length).map (warned c.filename line p) ++
          ((Add.plural ctxt id idp k.vec).apply k.dict).2 }
    else .ok () k
  | .header p t =>
    match k.conv.setCharsets c.ct c.lib (Po.sourceCharset c.ct t) k.dict.charset with
    | (cv, none) => .ok () { k with
        conv := cv, dict := withHeaderRule c.ct t k.dict
        log := k.log ++ (headerWarnings c.ct k.dict.pluralForms t).map (warned c.filename line p) }
    | (cv, some w) => .exn w { k with
        conv := cv, dict := withHeaderRule c.ct t k.dict
        log := k.log ++ (headerWarnings c.ct k.dict.pluralForms t).map (warned c.filename line p) }

def eInterp (c : Cfg) (line : Nat → Str) : List Ev → Prog LState Unit
  | [] => Prog.pure ()
  | e :: w => Prog.bind (eStep c line e) (fun _ => eInterp c line w)

theorem eInterp_append (c : Cfg) (line) (w1 w2 : List Ev) (k : LState) :
    eInterp c line (w1 ++ w2) k = Prog.bind (eInterp c line w1) (fun _ => eInterp c line w2) k := by
  induction w1 generalizing k with
  | nil => rfl
  | cons e w ih =>
    simp only [List.cons_append, eInterp, bind_apply]
    cases eStep c line e k with
    | ok a k' => exact ih k'
    | _ => rfl

theorem eStep_eq (c : Cfg) {T : Tape} {line : Nat → Str} (hl : ∀ p, (T p).line = line p) (e : Ev) (x : List Str × PState) :
    eRes (evStep c T e x) = eStep c line e (eOf x) := by
  obtain ⟨v, s⟩ := x
  cases e with
  | diag lv p m ped =>
    simp only [evStep, eStep]
    split
    · rfl
    · simp only [eRes, eOf, Note.message, hl]
  | clear => rfl
  | conv n t =>
    simp only [evStep, eStep, convert, eOf]
    cases h : s.conv.convert c.lib t with
    | ok r cv l => rfl
    | fault f => rfl
  | singular fz ctxt id t =>
    simp only [evStep, eStep, convert, eOf]
    split
    · cases h : s.conv.convert c.lib t with
      | ok r cv l => rfl
      | fault f => rfl
    · rfl
  | plural p fz ctxt id idp =>
    simp only [evStep, eStep, eOf]
    split
    · simp only [eRes, eOf]
      have : (if !s.dict.pluralForms.isDefined then
            [Diag.po .warning c.filename (p + 1) b!"msgstr[N] seen, but no Plural-Forms given" (T p).line]
          else if v.length ≠ s.dict.pluralForms.getNplural then
            [.po .warning c.filename (p + 1) b!"msgstr[N] count doesn't match Plural-Forms.nplural" (T p).line]
          else []) = (pluralWarnings s.dict.pluralForms v.length).map (warned c.filename line p) := by
        unfold pluralWarnings
        rw [hl]
        cases s.dict.pluralForms.isDefined with
        | false => rfl
        | true =>
          simp only [Bool.not_true, Bool.false_eq_true, if_false, reduceCtorEq]
          split <;> rfl
      rw [this]
    · rfl
  | header p t =>
    simp only [evStep, eStep]
    rw [parseHeader_eq]
    obtain ⟨pf, e1, e2, e3⟩ := hdr_placed c (mv T s p).lineNumber (mv T s p).currentLine (headerLines t []) s.dict s.log
    rw [firstRule_eq] at e3
    have hw : ∀ m, Diag.po .warning c.filename (mv T s p).lineNumber m (mv T s p).currentLine = warned c.filename line p m := by
      intro m
      unfold warned Note.message
      rw [← hl]
      rfl
    have hdict : (afterHeader c t (mv T s p)).dict = withHeaderRule c.ct t s.dict := by
      show (hdrEffects c (mv T s p).lineNumber (mv T s p).currentLine (headerLines t []) (s.dict, s.log)).1 = _
      rw [e1, e3]; rfl
    have hlog : (afterHeader c t (mv T s p)).log
        = s.log ++ (headerWarnings c.ct s.dict.pluralForms t).map (warned c.filename line p) := by
      show (hdrEffects c (mv T s p).lineNumber (mv T s p).currentLine (headerLines t []) (s.dict, s.log)).2 ++
        (if (headerCharset c.ct t).isEmpty || headerCharset c.ct t = b!"CHARSET" then
        [Diag.po .warning c.filename (mv T s p).lineNumber b!"charset not specified for .po, fallback to utf-8" (mv T s p).currentLine]
        else []) = _
      rw [e2, headerLines_nil]
      unfold headerWarnings
      rw [headerCharset_eq]
      simp only [hw]
      by_cases h : declaredCharset c.ct t = [] ∨ declaredCharset c.ct t = b!"CHARSET"
      · rw [if_pos h, if_pos (by simpa using h)]; simp
      · rw [if_neg h, if_neg (by simpa using h)]; simp
    have hcv : (afterHeader c t (mv T s p)).conv = s.conv := rfl
    unfold setCharsets
    rw [hcv, hdict, sourceCharset_eq]
    have hcs : (withHeaderRule c.ct t s.dict).charset = s.dict.charset := rfl
    rw [hcs]
    simp only [eOf]
    generalize IConv.setCharsets c.ct c.lib s.conv (Po.sourceCharset c.ct t) s.dict.charset = g
    obtain ⟨cv, o⟩ := g
    cases o with
    | none => simp only [eRes, eOf, hdict, hlog]
    | some w => simp only [eRes, eOf, hdict, hlog]

theorem eInterp_eq (c : Cfg) {T : Tape} {line : Nat → Str} (hl : ∀ p, (T p).line = line p) (w : List Ev) (x : List Str × PState) :
    eRes (interp c T w x) = eInterp c line w (eOf x) := by
  induction w generalizing x with
  | nil => rfl
  | cons e w ih =>
    simp only [interp, eInterp, bind_apply]
    rw [← eStep_eq c hl e x]
    cases evStep c T e x with
    | ok a y => exact ih y
    | _ => rfl

/-! ### Pieces -/

theorem eInterp_notes (c : Cfg) (line) (ns : List Note) (k : LState) :
    eInterp c line (evN ns) k = .ok () { k with log := k.log ++ shown c.pedantic c.filename line ns } := by
  induction ns generalizing k with
  | nil => simp [evN, eInterp, Prog.pure, shown, made]
  | cons x ns ih =>
    have : evN (x :: ns) = x.ev :: evN ns := rfl
    rw [this]
    simp only [eInterp, bind_apply, Note.ev, eStep]
    unfold shown made at ih ⊢
    rw [List.filter_cons]
    by_cases h : (c.pedantic || !x.fussy) = true
    · rw [if_pos h, if_neg (by revert h; cases c.pedantic <;> cases x.fussy <;> simp)]
      dsimp only
      rw [ih]
      simp
    · rw [if_neg h, if_pos (by revert h; cases c.pedantic <;> cases x.fussy <;> simp)]
      exact ih k

theorem eInterp_strs (c : Cfg) (line) (strs : List NumberedStr) (k : LState) :
    eInterp c line (strEvs strs) k
      = match loadStrs c.lib c.pedantic c.filename line k.conv strs with
        | .error f => .fault f
        | .ok (strs', cv, l) => .ok () { k with
            vec := strs'.foldl (fun v x => setAt v x.1 x.2) k.vec, conv := cv, log := k.log ++ l } := by
  induction strs generalizing k with
  | nil => simp [eInterp, strEvs, loadStrs, Prog.pure]
  | cons x strs ih =>
    obtain ⟨ns, n, t⟩ := x
    have : strEvs ((ns, n, t) :: strs) = evN ns ++ ([Ev.conv n t] ++ strEvs strs) := by unfold strEvs; simp
    rw [this, eInterp_append, bind_apply, eInterp_notes]
    dsimp only
    rw [List.singleton_append]
    simp only [eInterp, bind_apply, eStep, loadStrs]
    cases hc : k.conv.convert c.lib t with
    | fault f => rfl
    | ok t' cv' l =>
      dsimp only
      rw [ih]
      dsimp only
      cases loadStrs c.lib c.pedantic c.filename line cv' strs with
      | error f => rfl
      | ok y => simp [List.append_assoc]

theorem loadStrs_ne {lib : IconvLib} {ped : Bool} {file : Str} {line : Nat → Str} {cv cv' : IConv} {strs : List NumberedStr}
    {strs' : List (Nat × Str)} {l : List Diag} (hs : strs ≠ []) (h : loadStrs lib ped file line cv strs = .ok (strs', cv', l)) : strs' ≠ [] := by
  cases strs with
  | nil => exact absurd rfl hs
  | cons x strs =>
    obtain ⟨ns, k, t⟩ := x
    unfold loadStrs at h
    split at h
    · cases h
    · split at h
      · cases h
      · cases h; simp

theorem pieceEvs_notes (ns : List Note) : pieceEvs (.notes ns) = evN ns := rfl
theorem pieceEvs_single (ns fz c id t q) : pieceEvs (.single ns fz c id t q)
    = evN ns ++ (if id.isEmpty then [.header q t] else if !t.isEmpty then [.singular fz c id t] else []) := rfl
theorem pieceEvs_plural (ns fz c id idp strs q) : pieceEvs (.plural ns fz c id idp strs q)
    = evN ns ++ (.clear :: strEvs strs) ++ (if strs.any (fun x => !x.2.2.isEmpty) then [.plural q fz c id idp] else []) := rfl
theorem pieceEvs_broken (ns strs) : pieceEvs (.broken ns strs) = evN ns ++ (.clear :: strEvs strs) := rfl

/-- Pieces are what their events do. -/
theorem loadPieces_eq (c : Cfg) (line) (ps : List Piece) (hps : ∀ x ∈ ps, ∀ ns fz ct id idp q, x ≠ .plural ns fz ct id idp [] q) : ∀ (k : LState),
    lObs (eInterp c line (ps.flatMap pieceEvs) k)
      = loadPieces c.ct c.lib c.useFuzzy c.pedantic c.filename line ps k.conv k.dict k.log := by
  induction ps with
  | nil => intro k; rfl
  | cons x ps ih =>
    intro k
    have ih := ih (fun x hx => hps x (List.mem_cons_of_mem _ hx))
    have hx := hps x List.mem_cons_self
    rw [List.flatMap_cons, eInterp_append, bind_apply]
    cases x with
    | notes ns =>
      unfold loadPieces
      rw [pieceEvs_notes]
      rw [eInterp_notes]
      dsimp only
      rw [ih]
    | single ns fz ctxt id t q =>
      unfold loadPieces
      rw [pieceEvs_single]
      rw [eInterp_append, bind_apply, eInterp_notes]
      dsimp only
      by_cases h1 : id = []
      · rw [if_pos (by simp [h1]), if_pos h1]
        simp only [eInterp, bind_apply, eStep]
        generalize k.conv.setCharsets c.ct c.lib (Po.sourceCharset c.ct t) k.dict.charset = g
        obtain ⟨cv, o⟩ := g
        cases o with
        | none =>
          dsimp only
          simp only [Prog.pure]
          rw [ih]
        | some w => rfl
      · rw [if_neg (by simpa using h1), if_neg h1]
        by_cases h2 : t = []
        · subst h2
          rw [if_neg (by simp), if_neg (by simp)]
          simp only [eInterp, Prog.pure]
          rw [ih]
        · rw [if_pos (by simpa using h2)]
          simp only [eInterp, bind_apply, eStep]
          by_cases h3 : c.useFuzzy = true ∨ fz = false
          · rw [if_pos (by simpa using h3), if_pos ⟨h2, h3⟩]
            cases hc : k.conv.convert c.lib t with
            | fault f => rfl
            | ok t' cv' l =>
              dsimp only
              simp only [Prog.pure]
              rw [ih]
          · rw [if_neg (by simpa using h3), if_neg (fun h => h3 h.2)]
            simp only [Prog.pure]
            rw [ih]
    | plural ns fz ctxt id idp strs q =>
      have hs : strs ≠ [] := by intro h; subst h; exact hx _ _ _ _ _ _ rfl
      unfold loadPieces
      rw [pieceEvs_plural]
      rw [eInterp_append, bind_apply, eInterp_append, bind_apply, eInterp_notes]
      dsimp only
      simp only [eInterp, bind_apply, eStep]
      rw [eInterp_strs]
      dsimp only
      cases hc : loadStrs c.lib c.pedantic c.filename line k.conv strs with
      | error f => rfl
      | ok y =>
        obtain ⟨strs', cv', l'⟩ := y
        dsimp only
        rw [collect_eq strs' (loadStrs_ne hs hc)]
        have hany : (strs.any (fun x => !x.2.2.isEmpty) = true) ↔ ∃ x ∈ strs, x.2.2 ≠ [] := by
          simp [List.any_eq_true]
        by_cases h1 : ∃ x ∈ strs, x.2.2 ≠ []
        · rw [if_pos (hany.2 h1)]
          simp only [eInterp, bind_apply, eStep]
          by_cases h3 : c.useFuzzy = true ∨ fz = false
          · rw [if_pos (by simpa using h3), if_pos ⟨h1, h3⟩]
            simp only [Prog.pure]
            rw [ih]
          · rw [if_neg (by simpa using h3), if_neg (fun h => h3 h.2)]
            simp only [Prog.pure]
            rw [ih]
        · rw [if_neg (fun h => h1 (hany.1 h)), if_neg (fun h => h1 h.1)]
          simp only [eInterp, Prog.pure]
          rw [ih]
    | broken ns strs =>
      unfold loadPieces
      rw [pieceEvs_broken]
      rw [eInterp_append, bind_apply, eInterp_notes]
      dsimp only
      simp only [eInterp, bind_apply, eStep]
      rw [eInterp_strs]
      dsimp only
      cases hc : loadStrs c.lib c.pedantic c.filename line k.conv strs with
      | error f => rfl
      | ok y =>
        obtain ⟨strs', cv', l'⟩ := y
        dsimp only
        rw [ih]

end Tgt.POParser
