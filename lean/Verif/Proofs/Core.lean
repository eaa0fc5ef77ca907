import Verif.Proofs.Parse
import Verif.Spec.Effect
/-
Events, interpreted without a dictionary and without messages.
-/
namespace Tgt.POParser
open Spec

/-- What a parse accumulates. -/
structure Core where
  vec : List Str
  big5 : Bool
  conv : IConv
  eff : Effect
  deriving DecidableEq, Repr

/-- The first recognised plural rule among header lines. -/
def firstRule (ct : CType) : List Str → Option PluralForms
  | [] => none
  | l :: ls =>
    if !hasPrefix b!"Content-Type:" l && hasPrefix b!"Plural-Forms:" l && (PluralForms.fromString ct l).isDefined
    then some (PluralForms.fromString ct l) else firstRule ct ls

/-- Effect of an event; `cs`: the charset of the dictionary. -/
def coreStep (ct : CType) (lib : IconvLib) (uf : Bool) (cs : Str) (e : Ev) : Prog Core Unit := fun k =>
  match e with
  | .diag _ _ _ _ => .ok () k
  | .clear => .ok () { k with vec := [] }
  | .conv n t =>
    match k.conv.convert lib t with
    | .ok r cv _ => .ok () { k with vec := setAt k.vec n r, conv := cv }
    | .fault f => .fault f
  | .singular fz ctxt id t =>
    if uf || !fz then
      match k.conv.convert lib t with
      | .ok r cv _ => .ok () { k with conv := cv, eff := { k.eff with adds := k.eff.adds ++ [.singular ctxt id r] } }
      | .fault f => .fault f
    else .ok () k
  | .plural _ fz ctxt id idp =>
    if uf || !fz then
      .ok () { k with eff := { k.eff with adds := k.eff.adds ++ [.plural ctxt id idp k.vec] } }
    else .ok () k
  | .header _ t =>
    let k' := { k with
      big5 := k.big5 || (headerCharset ct t == b!"BIG5")
      eff := { k.eff with rule := k.eff.rule.or (firstRule ct (headerLines t [])) }
      conv := (k.conv.setCharsets ct lib (sourceCharset (headerCharset ct t)) cs).1 }
    match (k.conv.setCharsets ct lib (sourceCharset (headerCharset ct t)) cs).2 with
    | none => .ok () k'
    | some w => .exn w k'

/-- Effect of events. -/
def coreInterp (ct : CType) (lib : IconvLib) (uf : Bool) (cs : Str) : List Ev → Prog Core Unit
  | [] => Prog.pure ()
  | e :: w => Prog.bind (coreStep ct lib uf cs e) (fun _ => coreInterp ct lib uf cs w)

theorem coreInterp_append (ct lib uf cs) (w1 w2 : List Ev) (k : Core) :
    coreInterp ct lib uf cs (w1 ++ w2) k
      = Prog.bind (coreInterp ct lib uf cs w1) (fun _ => coreInterp ct lib uf cs w2) k := by
  induction w1 generalizing k with
  | nil => rfl
  | cons e w ih =>
    simp only [List.cons_append, coreInterp, bind_apply]
    cases coreStep ct lib uf cs e k with
    | ok a s => exact ih s
    | _ => rfl

/-- A core state describes a full state over the original dictionary `d`. -/
structure Rel (d : Dictionary) (k : Core) (x : List Str × PState) : Prop where
  vec : x.1 = k.vec
  big5 : x.2.big5 = k.big5
  conv : x.2.conv = k.conv
  dict : x.2.dict = k.eff.applyTo d
  rule : ∀ r, k.eff.rule = some r → r.isDefined = true

/-- Related results. -/
def RelR (d : Dictionary) : Res Core Unit → Res (List Str × PState) Unit → Prop
  | .ok _ k, .ok _ x => Rel d k x
  | .exn w k, .exn w' x => w = w' ∧ Rel d k x
  | .fault f, .fault f' => f = f'
  | .diverge, .diverge => True
  | .poError k, .poError x => Rel d k x
  | _, _ => False

theorem apply_withPf (d : Dictionary) (a : Add) (p : PluralForms) :
    (a.apply { d with pluralForms := p }).1 = { (a.apply d).1 with pluralForms := p } := by
  cases a with
  | singular c i s => cases c <;> rfl
  | plural c i p v => cases c <;> rfl

theorem addAll_snoc (d : Dictionary) (l : List Add) (a : Add) : addAll d (l ++ [a]) = (a.apply (addAll d l)).1 := by
  simp [addAll]

theorem applyTo_add (e : Effect) (d : Dictionary) (a : Add) :
    (a.apply (e.applyTo d)).1 = ({ e with adds := e.adds ++ [a] } : Effect).applyTo d := by
  unfold Effect.applyTo
  rw [apply_withPf, addAll_snoc]

theorem apply_charset (d : Dictionary) (a : Add) : (a.apply d).1.charset = d.charset := by
  cases a with
  | singular c i s => cases c <;> rfl
  | plural c i p v => cases c <;> rfl

theorem addAll_charset (l : List Add) (d : Dictionary) : (addAll d l).charset = d.charset := by
  induction l generalizing d with
  | nil => rfl
  | cons a l ih => exact (ih (a.apply d).1).trans (apply_charset d a)

theorem applyTo_charset (e : Effect) (d : Dictionary) : (e.applyTo d).charset = d.charset :=
  addAll_charset e.adds d

theorem hdr_dict (c : Cfg) (n : Nat) (cur : Str) (d : Dictionary) : ∀ (ls : List Str) (e : Effect) (log : List Diag),
    (∀ r, e.rule = some r → r.isDefined = true) →
    (hdrEffects c n cur ls (e.applyTo d, log)).1
      = ({ e with rule := e.rule.or (firstRule c.ct ls) } : Effect).applyTo d ∧
    (∀ r, e.rule.or (firstRule c.ct ls) = some r → r.isDefined = true) := by
  intro ls
  induction ls with
  | nil =>
    intro e log h
    refine ⟨?_, ?_⟩
    · simp [hdrEffects, firstRule]
    · simpa [firstRule] using h
  | cons l ls ih =>
    intro e log h
    have step : ∃ log', hdrEffect c n cur (e.applyTo d, log) l
        = (({ e with rule := e.rule.or (firstRule c.ct [l]) } : Effect).applyTo d, log') := by
      unfold hdrEffect firstRule firstRule
      by_cases h1 : hasPrefix b!"Content-Type:" l = true
      · simp only [h1, if_true, Bool.not_true, Bool.false_and, Bool.false_eq_true, if_false, Option.or_none]
        split <;> exact ⟨_, rfl⟩
      · have h1' : hasPrefix b!"Content-Type:" l = false := by simpa using h1
        simp only [h1', Bool.false_eq_true, if_false, Bool.not_false, Bool.true_and]
        by_cases h2 : hasPrefix b!"Plural-Forms:" l = true
        · simp only [h2, if_true, Bool.true_and]
          by_cases h3 : (PluralForms.fromString c.ct l).isDefined = true
          · simp only [h3, Bool.not_true, Bool.false_eq_true, if_false, if_true]
            have hp : (e.applyTo d).pluralForms
              = if d.pluralForms.isDefined then d.pluralForms else e.rule.getD d.pluralForms := rfl
            by_cases h4 : d.pluralForms.isDefined = true
            · have hp' : (e.applyTo d).pluralForms = d.pluralForms := by rw [hp, if_pos h4]
              have hE : ∀ x : Option PluralForms, ({ e with rule := x } : Effect).applyTo d = e.applyTo d := by
                intro x; unfold Effect.applyTo; simp only [h4, if_true]
              rw [hp', hE (e.rule.or (some (PluralForms.fromString c.ct l)))]
              simp only [h4, Bool.not_true, Bool.false_eq_true, if_false]
              split <;> exact ⟨_, rfl⟩
            · cases hr : e.rule with
              | some r =>
                have hd := h r hr
                have hp' : (e.applyTo d).pluralForms = r := by rw [hp, if_neg h4, hr]; rfl
                rw [hp']
                have hee : ({ e with rule := some r } : Effect) = e := by rw [← hr]
                simp only [hd, Bool.not_true, Bool.false_eq_true, if_false, Option.some_or, hee]
                split <;> exact ⟨_, rfl⟩
              | none =>
                have hp' : (e.applyTo d).pluralForms = d.pluralForms := by rw [hp, if_neg h4, hr]; rfl
                rw [hp']
                simp only [h4, Bool.not_false, if_true, Option.none_or]
                refine ⟨log, ?_⟩
                simp [Effect.applyTo, Dictionary.setPluralForms, h4]
          · have h3' : (PluralForms.fromString c.ct l).isDefined = false := by simpa using h3
            simp only [h3', Bool.not_false, if_true, Bool.false_eq_true, if_false, Option.or_none]
            exact ⟨_, rfl⟩
        · have h2' : hasPrefix b!"Plural-Forms:" l = false := by simpa using h2
          simp only [h2', Bool.false_eq_true, if_false, Bool.false_and, Option.or_none]
          exact ⟨_, rfl⟩
    obtain ⟨log', hs⟩ := step
    have hdef : ∀ r, e.rule.or (firstRule c.ct [l]) = some r → r.isDefined = true := by
      intro r hr
      cases he : e.rule with
      | some r' => rw [he] at hr; exact h r (by rw [he]; simpa using hr)
      | none =>
        rw [he] at hr
        unfold firstRule firstRule at hr
        simp only [Option.none_or] at hr
        split at hr
        · rename_i hc
          simp only [Bool.and_eq_true] at hc
          cases hr; exact hc.2
        · cases hr
    have hor : e.rule.or (firstRule c.ct (l :: ls)) = (e.rule.or (firstRule c.ct [l])).or (firstRule c.ct ls) := by
      have : firstRule c.ct (l :: ls) = (firstRule c.ct [l]).or (firstRule c.ct ls) := by
        simp only [firstRule]
        split <;> simp
      rw [this, Option.or_assoc]
    obtain ⟨i1, i2⟩ := ih { e with rule := e.rule.or (firstRule c.ct [l]) } log' hdef
    refine ⟨?_, ?_⟩
    · have : hdrEffects c n cur (l :: ls) (e.applyTo d, log)
          = hdrEffects c n cur ls (hdrEffect c n cur (e.applyTo d, log) l) := rfl
      rw [this, hs, i1, hor]
    · rw [hor]; exact i2

theorem step_rel (c : Cfg) (T : Tape) (d : Dictionary) (e : Ev) (k : Core) (x : List Str × PState) (h : Rel d k x) :
    RelR d (coreStep c.ct c.lib c.useFuzzy d.charset e k) (evStep c T e x) := by
  obtain ⟨v, s⟩ := x
  obtain ⟨h1, h2, h3, h4, h5⟩ := h
  dsimp only at h1 h2 h3 h4
  subst h1
  cases e with
  | diag lv p m ped =>
    simp only [coreStep, evStep]
    split
    · exact ⟨rfl, h2, h3, h4, h5⟩
    · exact ⟨rfl, h2, h3, h4, h5⟩
  | clear => exact ⟨rfl, h2, h3, h4, h5⟩
  | conv n t =>
    simp only [coreStep, evStep, convert, h3]
    cases k.conv.convert c.lib t with
    | ok r cv l => exact ⟨rfl, h2, rfl, h4, h5⟩
    | fault f => rfl
  | singular fz ctxt id t =>
    simp only [coreStep, evStep, convert, h3]
    by_cases hf : (c.useFuzzy || !fz) = true
    · rw [if_pos hf, if_pos hf]
      cases k.conv.convert c.lib t with
      | ok r cv l => exact ⟨rfl, h2, rfl, by dsimp only; rw [h4, applyTo_add], h5⟩
      | fault f => rfl
    · rw [if_neg hf, if_neg hf]; exact ⟨rfl, h2, h3, h4, h5⟩
  | plural p fz ctxt id idp =>
    simp only [coreStep, evStep]
    by_cases hf : (c.useFuzzy || !fz) = true
    · rw [if_pos hf, if_pos hf]
      exact ⟨rfl, h2, h3, by dsimp only; rw [h4, applyTo_add], h5⟩
    · rw [if_neg hf, if_neg hf]; exact ⟨rfl, h2, h3, h4, h5⟩
  | header p t =>
    simp only [coreStep, evStep]
    rw [parseHeader_eq]
    have hd := hdr_dict c (mv T s p).lineNumber (mv T s p).currentLine d (headerLines t []) k.eff s.log h5
    have hcs : (afterHeader c t (mv T s p)).dict.charset = d.charset := by
      show (hdrEffects c (mv T s p).lineNumber (mv T s p).currentLine (headerLines t []) (s.dict, s.log)).1.charset = _
      rw [h4, hd.1, applyTo_charset]
    have hcv : (afterHeader c t (mv T s p)).conv = k.conv := h3
    unfold setCharsets
    rw [hcs, hcv]
    have hdict : (afterHeader c t (mv T s p)).dict
        = ({ k.eff with rule := k.eff.rule.or (firstRule c.ct (headerLines t [])) } : Effect).applyTo d := by
      show (hdrEffects c (mv T s p).lineNumber (mv T s p).currentLine (headerLines t []) (s.dict, s.log)).1 = _
      rw [h4, hd.1]
    have hb : (afterHeader c t (mv T s p)).big5 = (k.big5 || (headerCharset c.ct t == b!"BIG5")) := by
      show (s.big5 || _) = _
      rw [h2]
    dsimp only
    generalize k.conv.setCharsets c.ct c.lib (sourceCharset (headerCharset c.ct t)) d.charset = g
    obtain ⟨cv, o⟩ := g
    cases o with
    | none => exact ⟨rfl, hb, rfl, hdict, hd.2⟩
    | some w => exact ⟨rfl, rfl, hb, rfl, hdict, hd.2⟩

theorem interp_rel (c : Cfg) (T : Tape) (d : Dictionary) (w : List Ev) (k : Core) (x : List Str × PState) (h : Rel d k x) :
    RelR d (coreInterp c.ct c.lib c.useFuzzy d.charset w k) (interp c T w x) := by
  induction w generalizing k x with
  | nil => exact h
  | cons e w ih =>
    simp only [coreInterp, interp, bind_apply]
    have := step_rel c T d e k x h
    cases h1 : coreStep c.ct c.lib c.useFuzzy d.charset e k <;> cases h2 : evStep c T e x <;>
      rw [h1, h2] at this <;> try exact this.elim
    · exact ih _ _ this
    · exact this
    · exact this
    · exact this
    · exact this

/-- The initial core. -/
def core0 : Core := ⟨[], false, .init, ⟨[], none⟩⟩

theorem rel0 (input : Stream) (d : Dictionary) : Rel d core0 ([], initState input d) := by
  refine ⟨rfl, rfl, rfl, ?_, fun r h => by cases h⟩
  simp [initState, core0, Effect.applyTo, addAll]

/-- What can be observed, up to messages, for a dictionary `d`. -/
def obsCore (d : Dictionary) (res : TRes Unit) : Res Core Unit → Observed
  | .ok _ k =>
    match res with
    | .ok _ _ => .returned (k.eff.applyTo d) []
    | .err _ => .threwPo (k.eff.applyTo d) []
    | .overflow => .crashed .signedOverflow
    | .diverge => .unfinished
  | .poError k => .threwPo (k.eff.applyTo d) []
  | .exn w k => .threw w (k.eff.applyTo d) []
  | .fault f => .crashed f
  | .diverge => .unfinished

theorem obsE_core (c : Cfg) (T : Tape) (r : List Ev × TRes Unit) (input : Stream) (d : Dictionary) :
    (obsE c T r (initState input d)).noLog
      = obsCore d r.2 (coreInterp c.ct c.lib c.useFuzzy d.charset r.1 core0) := by
  have := interp_rel c T d r.1 core0 ([], initState input d) (rel0 input d)
  unfold obsE obsCore
  cases h1 : coreInterp c.ct c.lib c.useFuzzy d.charset r.1 core0 <;>
    cases h2 : interp c T r.1 ([], initState input d) <;>
    rw [h1, h2] at this <;> try exact this.elim
  · dsimp only
    cases r.2 with
    | ok a p => simp only [Observed.noLog, Observed.mapLog, this.dict]
    | err p => simp only [Observed.noLog, Observed.mapLog, this.dict]
    | overflow => rfl
    | diverge => rfl
  · simp only [Observed.noLog, Observed.mapLog, Rel.dict this]
  · simp only [Observed.noLog, Observed.mapLog, Rel.dict this.2, this.1]
  · simp only [Observed.noLog, Observed.mapLog]; rw [show _ = _ from this]
  · rfl

/-- Everything but the messages of a parse. -/
theorem run_core (c : Cfg) (input : Stream) (d : Dictionary) (hF : input.rest.length < c.fuel) :
    (observe (run c input d)).noLog
      = obsCore d (events c.ct c.fuel input).2
          (coreInterp c.ct c.lib c.useFuzzy d.charset (events c.ct c.fuel input).1 core0) := by
  rw [run_obs c input d hF, obsE_core]

/-- Events without diagnostics and positions. -/
def Ev.norm : Ev → Ev
  | .diag lv _ m ped => .diag lv 0 m ped
  | .plural _ fz c i ip => .plural 0 fz c i ip
  | .header _ t => .header 0 t
  | e => e

/-- Events that matter to the dictionary. -/
def essence (w : List Ev) : List Ev := (w.filter (fun e => !e.isDiag)).map Ev.norm

theorem essence_append (w1 w2 : List Ev) : essence (w1 ++ w2) = essence w1 ++ essence w2 := by
  simp [essence]

theorem coreStep_norm (ct lib uf cs) (e : Ev) : coreStep ct lib uf cs e.norm = coreStep ct lib uf cs e := by
  cases e <;> rfl

theorem coreInterp_essence (ct lib uf cs) (w : List Ev) (k : Core) :
    coreInterp ct lib uf cs (essence w) k = coreInterp ct lib uf cs w k := by
  induction w generalizing k with
  | nil => rfl
  | cons e w ih =>
    by_cases he : e.isDiag = true
    · have h1 : essence (e :: w) = essence w := by simp [essence, he]
      rw [h1, ih]
      cases e with
      | diag lv p m ped => rfl
      | _ => simp [Ev.isDiag] at he
    · have h1 : essence (e :: w) = e.norm :: essence w := by simp [essence, he]
      rw [h1]
      simp only [coreInterp, bind_apply, coreStep_norm]
      cases coreStep ct lib uf cs e k with
      | ok a s => exact ih s
      | _ => rfl

end Tgt.POParser
