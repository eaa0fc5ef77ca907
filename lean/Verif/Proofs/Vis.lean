import Verif.Proofs.Core
import Verif.Spec.Texts
/-
Facts about the messages of a parse, and what they depend on.
-/
namespace Tgt.POParser
open Spec

/-- States that agree on everything but the input. -/
structure VisEq (x y : List Str × PState) : Prop where
  vec : x.1 = y.1
  dict : x.2.dict = y.2.dict
  big5 : x.2.big5 = y.2.big5
  conv : x.2.conv = y.2.conv
  log : x.2.log = y.2.log

/-- Results that agree on everything but the input. -/
def VisR : Res (List Str × PState) Unit → Res (List Str × PState) Unit → Prop
  | .ok _ k, .ok _ x => VisEq k x
  | .exn w k, .exn w' x => w = w' ∧ VisEq k x
  | .fault f, .fault f' => f = f'
  | .diverge, .diverge => True
  | .poError k, .poError x => VisEq k x
  | _, _ => False

theorem afterHeader_mv (c : Cfg) (T : Tape) (t : Str) (p : Nat) (s s' : PState) (h1 : s.dict = s'.dict)
    (h2 : s.big5 = s'.big5) (h3 : s.conv = s'.conv) (h4 : s.log = s'.log) :
    afterHeader c t (mv T s p) = afterHeader c t (mv T s' p) := by
  have : mv T s p = mv T s' p := by simp [mv, h1, h2, h3, h4]
  rw [this]

theorem evStep_vis (c : Cfg) (T : Tape) (e : Ev) (x y : List Str × PState) (h : VisEq x y) :
    VisR (evStep c T e x) (evStep c T e y) := by
  obtain ⟨v, s⟩ := x
  obtain ⟨v', s'⟩ := y
  obtain ⟨h1, h2, h3, h4, h5⟩ := h
  dsimp only at h1 h2 h3 h4 h5
  subst h1
  cases e with
  | diag lv p m ped =>
    simp only [evStep]
    split
    · exact ⟨rfl, h2, h3, h4, h5⟩
    · exact ⟨rfl, h2, h3, h4, by dsimp only; rw [h5]⟩
  | clear => exact ⟨rfl, h2, h3, h4, h5⟩
  | conv n t =>
    simp only [evStep, convert, h4]
    cases s'.conv.convert c.lib t with
    | ok r cv l => exact ⟨rfl, h2, h3, rfl, by dsimp only; rw [h5]⟩
    | fault f => rfl
  | singular fz ctxt id t =>
    simp only [evStep, convert, h4]
    by_cases hf : (c.useFuzzy || !fz) = true
    · rw [if_pos hf, if_pos hf]
      cases s'.conv.convert c.lib t with
      | ok r cv l => exact ⟨rfl, by dsimp only; rw [h2], h3, rfl, by dsimp only; rw [h5, h2]⟩
      | fault f => rfl
    · rw [if_neg hf, if_neg hf]; exact ⟨rfl, h2, h3, h4, h5⟩
  | plural p fz ctxt id idp =>
    simp only [evStep]
    by_cases hf : (c.useFuzzy || !fz) = true
    · rw [if_pos hf, if_pos hf]
      exact ⟨rfl, by dsimp only; rw [h2], h3, h4, by dsimp only; rw [h5, h2]⟩
    · rw [if_neg hf, if_neg hf]; exact ⟨rfl, h2, h3, h4, h5⟩
  | header p t =>
    simp only [evStep]
    rw [parseHeader_eq, parseHeader_eq, afterHeader_mv c T t p s s' h2 h3 h4 h5]
    generalize setCharsets c _ _ _ = r
    cases r with
    | ok a s => exact ⟨rfl, rfl, rfl, rfl, rfl⟩
    | exn w s => exact ⟨rfl, rfl, rfl, rfl, rfl, rfl⟩
    | poError s => exact ⟨rfl, rfl, rfl, rfl, rfl⟩
    | fault f => rfl
    | diverge => trivial

theorem interp_vis (c : Cfg) (T : Tape) (w : List Ev) (x y : List Str × PState) (h : VisEq x y) :
    VisR (interp c T w x) (interp c T w y) := by
  induction w generalizing x y with
  | nil => exact h
  | cons e w ih =>
    simp only [interp, bind_apply]
    have := evStep_vis c T e x y h
    cases h1 : evStep c T e x <;> cases h2 : evStep c T e y <;>
      rw [h1, h2] at this <;> try exact this.elim
    · exact ih _ _ this
    · exact this
    · exact this
    · exact this
    · exact this

/-- What can be observed does not depend on the input stream in the initial state. -/
theorem obsE_input (c : Cfg) (T : Tape) (r : List Ev × TRes Unit) (i1 i2 : Stream) (d : Dictionary) :
    obsE c T r (initState i1 d) = obsE c T r (initState i2 d) := by
  have := interp_vis c T r.1 ([], initState i1 d) ([], initState i2 d) ⟨rfl, rfl, rfl, rfl, rfl⟩
  unfold obsE
  cases h1 : interp c T r.1 ([], initState i1 d) <;> cases h2 : interp c T r.1 ([], initState i2 d) <;>
    rw [h1, h2] at this <;> try exact this.elim
  · dsimp only
    cases r.2 <;> simp only [this.dict, this.log]
  · simp only [this.dict, VisEq.log this]
  · simp only [this.1, this.2.dict, this.2.log]
  · rw [show _ = _ from this]

/-! ### Messages quote their line -/

/-- The message is not a parse diagnostic, or it quotes the line of its number and has one of the known wordings. -/
def Quotes (c : Cfg) (T : Tape) : Diag → Prop
  | .po lv f n m cur => f = c.filename ∧ Worded lv m ∧ ∃ p, n = p + 1 ∧ cur = (T p).line
  | .collisionPlural .. => True
  | .collisionSingular .. => True
  | .iconvInvalid .. => True
  | _ => False

/-- A diagnostic event has a known wording. -/
def Ev.Says : Ev → Prop
  | .diag lv _ m _ => Worded lv m
  | _ => True

theorem convert_quotes (lib : IconvLib) (cv : IConv) (t r : Str) (cv' : IConv) (l : List Diag)
    (h : cv.convert lib t = .ok r cv' l) : ∀ d ∈ l, ∃ x, d = .iconvInvalid x := by
  unfold IConv.convert at h
  split at h
  · cases h; simp
  · cases h
  · dsimp only at h
    split at h <;> cases h <;> simp

theorem apply_quotes (d : Dictionary) (a : Add) : ∀ x ∈ (a.apply d).2,
    (∃ c i p o n, x = .collisionPlural c i p o n) ∨ (∃ c i o n, x = .collisionSingular c i o n) := by
  have hs : ∀ c i vec s, ∀ x ∈ (Dictionary.addSingularVec c i vec s).2,
      (∃ c i o n, x = Diag.collisionSingular c i o n) := by
    intro c i vec s x hx
    unfold Dictionary.addSingularVec at hx
    split at hx
    · cases hx
    · split at hx
      · simp at hx; exact ⟨_, _, _, _, hx⟩
      · cases hx
  have hp : ∀ c i p vec v, ∀ x ∈ (Dictionary.addPluralVec c i p vec v).2,
      (∃ c i p o n, x = Diag.collisionPlural c i p o n) := by
    intro c i p vec s x hx
    unfold Dictionary.addPluralVec at hx
    split at hx
    · cases hx
    · split at hx
      · simp at hx; exact ⟨_, _, _, _, _, hx⟩
      · cases hx
  intro x hx
  cases a with
  | singular c i s => cases c <;> exact .inr (hs _ _ _ _ x hx)
  | plural c i p v => cases c <;> exact .inl (hp _ _ _ _ _ x hx)

theorem hdr_log (c : Cfg) (n : Nat) (cur : Str) : ∀ (ls : List Str) (d : Dictionary) (log : List Diag),
    ∃ new, (hdrEffects c n cur ls (d, log)).2 = log ++ new ∧
      ∀ x ∈ new, ∃ m, x = .po .warning c.filename n m cur ∧
        m ∈ [b!"malformed Content-Type header", b!"unknown Plural-Forms given",
             b!"Plural-Forms missmatch between .po file and dictionary"] := by
  intro ls
  induction ls with
  | nil => intro d log; exact ⟨[], by simp [hdrEffects], by simp⟩
  | cons l ls ih =>
    intro d log
    have step : ∃ d' new, hdrEffect c n cur (d, log) l = (d', log ++ new) ∧
        ∀ x ∈ new, ∃ m, x = .po .warning c.filename n m cur ∧
        m ∈ [b!"malformed Content-Type header", b!"unknown Plural-Forms given",
             b!"Plural-Forms missmatch between .po file and dictionary"] := by
      unfold hdrEffect
      dsimp only
      split
      · split
        · exact ⟨_, [], by rw [List.append_nil], by simp⟩
        · exact ⟨_, _, rfl, by simp⟩
      · split
        · split
          · exact ⟨_, _, rfl, by simp⟩
          · split
            · exact ⟨_, [], by rw [List.append_nil], by simp⟩
            · split
              · exact ⟨_, _, rfl, by simp⟩
              · exact ⟨_, [], by rw [List.append_nil], by simp⟩
        · exact ⟨_, [], by rw [List.append_nil], by simp⟩
    obtain ⟨d', new, h1, h2⟩ := step
    obtain ⟨new', h3, h4⟩ := ih d' (log ++ new)
    refine ⟨new ++ new', ?_, ?_⟩
    · show (hdrEffects c n cur ls (hdrEffect c n cur (d, log) l)).2 = _
      rw [h1, h3, List.append_assoc]
    · intro x hx
      rcases List.mem_append.1 hx with h | h
      · exact h2 x h
      · exact h4 x h

/-- The state in a result, if any. -/
def Res.state? {σ α : Type} : Res σ α → Option σ
  | .ok _ s => some s
  | .poError s => some s
  | .exn _ s => some s
  | _ => none

theorem afterHeader_log (c : Cfg) (t : Str) (s : PState) : ∃ new, (afterHeader c t s).log = s.log ++ new ∧
    ∀ x ∈ new, ∃ m, x = .po .warning c.filename s.lineNumber m s.currentLine ∧
      m ∈ [b!"malformed Content-Type header", b!"unknown Plural-Forms given",
           b!"Plural-Forms missmatch between .po file and dictionary",
           b!"charset not specified for .po, fallback to utf-8"] := by
  obtain ⟨new, h1, h2⟩ := hdr_log c s.lineNumber s.currentLine (headerLines t []) s.dict s.log
  unfold afterHeader
  dsimp only
  rw [h1]
  refine ⟨_, by rw [List.append_assoc], ?_⟩
  intro x hx
  rcases List.mem_append.1 hx with h | h
  · obtain ⟨m, h3, h4⟩ := h2 x h
    exact ⟨m, h3, by simp only [List.mem_cons] at h4 ⊢; rcases h4 with h | h | h | h <;> simp [h]⟩
  · split at h
    · simp at h; exact ⟨_, h, by simp⟩
    · cases h

/-- What one event logs. -/
theorem evStep_log (c : Cfg) (T : Tape) (e : Ev) (hs : e.Says) (x y : List Str × PState) (h : Res.state? (evStep c T e x) = some y) :
    ∃ new, y.2.log = x.2.log ++ new ∧ ∀ d ∈ new, Quotes c T d := by
  obtain ⟨v, s⟩ := x
  have hconv : ∀ t r s', convert c t s = .ok r s' → ∃ new, s'.log = s.log ++ new ∧ s'.dict = s.dict ∧ ∀ d ∈ new, Quotes c T d := by
    intro t r s' h
    unfold convert at h
    split at h <;> cases h
    rename_i l hl
    refine ⟨l, rfl, rfl, fun d hd => ?_⟩
    obtain ⟨x, rfl⟩ := convert_quotes _ _ _ _ _ _ hl d hd
    trivial
  have hno : ∀ t s', convert c t s ≠ .poError s' ∧ ∀ w, convert c t s ≠ .exn w s' := by
    intro t s'
    unfold convert
    split <;> simp
  have happ : ∀ (d : Dictionary) (a : Add), ∀ x ∈ (a.apply d).2, Quotes c T x := by
    intro d a x hx
    rcases apply_quotes d a x hx with ⟨_, _, _, _, _, rfl⟩ | ⟨_, _, _, _, rfl⟩ <;> trivial
  cases e with
  | diag lv p m ped =>
    simp only [evStep] at h
    split at h
    · cases h; exact ⟨[], by simp, by simp⟩
    · cases h; exact ⟨_, rfl, by simp [Quotes]; exact hs⟩
  | clear => cases h; exact ⟨[], by simp, by simp⟩
  | conv n t =>
    simp only [evStep] at h
    cases hc : convert c t s with
    | ok r s' =>
      rw [hc] at h; cases h
      obtain ⟨new, h1, _, h2⟩ := hconv t r s' hc
      exact ⟨new, h1, h2⟩
    | poError s' => exact absurd hc (hno t s').1
    | exn w s' => exact absurd hc ((hno t s').2 w)
    | fault f => rw [hc] at h; cases h
    | diverge => rw [hc] at h; cases h
  | singular fz ctxt id t =>
    simp only [evStep] at h
    split at h
    · cases hc : convert c t s with
      | ok r s' =>
        rw [hc] at h; cases h
        obtain ⟨new, h1, h3, h2⟩ := hconv t r s' hc
        refine ⟨new ++ ((Add.singular ctxt id r).apply s'.dict).2, ?_, ?_⟩
        · dsimp only; rw [h1, List.append_assoc]
        · intro d hd
          rcases List.mem_append.1 hd with h | h
          · exact h2 d h
          · exact happ _ _ d h
      | poError s' => exact absurd hc (hno t s').1
      | exn w s' => exact absurd hc ((hno t s').2 w)
      | fault f => rw [hc] at h; cases h
      | diverge => rw [hc] at h; cases h
    · cases h; exact ⟨[], by simp, by simp⟩
  | plural p fz ctxt id idp =>
    simp only [evStep] at h
    split at h
    · cases h
      refine ⟨_, by rw [List.append_assoc], ?_⟩
      intro d hd
      rcases List.mem_append.1 hd with h | h
      · split at h
        · simp at h; subst h; exact ⟨rfl, .inr ⟨rfl, .inl (by simp [parserWarnings])⟩, p, rfl, rfl⟩
        · split at h
          · simp at h; subst h; exact ⟨rfl, .inr ⟨rfl, .inl (by simp [parserWarnings])⟩, p, rfl, rfl⟩
          · cases h
      · exact happ _ _ d h
    · cases h; exact ⟨[], by simp, by simp⟩
  | header p t =>
    simp only [evStep] at h
    rw [parseHeader_eq] at h
    obtain ⟨new, h1, h2⟩ := afterHeader_log c t (mv T s p)
    refine ⟨new, ?_, fun d hd => ?_⟩
    · unfold setCharsets at h
      dsimp only at h
      generalize IConv.setCharsets c.ct c.lib (afterHeader c t (mv T s p)).conv _ _ = g at h
      obtain ⟨cv, o⟩ := g
      cases o <;> (cases h; exact h1)
    · obtain ⟨m, h3, h4⟩ := h2 d hd
      subst h3
      refine ⟨rfl, .inr ⟨rfl, .inl ?_⟩, p, rfl, rfl⟩
      simp only [List.mem_cons, List.not_mem_nil, or_false] at h4
      rcases h4 with rfl | rfl | rfl | rfl <;> simp [parserWarnings]

theorem interp_log (c : Cfg) (T : Tape) (w : List Ev) (hw : ∀ e ∈ w, e.Says) (x y : List Str × PState)
    (h : Res.state? (interp c T w x) = some y) : ∃ new, y.2.log = x.2.log ++ new ∧ ∀ d ∈ new, Quotes c T d := by
  induction w generalizing x with
  | nil => cases h; exact ⟨[], by simp, by simp⟩
  | cons e w ih =>
    simp only [interp, bind_apply] at h
    cases he : evStep c T e x with
    | ok a x' =>
      rw [he] at h
      obtain ⟨n1, h1, h2⟩ := evStep_log c T e (hw e (by simp)) x x' (by rw [he]; rfl)
      obtain ⟨n2, h3, h4⟩ := ih (fun e he => hw e (by simp [he])) x' h
      refine ⟨n1 ++ n2, by rw [h3, h1, List.append_assoc], fun d hd => ?_⟩
      rcases List.mem_append.1 hd with h | h
      · exact h2 d h
      · exact h4 d h
    | poError x' =>
      rw [he] at h; cases h
      exact evStep_log c T e (hw e (by simp)) x y (by rw [he]; rfl)
    | exn w' x' =>
      rw [he] at h; cases h
      exact evStep_log c T e (hw e (by simp)) x y (by rw [he]; rfl)
    | fault f => rw [he] at h; cases h
    | diverge => rw [he] at h; cases h

theorem obsE_log (c : Cfg) (T : Tape) (r : List Ev × TRes Unit) (hw : ∀ e ∈ r.1, e.Says) (i : Stream) (d : Dictionary) :
    ∀ x ∈ (obsE c T r (initState i d)).log, Quotes c T x := by
  intro x hx
  unfold obsE at hx
  have key : ∀ y, Res.state? (interp c T r.1 ([], initState i d)) = some y → x ∈ y.2.log → Quotes c T x := by
    intro y hy hm
    obtain ⟨new, h1, h2⟩ := interp_log c T r.1 hw _ y hy
    rw [h1] at hm
    simp only [initState, List.nil_append] at hm
    exact h2 x hm
  cases h : interp c T r.1 ([], initState i d) with
  | ok a y =>
    rw [h] at hx
    dsimp only at hx
    cases hr : r.2 <;> rw [hr] at hx
    · exact key y (by rw [h]; rfl) hx
    · exact key y (by rw [h]; rfl) hx
    · cases hx
    · cases hx
  | poError y => rw [h] at hx; exact key y (by rw [h]; rfl) hx
  | exn w y => rw [h] at hx; exact key y (by rw [h]; rfl) hx
  | fault f => rw [h] at hx; cases hx
  | diverge => rw [h] at hx; cases hx

/-! ### Pedantic mode -/

/-- Drop the messages of pedantic mode. -/
def dropPed (l : List Diag) : List Diag := l.filter (fun d => !pedanticOnly d)

theorem dropPed_append (a b : List Diag) : dropPed (a ++ b) = dropPed a ++ dropPed b := by simp [dropPed]

theorem dropPed_id (l : List Diag) (h : ∀ x ∈ l, pedanticOnly x = false) : dropPed l = l := by
  unfold dropPed
  rw [List.filter_eq_self]
  intro x hx
  rw [h x hx]; rfl

/-- Diagnostics are marked pedantic iff they carry one of the two pedantic messages. -/
def Ev.pedOk : Ev → Bool
  | .diag lv _ m ped => ped == (lv == .warning && (m == b!"keyword and string must be seperated by a single space" ||
      m == b!"leading whitespace before string"))
  | _ => true

/-- The state with pedantic messages dropped. -/
def cleanS (s : PState) : PState := { s with log := dropPed s.log }

def cleanR : Res (List Str × PState) Unit → Res (List Str × PState) Unit
  | .ok a x => .ok a (x.1, cleanS x.2)
  | .poError x => .poError (x.1, cleanS x.2)
  | .exn w x => .exn w (x.1, cleanS x.2)
  | .fault f => .fault f
  | .diverge => .diverge

theorem hdr_clean (c c' : Cfg) (hct : c.ct = c'.ct) (hfn : c.filename = c'.filename) (n : Nat) (cur : Str) :
    ∀ (ls : List Str) (d : Dictionary) (log : List Diag),
    hdrEffects c n cur ls (d, dropPed log)
      = ((hdrEffects c' n cur ls (d, log)).1, dropPed (hdrEffects c' n cur ls (d, log)).2) := by
  intro ls
  induction ls with
  | nil => intro d log; rfl
  | cons l ls ih =>
    intro d log
    have step : hdrEffect c n cur (d, dropPed log) l
        = ((hdrEffect c' n cur (d, log) l).1, dropPed (hdrEffect c' n cur (d, log) l).2) := by
      unfold hdrEffect
      rw [hct, hfn]
      dsimp only
      split
      · split
        · rfl
        · dsimp only; rw [dropPed_append]; rfl
      · split
        · split
          · dsimp only; rw [dropPed_append]; rfl
          · split
            · rfl
            · split
              · dsimp only; rw [dropPed_append]; rfl
              · rfl
        · rfl
    show hdrEffects c n cur ls (hdrEffect c n cur (d, dropPed log) l) = _
    rw [step, ih]
    rfl

theorem afterHeader_clean (c c' : Cfg) (hct : c.ct = c'.ct) (hfn : c.filename = c'.filename) (t : Str) (s : PState) :
    afterHeader c t (cleanS s) = cleanS (afterHeader c' t s) := by
  unfold afterHeader cleanS
  dsimp only
  rw [hdr_clean c c' hct hfn]
  rw [dropPed_append, hct, hfn]
  congr 1
  congr 1
  split <;> rfl

theorem evStep_clean (c c' : Cfg) (h1 : c.ct = c'.ct) (h2 : c.lib = c'.lib) (h3 : c.filename = c'.filename)
    (h4 : c.useFuzzy = c'.useFuzzy) (h5 : c.pedantic = false) (h6 : c'.pedantic = true)
    (T : Tape) (e : Ev) (he : e.pedOk = true) (v : List Str) (s : PState) :
    evStep c T e (v, cleanS s) = cleanR (evStep c' T e (v, s)) := by
  have happ : ∀ (d : Dictionary) (a : Add), dropPed (a.apply d).2 = (a.apply d).2 := by
    intro d a
    apply dropPed_id
    intro x hx
    rcases apply_quotes d a x hx with ⟨_, _, _, _, _, rfl⟩ | ⟨_, _, _, _, rfl⟩ <;> rfl
  have hcv : ∀ t r cv l, s.conv.convert c'.lib t = .ok r cv l → dropPed l = l := by
    intro t r cv l h
    apply dropPed_id
    intro x hx
    obtain ⟨y, rfl⟩ := convert_quotes _ _ _ _ _ _ h x hx
    rfl
  cases e with
  | diag lv p m ped =>
    have he' : ped = (lv == .warning && (m == b!"keyword and string must be seperated by a single space" ||
      m == b!"leading whitespace before string")) := by
      simpa [Ev.pedOk] using he
    simp only [evStep, h5, h6, Bool.not_true, Bool.and_false, Bool.false_eq_true, if_false, Bool.not_false, Bool.and_true]
    have hp : pedanticOnly (.po lv c'.filename (p + 1) m (T p).line) = ped := by
      rw [he']
      cases lv <;> rfl
    cases hq : ped with
    | true =>
      rw [hq] at hp
      simp only [if_true, cleanR, cleanS, dropPed_append]
      simp [dropPed, hp]
    | false =>
      rw [hq] at hp
      simp only [Bool.false_eq_true, if_false, cleanR, cleanS, dropPed_append, h3]
      simp [dropPed, hp]
  | clear => rfl
  | conv n t =>
    simp only [evStep, convert, cleanS, h2]
    cases hc : s.conv.convert c'.lib t with
    | ok r cv l => simp only [cleanR, cleanS, dropPed_append, hcv t r cv l hc]
    | fault f => rfl
  | singular fz ctxt id t =>
    simp only [evStep, convert, h2, h4]
    split
    · simp only [cleanS]
      cases hc : s.conv.convert c'.lib t with
      | ok r cv l => simp only [cleanR, cleanS, dropPed_append, hcv t r cv l hc, happ]
      | fault f => rfl
    · rfl
  | plural p fz ctxt id idp =>
    simp only [evStep, h3, h4]
    split
    · simp only [cleanR, cleanS, dropPed_append, happ]
      congr 4
      congr 2
      symm
      apply dropPed_id
      intro x hx
      split at hx
      · simp only [List.mem_singleton] at hx; subst hx; rfl
      · split at hx
        · simp only [List.mem_singleton] at hx; subst hx; rfl
        · cases hx
    · rfl
  | header p t =>
    simp only [evStep]
    rw [parseHeader_eq, parseHeader_eq]
    have hm : mv T (cleanS s) p = cleanS (mv T s p) := rfl
    rw [hm, afterHeader_clean c c' h1 h3]
    unfold setCharsets
    rw [h1, h2]
    have e1 : (cleanS (afterHeader c' t (mv T s p))).conv = (afterHeader c' t (mv T s p)).conv := rfl
    have e2 : (cleanS (afterHeader c' t (mv T s p))).dict = (afterHeader c' t (mv T s p)).dict := rfl
    rw [e1, e2]
    dsimp only
    generalize IConv.setCharsets c'.ct c'.lib (afterHeader c' t (mv T s p)).conv _ _ = g
    obtain ⟨cv, o⟩ := g
    cases o <;> rfl

theorem interp_clean (c c' : Cfg) (h1 : c.ct = c'.ct) (h2 : c.lib = c'.lib) (h3 : c.filename = c'.filename)
    (h4 : c.useFuzzy = c'.useFuzzy) (h5 : c.pedantic = false) (h6 : c'.pedantic = true)
    (T : Tape) (w : List Ev) (hw : ∀ e ∈ w, e.pedOk = true) (v : List Str) (s : PState) :
    interp c T w (v, cleanS s) = cleanR (interp c' T w (v, s)) := by
  induction w generalizing v s with
  | nil => rfl
  | cons e w ih =>
    simp only [interp, bind_apply]
    rw [evStep_clean c c' h1 h2 h3 h4 h5 h6 T e (hw e List.mem_cons_self) v s]
    cases evStep c' T e (v, s) with
    | ok a x => exact ih (fun x hx => hw x (List.mem_cons_of_mem _ hx)) x.1 x.2
    | _ => rfl

end Tgt.POParser
