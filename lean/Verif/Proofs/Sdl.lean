import Verif.Spec.Sdl
import Verif.Spec.PoFile
import Verif.Proofs.Parse
/-
A parse with SDL, step by step beside one without.
-/
namespace Tgt.POParser.Sdl
open Spec Po

/-- The same configuration with SDL. -/
abbrev sdl (c : Cfg) : Cfg := { c with lib := c.lib.sdl }

/-- Converters that differ at most in what they have been fed; not even in that, unless that makes no difference. -/
def Same (lib : IconvLib) (c c' : IConv) : Prop :=
  match c.cd, c'.cd with
  | .null, .null => True
  | .invalid, .invalid => True
  | .opened _ to fr hist, .opened _ to' fr' hist' => to = to' ∧ fr = fr' ∧ (Memoryless lib ∨ hist = hist')
  | _, _ => False

/-- It may go on alike. -/
def Good (lib : IconvLib) (l : List Diag) : Prop := Memoryless lib ∨ ∀ d ∈ l, badString d = false

/-- The state with SDL, and the one without. -/
def Sim (lib : IconvLib) (x y : List Str × PState) : Prop :=
  ∃ cv, Same lib x.2.conv cv ∧ y = (x.1, { x.2 with log := quiet x.2.log, conv := cv })

/-- Results: the same, unless an assertion fails without SDL or a bad string was reported there that may matter. -/
def Res' (lib : IconvLib) (r r' : Res (List Str × PState) Unit) : Prop :=
  match r with
  | .fault _ => True
  | .ok _ x => Good lib x.2.log → ∃ y, r' = .ok () y ∧ Sim lib x y
  | .exn w x => Good lib x.2.log → ∃ y, r' = .exn w y ∧ Sim lib x y
  | .poError x => Good lib x.2.log → ∃ y, r' = .poError y ∧ Sim lib x y
  | .diverge => r' = .diverge

/-- Bad strings reported before stay reported. -/
def Grows (s : List Diag) (r : Res (List Str × PState) Unit) : Prop :=
  match r with
  | .ok _ x | .exn _ x | .poError x => s <+: x.2.log
  | _ => True

theorem good_prefix {lib : IconvLib} {l l' : List Diag} (h : l <+: l') (g : Good lib l') : Good lib l := by
  rcases g with g | g
  · exact .inl g
  · exact .inr (fun d hd => g d (h.subset hd))

theorem quiet_append (a b : List Diag) : quiet (a ++ b) = quiet a ++ quiet b := List.filter_append ..

theorem quiet_of {l : List Diag} (h : ∀ d ∈ l, badString d = false) : quiet l = l := by
  unfold quiet
  rw [List.filter_eq_self]
  intro d hd
  rw [h d hd]; rfl

theorem vec_quiet (c : Option Str) (i : Str) (v : List Str) (t : Str) : ∀ x ∈ (Dictionary.addSingularVec c i v t).2, badString x = false := by
  intro x hx
  unfold Dictionary.addSingularVec at hx
  split at hx
  · cases hx
  · split at hx
    · rcases List.mem_singleton.1 hx with rfl; rfl
    · cases hx

theorem vecs_quiet (c : Option Str) (i p : Str) (v w : List Str) : ∀ x ∈ (Dictionary.addPluralVec c i p v w).2, badString x = false := by
  intro x hx
  unfold Dictionary.addPluralVec at hx
  split at hx
  · cases hx
  · split at hx
    · rcases List.mem_singleton.1 hx with rfl; rfl
    · cases hx

theorem add_quiet (a : Add) (d : Dictionary) : ∀ x ∈ (a.apply d).2, badString x = false := by
  cases a with
  | singular c i s => cases c <;> exact vec_quiet _ _ _ _
  | plural c i p v => cases c <;> exact vecs_quiet _ _ _ _ _

theorem hdr_quiet (c : Cfg) (n : Nat) (cur : Str) (ls : List Str) : ∀ (d : Dictionary) (l : List Diag),
    hdrEffects (sdl c) n cur ls (d, quiet l) = ((hdrEffects c n cur ls (d, l)).1, quiet (hdrEffects c n cur ls (d, l)).2) ∧
    l <+: (hdrEffects c n cur ls (d, l)).2 := by
  induction ls with
  | nil => intro d l; exact ⟨rfl, List.prefix_refl _⟩
  | cons x ls ih =>
    intro d l
    have step : ∃ d' m, hdrEffect c n cur (d, l) x = (d', l ++ m) ∧ hdrEffect (sdl c) n cur (d, quiet l) x = (d', quiet (l ++ m)) := by
      unfold hdrEffect
      dsimp only
      split
      · split
        · exact ⟨d, [], by simp, by simp⟩
        · exact ⟨d, _, rfl, by rw [quiet_append]; rfl⟩
      · split
        · split
          · exact ⟨d, _, rfl, by rw [quiet_append]; rfl⟩
          · split
            · exact ⟨_, [], by rw [List.append_nil], by rw [List.append_nil]⟩
            · split
              · exact ⟨d, _, rfl, by rw [quiet_append]; rfl⟩
              · exact ⟨d, [], by simp, by simp⟩
        · exact ⟨d, [], by simp, by simp⟩
    obtain ⟨d', m, e1, e2⟩ := step
    have h1 : hdrEffects c n cur (x :: ls) (d, l) = hdrEffects c n cur ls (d', l ++ m) := by rw [← e1]; rfl
    have h2 : hdrEffects (sdl c) n cur (x :: ls) (d, quiet l) = hdrEffects (sdl c) n cur ls (d', quiet (l ++ m)) := by rw [← e2]; rfl
    rw [h1, h2]
    exact ⟨(ih d' (l ++ m)).1, (List.prefix_append _ _).trans (ih d' (l ++ m)).2⟩

/-- The result of a conversion, in both builds. -/
theorem convert_sim {lib : IconvLib} {c c' : IConv} (h : Same lib c c') (t : Str) :
    match c.convert lib t with
    | .fault _ => True
    | .ok r cv l => Good lib l → ∃ cv', c'.convert lib.sdl t = .ok r cv' (quiet l) ∧ Same lib cv cv' := by
  unfold Same at h
  unfold IConv.convert
  cases h1 : c.cd with
  | null =>
    rw [h1] at h
    cases h2 : c'.cd with
    | null => exact fun _ => ⟨_, rfl, by unfold Same; rw [h1, h2]; trivial⟩
    | _ => rw [h2] at h; exact h.elim
  | invalid => trivial
  | opened id to fr hist =>
    rw [h1] at h
    cases h2 : c'.cd with
    | opened id' to' fr' hist' =>
      rw [h2] at h
      obtain ⟨rfl, rfl, hh⟩ := h
      have hc : lib.conv to fr hist t (4 * t.length) = lib.conv to fr hist' t (4 * t.length) := by
        rcases hh with hh | rfl
        · exact hh _ _ _ _ _ _
        · rfl
      simp only [IconvLib.sdl, ← hc]
      cases (lib.conv to fr hist t (4 * t.length)).status with
      | ok => exact fun _ => ⟨_, rfl, rfl, rfl, hh.imp (fun e => e) (fun e => by rw [e])⟩
      | eilseq =>
        intro g
        rcases g with g | g
        · exact ⟨_, rfl, rfl, rfl, .inl g⟩
        · cases g _ List.mem_cons_self
      | einval =>
        intro g
        rcases g with g | g
        · exact ⟨_, rfl, rfl, rfl, .inl g⟩
        · cases g _ List.mem_cons_self
      | e2big => trivial
      | ebadf => trivial
      | other => trivial
    | _ => rw [h2] at h; exact h.elim

theorem setCharsets_sim (ct : CType) (lib : IconvLib) (c c' : IConv) (f t : Str) :
    (c.setCharsets ct lib f t).2 = (c'.setCharsets ct lib.sdl f t).2 ∧
    Same lib (c.setCharsets ct lib f t).1 (c'.setCharsets ct lib.sdl f t).1 := by
  unfold IConv.setCharsets
  dsimp only [IconvLib.sdl]
  split
  · exact ⟨rfl, trivial⟩
  · split
    · exact ⟨rfl, rfl, rfl, .inr rfl⟩
    · exact ⟨rfl, trivial⟩
    · exact ⟨rfl, trivial⟩

theorem good_append {lib : IconvLib} {a b : List Diag} (g : Good lib (a ++ b)) : Good lib b := by
  rcases g with g | g
  · exact .inl g
  · exact .inr (fun d hd => g d (List.mem_append_right _ hd))

theorem step_grows (c : Cfg) (T : Tape) (e : Ev) (x : List Str × PState) : Grows x.2.log (evStep c T e x) := by
  cases e with
  | diag lv p m ped =>
    simp only [evStep]
    split
    · exact List.prefix_refl _
    · exact List.prefix_append _ _
  | clear => exact List.prefix_refl _
  | conv n t =>
    simp only [evStep, convert]
    cases x.2.conv.convert c.lib t with
    | ok r cv l => exact List.prefix_append _ _
    | fault f => trivial
  | singular fz ctxt id t =>
    simp only [evStep, convert]
    split
    · cases x.2.conv.convert c.lib t with
      | ok r cv l => exact (List.prefix_append _ _).trans (List.prefix_append _ _)
      | fault f => trivial
    · exact List.prefix_refl _
  | plural p fz ctxt id idp =>
    simp only [evStep]
    split
    · show x.2.log <+: _ ++ _ ++ _
      rw [List.append_assoc]; exact List.prefix_append _ _
    · exact List.prefix_refl _
  | header p t =>
    simp only [evStep]
    rw [parseHeader_eq]
    have hl : x.2.log <+: (afterHeader c t (mv T x.2 p)).log :=
      (hdr_quiet c (p + 1) (T p).line (headerLines t []) x.2.dict x.2.log).2.trans (List.prefix_append _ _)
    generalize afterHeader c t (mv T x.2 p) = s at hl
    unfold setCharsets
    dsimp only
    cases (s.conv.setCharsets c.ct c.lib (sourceCharset (headerCharset c.ct t)) s.dict.charset).2 with
    | none => exact hl
    | some w => exact hl

theorem interp_grows (c : Cfg) (T : Tape) (w : List Ev) : ∀ x, Grows x.2.log (interp c T w x) := by
  induction w with
  | nil => intro x; exact List.prefix_refl _
  | cons e w ih =>
    intro x
    rw [interp, bind_apply]
    have h := step_grows c T e x
    cases he : evStep c T e x with
    | ok a x' =>
      rw [he] at h
      have h' := ih x'
      dsimp only
      cases hi : interp c T w x' with
      | ok => rw [hi] at h'; exact List.IsPrefix.trans h h'
      | exn => rw [hi] at h'; exact List.IsPrefix.trans h h'
      | poError => rw [hi] at h'; exact List.IsPrefix.trans h h'
      | fault => trivial
      | diverge => trivial
    | exn w x' => rw [he] at h; exact h
    | poError x' => rw [he] at h; exact h
    | fault => trivial
    | diverge => trivial

theorem step_sim (c : Cfg) (T : Tape) (e : Ev) (x y : List Str × PState) (h : Sim c.lib x y) :
    Res' c.lib (evStep c T e x) (evStep (sdl c) T e y) := by
  obtain ⟨v, s⟩ := x
  obtain ⟨cv, hs, rfl⟩ := h
  cases e with
  | diag lv p m ped =>
    simp only [evStep]
    split
    · exact fun _ => ⟨_, rfl, cv, hs, rfl⟩
    · exact fun _ => ⟨_, rfl, cv, hs, by rw [quiet_append]; rfl⟩
  | clear => exact fun _ => ⟨_, rfl, cv, hs, rfl⟩
  | conv n t =>
    have hc := convert_sim hs t
    simp only [evStep, convert]
    cases hx : s.conv.convert c.lib t with
    | ok r cv1 l =>
      rw [hx] at hc
      intro g
      obtain ⟨cv', e1, e2⟩ := hc (good_append g)
      rw [e1]
      exact ⟨_, rfl, cv', e2, by rw [quiet_append]⟩
    | fault f => trivial
  | singular fz ctxt id t =>
    have hc := convert_sim hs t
    simp only [evStep, convert]
    by_cases hf : (c.useFuzzy || !fz) = true
    · rw [if_pos hf, if_pos hf]
      cases hx : s.conv.convert c.lib t with
      | ok r cv1 l =>
        rw [hx] at hc
        intro g
        obtain ⟨cv', e1, e2⟩ := hc (good_append (good_prefix (List.prefix_append _ _) g))
        dsimp only
        rw [e1]
        exact ⟨_, rfl, cv', e2, by rw [quiet_append, quiet_append, quiet_of (add_quiet _ _)]⟩
      | fault f => trivial
    · rw [if_neg hf, if_neg hf]; exact fun _ => ⟨_, rfl, cv, hs, rfl⟩
  | plural p fz ctxt id idp =>
    simp only [evStep]
    by_cases hf : (c.useFuzzy || !fz) = true
    · rw [if_pos hf, if_pos hf]
      refine fun _ => ⟨_, rfl, cv, hs, ?_⟩
      rw [quiet_append, quiet_append, quiet_of (add_quiet _ _)]
      have : ∀ m : List Diag, m = (if !s.dict.pluralForms.isDefined then
            [.po .warning c.filename (p + 1) b!"msgstr[N] seen, but no Plural-Forms given" (T p).line]
          else if v.length ≠ s.dict.pluralForms.getNplural then
            [.po .warning c.filename (p + 1) b!"msgstr[N] count doesn't match Plural-Forms.nplural" (T p).line]
          else []) → quiet m = m := by
        rintro m rfl
        split
        · rfl
        · split <;> rfl
      rw [this _ rfl]
    · rw [if_neg hf, if_neg hf]; exact fun _ => ⟨_, rfl, cv, hs, rfl⟩
  | header p t =>
    simp only [evStep]
    rw [parseHeader_eq, parseHeader_eq]
    have hh := (hdr_quiet c (p + 1) (T p).line (headerLines t []) s.dict s.log).1
    have ha : afterHeader (sdl c) t (mv T { s with log := quiet s.log, conv := cv } p)
        = { afterHeader c t (mv T s p) with log := quiet (afterHeader c t (mv T s p)).log, conv := cv } := by
      unfold afterHeader
      simp only [mv]
      rw [hh, quiet_append]
      congr 2
      split <;> rfl
    rw [ha]
    have hconv : (afterHeader c t (mv T s p)).conv = s.conv := rfl
    generalize afterHeader c t (mv T s p) = a at hconv ⊢
    have hsc := setCharsets_sim c.ct c.lib a.conv cv (sourceCharset (headerCharset c.ct t)) a.dict.charset
    unfold setCharsets
    dsimp only
    rw [← hsc.1]
    cases (a.conv.setCharsets c.ct c.lib (sourceCharset (headerCharset c.ct t)) a.dict.charset).2 with
    | none => exact fun _ => ⟨_, rfl, _, hsc.2, rfl⟩
    | some w => exact fun _ => ⟨_, rfl, _, hsc.2, rfl⟩

theorem interp_sim (c : Cfg) (T : Tape) (w : List Ev) : ∀ x y, Sim c.lib x y → Res' c.lib (interp c T w x) (interp (sdl c) T w y) := by
  induction w with
  | nil => intro x y h _; exact ⟨y, rfl, h⟩
  | cons e w ih =>
    intro x y h
    rw [interp, interp, bind_apply, bind_apply]
    have hs := step_sim c T e x y h
    cases he : evStep c T e x with
    | ok a x' =>
      rw [he] at hs
      have hg := interp_grows c T w x'
      dsimp only
      by_cases g : Good c.lib x'.2.log
      · obtain ⟨y', e1, e2⟩ := hs g
        rw [e1]
        exact ih x' y' e2
      · cases hi : interp c T w x' with
        | ok => rw [hi] at hg; exact fun g' => absurd (good_prefix hg g') g
        | exn => rw [hi] at hg; exact fun g' => absurd (good_prefix hg g') g
        | poError => rw [hi] at hg; exact fun g' => absurd (good_prefix hg g') g
        | fault => trivial
        | diverge => exact absurd hi (interp_no_poError c T w x' x').2
    | exn w x' =>
      rw [he] at hs
      intro g
      obtain ⟨y', e1, e2⟩ := hs g
      rw [e1]
      exact ⟨y', rfl, e2⟩
    | poError x' =>
      rw [he] at hs
      intro g
      obtain ⟨y', e1, e2⟩ := hs g
      rw [e1]
      exact ⟨y', rfl, e2⟩
    | fault => trivial
    | diverge => rw [he] at hs; rw [show evStep (sdl c) T e y = .diverge from hs]; rfl

/-! ### No message about bad strings -/

/-- Nothing about bad strings. -/
def Clean (l : List Diag) : Prop := ∀ d ∈ l, badString d = false

theorem Clean.append {a b : List Diag} (h : Clean a) (h' : Clean b) : Clean (a ++ b) := by
  intro d hd
  rcases List.mem_append.1 hd with hd | hd
  · exact h d hd
  · exact h' d hd

theorem clean_iff (l : List Diag) : Clean l ↔ quiet l = l := by
  constructor
  · exact quiet_of
  · intro h d hd
    rw [← h] at hd
    have := (List.mem_filter.1 hd).2
    cases hb : badString d
    · rfl
    · rw [hb] at this; cases this

def CleanR : Res (List Str × PState) Unit → Prop
  | .ok _ x | .exn _ x | .poError x => Clean x.2.log
  | _ => True

theorem convert_clean (lib : IconvLib) (c : IConv) (t : Str) :
    match c.convert lib.sdl t with
    | .fault _ => True
    | .ok _ _ l => Clean l := by
  unfold IConv.convert
  cases c.cd with
  | null => exact fun d hd => by cases hd
  | invalid => trivial
  | opened id to fr hist =>
    simp only [IconvLib.sdl]
    cases (lib.conv to fr hist t (4 * t.length)).status with
    | ebadf => trivial
    | other => trivial
    | _ => exact fun d hd => by cases hd

theorem step_clean (c : Cfg) (T : Tape) (e : Ev) (x : List Str × PState) (h : Clean x.2.log) : CleanR (evStep (sdl c) T e x) := by
  cases e with
  | diag lv p m ped =>
    simp only [evStep]
    split
    · exact h
    · exact h.append (fun d hd => by rcases List.mem_singleton.1 hd with rfl; rfl)
  | clear => exact h
  | conv n t =>
    have hc := convert_clean c.lib x.2.conv t
    simp only [evStep, convert]
    cases hx : x.2.conv.convert c.lib.sdl t with
    | ok r cv l => rw [hx] at hc; exact h.append hc
    | fault f => trivial
  | singular fz ctxt id t =>
    have hc := convert_clean c.lib x.2.conv t
    simp only [evStep, convert]
    split
    · cases hx : x.2.conv.convert c.lib.sdl t with
      | ok r cv l => rw [hx] at hc; exact (h.append hc).append (add_quiet _ _)
      | fault f => trivial
    · exact h
  | plural p fz ctxt id idp =>
    simp only [evStep]
    split
    · refine (h.append ?_).append (add_quiet _ _)
      split
      · exact fun d hd => by rcases List.mem_singleton.1 hd with rfl; rfl
      · split
        · exact fun d hd => by rcases List.mem_singleton.1 hd with rfl; rfl
        · exact fun d hd => by cases hd
    · exact h
  | header p t =>
    simp only [evStep]
    rw [parseHeader_eq]
    have hl : Clean (afterHeader (sdl c) t (mv T x.2 p)).log := by
      have hq := (hdr_quiet c (p + 1) (T p).line (headerLines t []) x.2.dict x.2.log).1
      rw [quiet_of h] at hq
      unfold afterHeader
      simp only [mv]
      refine Clean.append ?_ ?_
      · rw [clean_iff]
        have h2 : (hdrEffects (sdl c) (p + 1) (T p).line (headerLines t []) (x.2.dict, x.2.log)).2
            = quiet (hdrEffects c (p + 1) (T p).line (headerLines t []) (x.2.dict, x.2.log)).2 := by rw [hq]
        rw [h2]
        unfold quiet
        rw [List.filter_filter]
        simp
      · split
        · exact fun d hd => by rcases List.mem_singleton.1 hd with rfl; rfl
        · exact fun d hd => by cases hd
    generalize afterHeader (sdl c) t (mv T x.2 p) = s at hl
    unfold setCharsets
    dsimp only
    cases (s.conv.setCharsets c.ct c.lib.sdl (sourceCharset (headerCharset c.ct t)) s.dict.charset).2 with
    | none => exact hl
    | some w => exact hl

theorem interp_clean (c : Cfg) (T : Tape) (w : List Ev) : ∀ x, Clean x.2.log → CleanR (interp (sdl c) T w x) := by
  induction w with
  | nil => intro x h; exact h
  | cons e w ih =>
    intro x h
    rw [interp, bind_apply]
    have h := step_clean c T e x h
    cases he : evStep (sdl c) T e x with
    | ok a x' => rw [he] at h; exact ih x' h
    | exn w x' => rw [he] at h; exact h
    | poError x' => rw [he] at h; exact h
    | fault => trivial
    | diverge => trivial

end Tgt.POParser.Sdl
