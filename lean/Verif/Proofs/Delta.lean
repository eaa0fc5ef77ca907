import Verif.Proofs.EvsAll
import Verif.Proofs.Core
/-
What events add does not depend on what was added before.
-/
namespace Tgt.POParser
open Spec

/-- Two converters that behave the same from now on. -/
def ConvSame (lib : IconvLib) (c c' : IConv) : Prop :=
  match c.cd, c'.cd with
  | .null, .null => True
  | .invalid, .invalid => True
  | .opened _ to fr hist, .opened _ to' fr' hist' =>
    to = to' ∧ fr = fr' ∧ ∀ hs t cap, lib.conv to fr (hist ++ hs) t cap = lib.conv to fr (hist' ++ hs) t cap
  | _, _ => False

theorem ConvSame.refl (lib : IconvLib) (c : IConv) : ConvSame lib c c := by
  unfold ConvSame
  cases c.cd with
  | null => trivial
  | invalid => trivial
  | opened id to fr h => exact ⟨rfl, rfl, fun _ _ _ => rfl⟩

/-- Same result, same behaviour afterwards. -/
theorem ConvSame.convert {lib : IconvLib} {c c' : IConv} (h : ConvSame lib c c') (t : Str) :
    (∃ r cv cv' l, c.convert lib t = .ok r cv l ∧ c'.convert lib t = .ok r cv' l ∧ ConvSame lib cv cv') ∨
    (∃ f, c.convert lib t = .fault f ∧ c'.convert lib t = .fault f) := by
  unfold ConvSame at h
  unfold IConv.convert
  cases h1 : c.cd with
  | null =>
    rw [h1] at h
    cases h2 : c'.cd with
    | null => exact .inl ⟨_, _, _, _, rfl, rfl, by unfold ConvSame; rw [h1, h2]; trivial⟩
    | _ => rw [h2] at h; exact h.elim
  | invalid =>
    rw [h1] at h
    cases h2 : c'.cd with
    | invalid => exact .inr ⟨_, rfl, rfl⟩
    | _ => rw [h2] at h; exact h.elim
  | opened id to fr hist =>
    rw [h1] at h
    cases h2 : c'.cd with
    | opened id' to' fr' hist' =>
      rw [h2] at h
      obtain ⟨rfl, rfl, hh⟩ := h
      dsimp only
      have h0 := hh [] t (4 * t.length)
      rw [List.append_nil, List.append_nil] at h0
      rw [← h0]
      cases (lib.conv to fr hist t (4 * t.length)).status with
      | ok =>
        refine .inl ⟨_, _, _, _, rfl, rfl, rfl, rfl, fun hs t' cap => ?_⟩
        rw [List.append_assoc, List.append_assoc]; exact hh _ _ _
      | eilseq => exact .inl ⟨_, _, _, _, rfl, rfl, rfl, rfl, fun _ _ _ => rfl⟩
      | einval => exact .inl ⟨_, _, _, _, rfl, rfl, rfl, rfl, fun _ _ _ => rfl⟩
      | e2big => exact .inr ⟨_, rfl, rfl⟩
      | ebadf => exact .inr ⟨_, rfl, rfl⟩
      | other => exact .inr ⟨_, rfl, rfl⟩
    | _ => rw [h2] at h; exact h.elim

theorem ConvSame.setCharsets (ct : CType) (lib : IconvLib) (c c' : IConv) (f t : Str) :
    (c.setCharsets ct lib f t).2 = (c'.setCharsets ct lib f t).2 ∧
    ConvSame lib (c.setCharsets ct lib f t).1 (c'.setCharsets ct lib f t).1 := by
  unfold IConv.setCharsets
  dsimp only
  split
  · exact ⟨rfl, trivial⟩
  · split
    · exact ⟨rfl, rfl, rfl, fun _ _ _ => rfl⟩
    · exact ⟨rfl, trivial⟩
    · exact ⟨rfl, trivial⟩

/-- Two cores that differ in the effects `e`, `e'` accumulated earlier; the vectors agree if `g`. -/
structure KRel (lib : IconvLib) (e e' : Effect) (g : Bool) (k k' : Core) : Prop where
  vec : g = true → k.vec = k'.vec
  conv : ConvSame lib k.conv k'.conv
  eff : ∃ x : Effect, k.eff = e.plus x ∧ k'.eff = e'.plus x

/-- Vectors are cleared before they are used. -/
def Guarded : Bool → List Ev → Prop
  | _, [] => True
  | _, .clear :: w => Guarded true w
  | g, .conv _ _ :: w => g = true ∧ Guarded g w
  | g, .plural .. :: w => g = true ∧ Guarded g w
  | g, _ :: w => Guarded g w

theorem Guarded.mono {g : Bool} {w : List Ev} (h : Guarded false w) : Guarded g w := by
  induction w with
  | nil => trivial
  | cons e w ih =>
    cases e with
    | clear => exact h
    | conv => exact absurd h.1 (by simp)
    | plural => exact absurd h.1 (by simp)
    | diag => exact ih h
    | singular => exact ih h
    | header => exact ih h

theorem Guarded.append {g : Bool} {w1 w2 : List Ev} (h1 : Guarded g w1) (h2 : Guarded g w2) : Guarded g (w1 ++ w2) := by
  induction w1 generalizing g with
  | nil => exact h2
  | cons e w ih =>
    have hm : Guarded true w2 := by cases g with
      | true => exact h2
      | false => exact h2.mono
    cases e with
    | clear => exact ih h1 hm
    | conv => exact ⟨h1.1, ih h1.2 h2⟩
    | plural => exact ⟨h1.1, ih h1.2 h2⟩
    | diag => exact ih h1 h2
    | singular => exact ih h1 h2
    | header => exact ih h1 h2

theorem Guarded.norm {w : List Ev} {g : Bool} (h : Guarded g w) : Guarded g (essence w) := by
  induction w generalizing g with
  | nil => trivial
  | cons e w ih =>
    cases e with
    | clear => exact ih (g := true) h
    | conv n t => exact ⟨h.1, ih h.2⟩
    | plural => exact ⟨h.1, ih h.2⟩
    | diag => exact ih h
    | singular => exact ih h
    | header => exact ih h

/-- Results of two interpretations. -/
def KRes (lib : IconvLib) (e e' : Effect) : Res Core Unit → Res Core Unit → Prop
  | .ok _ k, .ok _ k' => KRel lib e e' false k k'
  | .exn w k, .exn w' k' => w = w' ∧ KRel lib e e' false k k'
  | .fault f, .fault f' => f = f'
  | _, _ => False

theorem plus_adds (e x : Effect) (a : Add) : ({ (e.plus x) with adds := (e.plus x).adds ++ [a] } : Effect) = e.plus { x with adds := x.adds ++ [a] } := by
  simp [Effect.plus]

theorem plus_rule (e x : Effect) (r : Option PluralForms) : ({ (e.plus x) with rule := (e.plus x).rule.or r } : Effect) = e.plus { x with rule := x.rule.or r } := by
  simp [Effect.plus, Option.or_assoc]

theorem krel (ct : CType) (lib : IconvLib) (uf : Bool) (cs : Str) (e e' : Effect) (w : List Ev) : ∀ (g : Bool) (k k' : Core),
    Guarded g w → KRel lib e e' g k k' → KRes lib e e' (coreInterp ct lib uf cs w k) (coreInterp ct lib uf cs w k') := by
  induction w with
  | nil => intro g k k' _ h; exact ⟨(fun h => by cases h), h.conv, h.eff⟩
  | cons ev w ih =>
    intro g k k' hg h
    simp only [coreInterp]
    rw [bind_apply, bind_apply]
    obtain ⟨hv, hc, x, hx, hx'⟩ := h
    cases ev with
    | diag lv p m pd => exact ih g k k' hg ⟨hv, hc, x, hx, hx'⟩
    | clear => exact ih true _ _ hg ⟨fun _ => rfl, hc, x, hx, hx'⟩
    | conv n t =>
      obtain ⟨hg1, hg2⟩ := hg
      simp only [coreStep]
      rcases hc.convert t with ⟨r, cv, cv', l, h1, h2, h3⟩ | ⟨f, h1, h2⟩
      · rw [h1, h2]
        exact ih g _ _ hg2 ⟨fun _ => by dsimp only; rw [hv hg1], h3, x, hx, hx'⟩
      · rw [h1, h2]; rfl
    | singular fz ctxt id t =>
      simp only [coreStep]
      by_cases hu : (uf || !fz) = true
      · rw [if_pos hu, if_pos hu]
        rcases hc.convert t with ⟨r, cv, cv', l, h1, h2, h3⟩ | ⟨f, h1, h2⟩
        · rw [h1, h2]
          exact ih g _ _ hg ⟨hv, h3, { x with adds := x.adds ++ [.singular ctxt id r] }, by rw [← plus_adds, ← hx], by rw [← plus_adds, ← hx']⟩
        · rw [h1, h2]; rfl
      · rw [if_neg hu, if_neg hu]
        exact ih g k k' hg ⟨hv, hc, x, hx, hx'⟩
    | plural p fz ctxt id idp =>
      obtain ⟨hg1, hg2⟩ := hg
      simp only [coreStep]
      by_cases hu : (uf || !fz) = true
      · rw [if_pos hu, if_pos hu]
        exact ih g _ _ hg2 ⟨hv, hc, { x with adds := x.adds ++ [.plural ctxt id idp k.vec] }, by rw [← plus_adds, ← hx], by rw [← plus_adds, ← hx', hv hg1]⟩
      · rw [if_neg hu, if_neg hu]
        exact ih g k k' hg2 ⟨hv, hc, x, hx, hx'⟩
    | header p t =>
      simp only [coreStep]
      obtain ⟨h1, h2⟩ := ConvSame.setCharsets ct lib k.conv k'.conv (sourceCharset (headerCharset ct t)) cs
      rw [← h1]
      cases hw : (k.conv.setCharsets ct lib (sourceCharset (headerCharset ct t)) cs).2 with
      | none =>
        exact ih g _ _ hg ⟨hv, h2, { x with rule := x.rule.or (firstRule ct (headerLines t [])) }, by rw [← plus_rule, ← hx], by rw [← plus_rule, ← hx']⟩
      | some m =>
        exact ⟨rfl, (fun h => by cases h), h2, { x with rule := x.rule.or (firstRule ct (headerLines t [])) }, by rw [← plus_rule, ← hx], by rw [← plus_rule, ← hx']⟩

end Tgt.POParser
