import Verif.Proofs.Core
import Verif.Proofs.Vis
/-
Invariants of the interpretation of events.
-/
namespace Tgt.POParser
open Spec

/-- What keeps an invariant `I` under events satisfying `Q`: conversion steps, additions, headers. -/
structure Keeps (ct : CType) (lib : IconvLib) (uf : Bool) (cs : Str) (Q : Ev → Prop) (I : Core → Prop) : Prop where
  clear : ∀ k, I k → I { k with vec := [] }
  conv : ∀ k n t r cv l, Q (.conv n t) → I k → k.conv.convert lib t = .ok r cv l →
    I { k with vec := setAt k.vec n r, conv := cv }
  singular : ∀ k fz c i t r cv l, Q (.singular fz c i t) → I k → (uf || !fz) = true → k.conv.convert lib t = .ok r cv l →
    I { k with conv := cv, eff := { k.eff with adds := k.eff.adds ++ [.singular c i r] } }
  plural : ∀ k p fz c i ip, Q (.plural p fz c i ip) → I k → (uf || !fz) = true →
    I { k with eff := { k.eff with adds := k.eff.adds ++ [.plural c i ip k.vec] } }
  header : ∀ k p t, Q (.header p t) → I k →
    I { k with
      big5 := k.big5 || (headerCharset ct t == b!"BIG5")
      eff := { k.eff with rule := k.eff.rule.or (firstRule ct (headerLines t [])) }
      conv := (k.conv.setCharsets ct lib (sourceCharset (headerCharset ct t)) cs).1 }

variable {ct : CType} {lib : IconvLib} {uf : Bool} {cs : Str} {Q : Ev → Prop} {I : Core → Prop}

theorem Keeps.step (h : Keeps ct lib uf cs Q I) (e : Ev) (k k' : Core) (hq : Q e) (hk : I k)
    (he : Res.state? (coreStep ct lib uf cs e k) = some k') : I k' := by
  cases e with
  | diag lv p m pd => simp only [coreStep, Res.state?, Option.some.injEq] at he; subst he; exact hk
  | clear => simp only [coreStep, Res.state?, Option.some.injEq] at he; subst he; exact h.clear k hk
  | conv n t =>
    simp only [coreStep] at he
    cases hc : k.conv.convert lib t with
    | ok r cv l =>
      rw [hc] at he
      simp only [Res.state?, Option.some.injEq] at he
      subst he
      exact h.conv k n t r cv l hq hk hc
    | fault f => rw [hc] at he; cases he
  | singular fz c i t =>
    simp only [coreStep] at he
    split at he
    · rename_i hu
      cases hc : k.conv.convert lib t with
      | ok r cv l =>
        rw [hc] at he
        simp only [Res.state?, Option.some.injEq] at he
        subst he
        exact h.singular k fz c i t r cv l hq hk hu hc
      | fault f => rw [hc] at he; cases he
    · simp only [Res.state?, Option.some.injEq] at he; subst he; exact hk
  | plural p fz c i ip =>
    simp only [coreStep] at he
    split at he
    · rename_i hu
      simp only [Res.state?, Option.some.injEq] at he
      subst he
      exact h.plural k p fz c i ip hq hk hu
    · simp only [Res.state?, Option.some.injEq] at he; subst he; exact hk
  | header p t =>
    simp only [coreStep] at he
    cases hs : (k.conv.setCharsets ct lib (sourceCharset (headerCharset ct t)) cs).2 with
    | none =>
      rw [hs] at he
      simp only [Res.state?, Option.some.injEq] at he
      subst he
      exact h.header k p t hq hk
    | some w =>
      rw [hs] at he
      simp only [Res.state?, Option.some.injEq] at he
      subst he
      exact h.header k p t hq hk

theorem Keeps.interp (h : Keeps ct lib uf cs Q I) (w : List Ev) : ∀ (k k' : Core), (∀ e ∈ w, Q e) → I k →
    Res.state? (coreInterp ct lib uf cs w k) = some k' → I k' := by
  induction w with
  | nil =>
    intro k k' _ hk he
    simp only [coreInterp, Prog.pure, Res.state?, Option.some.injEq] at he
    subst he
    exact hk
  | cons e w ih =>
    intro k k' hq hk he
    simp only [coreInterp, bind_apply] at he
    cases hs : coreStep ct lib uf cs e k with
    | ok a k1 =>
      rw [hs] at he
      exact ih k1 k' (fun x hx => hq x (List.mem_cons_of_mem _ hx))
        (h.step e k k1 (hq e List.mem_cons_self) hk (by rw [hs]; rfl)) he
    | poError k1 => rw [hs] at he; exact h.step e k k' (hq e List.mem_cons_self) hk (by rw [hs]; exact he)
    | exn m k1 => rw [hs] at he; exact h.step e k k' (hq e List.mem_cons_self) hk (by rw [hs]; exact he)
    | fault f => rw [hs] at he; cases he
    | diverge => rw [hs] at he; cases he

end Tgt.POParser
