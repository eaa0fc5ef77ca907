import Verif.Model.LanguageKey
import Verif.Props.Language
import Verif.Proofs.MgrReturn
/-
C75: languages as keys of sets and hash tables.
-/
namespace Tgt
open Spec

namespace Lang

theorem row_lt {p : Placement} {i j : Fin 241} (h : i < j) : p.base + i.val * p.size < p.base + j.val * p.size := by
  have : i.val * p.size < j.val * p.size := Nat.mul_lt_mul_of_pos_right h p.size_pos
  omega

theorem address_inj {p : Placement} {a b : Language} (h : Language.address p a = Language.address p b) : a = b := by
  have hp := p.base_pos
  rcases a with _ | i <;> rcases b with _ | j <;> simp only [Language.address] at h
  · rfl
  · omega
  · omega
  · rcases Fin.lt_or_lt_of_ne (a := i) (b := j) |> fun f => Decidable.em (i = j) |>.imp_right f with e | e | e
    · rw [e]
    · have := row_lt (p := p) e; omega
    · have := row_lt (p := p) e; omega

theorem address_lt {p : Placement} (a : Language) : Language.address p a < 2 ^ 64 := by
  have hf := p.fits
  rcases a with _ | i
  · show 0 < 2 ^ 64; decide
  · have : i.val * p.size ≤ 241 * p.size := Nat.mul_le_mul_right _ (by omega)
    show p.base + i.val * p.size < 2 ^ 64
    omega

/-- The order in which the model keeps the elements of a `std::set<Language>`. -/
theorem less_iff {p : Placement} {a b : Language} : Language.less p a b = true ↔ Mgr.before a b = true ∧ a ≠ b := by
  have hp := p.base_pos
  unfold Language.less
  rw [decide_eq_true_iff]
  rcases a with _ | i <;> rcases b with _ | j
  · simp [Language.address]
  · simp [Language.address, Mgr.before]; omega
  · simp [Language.address, Mgr.before]
  · constructor
    · intro h
      have hij : i < j := by
        rcases Nat.lt_trichotomy i.val j.val with h' | h' | h'
        · exact h'
        · simp only [Language.address, h'] at h; omega
        · have := row_lt (p := p) (i := j) (j := i) h'
          simp only [Language.address] at h; omega
      refine ⟨by simpa [Mgr.before] using hij, ?_⟩
      intro e; cases e; exact absurd hij (Nat.lt_irrefl _)
    · rintro ⟨h, _⟩
      exact row_lt (by simpa [Mgr.before] using h)

end Lang

/-- C75.  Two languages are equal exactly if they have the same language code, country and modifier; `!=` is the opposite. -/
theorem C75_equality (p : Placement) (a b : Language) :
    (a.equal p b = true ↔ a.getLanguage = b.getLanguage ∧ a.getCountry = b.getCountry ∧ a.getModifier = b.getModifier) ∧
    a.unequal p b = !a.equal p b := by
  refine ⟨?_, rfl⟩
  unfold Language.equal
  rw [beq_iff_eq]
  constructor
  · intro h
    rw [Lang.address_inj h]
    exact ⟨rfl, rfl, rfl⟩
  · rintro ⟨h1, h2, h3⟩
    rw [Lang.triple_inj (a := a) (b := b) (by simp [Language.triple, h1, h2, h3])]

/-- C75.  `<` is a strict total order that agrees with `==`, wherever the table is in memory. -/
theorem C75_order (p : Placement) (a b c : Language) :
    a.less p a = false ∧
    (a.less p b = true → b.less p c = true → a.less p c = true) ∧
    (a.less p b = true ∨ a.equal p b = true ∨ b.less p a = true) ∧
    (a.less p b = true → a.equal p b = false ∧ b.less p a = false) := by
  unfold Language.less Language.equal
  simp only [decide_eq_true_eq, decide_eq_false_iff_not, beq_iff_eq, beq_eq_false_iff_ne]
  omega

/-- C75.  Equal languages have equal hash values, different languages different ones. -/
theorem C75_hash (p : Placement) (a b : Language) : a.hash p = b.hash p ↔ a.equal p b = true := by
  unfold Language.hash Language.equal
  rw [beq_iff_eq]
  constructor
  · intro h
    have := congrArg UInt64.toNat h
    rwa [UInt64.toNat_ofNat_of_lt' (Lang.address_lt a), UInt64.toNat_ofNat_of_lt' (Lang.address_lt b)] at this
  · intro h
    rw [h]

/-- Insertion into a set that is kept in the order given by a comparison function, as `std::set` does: an element that is already there,
i.e. neither less nor greater, is not inserted. -/
def Spec.setInsertBy (less : Language → Language → Bool) (l : Language) : List Language → List Language
  | [] => [l]
  | x :: t => if less x l then x :: Spec.setInsertBy less l t else if less l x then l :: x :: t else x :: t

/-- C75.  A `std::set<Language>` is traversed in the same order (the undefined language first, then the order of the table of
languages) wherever the table is in memory. -/
theorem C75_set_order (p : Placement) (l : Language) (s : List Language) :
    Spec.setInsertBy (Language.less p) l s = Manager.setInsert l s := by
  induction s with
  | nil => rfl
  | cons x t ih =>
    rw [Mgr.setInsert_eq]
    unfold Spec.setInsertBy
    by_cases hl : l = x
    · subst hl
      rw [(C75_order p l l l).1, if_pos rfl]
      simp
    · rw [if_neg hl, ← ih]
      rcases (C75_order p l x l).2.2.1 with h | h | h
      · have h' := ((C75_order p l x l).2.2.2 h).2
        rw [h, h', if_neg (by simp), if_pos rfl]
        rw [if_pos]
        exact (Lang.less_iff.1 h).1
      · exact absurd (Lang.address_inj (beq_iff_eq.1 h)) hl
      · have h' : l.less p x = false := ((C75_order p x l l).2.2.2 h).2
        rw [h, if_pos rfl, if_neg]
        intro hb
        have := (Lang.less_iff (p := p)).2 ⟨hb, hl⟩
        rw [this] at h'; cases h'

/-- A placement: 48-byte rows at 0x4000. -/
def demoPlacement : Placement := ⟨0x4000, 48, by decide, by decide, by decide⟩

-- German and Austrian German are different keys, in this order
example : (Language.fromSpec b!"de" [] []).equal demoPlacement (Language.fromSpec b!"de" b!"AT" []) = false ∧
    (Language.fromSpec b!"de" [] []).less demoPlacement (Language.fromSpec b!"de" b!"AT" []) = true ∧
    Language.less demoPlacement none (Language.fromSpec b!"aa" [] []) = true := by decide +kernel

end Tgt
