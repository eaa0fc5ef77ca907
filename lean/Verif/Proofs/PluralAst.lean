import Verif.Spec.CExpr
import Verif.Model.PluralForms
/-
The syntax trees of the table's header expressions (machine-generated by evaluating
`Spec.headerExpr`; nothing is trusted: `table_exprs` re-checks them in the kernel), one per plural
function, and the proof that the functions compute them.
-/
namespace Tgt
open Spec

/-- The expression each plural function is registered for. -/
def PluralFn.expr : PluralFn → CExpr
  | plural1 => .num 0
  | plural2_1 => .bin .ne .n (.num 1)
  | plural2_2 => .bin .gt .n (.num 1)
  | plural2_mk => .cond (.bin .or (.bin .eq .n (.num 1)) (.bin .eq (.bin .mod .n (.num 10)) (.num
      1))) (.num 0) (.num 1)
  | plural2_mk_2 => .cond (.bin .and (.bin .eq (.bin .mod .n (.num 10)) (.num 1)) (.bin .ne (.bin
      .mod .n (.num 100)) (.num 11))) (.num 0) (.num 1)
  | plural3_lv => .cond (.bin .and (.bin .eq (.bin .mod .n (.num 10)) (.num 1)) (.bin .ne (.bin
      .mod .n (.num 100)) (.num 11))) (.num 0) (.cond (.bin .ne .n (.num 0)) (.num 1) (.num 2))
  | plural3_ga => .cond (.bin .eq .n (.num 1)) (.num 0) (.cond (.bin .eq .n (.num 2)) (.num 1)
      (.num 2))
  | plural3_lt => .cond (.bin .and (.bin .eq (.bin .mod .n (.num 10)) (.num 1)) (.bin .ne (.bin
      .mod .n (.num 100)) (.num 11))) (.num 0) (.cond (.bin .and (.bin .ge (.bin .mod .n (.num
      10)) (.num 2)) (.bin .or (.bin .lt (.bin .mod .n (.num 100)) (.num 10)) (.bin .ge (.bin .mod
      .n (.num 100)) (.num 20)))) (.num 1) (.num 2))
  | plural3_1 => .cond (.bin .and (.bin .eq (.bin .mod .n (.num 10)) (.num 1)) (.bin .ne (.bin
      .mod .n (.num 100)) (.num 11))) (.num 0) (.cond (.bin .and (.bin .and (.bin .ge (.bin .mod
      .n (.num 10)) (.num 2)) (.bin .le (.bin .mod .n (.num 10)) (.num 4))) (.bin .or (.bin .lt
      (.bin .mod .n (.num 100)) (.num 10)) (.bin .ge (.bin .mod .n (.num 100)) (.num 20)))) (.num
      1) (.num 2))
  | plural3_sk => .cond (.bin .eq .n (.num 1)) (.num 0) (.cond (.bin .and (.bin .ge .n (.num 2))
      (.bin .le .n (.num 4))) (.num 1) (.num 2))
  | plural3_pl => .cond (.bin .eq .n (.num 1)) (.num 0) (.cond (.bin .and (.bin .and (.bin .ge
      (.bin .mod .n (.num 10)) (.num 2)) (.bin .le (.bin .mod .n (.num 10)) (.num 4))) (.bin .or
      (.bin .lt (.bin .mod .n (.num 100)) (.num 10)) (.bin .ge (.bin .mod .n (.num 100)) (.num
      20)))) (.num 1) (.num 2))
  | plural3_sl => .cond (.bin .eq (.bin .mod .n (.num 100)) (.num 1)) (.num 0) (.cond (.bin .eq
      (.bin .mod .n (.num 100)) (.num 2)) (.num 1) (.cond (.bin .or (.bin .eq (.bin .mod .n (.num
      100)) (.num 3)) (.bin .eq (.bin .mod .n (.num 100)) (.num 4))) (.num 2) (.num 3)))
  | plural3_ro => .cond (.bin .eq .n (.num 1)) (.num 0) (.cond (.bin .or (.bin .gt (.bin .mod .n
      (.num 100)) (.num 19)) (.bin .and (.bin .eq (.bin .mod .n (.num 100)) (.num 0)) (.bin .ne .n
      (.num 0)))) (.num 2) (.num 1))
  | plural4_sk => .cond (.bin .and (.bin .eq (.bin .mod .n (.num 1)) (.num 0)) (.bin .eq .n (.num
      1))) (.num 0) (.cond (.bin .and (.bin .and (.bin .eq (.bin .mod .n (.num 1)) (.num 0)) (.bin
      .ge .n (.num 2))) (.bin .le .n (.num 4))) (.num 1) (.cond (.bin .ne (.bin .mod .n (.num 1))
      (.num 0)) (.num 2) (.num 3)))
  | plural4_cs => .cond (.bin .and (.bin .eq .n (.num 1)) (.bin .eq (.bin .mod .n (.num 1)) (.num
      0))) (.num 0) (.cond (.bin .and (.bin .and (.bin .ge .n (.num 2)) (.bin .le .n (.num 4)))
      (.bin .eq (.bin .mod .n (.num 1)) (.num 0))) (.num 1) (.cond (.bin .ne (.bin .mod .n (.num
      1)) (.num 0)) (.num 2) (.num 3)))
  | plural4_be => .cond (.bin .and (.bin .eq (.bin .mod .n (.num 10)) (.num 1)) (.bin .ne (.bin
      .mod .n (.num 100)) (.num 11))) (.num 0) (.cond (.bin .and (.bin .and (.bin .ge (.bin .mod
      .n (.num 10)) (.num 2)) (.bin .le (.bin .mod .n (.num 10)) (.num 4))) (.bin .or (.bin .lt
      (.bin .mod .n (.num 100)) (.num 12)) (.bin .gt (.bin .mod .n (.num 100)) (.num 14)))) (.num
      1) (.cond (.bin .or (.bin .or (.bin .eq (.bin .mod .n (.num 10)) (.num 0)) (.bin .and (.bin
      .ge (.bin .mod .n (.num 10)) (.num 5)) (.bin .le (.bin .mod .n (.num 10)) (.num 9)))) (.bin
      .and (.bin .ge (.bin .mod .n (.num 100)) (.num 11)) (.bin .le (.bin .mod .n (.num 100))
      (.num 14)))) (.num 2) (.num 3)))
  | plural4_gd => .cond (.bin .or (.bin .eq .n (.num 1)) (.bin .eq .n (.num 11))) (.num 0) (.cond
      (.bin .or (.bin .eq .n (.num 2)) (.bin .eq .n (.num 12))) (.num 1) (.cond (.bin .and (.bin
      .gt .n (.num 2)) (.bin .lt .n (.num 20))) (.num 2) (.num 3)))
  | plural4_cy => .cond (.bin .eq .n (.num 1)) (.num 0) (.cond (.bin .eq .n (.num 2)) (.num 1)
      (.cond (.bin .and (.bin .ne .n (.num 8)) (.bin .ne .n (.num 11))) (.num 2) (.num 3)))
  | plural4_lt => .cond (.bin .and (.bin .eq (.bin .mod .n (.num 10)) (.num 1)) (.bin .or (.bin
      .gt (.bin .mod .n (.num 100)) (.num 19)) (.bin .lt (.bin .mod .n (.num 100)) (.num 11))))
      (.num 0) (.cond (.bin .and (.bin .and (.bin .ge (.bin .mod .n (.num 10)) (.num 2)) (.bin .le
      (.bin .mod .n (.num 10)) (.num 9))) (.bin .or (.bin .gt (.bin .mod .n (.num 100)) (.num 19))
      (.bin .lt (.bin .mod .n (.num 100)) (.num 11)))) (.num 1) (.cond (.bin .ne (.bin .mod .n
      (.num 1)) (.num 0)) (.num 2) (.num 3)))
  | plural4_uk => .cond (.bin .and (.bin .and (.bin .eq (.bin .mod .n (.num 1)) (.num 0)) (.bin
      .eq (.bin .mod .n (.num 10)) (.num 1))) (.bin .ne (.bin .mod .n (.num 100)) (.num 11)))
      (.num 0) (.cond (.bin .and (.bin .and (.bin .and (.bin .eq (.bin .mod .n (.num 1)) (.num 0))
      (.bin .ge (.bin .mod .n (.num 10)) (.num 2))) (.bin .le (.bin .mod .n (.num 10)) (.num 4)))
      (.bin .or (.bin .lt (.bin .mod .n (.num 100)) (.num 12)) (.bin .gt (.bin .mod .n (.num 100))
      (.num 14)))) (.num 1) (.cond (.bin .and (.bin .eq (.bin .mod .n (.num 1)) (.num 0)) (.bin
      .or (.bin .or (.bin .eq (.bin .mod .n (.num 10)) (.num 0)) (.bin .and (.bin .ge (.bin .mod
      .n (.num 10)) (.num 5)) (.bin .le (.bin .mod .n (.num 10)) (.num 9)))) (.bin .and (.bin .ge
      (.bin .mod .n (.num 100)) (.num 11)) (.bin .le (.bin .mod .n (.num 100)) (.num 14))))) (.num
      2) (.num 3)))
  | plural4_pl => .cond (.bin .eq .n (.num 1)) (.num 0) (.cond (.bin .and (.bin .and (.bin .ge
      (.bin .mod .n (.num 10)) (.num 2)) (.bin .le (.bin .mod .n (.num 10)) (.num 4))) (.bin .or
      (.bin .lt (.bin .mod .n (.num 100)) (.num 12)) (.bin .gt (.bin .mod .n (.num 100)) (.num
      14)))) (.num 1) (.cond (.bin .or (.bin .or (.bin .and (.bin .ne .n (.num 1)) (.bin .and
      (.bin .ge (.bin .mod .n (.num 10)) (.num 0)) (.bin .le (.bin .mod .n (.num 10)) (.num 1))))
      (.bin .and (.bin .ge (.bin .mod .n (.num 10)) (.num 5)) (.bin .le (.bin .mod .n (.num 10))
      (.num 9)))) (.bin .and (.bin .ge (.bin .mod .n (.num 100)) (.num 12)) (.bin .le (.bin .mod
      .n (.num 100)) (.num 14)))) (.num 2) (.num 3)))
  | plural4_he => .cond (.bin .and (.bin .eq .n (.num 1)) (.bin .eq (.bin .mod .n (.num 1)) (.num
      0))) (.num 0) (.cond (.bin .and (.bin .eq .n (.num 2)) (.bin .eq (.bin .mod .n (.num 1))
      (.num 0))) (.num 1) (.cond (.bin .and (.bin .and (.bin .eq (.bin .mod .n (.num 10)) (.num
      0)) (.bin .eq (.bin .mod .n (.num 1)) (.num 0))) (.bin .gt .n (.num 10))) (.num 2) (.num
      3)))
  | plural5_ga => .cond (.bin .eq .n (.num 1)) (.num 0) (.cond (.bin .eq .n (.num 2)) (.num 1)
      (.cond (.bin .lt .n (.num 7)) (.num 2) (.cond (.bin .lt .n (.num 11)) (.num 3) (.num 4))))
  | plural6_ar => .cond (.bin .eq .n (.num 0)) (.num 0) (.cond (.bin .eq .n (.num 1)) (.num 1)
      (.cond (.bin .eq .n (.num 2)) (.num 2) (.cond (.bin .and (.bin .ge (.bin .mod .n (.num 100))
      (.num 3)) (.bin .le (.bin .mod .n (.num 100)) (.num 10))) (.num 3) (.cond (.bin .ge (.bin
      .mod .n (.num 100)) (.num 11)) (.num 4) (.num 5)))))

/-- The header line registered for Latvian; its expression has a stray `)`. -/
def lvLine : Str := b!"Plural-Forms:nplurals=3;plural=n%10==1&&n%100!=11?0:n!=0?1:2);"
/-- The header line registered for Slovenian. -/
def slLine : Str := b!"Plural-Forms:nplurals=3;plural=(n%100==1?0:n%100==2?1:n%100==3||n%100==4?2:3);"

theorem table_exprs : ∀ r ∈ PluralForms.table, r.1 ≠ lvLine →
    headerExpr r.1 = r.2.plural.map PluralFn.expr := by
  decide +kernel

namespace Spec.CExpr

theorem truth_ofBool (b : Bool) : truth (ofBool b) = b := by
  cases b <;> rfl
theorem t_or (v : Int) (a b : CExpr) : truth (eval v (.bin .or a b)) = true ↔
    (truth (eval v a) = true ∨ truth (eval v b) = true) := by
  rw [eval, truth_ofBool]; simp
theorem t_and (v : Int) (a b : CExpr) : truth (eval v (.bin .and a b)) = true ↔
    (truth (eval v a) = true ∧ truth (eval v b) = true) := by
  rw [eval, truth_ofBool]; simp
theorem t_eq (v : Int) (a b : CExpr) : truth (eval v (.bin .eq a b)) = true ↔
    eval v a = eval v b := by rw [eval, truth_ofBool]; simp
theorem t_ne (v : Int) (a b : CExpr) : truth (eval v (.bin .ne a b)) = true ↔
    eval v a ≠ eval v b := by rw [eval, truth_ofBool]; simp
theorem t_lt (v : Int) (a b : CExpr) : truth (eval v (.bin .lt a b)) = true ↔
    eval v a < eval v b := by rw [eval, truth_ofBool]; simp
theorem t_le (v : Int) (a b : CExpr) : truth (eval v (.bin .le a b)) = true ↔
    eval v a ≤ eval v b := by rw [eval, truth_ofBool]; simp
theorem t_gt (v : Int) (a b : CExpr) : truth (eval v (.bin .gt a b)) = true ↔
    eval v a > eval v b := by rw [eval, truth_ofBool]; simp
theorem t_ge (v : Int) (a b : CExpr) : truth (eval v (.bin .ge a b)) = true ↔
    eval v a ≥ eval v b := by rw [eval, truth_ofBool]; simp
theorem e_n (v : Int) : eval v .n = v := rfl
theorem e_num (v : Int) (k : Nat) : eval v (.num k) = (k : Int) := rfl
theorem e_mod (v : Int) (a b : CExpr) : eval v (.bin .mod a b) = (eval v a).tmod (eval v b) := rfl
theorem e_cond (v : Int) (c a b : CExpr) : eval v (.cond c a b) =
    if truth (eval v c) = true then eval v a else eval v b := rfl
theorem e_ne (v : Int) (a b : CExpr) : eval v (.bin .ne a b) =
    if eval v a ≠ eval v b then 1 else 0 := by rw [eval, ofBool]; simp
theorem e_gt (v : Int) (a b : CExpr) : eval v (.bin .gt a b) =
    if eval v a > eval v b then 1 else 0 := by rw [eval, ofBool]; simp

end Spec.CExpr

open Spec.CExpr in
/-- Every plural function computes the expression it is registered for, for every count. -/
theorem PluralFn.eval_eq_expr (f : PluralFn) (n : Int) : (f.eval n : Int) = f.expr.eval n := by
  cases f <;>
    simp only [PluralFn.eval, PluralFn.expr, e_cond, t_or, t_and, t_eq, t_ne, t_lt, t_le, t_gt,
      t_ge, e_n, e_num, e_mod, apply_ite (Nat.cast : Nat → Int), and_assoc, or_assoc] <;>
    first
    | rfl
    | (simp only [e_ne, e_gt, e_n, e_num]; rfl)

end Tgt
