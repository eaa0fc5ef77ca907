import Verif.Proofs.PluralAst
import Verif.Proofs.AMap
/-
C01–C04: plural forms.  `s.filter (fun b => !ct.isspace b)` is "the line without its whitespace".
-/
namespace Tgt
open Spec PluralForms

namespace PF

theorem stripSpaces_eq_filter (ct : CType) (s : Str) :
    stripSpaces ct s = s.filter (fun b => !ct.isspace b) := by
  induction s with
  | nil => rfl
  | cons c t ih => simp only [stripSpaces, List.filter_cons, ih]

/-- All 25 header lines are different. -/
theorem table_keys_nodup : (AMap.keys table).Nodup := by decide +kernel

/-- An accepted line is a table row. -/
theorem accepted_mem {ct : CType} {s : Str} (h : (fromString ct s).isDefined = true) :
    (s.filter (fun b => !ct.isspace b), fromString ct s) ∈ table := by
  unfold fromString at h ⊢
  rw [stripSpaces_eq_filter] at h ⊢
  cases hg : AMap.get? table (s.filter (fun b => !ct.isspace b)) with
  | none => rw [hg] at h; simp [undefined, isDefined] at h
  | some p => exact AMap.get?_mem hg

/-- Every registered row has a function. -/
theorem table_defined : ∀ r ∈ table, r.2.isDefined = true := by decide +kernel

end PF

/-! ### C01 -/

/-- The full property C01: for every accepted header line and every count, the selected index is a
valid one. -/
def C01_Statement : Prop :=
  ∀ (ct : CType) (s : Str) (n : Int), (fromString ct s).isDefined = true →
    (fromString ct s).getPlural n < (fromString ct s).getNplural

/-- Which registered function can leave the range, and when. -/
theorem PF.row_range (n : Int) : ∀ r ∈ table,
    (r.2.getPlural n < r.2.getNplural ↔
      ¬ (r.1 = lvLine ∧ n = 0) ∧
      ¬ (r.1 = slLine ∧ ¬ (1 ≤ n.tmod 100 ∧ n.tmod 100 ≤ 4))) := by
  intro r hr
  simp only [table, List.mem_cons, List.not_mem_nil, or_false] at hr
  have key : ∀ (k : Str) (np : Nat) (f : PluralFn), k ≠ lvLine → k ≠ slLine →
      f.eval n < np → ((PluralForms.mk np (some f)).getPlural n < (PluralForms.mk np (some f)).getNplural ↔
        ¬ (k = lvLine ∧ n = 0) ∧ ¬ (k = slLine ∧ ¬ (1 ≤ n.tmod 100 ∧ n.tmod 100 ≤ 4))) := by
    intro k np f h1 h2 h3
    simp [getPlural, getNplural, h1, h2, h3]
  rcases hr with h|h|h|h|h|h|h|h|h|h|h|h|h|h|h|h|h|h|h|h|h|h|h|h|h <;> subst h
  case inr.inr.inr.inr.inr.inr.inl =>
    have hne : lvLine ≠ slLine := by decide +kernel
    show _ ↔ ¬ (lvLine = lvLine ∧ _) ∧ ¬ (lvLine = slLine ∧ _)
    simp only [hne, getPlural, getNplural, PluralFn.eval, true_and, false_and, not_false_eq_true, and_true]
    constructor
    · intro h h0; subst h0; revert h; decide
    · intro h0; split
      · decide
      · simp
  case inr.inr.inr.inr.inr.inr.inr.inr.inr.inr.inr.inr.inl =>
    have hne : slLine ≠ lvLine := by decide +kernel
    show _ ↔ ¬ (slLine = lvLine ∧ _) ∧ ¬ (slLine = slLine ∧ _)
    simp only [hne, getPlural, getNplural, PluralFn.eval, true_and, false_and, not_false_eq_true, Classical.not_not]
    repeat' split
    all_goals omega
  all_goals
    refine key _ _ _ (by decide +kernel) (by decide +kernel) ?_
    simp only [PluralFn.eval]
    repeat' split
    all_goals omega

/-- C01, exactly: on an accepted line the selected index is valid, except for the Latvian line at
count 0 (3 forms selected from, 2 announced) and the Slovenian line at counts whose last two digits
are not 01–04 (index 3 of 3 forms). -/
theorem C01_index_in_range_iff (ct : CType) (s : Str) (n : Int)
    (h : (fromString ct s).isDefined = true) :
    (fromString ct s).getPlural n < (fromString ct s).getNplural ↔
      ¬ (s.filter (fun b => !ct.isspace b) = lvLine ∧ n = 0) ∧
      ¬ (s.filter (fun b => !ct.isspace b) = slLine ∧ ¬ (1 ≤ n.tmod 100 ∧ n.tmod 100 ≤ 4)) :=
  PF.row_range n _ (PF.accepted_mem h)

/-- C01 for every accepted line but the Latvian and Slovenian one.  Missing from `C01_Statement`:
those two lines, for which it is false (`C01_false`). -/
theorem C01_index_in_range_partial (ct : CType) (s : Str) (n : Int)
    (h : (fromString ct s).isDefined = true)
    (hlv : s.filter (fun b => !ct.isspace b) ≠ lvLine)
    (hsl : s.filter (fun b => !ct.isspace b) ≠ slLine) :
    (fromString ct s).getPlural n < (fromString ct s).getNplural :=
  (C01_index_in_range_iff ct s n h).2 ⟨fun h => hlv h.1, fun h => hsl h.1⟩

/-- A header as PO files have it, with blanks. -/
example : (fromString .c b!"Plural-Forms: nplurals=2; plural=(n != 1);").isDefined = true
    ∧ b!"Plural-Forms: nplurals=2; plural=(n != 1);".filter (fun b => !CType.c.isspace b) ≠ lvLine
    ∧ b!"Plural-Forms: nplurals=2; plural=(n != 1);".filter (fun b => !CType.c.isspace b) ≠ slLine := by
  decide +kernel

/-- C01 is false: the Slovenian rule at count 0, and also the Latvian one. -/
theorem C01_false : ¬ C01_Statement := by
  intro h
  have := h .c slLine 0 (by decide +kernel)
  revert this
  decide +kernel

/-- The Latvian witness. -/
theorem C01_false_lv : ¬ ((fromString .c lvLine).getPlural 0 < (fromString .c lvLine).getNplural) := by
  decide +kernel

/-! ### C02 -/

/-- The full property C02. -/
def C02_Statement : Prop :=
  ∀ (ct : CType) (s : Str), (fromString ct s).isDefined = true →
    ∃ rest, headerNplurals (s.filter (fun b => !ct.isspace b))
      = some ((fromString ct s).getNplural, rest)

theorem PF.table_nplurals : ∀ r ∈ table, r.1 ≠ lvLine →
    (headerNplurals r.1).map Prod.fst = some r.2.nplural := by decide +kernel

/-- C02 for every accepted line but the Latvian one.  Missing: that line, registered with 2 forms
although it announces 3 (`C02_false`). -/
theorem C02_nplurals_announced_partial (ct : CType) (s : Str)
    (h : (fromString ct s).isDefined = true)
    (hlv : s.filter (fun b => !ct.isspace b) ≠ lvLine) :
    ∃ rest, headerNplurals (s.filter (fun b => !ct.isspace b))
      = some ((fromString ct s).getNplural, rest) := by
  have := PF.table_nplurals _ (PF.accepted_mem h) hlv
  rcases hh : headerNplurals (s.filter (fun b => !ct.isspace b)) with _ | ⟨k, rest⟩
  · simp [hh] at this
  · simp only [hh, Option.map_some, Option.some.injEq] at this
    exact ⟨rest, by rw [this]; rfl⟩

example : ∃ rest, headerNplurals (b!"Plural-Forms: nplurals=6; plural= n==0 ? 0 : n==1 ? 1 : n==2 ? 2 : n%100>=3 && n%100<=10 ? 3 : n%100>=11 ? 4 : 5".filter (fun b => !CType.c.isspace b))
    = some (6, rest) :=
  C02_nplurals_announced_partial .c _ (by decide +kernel) (by decide +kernel)

/-- C02 is false for the Latvian line: 3 announced, 2 reported. -/
theorem C02_false : ¬ C02_Statement := by
  intro h
  obtain ⟨rest, hr⟩ := h .c lvLine (by decide +kernel)
  have h3 : (headerNplurals (lvLine.filter (fun b => !CType.c.isspace b))).map Prod.fst = some 3 := by
    decide +kernel
  have h2 : (fromString .c lvLine).getNplural = 2 := by decide +kernel
  rw [hr, h2] at h3
  cases h3

/-! ### C03 -/

/-- C03: for every accepted line with a well-formed C expression, the selected index is the value of
that expression at `n`. -/
theorem C03_plural_is_expression (ct : CType) (s : Str) (e : CExpr)
    (h : (fromString ct s).isDefined = true)
    (he : headerExpr (s.filter (fun b => !ct.isspace b)) = some e) (n : Int) :
    ((fromString ct s).getPlural n : Int) = e.eval n := by
  have hm := PF.accepted_mem h
  by_cases hlv : s.filter (fun b => !ct.isspace b) = lvLine
  · rw [hlv] at he
    have : headerExpr lvLine = none := by decide +kernel
    rw [this] at he; cases he
  · have := table_exprs _ hm hlv
    rw [he] at this
    cases hp : (fromString ct s).plural with
    | none => simp [hp] at this
    | some f =>
      simp only [hp, Option.map_some, Option.some.injEq] at this
      rw [this, ← PluralFn.eval_eq_expr]
      simp [getPlural, hp]

/-- Every accepted line but the Latvian one does have a well-formed C expression; the Latvian one
has an unbalanced parenthesis. -/
theorem C03_expression_wellformed (ct : CType) (s : Str)
    (h : (fromString ct s).isDefined = true) :
    (∃ e, headerExpr (s.filter (fun b => !ct.isspace b)) = some e) ↔
      s.filter (fun b => !ct.isspace b) ≠ lvLine := by
  constructor
  · rintro ⟨e, he⟩ hlv
    rw [hlv] at he
    have : headerExpr lvLine = none := by decide +kernel
    rw [this] at he; cases he
  · intro hlv
    have := table_exprs _ (PF.accepted_mem h) hlv
    have hd : (fromString ct s).plural.isSome = true := h
    obtain ⟨f, hf⟩ := Option.isSome_iff_exists.1 hd
    exact ⟨f.expr, by rw [this]; simp [hf]⟩

/-- The Latvian line computes the expression it would have with the parenthesis opened. -/
theorem C03_lv_repaired (e : CExpr) (n : Int)
    (he : headerExpr b!"Plural-Forms:nplurals=3;plural=(n%10==1&&n%100!=11?0:n!=0?1:2);" = some e) :
    ((fromString .c lvLine).getPlural n : Int) = e.eval n := by
  have h1 : headerExpr b!"Plural-Forms:nplurals=3;plural=(n%10==1&&n%100!=11?0:n!=0?1:2);"
      = some (PluralFn.expr .plural3_lv) := by decide +kernel
  have h2 : fromString .c lvLine = ⟨2, some .plural3_lv⟩ := by decide +kernel
  rw [h1] at he; cases he
  rw [h2, ← PluralFn.eval_eq_expr]; rfl

example : ∃ e, headerExpr b!"Plural-Forms:nplurals=3;plural=(n%10==1&&n%100!=11?0:n!=0?1:2);" = some e
    ∧ e.eval 21 = 0 ∧ e.eval 0 = 2 :=
  ⟨PluralFn.expr .plural3_lv, by decide +kernel, by decide +kernel, by decide +kernel⟩

/-- Polish, with the spacing of a real file: 22 → 1, -1 → 2. -/
example : ∃ e, headerExpr (b!"Plural-Forms: nplurals=3; plural=(n==1 ? 0 : n%10>=2 && n%10<=4 && (n%100<10 || n%100>=20) ? 1 : 2);".filter (fun b => !CType.c.isspace b)) = some e
    ∧ e.eval 22 = 1 ∧ e.eval (-1) = 2
    ∧ (fromString .c b!"Plural-Forms: nplurals=3; plural=(n==1 ? 0 : n%10>=2 && n%10<=4 && (n%100<10 || n%100>=20) ? 1 : 2);").isDefined = true :=
  ⟨PluralFn.expr .plural3_pl, by decide +kernel, by decide +kernel, by decide +kernel, by decide +kernel⟩

/-! ### C04 -/

/-- C04: only the non-whitespace bytes matter. -/
theorem C04_whitespace_irrelevant (ct : CType) (s s' : Str)
    (h : s.filter (fun b => !ct.isspace b) = s'.filter (fun b => !ct.isspace b)) :
    fromString ct s = fromString ct s' := by
  unfold fromString
  rw [PF.stripSpaces_eq_filter, PF.stripSpaces_eq_filter, h]

example : (b!"Plural-Forms: nplurals=2;\tplural=(n > 1);\r").filter (fun b => !CType.c.isspace b)
    = (b!"Plural-Forms:nplurals=2;plural=(n>1);").filter (fun b => !CType.c.isspace b) := by
  decide +kernel

/-- The 25 lines the library knows, written down separately from the model's table. -/
def knownHeaderLines : List Str := [
  b!"Plural-Forms:nplurals=1;plural=0;",
  b!"Plural-Forms:nplurals=2;plural=(n!=1);",
  b!"Plural-Forms:nplurals=2;plural=n!=1;",
  b!"Plural-Forms:nplurals=2;plural=(n>1);",
  b!"Plural-Forms:nplurals=2;plural=n==1||n%10==1?0:1;",
  b!"Plural-Forms:nplurals=2;plural=(n%10==1&&n%100!=11)?0:1;",
  b!"Plural-Forms:nplurals=3;plural=n%10==1&&n%100!=11?0:n!=0?1:2);",
  b!"Plural-Forms:nplurals=3;plural=n==1?0:n==2?1:2;",
  b!"Plural-Forms:nplurals=3;plural=(n%10==1&&n%100!=11?0:n%10>=2&&(n%100<10||n%100>=20)?1:2);",
  b!"Plural-Forms:nplurals=3;plural=(n%10==1&&n%100!=11?0:n%10>=2&&n%10<=4&&(n%100<10||n%100>=20)?1:2);",
  b!"Plural-Forms:nplurals=3;plural=(n==1)?0:(n>=2&&n<=4)?1:2;",
  b!"Plural-Forms:nplurals=3;plural=(n==1?0:n%10>=2&&n%10<=4&&(n%100<10||n%100>=20)?1:2);",
  b!"Plural-Forms:nplurals=3;plural=(n%100==1?0:n%100==2?1:n%100==3||n%100==4?2:3);",
  b!"Plural-Forms:nplurals=3;plural=(n==1?0:(((n%100>19)||((n%100==0)&&(n!=0)))?2:1));",
  b!"Plural-Forms:nplurals=4;plural=(n%1==0&&n==1?0:n%1==0&&n>=2&&n<=4?1:n%1!=0?2:3);",
  b!"Plural-Forms:nplurals=4;plural=(n==1&&n%1==0)?0:(n>=2&&n<=4&&n%1==0)?1:(n%1!=0)?2:3;",
  b!"Plural-Forms:nplurals=4;plural=(n%10==1&&n%100!=11?0:n%10>=2&&n%10<=4&&(n%100<12||n%100>14)?1:n%10==0||(n%10>=5&&n%10<=9)||(n%100>=11&&n%100<=14)?2:3);",
  b!"Plural-Forms:nplurals=4;plural=(n==1||n==11)?0:(n==2||n==12)?1:(n>2&&n<20)?2:3;",
  b!"Plural-Forms:nplurals=4;plural=(n==1)?0:(n==2)?1:(n!=8&&n!=11)?2:3;",
  b!"Plural-Forms:nplurals=4;plural=(n%10==1&&(n%100>19||n%100<11)?0:(n%10>=2&&n%10<=9)&&(n%100>19||n%100<11)?1:n%1!=0?2:3);",
  b!"Plural-Forms:nplurals=4;plural=(n%1==0&&n%10==1&&n%100!=11?0:n%1==0&&n%10>=2&&n%10<=4&&(n%100<12||n%100>14)?1:n%1==0&&(n%10==0||(n%10>=5&&n%10<=9)||(n%100>=11&&n%100<=14))?2:3);",
  b!"Plural-Forms:nplurals=4;plural=(n==1?0:(n%10>=2&&n%10<=4)&&(n%100<12||n%100>14)?1:n!=1&&(n%10>=0&&n%10<=1)||(n%10>=5&&n%10<=9)||(n%100>=12&&n%100<=14)?2:3);",
  b!"Plural-Forms:nplurals=4;plural=(n==1&&n%1==0)?0:(n==2&&n%1==0)?1:(n%10==0&&n%1==0&&n>10)?2:3;",
  b!"Plural-Forms:nplurals=5;plural=(n==1?0:n==2?1:n<7?2:n<11?3:4)",
  b!"Plural-Forms:nplurals=6;plural=n==0?0:n==1?1:n==2?2:n%100>=3&&n%100<=10?3:n%100>=11?4:5"]

/-- C04: a line is accepted exactly if it is a known line up to whitespace. -/
theorem C04_accepted_iff (ct : CType) (s : Str) :
    (fromString ct s).isDefined = true ↔
      s.filter (fun b => !ct.isspace b) ∈ knownHeaderLines := by
  have hk : knownHeaderLines = AMap.keys table := by decide +kernel
  rw [hk]
  constructor
  · intro h
    exact List.mem_map.2 ⟨_, PF.accepted_mem h, rfl⟩
  · intro h
    obtain ⟨⟨k, p⟩, hp, hkk⟩ := List.mem_map.1 h
    simp only at hkk
    subst hkk
    unfold fromString
    rw [PF.stripSpaces_eq_filter, AMap.get?_of_mem PF.table_keys_nodup hp]
    exact PF.table_defined _ hp

/-- C04: a line that is not accepted gives the default rule (false, no forms, index 0). -/
theorem C04_rejected (ct : CType) (s : Str)
    (h : s.filter (fun b => !ct.isspace b) ∉ knownHeaderLines) (n : Int) :
    (fromString ct s).isDefined = false ∧ (fromString ct s).getNplural = 0
      ∧ (fromString ct s).getPlural n = 0 := by
  have hd : ¬ (fromString ct s).isDefined = true := fun hd => h ((C04_accepted_iff ct s).1 hd)
  have : fromString ct s = undefined := by
    unfold fromString at hd ⊢
    cases hg : AMap.get? table (stripSpaces ct s) with
    | none => rfl
    | some p =>
      simp only [hg] at hd
      exact absurd (PF.table_defined _ (AMap.get?_mem hg)) hd
  rw [this]
  exact ⟨rfl, rfl, rfl⟩

/-- The Irish line of real files ends in `;` and is therefore not recognised. -/
example : (b!"Plural-Forms: nplurals=5; plural=(n==1 ? 0 : n==2 ? 1 : n<7 ? 2 : n<11 ? 3 : 4);").filter (fun b => !CType.c.isspace b) ∉ knownHeaderLines := by
  decide +kernel

end Tgt
