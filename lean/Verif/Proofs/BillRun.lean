import Verif.Proofs.Bill
import Verif.Proofs.Parse
/-
The bill of the events bounds what the parse does to the dictionary and to the log.
-/
namespace Tgt
open Spec

theorem stringsSize_set : ∀ (v : List Str) (n : Nat) (s : Str), stringsSize (v.set n s) ≤ stringsSize v + s.length := by
  intro v
  induction v with
  | nil => intro n s; simp [stringsSize]
  | cons x v ih =>
    intro n s
    cases n with
    | zero => simp only [List.set_cons_zero, stringsSize]; omega
    | succ n => simp only [List.set_cons_succ, stringsSize]; have := ih n s; omega

/-- Bytes of a list of strings. -/
def bytesOf : List Str → Nat
  | [] => 0
  | s :: v => s.length + bytesOf v

theorem stringsSize_eq : ∀ v : List Str, stringsSize v = v.length + bytesOf v := by
  intro v
  induction v with
  | nil => rfl
  | cons s v ih => simp only [stringsSize, bytesOf, List.length_cons, ih]; omega

theorem bytesOf_append (v : List Str) : ∀ n : Nat, bytesOf (v ++ List.replicate n []) = bytesOf v := by
  intro n
  induction v with
  | nil =>
    induction n with
    | zero => rfl
    | succ n ih => simpa [List.replicate_succ, bytesOf] using ih
  | cons s v ih => simp only [List.cons_append, bytesOf, ih]

theorem bytesOf_set : ∀ (v : List Str) (n : Nat) (s : Str), bytesOf (v.set n s) ≤ bytesOf v + s.length := by
  intro v
  induction v with
  | nil => intro n s; simp [bytesOf]
  | cons x v ih =>
    intro n s
    cases n with
    | zero => simp only [List.set_cons_zero, bytesOf]; omega
    | succ n => simp only [List.set_cons_succ, bytesOf]; have := ih n s; omega

open Dictionary in
theorem entriesSize_set : ∀ (e : Entries) (k : Str) (v : List Str),
    entriesSize (e.set k v) + stringsSize (vecAt e k) ≤ entriesSize e + 1 + k.length + stringsSize v := by
  intro e
  induction e with
  | nil => intro k v; simp [AMap.set, entriesSize, vecAt, AMap.get?, stringsSize]
  | cons x e ih =>
    intro k v
    obtain ⟨k', v'⟩ := x
    unfold AMap.set vecAt AMap.get?
    by_cases h : k' = k
    · subst h
      simp only [if_true, entriesSize]; omega
    · simp only [if_neg h, entriesSize]
      have := ih k v
      unfold vecAt at this
      omega

open Dictionary in
theorem contextsSize_set : ∀ (m : AMap Str Entries) (c : Str) (e : Entries),
    contextsSize (m.set c e) + entriesSize (ctxtAt m c) ≤ contextsSize m + 1 + c.length + entriesSize e := by
  intro m
  induction m with
  | nil => intro c e; simp [AMap.set, contextsSize, ctxtAt, AMap.get?, entriesSize]
  | cons x m ih =>
    intro c e
    obtain ⟨c', e'⟩ := x
    unfold AMap.set ctxtAt AMap.get?
    by_cases h : c' = c
    · subst h
      simp only [if_true, contextsSize]; omega
    · simp only [if_neg h, contextsSize]
      have := ih c e
      unfold ctxtAt at this
      omega

open Dictionary in
theorem addSingularVec_size (c : Option Str) (i : Str) (v : List Str) (s : Str) :
    stringsSize (addSingularVec c i v s).1 ≤ stringsSize v + 1 + s.length ∧ (addSingularVec c i v s).2.length ≤ 1 := by
  unfold addSingularVec
  split
  · simp [stringsSize]
  · split
    · simp only [stringsSize, List.length_singleton]; omega
    · simp only [stringsSize, List.length_nil]; omega

open Dictionary in
theorem addPluralVec_size (c : Option Str) (i ip : Str) (v w : List Str) :
    stringsSize (addPluralVec c i ip v w).1 ≤ stringsSize v + stringsSize w ∧ (addPluralVec c i ip v w).2.length ≤ 1 := by
  unfold addPluralVec
  split
  · simp
  · split
    · simp
    · simp

/-- What an addition adds to a dictionary, and how many messages it logs. -/
theorem apply_singular_size (c : Option Str) (i s : Str) (d : Dictionary) :
    dictSize ((Add.singular c i s).apply d).1 ≤ dictSize d + 3 + POParser.optLen c + i.length + s.length ∧
    ((Add.singular c i s).apply d).2.length ≤ 1 := by
  cases c with
  | none =>
    have h := addSingularVec_size none i (Dictionary.vecAt d.entries i) s
    refine ⟨?_, h.2⟩
    have h1 := entriesSize_set d.entries i (Dictionary.addSingularVec none i (Dictionary.vecAt d.entries i) s).1
    show entriesSize (d.entries.set i _) + contextsSize d.ctxtEntries ≤ entriesSize d.entries + contextsSize d.ctxtEntries + 3 + 0 + i.length + s.length
    omega
  | some c =>
    have h := addSingularVec_size (some c) i (Dictionary.vecAt (Dictionary.ctxtAt d.ctxtEntries c) i) s
    refine ⟨?_, h.2⟩
    have h1 := entriesSize_set (Dictionary.ctxtAt d.ctxtEntries c) i (Dictionary.addSingularVec (some c) i (Dictionary.vecAt (Dictionary.ctxtAt d.ctxtEntries c) i) s).1
    have h2 := contextsSize_set d.ctxtEntries c ((Dictionary.ctxtAt d.ctxtEntries c).set i (Dictionary.addSingularVec (some c) i (Dictionary.vecAt (Dictionary.ctxtAt d.ctxtEntries c) i) s).1)
    show entriesSize d.entries + contextsSize (d.ctxtEntries.set c _) ≤ entriesSize d.entries + contextsSize d.ctxtEntries + 3 + c.length + i.length + s.length
    omega

theorem apply_plural_size (c : Option Str) (i ip : Str) (v : List Str) (d : Dictionary) :
    dictSize ((Add.plural c i ip v).apply d).1 ≤ dictSize d + 2 + POParser.optLen c + i.length + stringsSize v ∧
    ((Add.plural c i ip v).apply d).2.length ≤ 1 := by
  cases c with
  | none =>
    have h := addPluralVec_size none i ip (Dictionary.vecAt d.entries i) v
    refine ⟨?_, h.2⟩
    have h1 := entriesSize_set d.entries i (Dictionary.addPluralVec none i ip (Dictionary.vecAt d.entries i) v).1
    show entriesSize (d.entries.set i _) + contextsSize d.ctxtEntries ≤ entriesSize d.entries + contextsSize d.ctxtEntries + 2 + 0 + i.length + stringsSize v
    omega
  | some c =>
    have h := addPluralVec_size (some c) i ip (Dictionary.vecAt (Dictionary.ctxtAt d.ctxtEntries c) i) v
    refine ⟨?_, h.2⟩
    have h1 := entriesSize_set (Dictionary.ctxtAt d.ctxtEntries c) i (Dictionary.addPluralVec (some c) i ip (Dictionary.vecAt (Dictionary.ctxtAt d.ctxtEntries c) i) v).1
    have h2 := contextsSize_set d.ctxtEntries c ((Dictionary.ctxtAt d.ctxtEntries c).set i (Dictionary.addPluralVec (some c) i ip (Dictionary.vecAt (Dictionary.ctxtAt d.ctxtEntries c) i) v).1)
    show entriesSize d.entries + contextsSize (d.ctxtEntries.set c _) ≤ entriesSize d.entries + contextsSize d.ctxtEntries + 2 + c.length + i.length + stringsSize v
    omega

namespace POParser

/-- Conversions yield at most `K` bytes for each byte. -/
def AtMost (K : Nat) (lib : IconvLib) : Prop :=
  ∀ to fr hist text, (lib.conv to fr hist text (4 * text.length)).out.length ≤ K * text.length

theorem convert_size {K : Nat} (hK : 0 < K) (c : Cfg) (hl : AtMost K c.lib) (t r : Str) (s s' : PState) (h : convert c t s = .ok r s') :
    r.length ≤ K * t.length ∧ s'.dict = s.dict ∧ s'.log.length ≤ s.log.length + 1 := by
  have hcap : ∀ (n : Nat) (w : Str), (IConv.resizeResult n w).length ≤ w.length := by
    intro n w
    unfold IConv.resizeResult
    simp only [List.length_take, List.length_append, List.length_replicate]
    omega
  unfold convert IConv.convert at h
  cases hc : s.conv.cd with
  | null =>
    rw [hc] at h
    injection h with h1 h2
    subst h1; subst h2
    exact ⟨Nat.le_mul_of_pos_left _ hK, rfl, by simp⟩
  | invalid => rw [hc] at h; cases h
  | opened id to fr hist =>
    rw [hc] at h
    dsimp only at h
    have h1 := Nat.le_trans (hcap (4 * t.length) (c.lib.conv to fr hist t (4 * t.length)).out) (hl to fr hist t)
    split at h
    · rename_i r' cv d he
      injection h with h2 h3
      subst h2; subst h3
      split at he <;> first | (injection he with e1 e2 e3; subst e1; subst e3; exact ⟨h1, rfl, by simp⟩) | cases he
    · cases h

/-- The state is within the bill. -/
structure Within (K : Nat) (d : Dictionary) (B : Bill) (x : List Str × PState) : Prop where
  few : x.1.length ≤ 10
  pend : bytesOf x.1 ≤ K * B.pend
  size : dictSize x.2.dict ≤ dictSize d + K * B.size
  msgs : x.2.log.length ≤ B.msgs

theorem hdr_size (c : Cfg) (n : Nat) (cur : Str) (l : Str) (x : Dictionary × List Diag) :
    dictSize (hdrEffect c n cur x l).1 = dictSize x.1 ∧ 13 * (hdrEffect c n cur x l).2.length ≤ 13 * x.2.length + l.length := by
  have hp : ∀ k : Str, hasPrefix k l = true → k.length ≤ l.length := by
    intro k h
    obtain ⟨t, ht⟩ := List.isPrefixOf_iff_prefix.1 h
    rw [← ht, List.length_append]; omega
  unfold hdrEffect
  split
  · rename_i h
    have := hp _ h
    split
    · exact ⟨rfl, by omega⟩
    · refine ⟨rfl, ?_⟩
      simp only [List.length_append, List.length_cons, List.length_nil] at this ⊢; omega
  · split
    · rename_i h
      have := hp _ h
      split
      · refine ⟨rfl, ?_⟩
        simp only [List.length_append, List.length_cons, List.length_nil] at this ⊢; omega
      · split
        · exact ⟨rfl, by dsimp only; omega⟩
        · split
          · refine ⟨rfl, ?_⟩
            simp only [List.length_append, List.length_cons, List.length_nil] at this ⊢; omega
          · exact ⟨rfl, by omega⟩
    · exact ⟨rfl, by omega⟩

theorem hdr_one (c : Cfg) (n : Nat) (cur : Str) (l : Str) (x : Dictionary × List Diag) :
    (hdrEffect c n cur x l).2.length ≤ x.2.length + 1 := by
  unfold hdrEffect
  repeat' split
  all_goals simp

theorem hdrs_size (c : Cfg) (n : Nat) (cur : Str) : ∀ (t acc : Str) (x : Dictionary × List Diag),
    dictSize (hdrEffects c n cur (headerLines t acc) x).1 = dictSize x.1 ∧
    14 * (hdrEffects c n cur (headerLines t acc) x).2.length ≤ 14 * x.2.length + acc.length + t.length := by
  intro t
  induction t with
  | nil => intro acc x; exact ⟨rfl, by show 14 * x.2.length ≤ _; omega⟩
  | cons b t ih =>
    intro acc x
    unfold headerLines
    split
    · have h1 := hdr_size c n cur acc x
      have h2 := hdr_one c n cur acc x
      have h3 := ih [] (hdrEffect c n cur x acc)
      show dictSize (hdrEffects c n cur (headerLines t []) (hdrEffect c n cur x acc)).1 = _ ∧
        14 * (hdrEffects c n cur (headerLines t []) (hdrEffect c n cur x acc)).2.length ≤ _
      simp only [List.length_nil, List.length_cons] at h3 ⊢
      exact ⟨by rw [h3.1, h1.1], by omega⟩
    · have h3 := ih (acc ++ [b]) x
      simp only [List.length_append, List.length_cons, List.length_nil] at h3 ⊢
      exact ⟨h3.1, by omega⟩

/-- The event is no `msgstr[N]` with a number of two digits. -/
def OneDigit : Ev → Prop
  | .conv n _ => n ≤ 9
  | _ => True

theorem step_within {K : Nat} (hK : 0 < K) (c : Cfg) (hl : AtMost K c.lib) (T : Tape) (d : Dictionary) (e : Ev) (he : OneDigit e) (B : Bill)
    (x : List Str × PState) (h : Within K d B x) :
    (∀ y, evStep c T e x = .ok () y → Within K d (B.add e) y) ∧ (∀ w y, evStep c T e x = .exn w y → Within K d (B.add e) y) ∧
    (∀ y, evStep c T e x = .poError y → Within K d (B.add e) y) := by
  obtain ⟨v, s⟩ := x
  obtain ⟨h1, h2, h3, h4⟩ := h
  dsimp only at h1 h2 h3 h4
  refine ⟨fun y hy => ?_, fun w y hy => ?_, fun y hy => absurd hy (evStep_no_poError c T e _ _).1⟩
  · cases e with
    | diag lv p m pd =>
      simp only [evStep] at hy
      split at hy
      · injection hy with _ hy; subst hy
        exact ⟨h1, h2, h3, by show s.log.length ≤ B.msgs + 1; omega⟩
      · injection hy with _ hy; subst hy
        exact ⟨h1, h2, h3, by show (s.log ++ _).length ≤ B.msgs + 1; rw [List.length_append]; simpa using h4⟩
    | clear =>
      simp only [evStep] at hy
      injection hy with _ hy; subst hy
      exact ⟨Nat.zero_le _, Nat.zero_le _, h3, h4⟩
    | conv n t =>
      simp only [evStep] at hy
      cases hc : convert c t s with
      | ok r s' =>
        rw [hc] at hy
        injection hy with _ hy; subst hy
        obtain ⟨g1, g2, g3⟩ := convert_size hK c hl t r s s' hc
        have hn : n ≤ 9 := he
        refine ⟨?_, ?_, by dsimp only; rw [g2]; exact h3, by show s'.log.length ≤ B.msgs + 1; omega⟩
        · show (setAt v n r).length ≤ 10
          unfold setAt
          split
          · simp only [List.length_set, List.length_append, List.length_replicate]; omega
          · simpa using h1
        · show bytesOf (setAt v n r) ≤ K * (B.pend + t.length)
          rw [Nat.mul_add]
          unfold setAt
          split
          · have := bytesOf_set (v ++ List.replicate (n + 1 - v.length) []) n r
            rw [bytesOf_append] at this
            omega
          · have := bytesOf_set v n r
            omega
      | poError _ => rw [hc] at hy; cases hy
      | exn _ _ => rw [hc] at hy; cases hy
      | fault _ => rw [hc] at hy; cases hy
      | diverge => rw [hc] at hy; cases hy
    | plural p fz ctxt i ip =>
      simp only [evStep] at hy
      split at hy
      · injection hy with _ hy; subst hy
        have g := apply_plural_size ctxt i ip v s.dict
        have hv := stringsSize_eq v
        have h5 : optLen ctxt + i.length + 12 ≤ K * (12 + optLen ctxt + i.length) := by
          have := Nat.le_mul_of_pos_left (12 + optLen ctxt + i.length) hK; omega
        refine ⟨h1, h2, ?_, ?_⟩
        · show dictSize ((Add.plural ctxt i ip v).apply s.dict).1 ≤ dictSize d + K * (B.size + 12 + optLen ctxt + i.length + B.pend)
          rw [show B.size + 12 + optLen ctxt + i.length + B.pend = B.size + (12 + optLen ctxt + i.length) + B.pend by omega, Nat.mul_add, Nat.mul_add]
          omega
        · show (s.log ++ (if !s.dict.pluralForms.isDefined then _ else if v.length ≠ s.dict.pluralForms.getNplural then _ else []) ++
            ((Add.plural ctxt i ip v).apply s.dict).2).length ≤ B.msgs + 2
          rw [List.length_append, List.length_append]
          have : ∀ (a b : Diag), (if !s.dict.pluralForms.isDefined then [a] else if v.length ≠ s.dict.pluralForms.getNplural then [b] else []).length ≤ 1 := by
            intro a b
            split
            · simp
            · split <;> simp
          have := this (.po .warning c.filename (p + 1) b!"msgstr[N] seen, but no Plural-Forms given" (T p).line)
            (.po .warning c.filename (p + 1) b!"msgstr[N] count doesn't match Plural-Forms.nplural" (T p).line)
          omega
      · injection hy with _ hy; subst hy
        refine ⟨h1, h2, ?_, by show s.log.length ≤ B.msgs + 2; omega⟩
        exact Nat.le_trans h3 (Nat.add_le_add_left (Nat.mul_le_mul_left K (B.add_le (.plural p fz ctxt i ip)).1) _)
    | singular fz ctxt i t =>
      simp only [evStep] at hy
      split at hy
      · cases hc : convert c t s with
        | ok r s' =>
          rw [hc] at hy
          injection hy with _ hy; subst hy
          obtain ⟨g1, g2, g3⟩ := convert_size hK c hl t r s s' hc
          have g := apply_singular_size ctxt i r s'.dict
          have h5 : 3 + optLen ctxt + i.length ≤ K * (3 + optLen ctxt + i.length) := Nat.le_mul_of_pos_left _ hK
          refine ⟨h1, h2, ?_, ?_⟩
          · show dictSize ((Add.singular ctxt i r).apply s'.dict).1 ≤ dictSize d + K * (B.size + 3 + optLen ctxt + i.length + t.length)
            rw [show B.size + 3 + optLen ctxt + i.length + t.length = B.size + (3 + optLen ctxt + i.length) + t.length by omega, Nat.mul_add, Nat.mul_add]
            rw [g2] at g ⊢
            omega
          · show (s'.log ++ ((Add.singular ctxt i r).apply s'.dict).2).length ≤ B.msgs + 2
            rw [List.length_append]
            omega
        | poError _ => rw [hc] at hy; cases hy
        | exn _ _ => rw [hc] at hy; cases hy
        | fault _ => rw [hc] at hy; cases hy
        | diverge => rw [hc] at hy; cases hy
      · injection hy with _ hy; subst hy
        refine ⟨h1, h2, ?_, by show s.log.length ≤ B.msgs + 2; omega⟩
        exact Nat.le_trans h3 (Nat.add_le_add_left (Nat.mul_le_mul_left K (B.add_le (.singular fz ctxt i t)).1) _)
    | header p t =>
      simp only [evStep] at hy
      rw [parseHeader_eq] at hy
      unfold setCharsets at hy
      generalize (afterHeader c t (mv T s p)).conv.setCharsets _ _ _ _ = g at hy
      obtain ⟨cv, o⟩ := g
      cases o with
      | some w => cases hy
      | none =>
        injection hy with _ hy; subst hy
        have := hdrs_size c (mv T s p).lineNumber (mv T s p).currentLine t [] (s.dict, s.log)
        refine ⟨h1, h2, ?_, ?_⟩
        · show dictSize (hdrEffects c (mv T s p).lineNumber (mv T s p).currentLine (headerLines t []) (s.dict, s.log)).1 ≤ _
          rw [this.1]; exact h3
        · show ((hdrEffects c (mv T s p).lineNumber (mv T s p).currentLine (headerLines t []) (s.dict, s.log)).2 ++ _).length ≤ B.msgs + 1 + t.length / 14
          rw [List.length_append]
          have h6 := this.2
          simp only [List.length_nil] at h6
          have h7 : ∀ (q : Prop) [Decidable q] (a : Diag), (if q then [a] else []).length ≤ 1 := by
            intro q _ a; split <;> simp
          have := h7 (((headerCharset c.ct t).isEmpty || decide (headerCharset c.ct t = b!"CHARSET")) = true)
            (.po .warning c.filename (mv T s p).lineNumber b!"charset not specified for .po, fallback to utf-8" (mv T s p).currentLine)
          omega
  · cases e with
    | header p t =>
      simp only [evStep] at hy
      rw [parseHeader_eq] at hy
      unfold setCharsets at hy
      generalize (afterHeader c t (mv T s p)).conv.setCharsets _ _ _ _ = g at hy
      obtain ⟨cv, o⟩ := g
      cases o with
      | none => cases hy
      | some w =>
        injection hy with _ hy; subst hy
        have := hdrs_size c (mv T s p).lineNumber (mv T s p).currentLine t [] (s.dict, s.log)
        refine ⟨h1, h2, ?_, ?_⟩
        · show dictSize (hdrEffects c (mv T s p).lineNumber (mv T s p).currentLine (headerLines t []) (s.dict, s.log)).1 ≤ _
          rw [this.1]; exact h3
        · show ((hdrEffects c (mv T s p).lineNumber (mv T s p).currentLine (headerLines t []) (s.dict, s.log)).2 ++ _).length ≤ B.msgs + 1 + t.length / 14
          rw [List.length_append]
          have h6 := this.2
          simp only [List.length_nil] at h6
          have h7 : ∀ (q : Prop) [Decidable q] (a : Diag), (if q then [a] else []).length ≤ 1 := by
            intro q _ a; split <;> simp
          have := h7 (((headerCharset c.ct t).isEmpty || decide (headerCharset c.ct t = b!"CHARSET")) = true)
            (.po .warning c.filename (mv T s p).lineNumber b!"charset not specified for .po, fallback to utf-8" (mv T s p).currentLine)
          omega
    | diag lv p m pd => simp only [evStep] at hy; split at hy <;> cases hy
    | clear => simp only [evStep] at hy; cases hy
    | conv n t =>
      simp only [evStep, convert] at hy
      cases hcv : s.conv.convert c.lib t with
      | ok _ _ _ => rw [hcv] at hy; cases hy
      | fault _ => rw [hcv] at hy; cases hy
    | plural p fz ctxt i ip => simp only [evStep] at hy; split at hy <;> cases hy
    | singular fz ctxt i t =>
      simp only [evStep, convert] at hy
      cases hcv : s.conv.convert c.lib t with
      | ok _ _ _ => rw [hcv] at hy; split at hy <;> cases hy
      | fault _ => rw [hcv] at hy; split at hy <;> cases hy

theorem interp_within {K : Nat} (hK : 0 < K) (c : Cfg) (hl : AtMost K c.lib) (T : Tape) (d : Dictionary) : ∀ (w : List Ev), (∀ e ∈ w, OneDigit e) →
    ∀ (B : Bill) (x : List Str × PState), Within K d B x →
    (∀ y, interp c T w x = .ok () y ∨ interp c T w x = .poError y ∨ (∃ m, interp c T w x = .exn m y) →
      dictSize y.2.dict ≤ dictSize d + K * (B.adds w).size ∧ y.2.log.length ≤ (B.adds w).msgs) := by
  intro w
  induction w with
  | nil =>
    intro _ B x h y hy
    rcases hy with hy | hy | ⟨m, hy⟩
    · injection hy with _ hy; subst hy; exact ⟨h.size, h.msgs⟩
    · cases hy
    · cases hy
  | cons e w ih =>
    intro hw B x h y hy
    have hs := step_within hK c hl T d e (hw e List.mem_cons_self) B x h
    have hle := Bill.adds_le w (B.add e)
    have fin : ∀ z, Within K d (B.add e) z → dictSize z.2.dict ≤ dictSize d + K * ((B.add e).adds w).size ∧ z.2.log.length ≤ ((B.add e).adds w).msgs :=
      fun z hz => ⟨Nat.le_trans hz.size (Nat.add_le_add_left (Nat.mul_le_mul_left K hle.1) _), Nat.le_trans hz.msgs hle.2⟩
    show dictSize y.2.dict ≤ dictSize d + K * ((B.add e).adds w).size ∧ y.2.log.length ≤ ((B.add e).adds w).msgs
    simp only [interp, bind_apply] at hy
    cases hx : evStep c T e x with
    | ok u z =>
      rw [hx] at hy
      exact ih (fun e he => hw e (List.mem_cons_of_mem _ he)) (B.add e) z (hs.1 z hx) y hy
    | poError z =>
      rw [hx] at hy
      rcases hy with hy | hy | ⟨m, hy⟩ <;> cases hy
      exact fin _ (hs.2.2 _ hx)
    | exn m z =>
      rw [hx] at hy
      rcases hy with hy | hy | ⟨m', hy⟩ <;> cases hy
      exact fin _ (hs.2.1 _ _ hx)
    | fault f => rw [hx] at hy; rcases hy with hy | hy | ⟨m', hy⟩ <;> cases hy
    | diverge => rw [hx] at hy; rcases hy with hy | hy | ⟨m', hy⟩ <;> cases hy

theorem oneDigit_mainLoop (ct : CType) (fuel : Nat) (T : Tape) (f : Nat) (b : Bool) (p : Nat) : ∀ e ∈ (mainLoopE ct fuel T f b p).1, OneDigit e := by
  refine post_mainLoop (R := fun _ _ => True) (G := fun w => ∀ e ∈ w, OneDigit e) (G' := fun w => ∀ e ∈ w, OneDigit e) ?_ (reads_any ct T) f b p
  have hg : GOk (fun w => ∀ e ∈ w, OneDigit e) := by
    refine ⟨fun e he => (by cases he), fun w w' h h' e he => ?_, fun lv p m b e he => ?_⟩
    · rcases List.mem_append.1 he with h1 | h1
      · exact h e h1
      · exact h' e h1
    · simp only [List.mem_singleton] at he; subst he; trivial
  refine ⟨hg, hg, fun w h e he => ?_, fun _ _ hn _ e he => ?_, fun _ _ _ _ _ _ _ _ e he => ?_, fun _ _ _ _ _ _ _ _ _ e he => ?_, fun _ _ _ _ e he => ?_⟩
  · rcases List.mem_cons.1 he with rfl | he
    · trivial
    · exact h e he
  · simp only [List.mem_singleton] at he; subst he; exact hn
  · simp only [List.mem_singleton] at he; subst he; trivial
  · simp only [List.mem_singleton] at he; subst he; trivial
  · simp only [List.mem_singleton] at he; subst he; trivial

end POParser
end Tgt
