import Verif.Spec.Memory
import Verif.Proofs.Dict
/-
Additions when memory runs out.
-/
namespace Tgt
open Spec Memory

namespace Mem

/-- The same but for the vector of one message. -/
def Same (c : Option Str) (i : Str) (d d' : Dictionary) : Prop := ∀ v, setVec d' c i v = setVec d c i v

theorem stored_eq (d : Dictionary) (c : Option Str) (i : Str) : stored d c i = d.lookup (c, i) := by
  cases c with
  | none => rfl
  | some c =>
    simp only [stored, Dictionary.lookup]
    cases d.ctxtEntries.get? c <;> rfl

theorem vec_eq (d : Dictionary) (c : Option Str) (i : Str) : vec d c i = (stored d c i).getD [] := by
  rw [stored_eq]
  cases c with
  | none => exact Dict.vecAt_eq _ _
  | some c =>
    show Dictionary.vecAt _ _ = _
    rw [Dict.vecAt_eq, Dict.ctxtAt_get?]

theorem lookup_setVec (d : Dictionary) (c : Option Str) (i : Str) (v : List Str) (key : Option Str × Str) :
    (setVec d c i v).lookup key = if (c, i) = key then some v else d.lookup key := by
  cases c with
  | none => exact Dict.lookup_set d i v key
  | some c => exact Dict.lookup_set_ctxt d c i v key

theorem vec_setVec (d : Dictionary) (c : Option Str) (i : Str) (v : List Str) : vec (setVec d c i v) c i = v := by
  rw [vec_eq, stored_eq, lookup_setVec, if_pos rfl]; rfl

theorem setVec_setVec (d : Dictionary) (c : Option Str) (i : Str) (v w : List Str) : setVec (setVec d c i v) c i w = setVec d c i w := by
  cases c with
  | none => simp only [setVec, AMap.set_set]
  | some c =>
    have : Dictionary.ctxtAt (d.ctxtEntries.set c ((Dictionary.ctxtAt d.ctxtEntries c).set i v)) c = (Dictionary.ctxtAt d.ctxtEntries c).set i v := by
      simp only [Dictionary.ctxtAt, AMap.get?_set_self]
    simp only [setVec, AMap.set_set, this]

theorem setVec_self (d : Dictionary) (c : Option Str) (i : Str) (v : List Str) (h : stored d c i = some v) : setVec d c i v = d := by
  cases c with
  | none =>
    have h' : d.entries.get? i = some v := h
    simp only [setVec, AMap.set_same h']
  | some c =>
    simp only [stored] at h
    cases he : d.ctxtEntries.get? c with
    | none => rw [he] at h; cases h
    | some e =>
      rw [he] at h
      have h' : e.get? i = some v := h
      simp only [setVec, Dictionary.ctxtAt, he, AMap.set_same h', AMap.set_same he]

theorem Same.refl (c : Option Str) (i : Str) (d : Dictionary) : Same c i d d := fun _ => rfl
theorem Same.trans {c : Option Str} {i : Str} {a b d : Dictionary} (h : Same c i a b) (h' : Same c i b d) : Same c i a d :=
  fun v => (h' v).trans (h v)

theorem same_setVec (c : Option Str) (i : Str) (d : Dictionary) (v : List Str) : Same c i d (setVec d c i v) := fun w => setVec_setVec d c i v w

/-- An addition writes the vector of its message. -/
theorem apply_eq (a : Add) (d : Dictionary) :
    (a.apply d).1 = setVec d (target a).1 (target a).2 (a.newVec (vec d (target a).1 (target a).2)) := by
  rcases a with ⟨_ | c, i, s⟩ | ⟨_ | c, i, p, v⟩ <;>
    simp only [Add.apply, Dictionary.addSingular, Dictionary.addCtxtSingular, Dictionary.addPlural, Dictionary.addCtxtPlural, target, setVec, vec, Add.newVec,
      Dict.addSingularVec_fst, Dict.addPluralVec_fst]

/-- What the additions log. -/
theorem apply_log (a : Add) (d : Dictionary) : (a.apply d).2 = match a with
    | .singular c i s => (Dictionary.addSingularVec c i (vec d c i) s).2
    | .plural c i p v => (Dictionary.addPluralVec c i p (vec d c i) v).2 := by
  rcases a with ⟨_ | c, i, s⟩ | ⟨_ | c, i, p, v⟩ <;> rfl

theorem Same.but {c : Option Str} {i : Str} {d d' : Dictionary} (h : Same c i d d') : SameBut c i d d' := by
  have h0 := h []
  constructor
  · intro c' i' hne
    have h1 : (setVec d' c i []).lookup (c', i') = (setVec d c i []).lookup (c', i') := by rw [h0]
    rw [lookup_setVec, lookup_setVec, if_neg (fun e => hne e.symm), if_neg (fun e => hne e.symm)] at h1
    rw [stored_eq, stored_eq, h1]
  · intro c' hne
    cases c with
    | none =>
      have : (setVec d' none i []).ctxtEntries = (setVec d none i []).ctxtEntries := by rw [h0]
      rw [show d'.ctxtEntries = d.ctxtEntries from this]
    | some c =>
      have : (setVec d' (some c) i []).ctxtEntries.get? c' = (setVec d (some c) i []).ctxtEntries.get? c' := by rw [h0]
      simp only [setVec] at this
      rw [AMap.get?_set_ne _ _ (fun e => hne (by rw [e])), AMap.get?_set_ne _ _ (fun e => hne (by rw [e]))] at this
      rw [this]
  all_goals
    first
    | (have : (setVec d' c i []).charset = (setVec d c i []).charset := by rw [h0]
       cases c <;> exact this)
    | (have : (setVec d' c i []).pluralForms = (setVec d c i []).pluralForms := by rw [h0]
       cases c <;> exact this)
    | (have : (setVec d' c i []).hasFallback = (setVec d c i []).hasFallback := by rw [h0]
       cases c <;> exact this)
    | (have : (setVec d' c i []).fallback = (setVec d c i []).fallback := by rw [h0]
       cases c <;> exact this)

theorem seq_apply {σ : Type} (p q : Code σ) (s : σ) (t : Nat) : seq p q s t = match p s t with
    | .done s t => q s t
    | r => r := rfl

theorem stored_slot (e : Entries) (i : Str) : (slot e i).get? i = some (Dictionary.vecAt e i) := by
  unfold slot Dictionary.vecAt
  cases h : e.get? i with
  | some v => exact h
  | none => exact AMap.get?_set_self _ _ _

theorem set_slot (e : Entries) (i : Str) (v : List Str) : (slot e i).set i v = e.set i v := by
  unfold slot
  cases h : e.get? i with
  | some v => rfl
  | none => exact AMap.set_set _ _ _ _

theorem ctxtSlot_facts (d : Dictionary) (c i : Str) : Same (some c) i d (ctxtSlot d c) ∧ stored (ctxtSlot d c) (some c) i = stored d (some c) i ∧
    Dictionary.ctxtAt (ctxtSlot d c).ctxtEntries c = Dictionary.ctxtAt d.ctxtEntries c := by
  unfold ctxtSlot
  cases h : d.ctxtEntries.get? c with
  | some e => exact ⟨.refl _ _ _, rfl, rfl⟩
  | none =>
    refine ⟨?_, ?_, ?_⟩
    · intro v
      simp only [setVec, Dictionary.ctxtAt, AMap.get?_set_self, h, AMap.set_set]
    · simp only [stored, AMap.get?_set_self, h]
      rfl
    · simp only [Dictionary.ctxtAt, AMap.get?_set_self, h]

/-- Taking the reference to the vector. -/
theorem reference_cases (oom : Nat → Bool) (c : Option Str) (i : Str) (d : Dictionary) (log : List Diag) (t : Nat) :
    (∃ d' t', reference oom c i (d, log) t = .done (d', log) t' ∧ t ≤ t' ∧ Same c i d d' ∧ stored d' c i = some (vec d c i)) ∨
    (∃ d' t', reference oom c i (d, log) t = .badAlloc (d', log) t' ∧ t < t' ∧ Same c i d d' ∧ stored d' c i = stored d c i ∧ ∃ k, k < t' ∧ oom k = true) := by
  cases c with
  | none =>
    unfold reference op
    by_cases h : oom t = true
    · right
      simp only [h, if_true]
      exact ⟨d, t + 1, rfl, by omega, .refl _ _ _, rfl, t, by omega, h⟩
    · left
      simp only [h, if_false, Bool.false_eq_true]
      exact ⟨_, _, rfl, by omega, fun v => by simp only [setVec, set_slot], stored_slot _ _⟩
  | some c =>
    unfold reference seq op
    by_cases h : oom t = true
    · right
      simp only [h, if_true]
      exact ⟨d, t + 1, rfl, by omega, .refl _ _ _, rfl, t, by omega, h⟩
    · obtain ⟨h1, h2, h3⟩ := ctxtSlot_facts d c i
      simp only [h, if_false, Bool.false_eq_true]
      by_cases h' : oom (t + 1) = true
      · right
        simp only [h', if_true]
        exact ⟨_, _, rfl, by omega, h1, h2, t + 1, by omega, h'⟩
      · left
        simp only [h', if_false, Bool.false_eq_true]
        refine ⟨_, _, rfl, by omega, ?_, ?_⟩
        · refine h1.trans ?_
          intro v
          simp only [setVec, AMap.set_set]
          simp only [Dictionary.ctxtAt, AMap.get?_set_self]
          rw [set_slot]
        · simp only [stored, AMap.get?_set_self, Option.bind]
          rw [stored_slot, h3]
          rfl

/-- The vector while it is assigned to. -/
def mix (whole old : List Str) (k : Nat) : List Str := whole.take (min k old.length) ++ old.drop k

theorem mix_length {whole old : List Str} {k : Nat} (h : k ≤ whole.length) : (mix whole old k).length = old.length := by
  unfold mix
  rw [List.length_append, List.length_take, List.length_drop]
  omega

theorem mix_step {whole old : List Str} {k : Nat} {x : Str} (h : whole[k]? = some x) :
    (if k < (mix whole old k).length then (mix whole old k).set k x else mix whole old k) = mix whole old (k + 1) := by
  have hk : k < whole.length := by
    rw [List.getElem?_eq_some_iff] at h; exact h.1
  rw [mix_length (by omega)]
  by_cases hl : k < old.length
  · rw [if_pos hl]
    unfold mix
    rw [Nat.min_eq_left (by omega), Nat.min_eq_left (by omega)]
    have h1 : (whole.take k).length = k := by rw [List.length_take]; omega
    rw [List.set_append, if_neg (by omega), h1, Nat.sub_self, List.drop_eq_getElem_cons hl, List.set_cons_zero, List.take_add_one, h]
    simp
  · rw [if_neg hl]
    unfold mix
    rw [Nat.min_eq_right (by omega), Nat.min_eq_right (by omega), List.drop_eq_nil_of_le (by omega), List.drop_eq_nil_of_le (by omega)]

theorem mix_left {whole old : List Str} {k : Nat} (h : k < whole.length) : ∃ j, j < whole.length ∧ j ≤ old.length ∧ mix whole old k = whole.take j ++ old.drop j := by
  refine ⟨min k old.length, by omega, by omega, ?_⟩
  unfold mix
  by_cases hl : k ≤ old.length
  · rw [Nat.min_eq_left hl]
  · rw [Nat.min_eq_right (by omega), List.drop_eq_nil_of_le (by omega), List.drop_eq_nil_of_le (by omega)]

/-- `vec = msgstrs`. -/
theorem assign_cases (oom : Nat → Bool) (c : Option Str) (i : Str) (whole old : List Str) : ∀ (rest : List Str) (k : Nat) (d : Dictionary) (log : List Diag) (t : Nat),
    whole.drop k = rest → k ≤ whole.length → stored d c i = some (mix whole old k) →
    (∃ t', assign oom c i whole k rest (d, log) t = .done (setVec d c i whole, log) t' ∧ t ≤ t') ∨
    (∃ d' t' j, assign oom c i whole k rest (d, log) t = .badAlloc (d', log) t' ∧ t < t' ∧ j < whole.length ∧ Same c i d d' ∧ stored d' c i = some (mix whole old j) ∧
      ∃ k, k < t' ∧ oom k = true) := by
  intro rest
  induction rest with
  | nil =>
    intro k d log t _ _ _
    exact .inl ⟨t, rfl, Nat.le_refl _⟩
  | cons x rest ih =>
    intro k d log t hd hk hs
    have hk' : k < whole.length := by
      have : (whole.drop k).length = rest.length + 1 := by rw [hd]; rfl
      rw [List.length_drop] at this; omega
    have hx : whole[k]? = some x := by
      have : (whole.drop k)[0]? = some x := by rw [hd]; rfl
      rwa [List.getElem?_drop, Nat.add_zero] at this
    have hr : whole.drop (k + 1) = rest := by
      rw [← List.drop_drop, hd]; rfl
    unfold assign
    rw [seq_apply]
    unfold op
    have hv : vec d c i = mix whole old k := by rw [vec_eq, hs]; rfl
    by_cases h : oom t = true
    · right
      simp only [h, if_true]
      exact ⟨d, t + 1, k, rfl, by omega, hk', .refl _ _ _, hs, t, by omega, h⟩
    · simp only [h, if_false, Bool.false_eq_true]
      rw [hv]
      have hst : (if k < (mix whole old k).length then setVec d c i ((mix whole old k).set k x) else d) = setVec d c i (mix whole old (k + 1)) := by
        rw [← mix_step hx]
        split
        · rfl
        · exact (setVec_self d c i _ hs).symm
      rw [hst]
      have hs' : stored (setVec d c i (mix whole old (k + 1))) c i = some (mix whole old (k + 1)) := by
        rw [stored_eq, lookup_setVec, if_pos rfl]
      rcases ih (k + 1) (setVec d c i (mix whole old (k + 1))) log (t + 1) hr (by omega) hs' with ⟨t', h1, h2⟩ | ⟨d', t', j, h1, h2, h3, h4, h5, h6⟩
      · refine .inl ⟨t', ?_, by omega⟩
        rw [h1, setVec_setVec]
      · exact .inr ⟨d', t', j, h1, by omega, h3, (same_setVec c i d _).trans h4, h5, h6⟩

/-- A call of `add_translation`: it does what it does with enough memory; or it fails; or the program ends. -/
theorem add_cases (oom : Nat → Bool) (a : Add) (d : Dictionary) (log : List Diag) (t : Nat) :
    (∃ t', Memory.add oom a (d, log) t = .done ((a.apply d).1, log ++ (a.apply d).2) t' ∧ t ≤ t') ∨
    (∃ d' log' t', Memory.add oom a (d, log) t = .badAlloc (d', log') t' ∧ t < t' ∧ Same (target a).1 (target a).2 d d' ∧
      Left a (stored d (target a).1 (target a).2) (stored d' (target a).1 (target a).2) ∧ (log' = log ∨ log' = log ++ (a.apply d).2) ∧ ∃ k, k < t' ∧ oom k = true) ∨
    (Memory.add oom a (d, log) t = .terminated ∧ (a.apply d).2 ≠ [] ∧ ∃ k, oom k = true) := by
  have hempty : ∀ (b : Add) (c : Option Str) (i : Str), Left b (stored d c i) (some (vec d c i)) := by
    intro b c i
    rw [vec_eq]
    cases stored d c i with
    | none => exact .empty
    | some v => exact .same
  rcases a with ⟨c, i, s⟩ | ⟨c, i, p, v⟩
  · unfold Memory.add
    rw [apply_log, apply_eq]
    simp only [target, Add.newVec]
    rw [seq_apply]
    rcases reference_cases oom c i d log t with ⟨d1, t1, h1, h2, h3, h4⟩ | ⟨d1, t1, h1, h2, h3, h4, h5⟩
    · rw [h1]
      dsimp only
      have hv1 : vec d1 c i = vec d c i := by rw [vec_eq d1, h4]; rfl
      rw [hv1]
      cases hv : vec d c i with
      | nil =>
        rw [hv] at h4
        unfold op
        by_cases ho : oom t1 = true
        · right; left
          simp only [ho, if_true]
          refine ⟨d1, log, t1 + 1, rfl, by omega, h3, ?_, .inl rfl, t1, by omega, ho⟩
          rw [h4, ← hv]
          exact hempty _ _ _
        · left
          simp only [ho, if_false, Bool.false_eq_true]
          refine ⟨t1 + 1, ?_, by omega⟩
          rw [h3]
          simp [Dictionary.addSingularVec]
      | cons v0 rest =>
        rw [hv] at h4
        dsimp only
        by_cases hne : v0 ≠ s
        · rw [if_pos hne, seq_apply]
          unfold say op
          have hlog : (Dictionary.addSingularVec c i (v0 :: rest) s).2 = [.collisionSingular c i v0 s] := by
            simp only [Dictionary.addSingularVec]; rw [if_pos hne]
          rw [hlog]
          by_cases ho : oom t1 = true
          · right; right
            simp only [ho, if_true]
            exact ⟨trivial, by simp, t1, ho⟩
          · simp only [ho, if_false, Bool.false_eq_true]
            by_cases ho' : oom (t1 + 1) = true
            · right; left
              simp only [ho', if_true]
              refine ⟨d1, _, t1 + 1 + 1, rfl, by omega, h3, ?_, .inr rfl, t1 + 1, by omega, ho'⟩
              rw [h4, ← hv]
              exact hempty _ _ _
            · left
              simp only [ho', if_false, Bool.false_eq_true]
              refine ⟨t1 + 1 + 1, ?_, by omega⟩
              rw [h3]
              rfl
        · rw [if_neg hne]
          left
          have hs : v0 = s := by simpa using hne
          refine ⟨t1, ?_, by omega⟩
          have hlog : (Dictionary.addSingularVec c i (v0 :: rest) s).2 = [] := by
            simp only [Dictionary.addSingularVec]; rw [if_neg hne]
          rw [hlog, List.append_nil]
          unfold skip
          rw [List.tail_cons, ← hs, ← h3, setVec_self d1 c i _ h4]
    · rw [h1]
      right; left
      refine ⟨d1, log, t1, rfl, h2, h3, ?_, .inl rfl, h5⟩
      rw [h4]; exact .same
  · unfold Memory.add
    rw [apply_log, apply_eq]
    simp only [target, Add.newVec]
    rw [seq_apply]
    rcases reference_cases oom c i d log t with ⟨d1, t1, h1, h2, h3, h4⟩ | ⟨d1, t1, h1, h2, h3, h4, h5⟩
    · rw [h1]
      dsimp only
      have hv1 : vec d1 c i = vec d c i := by rw [vec_eq d1, h4]; rfl
      rw [hv1]
      have hmix0 : mix v (vec d c i) 0 = vec d c i := by simp [mix]
      by_cases hE : (vec d c i).isEmpty = true
      · rw [if_pos hE]
        have hnil : vec d c i = [] := List.isEmpty_iff.1 hE
        have hlog : (Dictionary.addPluralVec c i p (vec d c i) v).2 = [] := by
          simp only [Dictionary.addPluralVec]; rw [if_pos hE]
        rw [hlog]
        rcases assign_cases oom c i v (vec d c i) v 0 d1 log t1 rfl (by omega) (by rw [hmix0]; exact h4) with ⟨t', h5, h6⟩ | ⟨d', t', j, h5, h6, h7, h8, h9, h10⟩
        · left
          refine ⟨t', ?_, by omega⟩
          rw [h5, h3, List.append_nil]
        · right; left
          refine ⟨d', log, t', h5, by omega, h3.trans h8, ?_, .inl rfl, h10⟩
          have hm : mix v (vec d c i) j = vec d c i := by rw [hnil]; simp [mix]
          rw [h9, hm]
          exact hempty _ _ _
      · rw [if_neg hE]
        by_cases hne : vec d c i ≠ v
        · rw [if_pos hne, seq_apply]
          have hlog : (Dictionary.addPluralVec c i p (vec d c i) v).2 = [.collisionPlural c i p (vec d c i) v] := by
            simp only [Dictionary.addPluralVec]; rw [if_neg hE, if_pos hne]
          rw [hlog]
          unfold say
          by_cases ho : oom t1 = true
          · right; right
            simp only [ho, if_true]
            exact ⟨trivial, by simp, t1, ho⟩
          · simp only [ho, if_false, Bool.false_eq_true]
            have hsome : stored d c i = some (vec d c i) := by
              rw [vec_eq]
              cases hst : stored d c i with
              | some v => rfl
              | none => exfalso; apply hE; rw [vec_eq, hst]; rfl
            rcases assign_cases oom c i v (vec d c i) v 0 d1 (log ++ [.collisionPlural c i p (vec d c i) v]) (t1 + 1) rfl (by omega) (by rw [hmix0]; exact h4) with ⟨t', h5, h6⟩ | ⟨d', t', j, h5, h6, h7, h8, h9, h10⟩
            · left
              refine ⟨t', ?_, by omega⟩
              rw [h5, h3]
            · right; left
              refine ⟨d', _, t', h5, by omega, h3.trans h8, ?_, .inr rfl, h10⟩
              obtain ⟨j', h11, h12, h13⟩ := mix_left (old := vec d c i) h7
              rw [h9, hsome, h13]
              exact .mixed h11 h12
        · rw [if_neg hne]
          left
          have hs : vec d c i = v := by simpa using hne
          refine ⟨t1, ?_, by omega⟩
          have hlog : (Dictionary.addPluralVec c i p (vec d c i) v).2 = [] := by
            simp only [Dictionary.addPluralVec]; rw [if_neg hE, if_neg hne]
          rw [hlog, List.append_nil]
          unfold skip
          rw [← h3, setVec_self d1 c i _ (hs ▸ h4)]
    · rw [h1]
      right; left
      refine ⟨d1, log, t1, rfl, h2, h3, ?_, .inl rfl, h5⟩
      rw [h4]; exact .same

/-- Made again, the addition has the effect it would have had. -/
theorem again_eq {a : Add} {d d' : Dictionary} (h : Same (target a).1 (target a).2 d d')
    (hl : Left a (stored d (target a).1 (target a).2) (stored d' (target a).1 (target a).2)) : (a.apply d').1 = (a.apply d).1 := by
  rw [apply_eq, apply_eq, h]
  rcases a with ⟨c, i, s⟩ | ⟨c, i, p, v⟩
  · simp only [target, Add.newVec] at *
    rw [vec_eq, vec_eq]
    generalize stored d c i = x at *
    generalize stored d' c i = y at *
    cases hl <;> rfl
  · rfl

end Mem
end Tgt
