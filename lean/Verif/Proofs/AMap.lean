import Verif.Base
/-
Lemmas about the association lists standing for hash maps.
-/
namespace Tgt.AMap
variable {κ ν : Type} [DecidableEq κ]

theorem get?_mem {m : AMap κ ν} {k : κ} {v : ν} (h : m.get? k = some v) : (k, v) ∈ m := by
  induction m with
  | nil => simp [get?] at h
  | cons p t ih =>
    obtain ⟨k', v'⟩ := p
    simp only [get?] at h
    split at h
    · rename_i hk; cases h; subst hk; exact List.mem_cons_self ..
    · exact List.mem_cons_of_mem _ (ih h)

theorem get?_of_mem {m : AMap κ ν} {k : κ} {v : ν} (hn : m.keys.Nodup) (h : (k, v) ∈ m) :
    m.get? k = some v := by
  induction m with
  | nil => simp at h
  | cons p t ih =>
    obtain ⟨k', v'⟩ := p
    simp only [keys, List.map_cons, List.nodup_cons] at hn
    simp only [get?]
    rcases List.mem_cons.1 h with h | h
    · cases h; simp
    · have : k' ≠ k := fun e => hn.1 (List.mem_map.2 ⟨_, h, e.symm⟩)
      simp [this, ih hn.2 h]

theorem mem_iff_get? {m : AMap κ ν} {k : κ} {v : ν} (hn : m.keys.Nodup) :
    (k, v) ∈ m ↔ m.get? k = some v := ⟨get?_of_mem hn, get?_mem⟩

theorem get?_nil (k : κ) : get? ([] : AMap κ ν) k = none := rfl

theorem get?_set (m : AMap κ ν) (k k' : κ) (v : ν) :
    (m.set k v).get? k' = if k = k' then some v else m.get? k' := by
  induction m with
  | nil => simp [set, get?]
  | cons p t ih =>
    obtain ⟨k0, v0⟩ := p
    simp only [set]
    by_cases h0 : k0 = k
    · subst h0
      simp only [if_true, get?]
      split <;> rfl
    · simp only [h0, if_false, get?, ih]
      by_cases h1 : k0 = k'
      · subst h1
        simp [Ne.symm h0]
      · simp [h1]

theorem get?_set_self (m : AMap κ ν) (k : κ) (v : ν) : (m.set k v).get? k = some v := by
  simp [get?_set]

theorem get?_set_ne (m : AMap κ ν) {k k' : κ} (v : ν) (h : k ≠ k') :
    (m.set k v).get? k' = m.get? k' := by
  simp [get?_set, h]

theorem mem_keys_iff {m : AMap κ ν} {k : κ} : k ∈ m.keys ↔ ∃ v, m.get? k = some v := by
  induction m with
  | nil => simp [keys, get?]
  | cons p t ih =>
    obtain ⟨k0, v0⟩ := p
    simp only [keys, List.map_cons, List.mem_cons, get?]
    by_cases h : k0 = k
    · simp [h]
    · simp only [Ne.symm h, false_or, h, if_false]
      exact ih

theorem get?_eq_none_iff {m : AMap κ ν} {k : κ} : m.get? k = none ↔ k ∉ m.keys := by
  rw [mem_keys_iff]
  cases m.get? k <;> simp

theorem mem_keys_set {m : AMap κ ν} {k k' : κ} {v : ν} :
    k' ∈ (m.set k v).keys ↔ k' = k ∨ k' ∈ m.keys := by
  simp only [mem_keys_iff, get?_set]
  by_cases h : k = k'
  · simp [h]
  · simp [h, Ne.symm h]

theorem nodup_set {m : AMap κ ν} (h : m.keys.Nodup) (k : κ) (v : ν) : (m.set k v).keys.Nodup := by
  induction m with
  | nil => simp [set, keys]
  | cons p t ih =>
    obtain ⟨k0, v0⟩ := p
    simp only [keys, List.map_cons, List.nodup_cons] at h
    simp only [set]
    split
    · rename_i h0; subst h0
      simp only [keys, List.map_cons, List.nodup_cons]; exact h
    · rename_i h0
      simp only [keys, List.map_cons, List.nodup_cons]
      refine ⟨?_, ih h.2⟩
      intro hm
      rcases mem_keys_set.1 hm with hm | hm
      · exact h0 hm
      · exact h.1 hm

theorem set_same {m : AMap κ ν} {k : κ} {v : ν} (h : m.get? k = some v) : m.set k v = m := by
  induction m with
  | nil => simp [get?] at h
  | cons p t ih =>
    obtain ⟨k0, v0⟩ := p
    simp only [get?] at h
    simp only [set]
    split at h
    · rename_i h0; cases h; simp [h0]
    · rename_i h0; simp [h0, ih h]

theorem set_set (m : AMap κ ν) (k : κ) (v w : ν) : (m.set k v).set k w = m.set k w := by
  induction m with
  | nil => simp [set]
  | cons p t ih =>
    obtain ⟨k0, v0⟩ := p
    simp only [set]
    by_cases h0 : k0 = k
    · simp [h0, set]
    · simp [h0, set, ih]

end Tgt.AMap
