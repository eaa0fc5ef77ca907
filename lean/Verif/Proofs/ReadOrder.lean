import Verif.Proofs.Read5
import Verif.Proofs.Read3
import Verif.Proofs.ReadBlank
/-
The order of the messages of a parse.
-/
namespace Tgt.POParser
open Spec Spec.Po

/-- In ascending order, between `a` and `b`. -/
def Upto (a b : Nat) (l : List Nat) : Prop := l.Pairwise (· ≤ ·) ∧ ∀ x ∈ l, a ≤ x ∧ x ≤ b

theorem Upto.nil {a b : Nat} : Upto a b [] := ⟨.nil, by simp⟩

theorem Upto.append {a m m' b : Nat} {l l' : List Nat} (h : Upto a m l) (h' : Upto m' b l') (hm : m ≤ m') (ha : a ≤ m) (hb : m ≤ b) : Upto a b (l ++ l') := by
  refine ⟨List.pairwise_append.2 ⟨h.1, h'.1, fun x hx y hy => ?_⟩, fun x hx => ?_⟩
  · have := (h.2 x hx).2; have := (h'.2 y hy).1; omega
  · rcases List.mem_append.1 hx with hx | hx
    · have := h.2 x hx; omega
    · have := h'.2 x hx; omega

theorem Upto.weaken {a b a' b' : Nat} {l : List Nat} (h : Upto a b l) (ha : a' ≤ a) (hb : b ≤ b') : Upto a' b' l :=
  ⟨h.1, fun x hx => by have := h.2 x hx; omega⟩

theorem Upto.const {n : Nat} {l : List Nat} (h : ∀ x ∈ l, x = n) : Upto n n l := by
  refine ⟨List.pairwise_of_forall_mem_list fun x hx y hy => ?_, fun x hx => ?_⟩
  · rw [h x hx, h y hy]; exact Nat.le_refl _
  · rw [h x hx]; omega

/-- The lines of remarks. -/
def ln (ns : List Note) : List Nat := ns.map Note.line

theorem ln_append (a b : List Note) : ln (a ++ b) = ln a ++ ln b := List.map_append

section
variable {ct : CType} {b : Bool} {L : Nat → Str} {N : Nat}

theorem o_escape (n : Nat) (u : List Byte) : ∀ x ∈ ln (escapeNotes n u), x = n := by
  intro x hx
  simp only [ln, escapeNotes, List.map_map, List.mem_map] at hx
  obtain ⟨_, _, rfl⟩ := hx
  rfl

theorem o_trail (n : Nat) (t : Str) : ∀ x ∈ ln (trailNotes ct n t), x = n := by
  intro x hx
  unfold trailNotes at hx
  split at hx
  · cases hx
  · simpa [ln] using hx

theorem o_indent (n : Nat) (t : Str) : ∀ x ∈ ln (indentNotes n t), x = n := by
  intro x hx
  unfold indentNotes at hx
  split at hx
  · simpa [ln] using hx
  · cases hx

theorem o_space (n : Nat) (t : Str) : ∀ x ∈ ln (spaceNotes n t), x = n := by
  intro x hx
  unfold spaceNotes at hx
  split at hx
  · cases hx
  · simpa [ln] using hx

theorem o_both {n : Nat} {a c : List Note} (h1 : ∀ x ∈ ln a, x = n) (h2 : ∀ x ∈ ln c, x = n) : ∀ x ∈ ln (a ++ c), x = n := by
  intro x hx
  rw [ln_append] at hx
  exact (List.mem_append.1 hx).elim (h1 x) (h2 x)

theorem o_quoted {n : Nat} {q t : Str} {ns : List Note} (h : RQuoted ct b n q t ns) : ∀ x ∈ ln ns, x = n := by
  cases h with
  | mk _ => exact o_both (o_escape _ _) (o_trail _ _)

theorem o_badString {n : Nat} {q m : Str} {ns : List Note} (h : BadString b n q ns m) : ∀ x ∈ ln ns, x = n := by
  cases h with
  | quoteOnly => intro x hx; cases hx
  | noEnd => exact o_escape _ _
  | backslash => exact o_escape _ _
  | halfChar => exact o_escape _ _

theorem o_conts {n : Nat} {ls : List Str} {t : Str} {ns : List Note} (h : RConts ct b n ls t ns) : Upto n (n + ls.length) (ln ns) := by
  induction h with
  | nil => exact .nil
  | @cons n ws q text ls rest ns ns' _ hq _ ih =>
    rw [ln_append]
    exact (Upto.const (o_both (o_indent _ _) (o_quoted hq))).append (ih.weaken (Nat.le_refl _) (by rw [List.length_cons]; omega)) (by omega) (by omega) (by omega)

theorem o_field {kw : Str} {n : Nat} {ls : List Str} {t : Str} {ns : List Note} (h : RField ct b kw n ls t ns) : Upto n (n + ls.length) (ln ns) := by
  cases h with
  | mk _ hq hc =>
    rw [ln_append]
    exact (Upto.const (o_both (o_space _ _) (o_quoted hq))).append ((o_conts hc).weaken (Nat.le_refl _) (by rw [List.length_cons]; omega)) (by omega) (by omega) (by omega)

theorem o_badKeyword {kw : Str} {n : Nat} {l m : Str} {ns : List Note} (h : BadKeyword ct b kw n l ns m) : ∀ x ∈ ln ns, x = n := by
  cases h with
  | short => intro x hx; cases hx
  | blank => exact o_space _ _
  | other => intro x hx; simpa [ln] using hx
  | string _ _ hb => exact o_both (o_space _ _) (o_badString hb)

theorem o_badField {kw : Str} {n : Nat} {ls : List Str} {l m : Str} {ns : List Note} (h : BadField ct b kw n ls l ns m) : Upto n (n + ls.length) (ln ns) := by
  cases h with
  | first h => exact Upto.const (o_badKeyword h)
  | later hf _ hb =>
    rw [List.append_assoc, ln_append]
    exact (o_field hf).append (Upto.const (o_both (o_indent _ _) (o_badString hb))) (by omega) (by omega) (by omega)

theorem Upto.join {n k j : Nat} {a c : List Note} (h1 : Upto n (n + k) (ln a)) (h2 : Upto (n + k) (n + k + j) (ln c)) :
    Upto n (n + (k + j)) (ln (a ++ c)) := by
  rw [ln_append]
  exact h1.append (h2.weaken (Nat.le_refl _) (by omega)) (by omega) (by omega) (by omega)

theorem o_start {n : Nat} {ls : List Str} {fz : Bool} {c : Option Str} {ns : List Note} (h : RStart ct b n ls fz c ns) : Upto n (n + ls.length) (ln ns) := by
  cases h with
  | none => exact .nil
  | some _ _ hf => rw [List.length_append]; exact (o_field hf).weaken (by omega) (by omega)

theorem o_head {n : Nat} {ls : List Str} {fz : Bool} {c : Option Str} {id : Str} {ns : List Note} (h : RHead ct b n ls fz c id ns) :
    Upto n (n + ls.length) (ln ns) := by
  cases h with
  | mk hs hf => rw [List.length_append]; exact (o_start hs).join (o_field hf)

/-- The lines of the remarks on numbered strings. -/
def lnStrs (strs : List NumberedStr) : List Nat := strs.flatMap (fun x => ln x.1)

theorem o_strs {n : Nat} {ls : List Str} {r : List NumberedStr} (h : RStrs ct b n ls r) : Upto n (n + ls.length) (lnStrs r) := by
  induction h with
  | nil => exact .nil
  | @cons n k ls t ns ls' r _ hf _ ih =>
    rw [List.length_append]
    exact (o_field hf).append (ih.weaken (Nat.le_refl _) (by omega)) (Nat.le_refl _) (by omega) (by omega)

theorem o_plural {n : Nat} {ls : List Str} {fz : Bool} {c : Option Str} {id idp : Str} {strs : List NumberedStr} {ns : List Note}
    (h : RPlural ct b n ls fz c id idp strs ns) : Upto n (n + ls.length) (ln ns ++ lnStrs strs) := by
  cases h with
  | mk hh hf hs =>
    have h1 := (o_head hh).join (o_field hf)
    rw [List.length_append]
    rw [List.length_append] at hs
    exact h1.append ((o_strs hs).weaken (Nat.le_refl _) (by rw [List.length_append]; omega)) (Nat.le_refl _) (by omega) (by rw [List.length_append]; omega)

/-- The lines that the messages of a piece are about. -/
def pieceLines : Piece → List Nat
  | .notes ns => ln ns
  | .single ns _ _ _ _ q => ln ns ++ [q]
  | .plural ns _ _ _ _ strs q => ln ns ++ lnStrs strs ++ [q]
  | .broken ns strs => ln ns ++ lnStrs strs

theorem o_entry {n : Nat} {ls : List Str} {x : Piece} (h : REntry ct b n ls x) : Upto n (n + ls.length) (pieceLines x) := by
  cases h with
  | @single ls fz c id ns ls' t ns' hh hf =>
    exact Upto.append (by rw [List.length_append]; exact (o_head hh).join (o_field hf)) (Upto.const (n := n + (ls ++ ls').length) (by simp)) (Nat.le_refl _) (by omega) (Nat.le_refl _)
  | plural hp _ => exact (o_plural hp).append (Upto.const (n := n + ls.length) (by simp)) (Nat.le_refl _) (by omega) (Nat.le_refl _)

theorem o_bad {n : Nat} {ls : List Str} {l m : Str} {pre : List Piece} {ns : List Note} (h : BadEntry ct b n ls l pre ns m) :
    Upto n (n + ls.length) (pre.flatMap pieceLines ++ ln ns) := by
  cases h with
  | ctxt _ hf => rw [List.length_append]; exact (o_badField hf).weaken (by omega) (by omega)
  | noId => exact .nil
  | noIdAfterCtxt hs => exact o_start hs
  | id hs hf => rw [List.length_append]; exact (o_start hs).join (o_badField hf)
  | noStr hh => exact o_head hh
  | str hh hf => rw [List.length_append]; exact (o_head hh).join (o_badField hf)
  | idPlural hh hf => rw [List.length_append]; exact (o_head hh).join (o_badField hf)
  | noStrs hp => simpa [pieceLines, ln] using o_plural hp
  | otherStr hp => simpa [pieceLines, ln] using o_plural hp
  | @strN ls fz c id idp strs ns k ls' l ns' m hp _ hf =>
    have := (o_plural hp).append ((o_badField hf).weaken (b' := n + (ls ++ ls').length) (Nat.le_refl _) (by rw [List.length_append]; omega)) (Nat.le_refl _) (by omega)
      (by rw [List.length_append]; omega)
    simpa [pieceLines] using this
  | after he => simpa [ln] using o_entry he

theorem sep_not_strLine {l : Str} (h : Separator ct l) : ¬ StrLine l := by
  intro hs
  obtain ⟨r, rfl⟩ := strLine_kw hs
  rcases h with h | h | ⟨x, t, h, _⟩
  · exact nb_mem (x := 109) (by simp) (isspace_false ct _ (by decide) (by decide)) h
  · cases h
  · cases h

/-- The messages of a reading are in the order of lines. -/
theorem o_reading {B : Nat} (h1 : ∀ b n k x, n < N → REntry ct b n (block L n k) x → Separator ct (L (n + k)) → n + k ≤ B)
    (h2 : ∀ b n k pre ns m, n < N → BadEntry ct b n (block L n k) (L (n + k)) pre ns m → n + k ≤ B)
    {n : Nat} {ps : List Piece} {e : Bool} (h : Reading ct L N b n ps e) :
    Upto n B (ps.flatMap pieceLines) := by
  induction h with
  | done => exact .nil
  | endless => exact .nil
  | gap _ _ _ _ ih => exact ih.weaken (by omega) (Nat.le_refl _)
  | @entry b n k x ps e hn he hs _ ih =>
    have hle := h1 b n k x hn he hs
    have h1 := o_entry he
    rw [block_length] at h1
    exact h1.append ih (by omega) (by omega) hle
  | @fault b n k pre ns m q ps e hn he hq _ _ _ ih =>
    have hle := h2 b n k pre ns m hn he
    have h1 := o_bad he
    rw [block_length] at h1
    have h2 := (h1.append (Upto.const (n := n + k) (l := [n + k]) (by simp)) (Nat.le_refl _) (by omega) (Nat.le_refl _)).append ih (Nat.le_of_lt hq) (by omega) hle
    simpa [pieceLines, ln] using h2

theorem o_calm {fuel : Nat} {T : Tape} (hc : Calm ct fuel T L N) {n : Nat} {ps : List Piece} {e : Bool} (h : Reading ct L N b n ps e) :
    Upto n (N + 3) (ps.flatMap pieceLines) := by
  refine o_reading (fun b n k x hn he hs => ?_) (fun b n k pre ns m hn he => ?_) h
  · have hle := rentry_le hc he (block_at hc.line n k) (by omega) (by rw [block_length, hc.line]; exact sep_not_continues hs)
      (by rw [block_length, hc.line]; exact sep_not_strLine hs)
    rwa [block_length] at hle
  · have hle := bad_le hc he (At_append.2 ⟨block_at hc.line n k, by rw [block_length]; exact ⟨hc.line _, trivial⟩⟩) (by omega)
    rwa [block_length] at hle

theorem o_terminated (hc : Blank ct (L N)) {n : Nat} {ps : List Piece} {e : Bool} (h : Reading ct L N b n ps e) :
    Upto n N (ps.flatMap pieceLines) := by
  refine o_reading (fun b n k x hn he hs => ?_) (fun b n k pre ns m hn he => ?_) h
  · rcases Nat.lt_or_ge N (n + k) with hx | hx
    · exact absurd hc (nb_block (nb_entry he) (by omega) hx)
    · exact hx
  · rcases Nat.lt_or_ge N (n + k) with hx | hx
    · exact absurd hc (nb_block (nb_bad he) (by omega) hx)
    · exact hx
end

/-! ### From remarks to messages -/


theorem messageLines_append (a b : List Diag) : messageLines (a ++ b) = messageLines a ++ messageLines b := List.filterMap_append

/-- Every element once, not at all, or repeatedly; and counted from 1. -/
inductive Thin : List Nat → List Nat → Prop where
  | nil : Thin [] []
  | cons {x l l'} (k : Nat) : Thin l l' → Thin (x :: l) (List.replicate k (x + 1) ++ l')

theorem Thin.append {a a' c c' : List Nat} (h : Thin a a') (h' : Thin c c') : Thin (a ++ c) (a' ++ c') := by
  induction h with
  | nil => exact h'
  | cons k _ ih => rw [List.append_assoc]; exact .cons k ih

theorem Thin.none (l : List Nat) : Thin l [] := by
  induction l with
  | nil => exact .nil
  | cons x l ih => exact .cons 0 ih

theorem Thin.mem {l l' : List Nat} (h : Thin l l') : ∀ x ∈ l', ∃ y ∈ l, x = y + 1 := by
  induction h with
  | nil => intro x hx; cases hx
  | @cons y l l' k h ih =>
    intro x hx
    rcases List.mem_append.1 hx with hx | hx
    · exact ⟨y, List.mem_cons_self, List.eq_of_mem_replicate hx⟩
    · obtain ⟨z, hz, he⟩ := ih x hx
      exact ⟨z, List.mem_cons_of_mem _ hz, he⟩

theorem Thin.upto {a b : Nat} {l l' : List Nat} (h : Thin l l') : Upto a b l → Upto (a + 1) (b + 1) l' := by
  intro hu
  refine ⟨?_, fun x hx => ?_⟩
  · have hp := hu.1
    clear hu
    induction h with
    | nil => exact .nil
    | @cons y l l' k h ih =>
      rw [List.pairwise_cons] at hp
      refine List.pairwise_append.2 ⟨?_, ih hp.2, fun x hx z hz => ?_⟩
      · exact (Upto.const (n := y + 1) (fun x hx => List.eq_of_mem_replicate hx)).1
      · obtain ⟨w, hw, rfl⟩ := h.mem z hz
        rw [List.eq_of_mem_replicate hx]
        have := hp.1 w hw
        omega
  · obtain ⟨y, hy, rfl⟩ := h.mem x hx
    have := hu.2 y hy
    omega

section
variable {ct : CType} {lib : IconvLib} {uf ped : Bool} {file : Str} {line : Nat → Str}

theorem thin_shown (ns : List Note) : Thin (ln ns) (messageLines (shown ped file line ns)) := by
  induction ns with
  | nil => exact .nil
  | cons x ns ih =>
    unfold shown made
    rw [List.filter_cons]
    split
    · exact Thin.cons 1 ih
    · exact Thin.cons 0 ih

theorem thin_warned (q : Nat) (ms : List Str) : Thin [q] (messageLines (ms.map (warned file line q))) := by
  have : messageLines (ms.map (warned file line q)) = List.replicate ms.length (q + 1) ++ [] := by
    induction ms with
    | nil => rfl
    | cons m ms ih => rw [List.map_cons, List.length_cons, List.replicate_succ, List.cons_append, ← ih]; rfl
  rw [this]
  exact .cons _ .nil

theorem messageLines_add (a : Add) (d : Dictionary) : messageLines (a.apply d).2 = [] := by
  have hp : ∀ c i p v w, messageLines (Dictionary.addPluralVec c i p v w).2 = [] := by
    intro c i p v w
    unfold Dictionary.addPluralVec
    repeat' (first | rfl | split)
  have hs : ∀ c i v w, messageLines (Dictionary.addSingularVec c i v w).2 = [] := by
    intro c i v w
    unfold Dictionary.addSingularVec
    repeat' (first | rfl | split)
  rcases a with ⟨_ | c, i, s⟩ | ⟨_ | c, i, p, v⟩
  · exact hs _ _ _ _
  · exact hs _ _ _ _
  · exact hp _ _ _ _ _
  · exact hp _ _ _ _ _

theorem messageLines_convert {cv cv' : IConv} {t t' : Str} {l : List Diag} (h : cv.convert lib t = .ok t' cv' l) : messageLines l = [] := by
  unfold IConv.convert at h
  split at h
  · cases h; rfl
  · cases h
  · dsimp only at h
    split at h <;> cases h <;> rfl

theorem thin_strs : ∀ (strs : List NumberedStr) (cv : IConv) (r : List (Nat × Str)) (cv' : IConv) (l : List Diag),
    loadStrs lib ped file line cv strs = .ok (r, cv', l) → Thin (lnStrs strs) (messageLines l) := by
  intro strs
  induction strs with
  | nil => intro cv r cv' l h; cases h; exact .nil
  | cons x strs ih =>
    obtain ⟨ns, k, t⟩ := x
    intro cv r cv' l h
    simp only [loadStrs] at h
    split at h
    · cases h
    · rename_i hc
      split at h
      · cases h
      · rename_i hl
        cases h
        rw [messageLines_append, messageLines_append, messageLines_convert hc, List.append_nil]
        exact (thin_shown ns).append (ih _ _ _ _ hl)

/-- The messages of loading pieces are about the lines of the pieces, in this order. -/
theorem thin_load : ∀ (ps : List Piece) (cv : IConv) (d : Dictionary) (l : List Diag),
    (loadPieces ct lib uf ped file line ps cv d l).Ended →
    ∃ r, (loadPieces ct lib uf ped file line ps cv d l).log = l ++ r ∧ Thin (ps.flatMap pieceLines) (messageLines r) := by
  intro ps
  induction ps with
  | nil => intro cv d l _; exact ⟨[], by simp [loadPieces, Observed.log], .nil⟩
  | cons x ps ih =>
    intro cv d l hend
    have step : ∀ {cv1 d1 r1}, Thin (pieceLines x) (messageLines r1) → (loadPieces ct lib uf ped file line ps cv1 d1 (l ++ r1)).Ended →
        ∃ r, (loadPieces ct lib uf ped file line ps cv1 d1 (l ++ r1)).log = l ++ r ∧ Thin ((x :: ps).flatMap pieceLines) (messageLines r) := by
      intro cv1 d1 r1 ht he
      obtain ⟨r, hr, htr⟩ := ih cv1 d1 (l ++ r1) he
      refine ⟨r1 ++ r, by rw [hr, List.append_assoc], ?_⟩
      rw [List.flatMap_cons, messageLines_append]
      exact ht.append htr
    cases x with
    | notes ns => exact step (thin_shown ns) hend
    | single ns fz c id t q =>
      have t1 := thin_shown (ped := ped) (file := file) (line := line) ns
      revert hend
      simp only [loadPieces]
      split
      · have t2 := t1.append (thin_warned (file := file) (line := line) q (headerWarnings ct d.pluralForms t))
        rw [← messageLines_append] at t2
        split
        · rw [List.append_assoc]; exact step t2
        · rw [List.append_assoc]
          intro _
          refine ⟨_, rfl, ?_⟩
          rw [List.flatMap_cons, ← List.append_nil (messageLines _)]
          exact t2.append (.none _)
      · have t2 := t1.append (Thin.none [q])
        split
        · split
          · exact fun h => h.elim
          · rename_i hc
            rw [List.append_assoc, List.append_assoc]
            refine step ?_
            rw [messageLines_append, messageLines_append, messageLines_convert hc, messageLines_add]
            simpa [pieceLines] using t2
        · exact step (by simpa [pieceLines] using t2)
    | plural ns fz c id idp strs q =>
      have t1 := thin_shown (ped := ped) (file := file) (line := line) ns
      revert hend
      simp only [loadPieces]
      split
      · exact fun h => h.elim
      · rename_i hl
        have t2 := t1.append (thin_strs _ _ _ _ _ hl)
        split
        · rw [List.append_assoc, List.append_assoc, List.append_assoc]
          refine step ?_
          rw [messageLines_append, messageLines_append, messageLines_append, messageLines_add, List.append_nil, ← List.append_assoc]
          exact t2.append (thin_warned _ _)
        · rw [List.append_assoc]
          refine step ?_
          rw [messageLines_append]
          have := t2.append (Thin.none [q])
          rwa [List.append_nil] at this
    | broken ns strs =>
      have t1 := thin_shown (ped := ped) (file := file) (line := line) ns
      revert hend
      simp only [loadPieces]
      split
      · exact fun h => h.elim
      · rename_i hl
        rw [List.append_assoc]
        refine step ?_
        rw [messageLines_append]
        exact t1.append (thin_strs _ _ _ _ _ hl)
end
end Tgt.POParser
