import Verif.Spec.PoCut
import Verif.Props.PoErrors
/-
Proofs about texts that begin alike.
-/
namespace Tgt
open Spec Spec.Po POParser

section
variable {ct : CType} {L L' : Nat → Str} {N N' : Nat}

theorem Spec.Po.Blocks.reading {b : Bool} {n m : Nat} {ps : List Piece} (h : Blocks ct L N b n ps m) {qs : List Piece} {e : Bool}
    (hr : Reading ct L N (b || ps.any (saysBig5 ct)) m qs e) : Reading ct L N b n (ps ++ qs) e := by
  induction h with
  | nil => simpa using hr
  | @cons b n ps last next qs' m hb _ ih =>
    have hr' := ih (by simpa [Bool.or_assoc] using hr)
    rw [List.append_assoc]
    generalize qs' ++ qs = rs at hr'
    cases hb with
    | gap h1 h2 h3 => exact .gap h1 h2 h3 (by simpa using hr')
    | entry h1 h2 h3 => exact .entry h1 h2 h3 (by simpa using hr')
    | fault h1 h2 h3 h4 h5 =>
      rw [List.append_assoc]
      exact .fault h1 h2 h3 h4 h5 (by simpa [saysBig5] using hr')

theorem Spec.Po.Blocks.snoc {b : Bool} {n m : Nat} {ps : List Piece} (h : Blocks ct L N b n ps m) {qs : List Piece} {last next : Nat}
    (hb : Block ct L N (b || ps.any (saysBig5 ct)) m qs last next) : Blocks ct L N b n (ps ++ qs) next := by
  induction h with
  | nil =>
    have := Blocks.cons (qs := []) (by simpa using hb) .nil
    simpa using this
  | @cons b n ps last next qs' m hb' _ ih =>
    rw [List.append_assoc]
    exact .cons hb' (ih (by simpa [Bool.or_assoc] using hb))

theorem block_agree {M n k : Nat} (hL : ∀ p, p < M → L p = L' p) (h : n + k ≤ M) : block L n k = block L' n k := by
  unfold block
  apply List.map_congr_left
  intro i hi
  have := List.mem_range.1 hi
  exact hL _ (by omega)

theorem Spec.Po.Block.next_gt {b : Bool} {n last next : Nat} {ps : List Piece} (h : Block ct L N b n ps last next) : n < next ∧ last ≤ next := by
  cases h <;> omega

/-- Blocks depend on their lines only. -/
theorem Spec.Po.Block.agree {M : Nat} (hL : ∀ p, p < M → L p = L' p) (hN : M ≤ N') {b : Bool} {n last next : Nat} {ps : List Piece}
    (hM : M ≤ N) (h : Block ct L N b n ps last next) (hl : last < M) : Block ct L' N' b n ps last next := by
  cases h with
  | gap h1 h2 h3 => exact .gap (by omega) (by rw [← block_agree hL (by omega)]; exact h2) (by rw [← hL _ hl]; exact h3)
  | entry h1 h2 h3 => exact .entry (by omega) (by rw [← block_agree hL (by omega)]; exact h2) (by rw [← hL _ hl]; exact h3)
  | fault h1 h2 h3 h4 h5 =>
    refine .fault (by omega) (by rw [← block_agree hL (by omega), ← hL _ (by omega)]; exact h2) h3 (fun j hj1 hj2 => ?_) (.inr ?_)
    · rw [← hL j (by omega)]
      exact ⟨by omega, (h4 j hj1 hj2).2⟩
    · rw [← hL _ hl]
      rcases h5 with h5 | h5
      · omega
      · exact h5

/-- The messages about a block are about its lines. -/
theorem Spec.Po.Block.lines {b : Bool} {n last next : Nat} {ps : List Piece} (h : Block ct L N b n ps last next) :
    ∀ p ∈ ps.flatMap pieceLines, p ≤ last := by
  cases h with
  | gap => intro p hp; cases hp
  | @entry k x h1 h2 h3 =>
    have h := o_entry h2
    rw [block_length] at h
    intro p hp
    exact (h.2 p (by simpa using hp)).2
  | @fault k pre ns m q h1 h2 h3 h4 h5 =>
    have h := o_bad h2
    rw [block_length] at h
    intro p hp
    have hx : p ∈ pre.flatMap pieceLines ++ ln ns ∨ p = n + k := by
      rw [List.flatMap_append] at hp
      simp only [List.flatMap_cons, List.flatMap_nil, pieceLines, ln_append, List.append_nil, List.mem_append] at hp ⊢
      rcases hp with hp | hp | hp
      · exact .inl (.inl hp)
      · exact .inl (.inr hp)
      · right; simpa [ln] using hp
    rcases hx with hx | hx
    · have := (h.2 p hx).2; omega
    · omega

/-- Two texts whose first `M` lines are the same. -/
theorem blocks_agree {M : Nat} (hL : ∀ p, p < M → L p = L' p) (hM : M ≤ N) (hM' : M ≤ N') (f : Nat) : ∀ (b : Bool) (n : Nat), M - n < f → n ≤ M →
    ∃ pre n', n' ≤ M ∧ Blocks ct L N b n pre n' ∧ Blocks ct L' N' b n pre n' ∧ (∀ p ∈ pre.flatMap pieceLines, p < M) ∧
      (∀ ps last next, Block ct L N (b || pre.any (saysBig5 ct)) n' ps last next → M ≤ last) ∧
      (∀ ps last next, Block ct L' N' (b || pre.any (saysBig5 ct)) n' ps last next → M ≤ last) := by
  induction f with
  | zero => intro b n h; omega
  | succ f ih =>
    intro b n hf hn
    by_cases hx : ∃ ps last next, Block ct L N b n ps last next ∧ last < M
    · obtain ⟨ps, last, next, hb, hl⟩ := hx
      have hb' := hb.agree hL hM' hM hl
      have hg := hb.next_gt
      have hnx : next ≤ M := by cases hb <;> omega
      obtain ⟨pre, n', h1, h2, h3, h6, h4, h5⟩ := ih (b || ps.any (saysBig5 ct)) next (by omega) hnx
      refine ⟨ps ++ pre, n', h1, .cons hb h2, .cons hb' h3, ?_, ?_, ?_⟩
      · intro p hp
        rw [List.flatMap_append, List.mem_append] at hp
        rcases hp with hp | hp
        · have := hb.lines p hp; omega
        · exact h6 p hp
      · simpa [Bool.or_assoc] using h4
      · simpa [Bool.or_assoc] using h5
    · have key : ∀ ps last next, Block ct L N b n ps last next → M ≤ last := by
        intro ps last next hb
        rcases Nat.lt_or_ge last M with h | h
        · exact absurd ⟨ps, last, next, hb, h⟩ hx
        · exact h
      refine ⟨[], n, hn, .nil, .nil, by simp, by simpa using key, ?_⟩
      intro ps last next hb
      rcases Nat.lt_or_ge last M with h | h
      · exact absurd (key ps last next ((by simpa using hb : Block ct L' N' b n ps last next).agree (fun p hp => (hL p hp).symm) hM hM' h)) (by omega)
      · exact h

end

/-! ### The end of a text -/

section
variable {ct : CType} {b : Bool} {L : Nat → Str} {N : Nat}

/-- A line with a keyword. -/
def MLine (l : Str) : Prop := ∃ r, l = 109 :: r

theorem sep_not_m {l : Str} (h : Separator ct l) : ¬ MLine l := by
  rintro ⟨r, rfl⟩
  rcases h with h | h | ⟨x, t, h, _⟩
  · exact nb_mem (x := 109) (by simp) (isspace_false ct _ (by decide) (by decide)) h
  · cases h
  · cases h

theorem field_m {kw : Str} {n : Nat} {ls : List Str} {t : Str} {ns : List Note} (h : RField ct b (109 :: kw) n ls t ns) : ∃ l ∈ ls, MLine l := by
  cases h; exact ⟨_, List.mem_cons_self, _, rfl⟩

theorem badField_m {kw : Str} {n : Nat} {ls : List Str} {l m : Str} {ns : List Note} (h : BadField ct b (109 :: kw) n ls l ns m) :
    MLine l ∨ ∃ l' ∈ ls, MLine l' := by
  cases h with
  | first h => cases h <;> exact .inl ⟨_, rfl⟩
  | later h => exact .inr (field_m h)

theorem head_m {n : Nat} {ls : List Str} {fz : Bool} {c : Option Str} {id : Str} {ns : List Note} (h : RHead ct b n ls fz c id ns) :
    ∃ l ∈ ls, MLine l := by
  cases h with
  | mk _ hf => obtain ⟨l, h1, h2⟩ := field_m hf; exact ⟨l, by simp [h1], h2⟩

theorem plural_m {n : Nat} {ls : List Str} {fz : Bool} {c : Option Str} {id idp : Str} {strs : List NumberedStr} {ns : List Note}
    (h : RPlural ct b n ls fz c id idp strs ns) : ∃ l ∈ ls, MLine l := by
  cases h with
  | mk hh _ _ => obtain ⟨l, h1, h2⟩ := head_m hh; exact ⟨l, by simp [h1], h2⟩

theorem entry_m {n : Nat} {ls : List Str} {x : Piece} (h : REntry ct b n ls x) : ∃ l ∈ ls, MLine l := by
  cases h with
  | single hh _ => obtain ⟨l, h1, h2⟩ := head_m hh; exact ⟨l, by simp [h1], h2⟩
  | plural hp _ => exact plural_m hp

theorem bad_m {n : Nat} {ls : List Str} {l m : Str} {pre : List Piece} {ns : List Note} (h : BadEntry ct b n ls l pre ns m) :
    ¬ Separator ct l ∨ ∃ l' ∈ ls, MLine l' := by
  have key : ∀ {ls ls' : List Str}, (MLine l ∨ ∃ l' ∈ ls', MLine l') → ¬ Separator ct l ∨ ∃ l' ∈ ls ++ ls', MLine l' := by
    rintro ls ls' (h | ⟨l', h1, h2⟩)
    · exact .inl (fun hs => sep_not_m hs h)
    · exact .inr ⟨l', by simp [h1], h2⟩
  cases h with
  | ctxt _ hf => exact key (badField_m hf)
  | noId _ _ h => exact .inl h
  | noIdAfterCtxt hs =>
    cases hs with
    | some _ _ hf => obtain ⟨l', h1, h2⟩ := field_m hf; exact .inr ⟨l', by simp [h1], h2⟩
  | id _ hf => exact key (badField_m hf)
  | noStr hh => exact .inr (head_m hh)
  | str _ hf => exact key (badField_m hf)
  | idPlural _ hf => exact key (badField_m hf)
  | noStrs hp => exact .inr (plural_m hp)
  | otherStr hp => exact .inr (plural_m hp)
  | strN _ _ hf => exact key (badField_m hf)
  | after he => exact .inr (entry_m he)

theorem bad_pre {n : Nat} {ls : List Str} {l m : Str} {pre : List Piece} {ns : List Note} (h : BadEntry ct b n ls l pre ns m) :
    pre = [] ∨ ∃ x, pre = [x] := by
  cases h <;> first | exact .inl rfl | exact .inr ⟨_, rfl⟩

/-- Nothing more is read at the end, nor if only separating lines follow. -/
theorem tail_none {M n : Nat} {qs : List Piece} {e : Bool} (hN : N ≤ M + 1) (hrep : ∀ p, M ≤ p → L p = L M) (hn : M ≤ n)
    (hs : N ≤ n ∨ Separator ct (L n)) (h : Reading ct L N b n qs e) : qs = [] := by
  have hall : ∀ k, ∀ l ∈ block L n k, l = L n := by
    intro k l hl
    obtain ⟨i, _, rfl⟩ := List.mem_map.1 hl
    rw [hrep _ (by omega), ← hrep _ hn]
  cases h with
  | done => rfl
  | endless => rfl
  | gap h1 h2 h3 h4 =>
    cases h4 with
    | done => rfl
    | endless => rfl
    | gap => omega
    | entry => omega
    | fault => omega
  | @entry _ _ k x ps _ h1 h2 h3 h4 =>
    rcases hs with hs | hs
    · omega
    · obtain ⟨l, h5, h6⟩ := entry_m h2
      rw [hall _ l h5] at h6
      exact absurd h6 (sep_not_m hs)
  | @fault _ _ k pre ns m q ps _ h1 h2 h3 h4 h5 h6 =>
    rcases hs with hs | hs
    · omega
    · rcases bad_m h2 with h7 | ⟨l, h7, h8⟩
      · rw [hrep _ (by omega), ← hrep _ hn] at h7; exact absurd hs h7
      · rw [hall _ l h7] at h8
        exact absurd h8 (sep_not_m hs)

/-- After the first `M` lines there is at most one more block. -/
theorem tail_one {M n : Nat} {qs : List Piece} {e : Bool} (hN : N ≤ M + 1) (hrep : ∀ p, M ≤ p → L p = L M)
    (stop : ∀ ps last next, Block ct L N b n ps last next → M ≤ last) (h : Reading ct L N b n qs e) :
    qs = [] ∨ (∃ x, qs = [x]) ∨ ∃ x ns, qs = [x, .notes ns] := by
  cases h with
  | done => exact .inl rfl
  | endless => exact .inl rfl
  | gap h1 h2 h3 h4 =>
    have := stop _ _ _ (.gap h1 h2 h3)
    exact .inl (tail_none hN hrep (by omega) (.inl (by omega)) h4)
  | @entry _ _ k x ps _ h1 h2 h3 h4 =>
    have := stop _ _ _ (.entry h1 h2 h3)
    rw [tail_none hN hrep (by omega) (.inl (by omega)) h4]
    exact .inr (.inl ⟨x, rfl⟩)
  | @fault _ _ k pre ns m q ps _ h1 h2 h3 h4 h5 h6 =>
    have := stop _ _ _ (.fault h1 h2 h3 h4 h5)
    rw [tail_none hN hrep this h5 h6]
    rcases bad_pre h2 with rfl | ⟨x, rfl⟩
    · exact .inr (.inl ⟨_, rfl⟩)
    · exact .inr (.inr ⟨_, _, rfl⟩)
end

/-! ### Loading -/

section
variable {ct : CType} {lib : IconvLib} {uf ped : Bool} {file : Str} {line line' : Nat → Str}

theorem shown_lines {ns : List Note} (h : ∀ p ∈ ln ns, line p = line' p) : shown ped file line ns = shown ped file line' ns := by
  unfold shown
  apply List.map_congr_left
  intro x hx
  unfold Note.message
  rw [h x.line (List.mem_map.2 ⟨x, (List.mem_filter.1 hx).1, rfl⟩)]

theorem loadStrs_lines {strs : List NumberedStr} : (∀ p ∈ lnStrs strs, line p = line' p) → ∀ cv,
    loadStrs lib ped file line cv strs = loadStrs lib ped file line' cv strs := by
  induction strs with
  | nil => intro _ cv; rfl
  | cons x r ih =>
    obtain ⟨ns, k, t⟩ := x
    intro h cv
    simp only [lnStrs, List.flatMap_cons, List.mem_append] at h
    have ih' := ih (fun p hp => h p (.inr hp))
    simp only [loadStrs]
    rw [shown_lines (fun p hp => h p (.inl hp))]
    cases cv.convert lib t with
    | fault => rfl
    | ok t' cv' l => dsimp only; rw [ih']

theorem warned_line {q : Nat} (h : line q = line' q) : warned file line q = warned file line' q := by
  funext m
  unfold warned Note.message
  rw [h]

/-- What is loaded depends only on the lines that the messages are about. -/
theorem loadPieces_lines (ps : List Piece) : (∀ p ∈ ps.flatMap pieceLines, line p = line' p) → ∀ (cv : IConv) (d : Dictionary) (l : List Diag),
    loadPieces ct lib uf ped file line ps cv d l = loadPieces ct lib uf ped file line' ps cv d l := by
  induction ps with
  | nil => intro _ cv d l; rfl
  | cons x ps ih =>
    intro h cv d l
    simp only [List.flatMap_cons, List.mem_append] at h
    have ih' := ih (fun p hp => h p (.inr hp))
    have hx : ∀ p ∈ pieceLines x, line p = line' p := fun p hp => h p (.inl hp)
    cases x with
    | notes ns => simp only [loadPieces]; rw [shown_lines hx, ih']
    | single ns fz c id t q =>
      simp only [pieceLines, List.mem_append] at hx
      simp only [loadPieces]
      rw [shown_lines (fun p hp => hx p (.inl hp)), warned_line (hx q (.inr (by simp)))]
      simp only [ih']
    | plural ns fz c id idp strs q =>
      simp only [pieceLines, List.mem_append] at hx
      simp only [loadPieces]
      rw [shown_lines (fun p hp => hx p (.inl (.inl hp))), warned_line (hx q (.inr (by simp))), loadStrs_lines (fun p hp => hx p (.inl (.inr hp)))]
      simp only [ih']
    | broken ns strs =>
      simp only [pieceLines, List.mem_append] at hx
      simp only [loadPieces]
      rw [shown_lines (fun p hp => hx p (.inl hp)), loadStrs_lines (fun p hp => hx p (.inr hp))]
      simp only [ih']

/-- Loading in two steps. -/
theorem loadPieces_split (qs : List Piece) : ∀ (ps : List Piece) (cv : IConv) (d : Dictionary) (l : List Diag) (d' : Dictionary) (l' : List Diag),
    loadPieces ct lib uf ped file line (ps ++ qs) cv d l = .returned d' l' →
    ∃ cv1 d1 l1, loadPieces ct lib uf ped file line ps cv d l = .returned d1 l1 ∧
      loadPieces ct lib uf ped file line qs cv1 d1 l1 = .returned d' l' := by
  intro ps
  induction ps with
  | nil => intro cv d l d' l' h; exact ⟨cv, d, l, rfl, h⟩
  | cons x ps ih =>
    intro cv d l d' l' h
    cases x with
    | notes ns => exact ih _ _ _ _ _ h
    | single ns fz c id t q =>
      simp only [List.cons_append, loadPieces] at h ⊢
      split at h
      · rename_i hi
        simp only [if_pos hi]
        split at h
        · exact ih _ _ _ _ _ h
        · cases h
      · rename_i hi
        simp only [if_neg hi]
        split at h
        · rename_i hj
          simp only [if_pos hj]
          split at h
          · cases h
          · exact ih _ _ _ _ _ h
        · rename_i hj
          simp only [if_neg hj]
          exact ih _ _ _ _ _ h
    | plural ns fz c id idp strs q =>
      simp only [List.cons_append, loadPieces] at h ⊢
      split at h
      · cases h
      · split at h
        · rename_i hc
          simp only [if_pos hc]
          exact ih _ _ _ _ _ h
        · rename_i hc
          simp only [if_neg hc]
          exact ih _ _ _ _ _ h
    | broken ns strs =>
      simp only [List.cons_append, loadPieces] at h ⊢
      split at h
      · cases h
      · exact ih _ _ _ _ _ h

/-- One piece adds at most one message, or sets the plural rule. -/
theorem loadPieces_one (x : Piece) (cv : IConv) (d : Dictionary) (l : List Diag) (d' : Dictionary) (l' : List Diag)
    (h : loadPieces ct lib uf ped file line [x] cv d l = .returned d' l') :
    d' = d ∨ (∃ a : Add, d' = (a.apply d).1) ∨ ∃ header, d' = withHeaderRule ct header d := by
  cases x with
  | notes ns => cases h; exact .inl rfl
  | single ns fz c id t q =>
    simp only [loadPieces] at h
    split at h
    · split at h
      · cases h; exact .inr (.inr ⟨_, rfl⟩)
      · cases h
    · split at h
      · split at h
        · cases h
        · cases h; exact .inr (.inl ⟨_, rfl⟩)
      · cases h; exact .inl rfl
  | plural ns fz c id idp strs q =>
    simp only [loadPieces] at h
    split at h
    · cases h
    · split at h
      · cases h; exact .inr (.inl ⟨_, rfl⟩)
      · cases h; exact .inl rfl
  | broken ns strs =>
    simp only [loadPieces] at h
    split at h
    · cases h
    · cases h; exact .inl rfl
end

/-! ### Lines of texts that begin alike -/

theorem splitLines_lines (ls : List Str) (x : Str) (h : ∀ l ∈ ls, (10 : Byte) ∉ l) :
    splitLines (unlines ls ++ x) = (ls ++ (splitLines x).1, (splitLines x).2) := by
  induction ls with
  | nil => simp [unlines]
  | cons l ls ih =>
    rw [unlines, List.append_assoc, List.cons_append, splitLines_append _ _ (h l List.mem_cons_self),
      ih (fun x hx => h x (List.mem_cons_of_mem _ hx))]
    rfl

theorem splitLines_terminated {a : Str} (ha : Terminated a) (x : Str) :
    splitLines (a ++ x) = ((splitLines a).1 ++ (splitLines x).1, (splitLines x).2) := by
  have h := splitLines_join a
  rw [ha, List.append_nil] at h
  have := splitLines_lines (splitLines a).1 x (splitLines_no_nl a).1
  rwa [h] at this

theorem withoutBom_append {a : Str} (ha : Terminated a) (hne : a ≠ []) (x : Str) :
    withoutBom (a ++ x) = withoutBom a ++ x ∧ Terminated (withoutBom a) ∧ completeLines (withoutBom a) = completeLines a := by
  have hlast : (10 : Byte) ∈ a := by
    have h := splitLines_join a
    rw [ha, List.append_nil] at h
    cases hs : (splitLines a).1 with
    | nil => rw [hs] at h; exact absurd h.symm hne
    | cons l ls => rw [hs, unlines] at h; rw [← h]; simp
  by_cases hb : [0xef, 0xbb, 0xbf] <+: a
  · obtain ⟨t, rfl⟩ := hb
    have h10 : (10 : Byte) ∉ ([0xef, 0xbb, 0xbf] : Str) := by decide
    have hs : ∀ t : Str, (splitLines ([0xef, 0xbb, 0xbf] ++ t)).1.length = (splitLines t).1.length ∧
        ((splitLines ([0xef, 0xbb, 0xbf] ++ t)).2 = [] → (splitLines t).2 = []) := by
      intro t
      have step : ∀ (c : Byte) (t : Str), c ≠ 10 → (splitLines (c :: t)).1.length = (splitLines t).1.length ∧
          ((splitLines (c :: t)).2 = [] → (splitLines t).2 = []) := by
        intro c t hc
        rw [splitLines, if_neg hc]
        cases h : (splitLines t).1 with
        | nil => exact ⟨rfl, fun h' => by cases h'⟩
        | cons l ls => exact ⟨rfl, fun h' => h'⟩
      have h1 := step 0xef (0xbb :: 0xbf :: t) (by decide)
      have h2 := step 0xbb (0xbf :: t) (by decide)
      have h3 := step 0xbf t (by decide)
      exact ⟨h1.1.trans (h2.1.trans h3.1), fun h => h3.2 (h2.2 (h1.2 h))⟩
    exact ⟨rfl, (hs t).2 ha, (hs t).1.symm⟩
  · have hk : ∀ s : Str, ¬ [0xef, 0xbb, 0xbf] <+: s → withoutBom s = s := by
      intro s hs
      unfold withoutBom
      split
      · rename_i t; exact absurd ⟨t, rfl⟩ hs
      · rfl
    rw [hk a hb]
    refine ⟨hk _ ?_, ha, rfl⟩
    intro hp
    obtain ⟨t, ht⟩ := hp
    rcases List.append_eq_append_iff.1 ht with ⟨u, h1, h2⟩ | ⟨u, h1, h2⟩
    · exact hb ⟨u, h1.symm⟩
    · have : (10 : Byte) ∈ ([0xef, 0xbb, 0xbf] : Str) := by rw [h1]; simp [hlast]
      revert this; decide

theorem lines_agree {a : Str} (ha : Terminated a) (x y : Str) (p : Nat) (hp : p < completeLines a) :
    lineAt (withoutBom (a ++ x)) p = lineAt (withoutBom (a ++ y)) p := by
  have hne : a ≠ [] := by rintro rfl; cases hp
  obtain ⟨h1, h2, h3⟩ := withoutBom_append ha hne x
  rw [h1, (withoutBom_append ha hne y).1]
  unfold lineAt
  rw [splitLines_terminated h2, splitLines_terminated h2]
  have hl : p < (splitLines (withoutBom a)).1.length := by rw [← h3] at hp; exact hp
  simp only [List.getD_eq_getElem?_getD]
  rw [List.getElem?_append_left hl, List.getElem?_append_left hl]
  rw [List.getElem?_eq_getElem hl]
  rfl

theorem complete_le {a : Str} (ha : Terminated a) (x : Str) : completeLines a ≤ lineCount (a ++ x) := by
  unfold completeLines lineCount
  rw [splitLines_terminated ha]
  simp only [List.length_append]
  omega

end Tgt
