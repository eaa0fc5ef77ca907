import Verif.Proofs.ReadLe
/-
Whole texts, read by tape code, with all messages.
-/
namespace Tgt.POParser
open Spec Spec.Po

/-- The events of a piece. -/
def pieceEvs : Piece → List Ev
  | .notes ns => evN ns
  | .single ns fz c id t q =>
    evN ns ++ (if id.isEmpty then [.header q t] else if !t.isEmpty then [.singular fz c id t] else [])
  | .plural ns fz c id idp strs q =>
    evN ns ++ (.clear :: strEvs strs) ++ (if strs.any (fun x => !x.2.2.isEmpty) then [.plural q fz c id idp] else [])
  | .broken ns strs => evN ns ++ (.clear :: strEvs strs)

section
variable {ct : CType} {fuel : Nat} {T : Tape} {L : Nat → Str} {N : Nat} {b : Bool}

theorem a_singularEnd (p : Nat) (fz : Bool) (c : Option Str) (id t : Str) :
    Does (if id.isEmpty then E.emitAt (fun p => [.header p t]) else if !t.isEmpty then E.emit [.singular fz c id t] else E.pure ())
      p (if id.isEmpty then [.header p t] else if !t.isEmpty then [.singular fz c id t] else []) (.ok () p) := by
  by_cases h1 : id.isEmpty = true
  · rw [if_pos h1, if_pos h1]; rfl
  · rw [if_neg h1, if_neg h1]
    by_cases h2 : (!t.isEmpty) = true
    · rw [if_pos h2, if_pos h2]; rfl
    · rw [if_neg h2, if_neg h2]; rfl

/-- A singular entry, up to its end. -/
theorem a_single (h : Calm ct fuel T L N) {n : Nat} {ls ls' : List Str} {fz : Bool} {c : Option Str} {id t : Str} {ns ns' : List Note}
    (hh : RHead ct b n ls fz c id ns) (hf : RField ct b b!"msgstr" (n + ls.length) ls' t ns') (hat : At T n (ls ++ ls'))
    (hN : n + (ls ++ ls').length ≤ N + 3) (h1 : ¬ Continues ct (T (n + (ls ++ ls').length)).line) :
    ∃ p1, Acts (commentLoopE T fuel false) n [] [] (.ok fz p1) ∧ emptyLine ct (T p1).line = false ∧
      Does (entryBodyE ct fuel T b fz) p1 (pieceEvs (.single (ns ++ ns') fz c id t (n + (ls ++ ls').length))) (.ok () (n + (ls ++ ls').length)) := by
  obtain ⟨hat1, hat2⟩ := At_append.1 hat
  obtain ⟨r0, ls0, hl0⟩ := rfield_head hf
  have hl : (T (n + ls.length)).line = b!"msgstr" ++ r0 := by rw [hl0] at hat2; exact hat2.1
  have hkl := kw_line (ct := ct) (l := (T (n + ls.length)).line) (by rw [hl]; rfl)
  rw [List.length_append, ← Nat.add_assoc] at hN h1 ⊢
  obtain ⟨p1, g1, g2, g3⟩ := a_head h hh hat1 (by omega) hkl.1
  refine ⟨p1, g1, g2, ?_⟩
  unfold pieceEvs
  dsimp only
  rw [evN_append, List.append_assoc]
  refine g3 ?_
  unfold afterIdE
  refine Does.line (Does.neg (by rw [hl]; simp [hasPrefix]) (Does.line (Does.pos (by rw [hl]; exact prefix_kw _ _) ?_)))
  unfold singularEntryE
  exact Does.bind (f := fun msgstr => if id.isEmpty then E.emitAt (fun p => [.header p msgstr])
    else if !msgstr.isEmpty then E.emit [.singular fz c id msgstr] else E.pure ())
    (a_getString h hf 6 rfl hat2 hN h1).does (a_singularEnd (n + ls.length + ls'.length) fz c id t)

theorem a_entry (h : Calm ct fuel T L N) {n : Nat} {ls : List Str} {e : Piece} (he : REntry ct b n ls e)
    (hat : At T n ls) (hN : n + ls.length ≤ N + 3) (hsep : Separator ct (L (n + ls.length))) :
    Does (entryE ct fuel T b) n (pieceEvs e) (.ok () (n + ls.length + 1)) := by
  have hc : ¬ Continues ct (T (n + ls.length)).line := by rw [h.line]; exact sep_not_continues hsep
  have hfin := a_finish_ok h hN hsep
  cases he with
  | single hh hf =>
    obtain ⟨p1, g1, g2, g3⟩ := a_single h hh hf hat hN hc
    have := a_entry_ok g1 g2 g3 hfin
    rwa [evN, List.map_nil, List.append_nil] at this
  | @plural ls fz c id idp strs ns hp hne =>
    obtain ⟨p1, f, hf, g1, g2, g3⟩ := a_plural h hp hat hN hc
    obtain ⟨f, rfl⟩ : ∃ g, f = g + 1 := ⟨f - 1, by omega⟩
    have hemp : emptyLine ct (T (n + ls.length)).line = true := by rw [h.line]; exact (separator_iff _).1 hsep
    have hx : strs.isEmpty = false := by simpa using hne
    have key : Does (pluralLoopE ct fuel T b (f + 1) strs.isEmpty (strs.any (fun x => !x.2.2.isEmpty)) >>= pluralEndE ct fuel T fz c id idp)
        (n + ls.length) (if strs.any (fun x => !x.2.2.isEmpty) then [.plural (n + ls.length) fz c id idp] else []) (.ok () (n + ls.length)) := by
      refine Does.bind0 (a := strs.any (fun x => !x.2.2.isEmpty)) (q := n + ls.length) ?_ ?_
      · unfold pluralLoopE
        rw [hx]
        exact Acts.line (Acts.pos hemp (Acts.neg (by simp) (Acts.pure _)))
      · unfold pluralEndE
        refine Does.line (Does.neg (by rw [hemp]; simp) ?_)
        by_cases h2 : strs.any (fun x => !x.2.2.isEmpty) = true
        · rw [if_pos h2, if_pos h2]; rfl
        · rw [if_neg h2, if_neg h2]; rfl
    have := a_entry_ok g1 g2 (g3 key) hfin
    rwa [show evN [] = [] from rfl, List.append_nil] at this

theorem strLine_index {l : Str} (h : ¬ StrLine l) : msgstrIndex l = none := by
  cases hx : msgstrIndex l with
  | none => rfl
  | some n =>
    obtain ⟨h1, h2⟩ := msgstrIndex_split hx
    exact absurd ⟨n, h1, by simpa [hasPrefix, List.isPrefixOf_iff_prefix] using h2⟩ h

theorem a_bad (h : Calm ct fuel T L N) {n : Nat} {ls : List Str} {l m : Str} {pre : List Piece} {ns : List Note}
    (he : BadEntry ct b n ls l pre ns m) (hat : At T n (ls ++ [l])) (hN : n + ls.length ≤ N + 3) {r : Nat} (hr : Resume ct L N (n + ls.length) r) :
    Does (entryE ct fuel T b) n (pre.flatMap pieceEvs ++ evN (ns ++ [⟨.error, n + ls.length, m, false⟩])) (.err r) := by
  have hfew := h.few
  have hfu := h.fuel
  have hat0 := (At_append.1 hat).1
  have hl : (T (n + ls.length)).line = l := (At_append.1 hat).2.1
  cases he with
  | @ctxt cs ls l ns m hc hb =>
    show Does _ _ (evN _) _
    rw [List.append_assoc] at hat
    obtain ⟨hat1, hat2⟩ := At_append.1 hat
    rw [List.length_append, ← Nat.add_assoc] at hN hr ⊢
    obtain ⟨s, ls', hs⟩ := badField_head hb
    have hl1 : (T (n + cs.length)).line = b!"msgctxt" ++ s := by rw [hs] at hat2; exact hat2.1
    have hk := kw_line (ct := ct) (l := (T (n + cs.length)).line) (by rw [hl1]; rfl)
    have hcl := a_commentLoop (T := T) cs hc (fz := decide (∃ l ∈ cs, fuzzyFlag l = true)) (by
      simp only [decide_eq_true_eq]
      constructor
      · rintro ⟨l, h1, h2⟩; exact ⟨l, h1, (fuzzyFlag_iff l (hc l h1)).1 h2⟩
      · rintro ⟨l, h1, h2⟩; exact ⟨l, h1, (fuzzyFlag_iff l (hc l h1)).2 h2⟩) fuel n hat1 (by omega) (by omega) hk.2.2
    refine a_entry_err hcl (not_sep_empty hk.2.1) ?_
    rw [entryBody_eq]
    refine Does.bindErr ?_
    unfold ctxtE
    exact Does.line (Does.pos (by rw [hl1]; exact prefix_kw _ _) (Does.bindErr (a_badString h hb 7 rfl hat2 hN hr).does))
  | noId hc g1 g2 g3 g4 =>
    show Does _ _ (evN _) _
    rw [← hl] at g1 g2 g3 g4
    have hcl := a_commentLoop (T := T) ls hc (fz := decide (∃ l ∈ ls, fuzzyFlag l = true)) (by
      simp only [decide_eq_true_eq]
      constructor
      · rintro ⟨l, h1, h2⟩; exact ⟨l, h1, (fuzzyFlag_iff l (hc l h1)).1 h2⟩
      · rintro ⟨l, h1, h2⟩; exact ⟨l, h1, (fuzzyFlag_iff l (hc l h1)).2 h2⟩) fuel n hat0 (by omega) (by omega) g1
    refine a_entry_err hcl (not_sep_empty g2) ?_
    rw [entryBody_eq]
    refine Does.bind (v := []) (a := none) (q := n + ls.length) ?_ (Does.bindErr ?_)
    · unfold ctxtE
      exact Does.line (Does.neg (not_prefix g3) (Does.pure _))
    · unfold msgidE
      exact Does.line (Does.neg (not_prefix g4) (a_error h _ hN hr).does)
  | @noIdAfterCtxt ls fz t ns l hs g1 g2 =>
    show Does _ _ (evN _) _
    rw [← hl] at g1 g2
    obtain ⟨p1, k1, k2, k3⟩ := a_start h hs hat0 hN (fun h => by cases h) (fun _ => g1)
    refine a_entry_err k1 k2 ?_
    rw [entryBody_eq, evN_append]
    refine Does.bind k3.does (Does.bindErr ?_)
    unfold msgidE
    exact Does.line (Does.neg (not_prefix g2) (a_error h _ hN hr).does)
  | @id ls fz c ns ls' l ns' m hs hb =>
    show Does _ _ (evN _) _
    rw [List.append_assoc] at hat
    obtain ⟨hat1, hat2⟩ := At_append.1 hat
    rw [List.length_append, ← Nat.add_assoc] at hN hr ⊢
    obtain ⟨s, ls0, hs0⟩ := badField_head hb
    have hl1 : (T (n + ls.length)).line = b!"msgid" ++ s := by rw [hs0] at hat2; exact hat2.1
    obtain ⟨n1, n2⟩ := rstart_next hs hl1
    obtain ⟨p1, k1, k2, k3⟩ := a_start h hs hat1 (by omega) n1 n2
    refine a_entry_err k1 k2 ?_
    rw [entryBody_eq, List.append_assoc, evN_append]
    refine Does.bind k3.does (Does.bindErr ?_)
    unfold msgidE
    exact Does.line (Does.pos (by rw [hl1]; exact prefix_kw _ _) (a_badString h hb 5 rfl hat2 hN hr).does)
  | @noStr ls fz c id ns l hh g1 g2 g3 =>
    show Does _ _ (evN _) _
    rw [← hl] at g1 g2 g3
    obtain ⟨p1, k1, k2, k3⟩ := a_head h hh hat0 hN g1
    rw [evN_append]
    refine a_entry_err k1 k2 (k3 ?_)
    unfold afterIdE
    exact Does.line (Does.neg (not_prefix g2) (Does.line (Does.neg (not_prefix g3) (a_error h _ hN hr).does)))
  | @str ls fz c id ns ls' l ns' m hh hb =>
    show Does _ _ (evN _) _
    rw [List.append_assoc] at hat
    obtain ⟨hat1, hat2⟩ := At_append.1 hat
    rw [List.length_append, ← Nat.add_assoc] at hN hr ⊢
    obtain ⟨s, ls0, hs0⟩ := badField_head hb
    have hl1 : (T (n + ls.length)).line = b!"msgstr" ++ s := by rw [hs0] at hat2; exact hat2.1
    have hkl := kw_line (ct := ct) (l := (T (n + ls.length)).line) (by rw [hl1]; rfl)
    obtain ⟨p1, k1, k2, k3⟩ := a_head h hh hat1 (by omega) hkl.1
    refine a_entry_err k1 k2 ?_
    rw [List.append_assoc, evN_append]
    refine k3 ?_
    unfold afterIdE
    refine Does.line (Does.neg (by rw [hl1]; simp [hasPrefix]) (Does.line (Does.pos (by rw [hl1]; exact prefix_kw _ _) ?_)))
    unfold singularEntryE
    exact Does.bindErr (a_badString h hb 6 rfl hat2 hN hr).does
  | @idPlural ls fz c id ns ls' l ns' m hh hb =>
    show Does _ _ (evN _) _
    rw [List.append_assoc] at hat
    obtain ⟨hat1, hat2⟩ := At_append.1 hat
    rw [List.length_append, ← Nat.add_assoc] at hN hr ⊢
    obtain ⟨s, ls0, hs0⟩ := badField_head hb
    have hl1 : (T (n + ls.length)).line = b!"msgid_plural" ++ s := by rw [hs0] at hat2; exact hat2.1
    have hkl := kw_line (ct := ct) (l := (T (n + ls.length)).line) (by rw [hl1]; rfl)
    obtain ⟨p1, k1, k2, k3⟩ := a_head h hh hat1 (by omega) hkl.1
    refine a_entry_err k1 k2 ?_
    rw [List.append_assoc, evN_append]
    refine k3 ?_
    unfold afterIdE
    refine Does.line (Does.pos (by rw [hl1]; exact prefix_kw _ _) ?_)
    unfold pluralEntryE
    exact Does.bindErr (a_badString h hb 12 rfl hat2 hN hr).does
  | @noStrs ls fz c id idp ns l hp g1 =>
    rw [← hl] at g1
    obtain ⟨p1, f, hf, k1, k2, k3⟩ := a_plural h hp hat0 hN (sep_not_continues g1)
    obtain ⟨f, rfl⟩ : ∃ g, f = g + 1 := ⟨f - 1, by omega⟩
    rw [List.flatMap_cons, List.flatMap_nil, List.append_nil]
    refine a_entry_err k1 k2 (k3 (Does.bindErr ?_))
    unfold pluralLoopE
    exact Does.line (Does.pos ((separator_iff _).1 g1) (Does.pos (by simp) (a_error h _ hN hr).does))
  | @otherStr ls fz c id idp strs ns l hp g1 g2 g3 =>
    rw [← hl] at g1 g2 g3
    obtain ⟨p1, f, hf, k1, k2, k3⟩ := a_plural h hp hat0 hN g2
    obtain ⟨f, rfl⟩ : ∃ g, f = g + 1 := ⟨f - 1, by omega⟩
    rw [List.flatMap_cons, List.flatMap_nil, List.append_nil]
    refine a_entry_err k1 k2 (k3 (Does.bindErr ?_))
    unfold pluralLoopE
    refine Does.line (Does.neg (by rw [not_sep_empty g1]; simp) ?_)
    rw [strLine_index g3]
    exact (a_error h _ hN hr).does
  | @strN ls fz c id idp strs ns k ls' l ns' m hp hk hb =>
    rw [List.append_assoc] at hat
    obtain ⟨hat1, hat2⟩ := At_append.1 hat
    rw [List.length_append, ← Nat.add_assoc] at hN hr ⊢
    obtain ⟨s, ls0, hs0⟩ := badField_head hb
    have hl1 : (T (n + ls.length)).line = msgstrN k ++ s := by rw [hs0] at hat2; exact hat2.1
    have hkl := kw_line (ct := ct) (l := (T (n + ls.length)).line) (by rw [hl1]; rfl)
    obtain ⟨p1, f, hf, k1, k2, k3⟩ := a_plural h hp hat1 (by omega) hkl.1
    obtain ⟨f, rfl⟩ : ∃ g, f = g + 1 := ⟨f - 1, by omega⟩
    rw [List.flatMap_cons, List.flatMap_nil, List.append_nil]
    refine a_entry_err k1 k2 (k3 (Does.bindErr ?_))
    unfold pluralLoopE
    refine Does.line (Does.neg (by rw [not_sep_empty hkl.2.1]; simp) ?_)
    rw [show msgstrIndex (T (n + ls.length)).line = some k by rw [hl1]; exact msgstrIndex_kw k hk _]
    exact Does.bindErr (a_badString h hb 9 (msgstrN_length k) hat2 hN hr).does
  | @after ls ns fz c id t q l he g1 g2 =>
    rw [← hl] at g1 g2
    rw [List.flatMap_cons, List.flatMap_nil, List.append_nil, List.nil_append]
    cases he with
    | single hh hf =>
      obtain ⟨p1, k1, k2, k3⟩ := a_single h hh hf hat0 hN g2
      exact a_entry_ok k1 k2 k3 (a_finish_err h hN (by rw [← h.line]; exact g1) hr)

theorem a_gap (h : Calm ct fuel T L N) {n : Nat} {cs : List Str} (hc : ∀ l ∈ cs, Comment l) (hat : At T n cs) (hN : n + cs.length ≤ N + 3)
    (hb : Blank ct (L (n + cs.length))) : Acts (entryE ct fuel T b) n [] [] (.ok () (n + cs.length + 1)) := by
  have hfew := h.few
  have hfu := h.fuel
  obtain ⟨w, h1, h2, h3⟩ := y_blank (ct := ct) (fuel := fuel) (T := T) (st := true) (big5 := b) n hc hat (by omega) (by omega) (by rw [h.line]; exact hb)
  have hnil : w = [] := by
    have : w.filter (fun x => !x.isDiag) = w := List.filter_eq_self.2 (fun x hx => by rw [(h3 x hx).2 rfl]; rfl)
    unfold essence at h2
    rw [this] at h2
    simpa using h2
  rw [hnil] at h1
  exact ⟨[], h1, rfl, rfl⟩

/-! ### The main loop -/

theorem block_at (hL : ∀ p, (T p).line = L p) (n k : Nat) : At T n (block L n k) := by
  induction k generalizing n with
  | zero => trivial
  | succ k ih =>
    have : block L n (k + 1) = L n :: block L (n + 1) k := by
      unfold block
      rw [List.range_succ_eq_map, List.map_cons, List.map_map]
      congr 1
      refine List.map_congr_left (fun i _ => ?_)
      show L (n + (i + 1)) = L (n + 1 + i)
      congr 1; omega
    rw [this]
    exact ⟨hL n, ih (n + 1)⟩

theorem block_length (n k : Nat) : (block L n k).length = k := by simp [block]

theorem big5_notes (b : Bool) (ns : List Note) : big5After ct b (evN ns) = b := by
  unfold big5After evN
  simp [Note.ev]

theorem big5_strs (b : Bool) (strs : List NumberedStr) : big5After ct b (strEvs strs) = b := by
  induction strs with
  | nil => simp [big5After, strEvs]
  | cons x strs ih =>
    unfold strEvs at ih ⊢
    rw [List.flatMap_cons, big5After_append, big5After_append, big5_notes]
    rw [show big5After ct b [Ev.conv x.2.1 x.2.2] = b by simp [big5After]]
    exact ih

theorem big5_cons (b : Bool) (e : Ev) (w : List Ev) : big5After ct b (e :: w) = big5After ct (big5After ct b [e]) w :=
  big5After_append b [e] w

theorem big5_piece (b : Bool) (x : Piece) : big5After ct b (pieceEvs x) = (b || saysBig5 ct x) := by
  cases x with
  | notes ns => unfold pieceEvs saysBig5; dsimp only; rw [big5_notes, Bool.or_false]
  | single ns fz c id t q =>
    unfold pieceEvs saysBig5
    dsimp only
    rw [big5After_append, big5_notes, ← headerCharset_eq]
    by_cases h1 : id.isEmpty = true
    · rw [if_pos h1, h1]; simp [big5After]
    · rw [if_neg h1, show id.isEmpty = false by simpa using h1]
      split <;> simp [big5After]
  | plural ns fz c id idp strs q =>
    unfold pieceEvs saysBig5
    dsimp only
    rw [big5After_append, big5After_append, big5_notes, big5_cons, show big5After ct b [Ev.clear] = b by simp [big5After], big5_strs]
    split <;> simp [big5After]
  | broken ns strs =>
    unfold pieceEvs saysBig5
    dsimp only
    rw [big5After_append, big5_notes, big5_cons, show big5After ct b [Ev.clear] = b by simp [big5After], big5_strs, Bool.or_false]

theorem big5_pieces (b : Bool) (xs : List Piece) : big5After ct b (xs.flatMap pieceEvs) = (b || xs.any (saysBig5 ct)) := by
  induction xs generalizing b with
  | nil => simp [big5After]
  | cons x xs ih => rw [List.flatMap_cons, big5After_append, big5_piece, ih, List.any_cons, Bool.or_assoc]

/-- What reading a text comes to; `X` is what the rest of the text comes to, if it has no end. -/
theorem a_main' (h : Calm ct fuel T L N) (X : Nat → List Ev → TRes Unit → Prop)
    {b : Bool} {n : Nat} {ps : List Piece} {e : Bool} (hr : Reading ct L N b n ps e)
    (hend : e = true → ∀ n, N ≤ n → X n [] (.ok () n))
    (hless : e = false → ∀ n f b, n < N → Endless ct b L n → X n (mainLoopE ct fuel T f b n).1 (mainLoopE ct fuel T f b n).2) :
    ∀ f, n ≤ N + 5 → N + 6 < f + n → ∃ q w r, mainLoopE ct fuel T f b n = (ps.flatMap pieceEvs ++ w, r) ∧ X q w r := by
  have hfew := h.few
  have hfu := h.fuel
  have noeof : ∀ n, n < N → (T n).eof = false := by
    intro n hn
    cases hx : (T n).eof with
    | false => rfl
    | true => have := (h.eof _).1 hx; omega
  -- one iteration
  have step : ∀ {n q f : Nat} {b b' : Bool} {v v' : List Ev} {r : TRes Unit},
      n < N → Does (entryE ct fuel T b) n v r → (r = .ok () q ∨ r = .err q) → big5After ct b v = b' →
      (∃ q' w r', mainLoopE ct fuel T f b' q = (v' ++ w, r') ∧ X q' w r') →
      ∃ q' w r', mainLoopE ct fuel T (f + 1) b n = (v ++ v' ++ w, r') ∧ X q' w r' := by
    intro n q f b b' v v' r hn ha hres hb ⟨q', w, r', hq, hX⟩
    refine ⟨q', w, r', ?_, hX⟩
    unfold mainLoopE
    rw [noeof n hn]
    simp only [Bool.not_false, if_true]
    unfold Does at ha
    rw [ha]
    rcases hres with rfl | rfl
    · dsimp only; rw [hb, hq, List.append_assoc]
    · dsimp only; rw [hb, hq, List.append_assoc]
  induction hr with
  | @done b n hn =>
    intro f hle hf
    obtain ⟨f, rfl⟩ : ∃ g, f = g + 1 := ⟨f - 1, by omega⟩
    refine ⟨n, [], _, ?_, hend rfl n hn⟩
    unfold mainLoopE
    rw [(h.eof n).2 hn]
    rfl
  | @endless b n hn he =>
    intro f hle hf
    exact ⟨n, _, _, rfl, hless rfl n f b hn he⟩
  | @gap b n k ps e hn hc hb _ ih =>
    intro f _ hf
    obtain ⟨f, rfl⟩ : ∃ g, f = g + 1 := ⟨f - 1, by omega⟩
    have hat := block_at (T := T) h.line n k
    have hN := comments_le h _ n hc hat (Nat.le_of_lt hn) (by
      rw [block_length, h.line]
      intro hx
      cases hl : L (n + k) with
      | nil => rw [hl] at hx; cases hx
      | cons x t =>
        rw [hl] at hx hb
        simp only [Comment, List.head?_cons, Option.some.injEq] at hx
        have := hb x List.mem_cons_self
        rw [hx, isspace_false ct 35 (by decide) (by decide)] at this
        cases this)
    rw [block_length] at hN
    have ha := a_gap (b := b) h hc hat (by rw [block_length]; omega) (by rw [block_length]; exact hb)
    rw [block_length] at ha
    exact step hn ha.does (.inl rfl) (big5_notes _ _) (ih hend hless f (by omega) (by omega))
  | @entry b n k x ps e hn he hs _ ih =>
    intro f _ hf
    obtain ⟨f, rfl⟩ : ∃ g, f = g + 1 := ⟨f - 1, by omega⟩
    have hat := block_at (T := T) h.line n k
    have hN := rentry_le h he hat (Nat.le_of_lt hn) (by rw [block_length, h.line]; exact sep_not_continues hs) (by
      rw [block_length, h.line]
      intro hx
      obtain ⟨r, hr⟩ := strLine_kw hx
      exact (kw_line (ct := ct) hr).2.1 hs)
    have ha := a_entry h he hat hN (by rw [block_length]; exact hs)
    rw [block_length] at ha hN
    rw [List.flatMap_cons]
    exact step hn ha (.inl rfl) (big5_piece _ _) (ih hend hless f (by omega) (by omega))
  | @fault b n k pre ns m q ps e hn hbad h1 h2 h3 _ ih =>
    intro f _ hf
    obtain ⟨f, rfl⟩ : ∃ g, f = g + 1 := ⟨f - 1, by omega⟩
    have hat := block_at (T := T) h.line n k
    have hat' : At T n (block L n k ++ [L (n + k)]) := At_append.2 ⟨hat, by rw [block_length]; exact ⟨h.line _, trivial⟩⟩
    have hN := bad_le h hbad hat' (Nat.le_of_lt hn)
    have ha := a_bad (r := q) h hbad hat' hN (by rw [block_length]; exact ⟨h1, h2, h3⟩)
    rw [block_length] at ha hN
    have hq : q ≤ N + 4 := Resume.le (ct := ct) (L := L) hN ⟨h1, h2, h3⟩
    rw [List.flatMap_append, List.flatMap_cons, ← List.append_assoc]
    exact step hn ha (.inr rfl) (by rw [big5After_append, big5_piece, big5_pieces]; simp [saysBig5]) (ih hend hless f (by omega) (by omega))

/-- What reading a text with an end comes to. -/
theorem a_main (h : Calm ct fuel T L N) {b : Bool} {n : Nat} {ps : List Piece} (hr : Reading ct L N b n ps true)
    (f : Nat) (hn : n ≤ N + 5) (hf : N + 6 < f + n) : ∃ q, mainLoopE ct fuel T f b n = (ps.flatMap pieceEvs, .ok () q) := by
  obtain ⟨q, w, r, h1, h2, h3⟩ := a_main' h (fun q w r => w = [] ∧ r = .ok () q) hr (fun _ n _ => ⟨rfl, rfl⟩) (fun h => by cases h) f hn hf
  rw [h2, h3, List.append_nil] at h1
  exact ⟨q, h1⟩
end
end Tgt.POParser
