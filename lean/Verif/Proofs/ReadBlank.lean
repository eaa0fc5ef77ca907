import Verif.Proofs.Read5
/-
Where the reading of a text goes on after a blank line.
-/
namespace Tgt.POParser
open Spec Spec.Po

section
variable {ct : CType} {b : Bool} {L : Nat → Str} {N : Nat}

theorem nb_mem {l : Str} {x : Byte} (hx : x ∈ l) (h : ct.isspace x = false) : ¬ Blank ct l := by
  intro hb
  rw [hb x hx] at h; cases h

theorem nb_quote {ws q t : Str} {n : Nat} {ns : List Note} (h : RQuoted ct b n q t ns) : ¬ Blank ct (ws ++ q) := by
  obtain ⟨s, rfl⟩ := quoted_head h
  exact nb_mem (x := 34) (by simp) (isspace_quote ct)

theorem nb_kw {kw r : Str} : ¬ Blank ct (109 :: kw ++ r) :=
  nb_mem (x := 109) (by simp) (isspace_false ct _ (by decide) (by decide))

theorem nb_conts {n : Nat} {ls : List Str} {t : Str} {ns : List Note} (h : RConts ct b n ls t ns) : ∀ l ∈ ls, ¬ Blank ct l := by
  induction h with
  | nil => intro l hl; cases hl
  | cons _ hq _ ih =>
    intro l hl
    rcases List.mem_cons.1 hl with rfl | hl
    · exact nb_quote hq
    · exact ih l hl

theorem nb_field {kw : Str} {n : Nat} {ls : List Str} {t : Str} {ns : List Note} (h : RField ct b (109 :: kw) n ls t ns) : ∀ l ∈ ls, ¬ Blank ct l := by
  cases h with
  | mk _ hq hr =>
    intro l hl
    rcases List.mem_cons.1 hl with rfl | hl
    · exact nb_quote hq
    · exact nb_conts hr l hl

theorem nb_badField {kw : Str} {n : Nat} {ls : List Str} {l m : Str} {ns : List Note} (h : BadField ct b (109 :: kw) n ls l ns m) :
    ¬ Blank ct l ∧ ∀ l ∈ ls, ¬ Blank ct l := by
  cases h with
  | first h =>
    refine ⟨?_, by simp⟩
    cases h <;> first | exact nb_kw | (rw [List.append_assoc]; exact nb_kw)
  | later hf _ hb =>
    refine ⟨?_, nb_field hf⟩
    obtain ⟨s, rfl⟩ := badString_head hb
    exact nb_mem (x := 34) (by simp) (isspace_quote ct)

theorem nb_comments {cs : List Str} (h : ∀ l ∈ cs, Comment l) : ∀ l ∈ cs, ¬ Blank ct l :=
  fun l hl hb => blank_not_comment l hb (h l hl)

theorem nb_append {a c : List Str} (h1 : ∀ l ∈ a, ¬ Blank ct l) (h2 : ∀ l ∈ c, ¬ Blank ct l) : ∀ l ∈ a ++ c, ¬ Blank ct l :=
  fun l hl => (List.mem_append.1 hl).elim (h1 l) (h2 l)

theorem nb_start {n : Nat} {ls : List Str} {fz : Bool} {c : Option Str} {ns : List Note} (h : RStart ct b n ls fz c ns) : ∀ l ∈ ls, ¬ Blank ct l := by
  cases h with
  | none hc _ => exact nb_comments hc
  | some hc _ hf => exact nb_append (nb_comments hc) (nb_field hf)

theorem nb_head {n : Nat} {ls : List Str} {fz : Bool} {c : Option Str} {id : Str} {ns : List Note} (h : RHead ct b n ls fz c id ns) :
    ∀ l ∈ ls, ¬ Blank ct l := by
  cases h with
  | mk hs hf => exact nb_append (nb_start hs) (nb_field hf)

theorem nb_strs {n : Nat} {ls : List Str} {r : List NumberedStr} (h : RStrs ct b n ls r) : ∀ l ∈ ls, ¬ Blank ct l := by
  induction h with
  | nil => intro l hl; cases hl
  | cons _ hf _ ih => exact nb_append (nb_field hf) ih

theorem nb_plural {n : Nat} {ls : List Str} {fz : Bool} {c : Option Str} {id idp : Str} {strs : List NumberedStr} {ns : List Note}
    (h : RPlural ct b n ls fz c id idp strs ns) : ∀ l ∈ ls, ¬ Blank ct l := by
  cases h with
  | mk hh hf hs => exact nb_append (nb_append (nb_head hh) (nb_field hf)) (nb_strs hs)

theorem nb_entry {n : Nat} {ls : List Str} {x : Piece} (h : REntry ct b n ls x) : ∀ l ∈ ls, ¬ Blank ct l := by
  cases h with
  | single hh hf => exact nb_append (nb_head hh) (nb_field hf)
  | plural hp _ => exact nb_plural hp

theorem nb_bad {n : Nat} {ls : List Str} {l m : Str} {pre : List Piece} {ns : List Note} (h : BadEntry ct b n ls l pre ns m) :
    ∀ l ∈ ls, ¬ Blank ct l := by
  cases h with
  | ctxt hc hf => exact nb_append (nb_comments hc) (nb_badField hf).2
  | noId hc => exact nb_comments hc
  | noIdAfterCtxt hs => exact nb_start hs
  | id hs hf => exact nb_append (nb_start hs) (nb_badField hf).2
  | noStr hh => exact nb_head hh
  | str hh hf => exact nb_append (nb_head hh) (nb_badField hf).2
  | idPlural hh hf => exact nb_append (nb_head hh) (nb_badField hf).2
  | noStrs hp => exact nb_plural hp
  | otherStr hp => exact nb_plural hp
  | strN hp _ hf => exact nb_append (nb_plural hp) (nb_badField hf).2
  | after he => exact nb_entry he

theorem nb_whole {l : Str} (h : WholeCont ct b l) : ¬ Blank ct l := by
  obtain ⟨ws, q, n, t, ns, _, rfl, hq⟩ := whole_iff.1 h
  exact nb_quote hq

theorem nb_block {n k p : Nat} (h : ∀ l ∈ block L n k, ¬ Blank ct l) (h1 : n ≤ p) (h2 : p < n + k) : ¬ Blank ct (L p) := by
  refine h _ ?_
  unfold block
  exact List.mem_map.2 ⟨p - n, List.mem_range.2 (by omega), by rw [show n + (p - n) = p by omega]⟩

theorem nb_endlessField {kw : Str} {n p : Nat} (h : EndlessField ct b L (109 :: kw) n) (hp : n ≤ p) : ¬ Blank ct (L p) := by
  obtain ⟨⟨t, ns, hf⟩, hw⟩ := h
  rcases Nat.eq_or_lt_of_le hp with rfl | hp
  · exact nb_field hf _ (by simp)
  · exact nb_whole (hw p hp)

theorem nb_both {kw : Str} {n k p : Nat} (h1 : ∀ l ∈ block L n k, ¬ Blank ct l) (h2 : EndlessField ct b L (109 :: kw) (n + k)) (hp : n ≤ p) :
    ¬ Blank ct (L p) := by
  by_cases h : p < n + k
  · exact nb_block h1 hp h
  · exact nb_endlessField h2 (by omega)

theorem nb_endless {n p : Nat} (h : Endless ct b L n) (hp : n ≤ p) : ¬ Blank ct (L p) := by
  cases h with
  | comments h => exact fun hb => blank_not_comment _ hb (h p hp)
  | ctxt h1 h2 => exact nb_both (nb_comments h1) h2 hp
  | id h1 h2 => exact nb_both (nb_start h1) h2 hp
  | str h1 h2 => exact nb_both (nb_head h1) h2 hp
  | idPlural h1 h2 => exact nb_both (nb_head h1) h2 hp
  | strN h1 _ h2 => exact nb_both (nb_plural h1) h2 hp
  | @strs k fz c id idp strs ns h1 h2 =>
    by_cases h : p < n + k
    · exact nb_block (nb_plural h1) hp h
    · obtain ⟨j, t, ns', _, hf⟩ := h2 p (by omega)
      exact nb_field hf _ (by simp)

/-- After a blank line `p` the text is read as if it began there (as Big5, if what comes before says so), unless an error is found
in line `p` itself: then it goes on at the next separating line after `p`. -/
theorem after_blank {n : Nat} {ps : List Piece} {e : Bool} (h : Reading ct L N b n ps e) (p : Nat) (hnp : n ≤ p) (hp : p < N)
    (hb : Blank ct (L p)) :
    (∃ pre ps', ps = pre ++ ps' ∧ Reading ct L N (b || pre.any (saysBig5 ct)) (p + 1) ps' e ∧
      ∀ qs e', Reading ct L N (b || pre.any (saysBig5 ct)) (p + 1) qs e' → Reading ct L N b n (pre ++ qs) e') ∨
    (∃ pre ns m ps' q, ps = pre ++ .notes (ns ++ [⟨.error, p, m, false⟩]) :: ps' ∧ p + 1 < q ∧
      (∀ j, p < j → j < q → j < N ∧ ¬ Separator ct (L j)) ∧ (N ≤ q ∨ Separator ct (L q)) ∧
      Reading ct L N (b || pre.any (saysBig5 ct)) q ps' e) := by
  induction h with
  | done h => omega
  | endless _ h => exact absurd hb (nb_endless h hnp)
  | @gap b n k ps e hn hc hbl hr ih =>
    by_cases h : p = n + k
    · subst h
      exact .inl ⟨[], ps, rfl, by simpa using hr, fun qs e' hq => .gap hn hc hbl (by simpa using hq)⟩
    · have : n + k + 1 ≤ p := by
        by_cases h' : p < n + k
        · exact absurd hb (nb_block (nb_comments hc) hnp h')
        · omega
      rcases ih this with ⟨pre, ps', rfl, h1, h2⟩ | h
      · exact .inl ⟨pre, ps', rfl, h1, fun qs e' hq => .gap hn hc hbl (h2 qs e' hq)⟩
      · exact .inr h
  | @entry b n k x ps e hn he hs hr ih =>
    by_cases h : p = n + k
    · subst h
      exact .inl ⟨[x], ps, rfl, by simpa using hr, fun qs e' hq => .entry hn he hs (by simpa using hq)⟩
    · have : n + k + 1 ≤ p := by
        by_cases h' : p < n + k
        · exact absurd hb (nb_block (nb_entry he) hnp h')
        · omega
      rcases ih this with ⟨pre, ps', rfl, h1, h2⟩ | ⟨pre, ns, m, ps', q, rfl, h1, h2, h3, h4⟩
      · exact .inl ⟨x :: pre, ps', rfl, by simpa [Bool.or_assoc] using h1,
          fun qs e' hq => .entry hn he hs (h2 qs e' (by simpa [Bool.or_assoc] using hq))⟩
      · exact .inr ⟨x :: pre, ns, m, ps', q, rfl, h1, h2, h3, by simpa [Bool.or_assoc] using h4⟩
  | @fault b n k pre ns m q ps e hn he hq1 hq2 hq3 hr ih =>
    have hnk : n + k ≤ p := by
      by_cases h' : p < n + k
      · exact absurd hb (nb_block (nb_bad he) hnp h')
      · omega
    by_cases h : p = n + k
    · subst h
      by_cases h1 : q = n + k + 1
      · subst h1
        refine .inl ⟨pre ++ [.notes (ns ++ [⟨.error, n + k, m, false⟩])], ps, by simp, by simpa [saysBig5] using hr, fun qs e' hq => ?_⟩
        have := Reading.fault hn he hq1 hq2 hq3 (by simpa [saysBig5] using hq)
        simpa using this
      · exact .inr ⟨pre, ns, m, ps, q, rfl, by omega, hq2, hq3, hr⟩
    · have hqp : q ≤ p := by
        rcases Nat.lt_or_ge p q with hx | hx
        · exact absurd (.inl hb) (hq2 p (by omega) hx).2
        · exact hx
      rcases ih hqp with ⟨pre', ps', rfl, h1, h2⟩ | ⟨pre', ns', m', ps', q', rfl, h1, h2, h3, h4⟩
      · refine .inl ⟨pre ++ .notes (ns ++ [⟨.error, n + k, m, false⟩]) :: pre', ps', by simp, by simpa [saysBig5, Bool.or_assoc] using h1,
          fun qs e' hq => ?_⟩
        have := Reading.fault hn he hq1 hq2 hq3 (h2 qs e' (by simpa [saysBig5, Bool.or_assoc] using hq))
        simpa using this
      · exact .inr ⟨pre ++ .notes (ns ++ [⟨.error, n + k, m, false⟩]) :: pre', ns', m', ps', q', by simp, h1, h2, h3,
          by simpa [saysBig5, Bool.or_assoc] using h4⟩
end
end Tgt.POParser
