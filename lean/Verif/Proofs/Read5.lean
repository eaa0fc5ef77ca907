import Verif.Proofs.ReadLe
/-
Every text has a reading.
-/
namespace Tgt.POParser
open Spec Spec.Po

/-- What a string literal can look like. -/
theorem lit_total (b : Bool) : ∀ (n : Nat) (s : Str), s.length ≤ n →
    (∃ body text u trail, s = body ++ 34 :: trail ∧ Lit b body text u) ∨ (∃ text u, Lit b s text u) ∨
    (∃ body text u, s = body ++ [92] ∧ Lit b body text u) ∨
    (b = true ∧ ∃ body text u x, s = body ++ [x] ∧ isLead x ∧ Lit b body text u) := by
  intro n
  induction n with
  | zero =>
    intro s hs
    have : s = [] := List.length_eq_zero_iff.1 (by omega)
    subst this
    exact .inr (.inl ⟨_, _, .nil⟩)
  | succ n ih =>
    intro s hs
    -- a first part `h` that can be put in front
    have front : ∀ (h : Str) (r : Str), s = h ++ r → h ≠ [] → (∀ {body text u}, Lit b body text u → ∃ text' u', Lit b (h ++ body) text' u') →
        (∃ body text u trail, s = body ++ 34 :: trail ∧ Lit b body text u) ∨ (∃ text u, Lit b s text u) ∨
        (∃ body text u, s = body ++ [92] ∧ Lit b body text u) ∨
        (b = true ∧ ∃ body text u x, s = body ++ [x] ∧ isLead x ∧ Lit b body text u) := by
      intro h r he hne hf
      have hl : r.length ≤ n := by
        have := List.length_pos_iff.2 hne
        rw [he, List.length_append] at hs
        omega
      rcases ih r hl with ⟨body, text, u, trail, h1, h2⟩ | ⟨text, u, h2⟩ | ⟨body, text, u, h1, h2⟩ | ⟨hb, body, text, u, x, h1, h3, h2⟩
      · obtain ⟨t', u', h'⟩ := hf h2
        exact .inl ⟨h ++ body, t', u', trail, by rw [he, h1, List.append_assoc], h'⟩
      · obtain ⟨t', u', h'⟩ := hf h2
        exact .inr (.inl ⟨t', u', by rw [he]; exact h'⟩)
      · obtain ⟨t', u', h'⟩ := hf h2
        exact .inr (.inr (.inl ⟨h ++ body, t', u', by rw [he, h1, List.append_assoc], h'⟩))
      · obtain ⟨t', u', h'⟩ := hf h2
        exact .inr (.inr (.inr ⟨hb, h ++ body, t', u', x, by rw [he, h1, List.append_assoc], h3, h'⟩))
    cases s with
    | nil => exact .inr (.inl ⟨_, _, .nil⟩)
    | cons x r =>
      by_cases h34 : x = 34
      · subst h34; exact .inl ⟨[], _, _, r, rfl, .nil⟩
      by_cases h92 : x = 92
      · subst h92
        cases r with
        | nil => exact .inr (.inr (.inl ⟨[], _, _, rfl, .nil⟩))
        | cons e r =>
          by_cases he : ∃ t, (e, t) ∈ escapes
          · obtain ⟨t, he⟩ := he
            exact front [92, e] r rfl (by simp) (fun h => ⟨_, _, .esc he h⟩)
          · exact front [92, e] r rfl (by simp) (fun h => ⟨_, _, .unknown (fun t ht => he ⟨t, ht⟩) h⟩)
      by_cases hb : b = true ∧ isLead x
      · cases r with
        | nil => exact .inr (.inr (.inr ⟨hb.1, [], _, _, x, rfl, hb.2, .nil⟩))
        | cons e r => exact front [x, e] r rfl (by simp) (fun h => ⟨_, _, .pair hb.1 hb.2 h⟩)
      · exact front [x] r rfl (by simp) (fun h => ⟨_, _, .plain h34 h92 hb h⟩)

section
variable {ct : CType} {b : Bool}

theorem string_total (n : Nat) (s : Str) : (∃ t ns, RQuoted ct b n (34 :: s) t ns) ∨ ∃ ns m, BadString b n (34 :: s) ns m := by
  rcases lit_total b s.length s (Nat.le_refl _) with ⟨body, text, u, trail, rfl, h⟩ | ⟨text, u, h⟩ | ⟨body, text, u, rfl, h⟩ | ⟨hb, body, text, u, x, rfl, h3, h⟩
  · exact .inl ⟨_, _, .mk h⟩
  · by_cases hs : s = []
    · subst hs; exact .inr ⟨_, _, .quoteOnly⟩
    · exact .inr ⟨_, _, .noEnd h hs⟩
  · exact .inr ⟨_, _, .backslash h⟩
  · exact .inr ⟨_, _, .halfChar hb h3 h⟩

theorem space_split (s : Str) : ∃ ws r, s = ws ++ r ∧ Blank ct ws ∧ (r = [] ∨ ∃ c t, r = c :: t ∧ ct.isspace c = false) := by
  induction s with
  | nil => exact ⟨[], [], rfl, fun _ h => (by cases h), .inl rfl⟩
  | cons x s ih =>
    cases hx : ct.isspace x with
    | false => exact ⟨[], x :: s, rfl, fun _ h => (by cases h), .inr ⟨x, s, rfl, hx⟩⟩
    | true =>
      obtain ⟨ws, r, h1, h2, h3⟩ := ih
      refine ⟨x :: ws, r, by rw [h1]; rfl, fun y hy => ?_, h3⟩
      rcases List.mem_cons.1 hy with rfl | hy
      · exact hx
      · exact h2 y hy

theorem quoted_len {n : Nat} {q t : Str} {ns : List Note} (h : RQuoted ct b n q t ns) : 2 ≤ q.length := by
  obtain ⟨_⟩ := h; simp; omega

/-- A line with a keyword. -/
theorem keyword_total (kw : Str) (n : Nat) (r : Str) :
    (∃ sep q t ns, r = sep ++ q ∧ Blank ct sep ∧ RQuoted ct b n q t ns) ∨ ∃ ns m, BadKeyword ct b kw n (kw ++ r) ns m := by
  by_cases hr : r.length ≤ 1
  · exact .inr ⟨_, _, .short hr⟩
  · obtain ⟨ws, q, rfl, h2, h3⟩ := space_split (ct := ct) r
    rcases h3 with rfl | ⟨c, t, rfl, hc⟩
    · rw [List.append_nil] at hr ⊢
      exact .inr ⟨_, _, .blank (by omega) h2⟩
    · by_cases h34 : c = 34
      · subst h34
        rcases string_total (ct := ct) (b := b) n t with ⟨t', ns, h⟩ | ⟨ns, m, h⟩
        · exact .inl ⟨ws, _, _, _, rfl, h2, h⟩
        · rw [← List.append_assoc]; exact .inr ⟨_, _, .string h2 (by omega) h⟩
      · rw [← List.append_assoc]; exact .inr ⟨_, _, .other h2 (by omega) hc h34⟩

variable {L : Nat → Str} {N : Nat}

theorem block_append (n a c : Nat) : block L n (a + c) = block L n a ++ block L (n + a) c := by
  unfold block
  rw [List.range_add, List.map_append, List.map_map]
  congr 1
  refine List.map_congr_left (fun i _ => ?_)
  show L (n + (a + i)) = L (n + a + i)
  rw [Nat.add_assoc]

theorem block_len (n k : Nat) : (block L n k).length = k := by simp [block]

theorem block_cons (n k : Nat) : block L n (k + 1) = L n :: block L (n + 1) k := by
  rw [Nat.add_comm k 1, block_append]; rfl

/-- The first line of a field is a field. -/
theorem field_first {kw l t : Str} {n : Nat} {ls : List Str} {ns : List Note} (h : RField ct b kw n (l :: ls) t ns) :
    ∃ t ns, RField ct b kw n [l] t ns := by
  generalize hl : l :: ls = ls' at h
  cases h with
  | mk g1 g2 g3 => cases hl; exact ⟨_, _, .mk g1 g2 .nil⟩

/-- Continuation lines. -/
theorem conts_total (n : Nat) : (∃ k t ns, RConts ct b n (block L n k) t ns ∧
    (¬ Continues ct (L (n + k)) ∨ ∃ ws q ns' m, Blank ct ws ∧ L (n + k) = ws ++ q ∧ BadString b (n + k) q ns' m)) ∨
    ∀ p, n ≤ p → WholeCont ct b (L p) := by
  have key : ∀ (d n : Nat), ¬ WholeCont ct b (L (n + d)) → ∃ k t ns, RConts ct b n (block L n k) t ns ∧
      (¬ Continues ct (L (n + k)) ∨ ∃ ws q ns' m, Blank ct ws ∧ L (n + k) = ws ++ q ∧ BadString b (n + k) q ns' m) := by
    intro d
    induction d with
    | zero =>
      intro n hn
      refine ⟨0, [], [], .nil, ?_⟩
      by_cases hc : Continues ct (L (n + 0))
      · right
        obtain ⟨ws, t, hw, hl⟩ := hc
        rcases string_total (ct := ct) (b := b) (n + 0) t with ⟨t', ns, h⟩ | ⟨ns, m, h⟩
        · exact absurd (whole_iff.2 ⟨ws, _, _, _, _, hw, hl, h⟩) hn
        · exact ⟨ws, _, ns, m, hw, hl, h⟩
      · exact .inl hc
    | succ d ih =>
      intro n hn
      by_cases hc : Continues ct (L n)
      · obtain ⟨ws, t, hw, hl⟩ := hc
        rcases string_total (ct := ct) (b := b) n t with ⟨t', ns, h⟩ | ⟨ns, m, h⟩
        · obtain ⟨k, t2, ns2, h2, h3⟩ := ih (n + 1) (by rw [show n + 1 + d = n + (d + 1) by omega]; exact hn)
          refine ⟨k + 1, t' ++ t2, indentNotes n ws ++ ns ++ ns2, ?_, ?_⟩
          · rw [block_cons, hl]; exact .cons hw h h2
          · rw [show n + (k + 1) = n + 1 + k by omega]; exact h3
        · exact ⟨0, [], [], .nil, .inr ⟨ws, _, ns, m, hw, hl, h⟩⟩
      · exact ⟨0, [], [], .nil, .inl hc⟩
  by_cases h : ∀ p, n ≤ p → WholeCont ct b (L p)
  · exact .inr h
  · left
    have : ∃ p, n ≤ p ∧ ¬ WholeCont ct b (L p) := by
      apply Classical.byContradiction
      intro hx
      exact h (fun p hp => Classical.byContradiction (fun hw => hx ⟨p, hp, hw⟩))
    obtain ⟨p, h1, h2⟩ := this
    exact key (p - n) n (by rw [show n + (p - n) = p by omega]; exact h2)

/-- Fields. -/
theorem field_total (L : Nat → Str) (kw : Str) (n : Nat) (hk : kw <+: L n) :
    (∃ k t ns, RField ct b kw n (block L n k) t ns ∧ ¬ Continues ct (L (n + k))) ∨
    (∃ k ns m, BadField ct b kw n (block L n k) (L (n + k)) ns m) ∨ EndlessField ct b L kw n := by
  obtain ⟨r, hr⟩ := hk
  rcases keyword_total (ct := ct) (b := b) kw n r with ⟨sep, q, t, ns, rfl, h1, h2⟩ | ⟨ns, m, h⟩
  · rcases conts_total (ct := ct) (b := b) (L := L) (n + 1) with ⟨k, t2, ns2, h3, h4⟩ | hx
    · have hf : RField ct b kw n (block L n (k + 1)) (t ++ t2) (spaceNotes n sep ++ ns ++ ns2) := by
        rw [block_cons, ← hr, ← List.append_assoc]; exact .mk h1 h2 h3
      rw [show n + 1 + k = n + (k + 1) by omega] at h4
      rcases h4 with h4 | ⟨ws, q', ns', m, h5, h6, h7⟩
      · exact .inl ⟨k + 1, _, _, hf, h4⟩
      · refine .inr (.inl ⟨k + 1, spaceNotes n sep ++ ns ++ ns2 ++ indentNotes (n + (k + 1)) ws ++ ns', m, ?_⟩)
        · rw [h6]
          have := BadField.later hf h5 (ns' := ns') (q := q') (m := m) (by rw [block_len]; exact h7)
          rwa [block_len] at this
    · refine .inr (.inr ⟨⟨t ++ [], spaceNotes n sep ++ ns ++ [], ?_⟩, hx⟩)
      · rw [← hr, ← List.append_assoc]; exact .mk h1 h2 .nil
  · refine .inr (.inl ⟨0, ns, m, ?_⟩)
    show BadField ct b kw n [] (L (n + 0)) ns m
    rw [Nat.add_zero, ← hr]
    exact .first h

theorem comments_total (L : Nat → Str) (n : Nat) : (∃ k, (∀ l ∈ block L n k, Comment l) ∧ ¬ Comment (L (n + k))) ∨ ∀ p, n ≤ p → Comment (L p) := by
  have key : ∀ (d n : Nat), ¬ Comment (L (n + d)) → ∃ k, (∀ l ∈ block L n k, Comment l) ∧ ¬ Comment (L (n + k)) := by
    intro d
    induction d with
    | zero => intro n hn; exact ⟨0, fun l hl => (by cases hl), hn⟩
    | succ d ih =>
      intro n hn
      by_cases hc : Comment (L n)
      · obtain ⟨k, h1, h2⟩ := ih (n + 1) (by rw [show n + 1 + d = n + (d + 1) by omega]; exact hn)
        refine ⟨k + 1, ?_, by rw [show n + (k + 1) = n + 1 + k by omega]; exact h2⟩
        rw [block_cons]
        intro l hl
        rcases List.mem_cons.1 hl with rfl | hl
        · exact hc
        · exact h1 l hl
      · exact ⟨0, fun l hl => (by cases hl), hc⟩
  by_cases h : ∀ p, n ≤ p → Comment (L p)
  · exact .inr h
  · left
    have : ∃ p, n ≤ p ∧ ¬ Comment (L p) := by
      apply Classical.byContradiction
      intro hx
      exact h (fun p hp => Classical.byContradiction (fun hw => hx ⟨p, hp, hw⟩))
    obtain ⟨p, h1, h2⟩ := this
    exact key (p - n) n (by rw [show n + (p - n) = p by omega]; exact h2)

theorem strs_total (hL : ∀ p, N ≤ p → L p = L N) : ∀ (d n : Nat), N ≤ n + d → ¬ Continues ct (L n) →
    ∃ k strs, RStrs ct b n (block L n k) strs ∧ ¬ Continues ct (L (n + k)) ∧
      (¬ StrLine (L (n + k)) ∨ (∃ j k' ns m, j ≤ 9 ∧ BadField ct b (msgstrN j) (n + k) (block L (n + k) k') (L (n + k + k')) ns m) ∨
        (∃ j, j ≤ 9 ∧ EndlessField ct b L (msgstrN j) (n + k)) ∨
        ∀ p, n + k ≤ p → ∃ j t ns', j ≤ 9 ∧ RField ct b (msgstrN j) p [L p] t ns') := by
  intro d
  induction d with
  | zero =>
    intro n hn hc
    refine ⟨0, [], .nil, hc, ?_⟩
    by_cases hs : StrLine (L n)
    · obtain ⟨j, hj, hp⟩ := hs
      rcases field_total (ct := ct) (b := b) L (msgstrN j) n hp with ⟨k, t, ns, h1, h2⟩ | ⟨k, ns, m, h⟩ | h
      · refine .inr (.inr (.inr ?_))
        have h3 : ∃ t ns, RField ct b (msgstrN j) n [L n] t ns := by
          match k with
          | 0 => obtain ⟨_, _, hx⟩ := rfield_head h1; cases hx
          | k + 1 =>
            rw [block_cons] at h1
            exact field_first h1
        intro p hp
        obtain ⟨t, ns, h3⟩ := h3
        obtain ⟨ns', h4⟩ := field_reindex h3 p
        rw [hL n (by omega), ← hL p (by omega)] at h4
        exact ⟨j, t, ns', hj, h4⟩
      · exact .inr (.inl ⟨j, k, ns, m, hj, h⟩)
      · exact .inr (.inr (.inl ⟨j, hj, h⟩))
    · exact .inl hs
  | succ d ih =>
    intro n hn hc
    by_cases hs : StrLine (L n)
    · obtain ⟨j, hj, hp⟩ := hs
      rcases field_total (ct := ct) (b := b) L (msgstrN j) n hp with ⟨k, t, ns, h1, h2⟩ | ⟨k, ns, m, h⟩ | h
      · have hk : 0 < k := by
          obtain ⟨r, ls, hls⟩ := rfield_head h1
          have := congrArg List.length hls
          rw [block_len] at this
          simp at this; omega
        obtain ⟨k2, strs, h3, h4, h5⟩ := ih (n + k) (by omega) h2
        refine ⟨k + k2, (ns, j, t) :: strs, ?_, by rw [← Nat.add_assoc]; exact h4, by rw [← Nat.add_assoc]; exact h5⟩
        rw [block_append]
        exact .cons hj h1 (by rw [block_len]; exact h3)
      · exact ⟨0, [], .nil, hc, .inr (.inl ⟨j, k, ns, m, hj, h⟩)⟩
      · exact ⟨0, [], .nil, hc, .inr (.inr (.inl ⟨j, hj, h⟩))⟩
    · exact ⟨0, [], .nil, hc, .inl hs⟩

/-- What can come next. -/
theorem next_total (hL : ∀ p, N ≤ p → L p = L N) (n : Nat) :
    (∃ k, (∀ l ∈ block L n k, Comment l) ∧ Blank ct (L (n + k))) ∨
    (∃ k e, REntry ct b n (block L n k) e ∧ Separator ct (L (n + k))) ∨
    (∃ k pre ns m, BadEntry ct b n (block L n k) (L (n + k)) pre ns m) ∨ Endless ct b L n := by
  rcases comments_total L n with ⟨kc, hc, hnc⟩ | hcs
  case inr => exact .inr (.inr (.inr (.comments hcs)))
  by_cases hb : Blank ct (L (n + kc))
  · exact .inl ⟨kc, hc, hb⟩
  right
  have hns : ¬ Separator ct (L (n + kc)) := by
    rintro (h | h | ⟨x, t, h, _⟩)
    · exact hb h
    · exact hnc (by rw [h]; rfl)
    · exact hnc (by rw [h]; rfl)
  have hfz : ∃ fz : Bool, fz = true ↔ ∃ l ∈ block L n kc, FuzzyFlag l := by
    by_cases h : ∃ l ∈ block L n kc, FuzzyFlag l
    · exact ⟨true, by simpa using h⟩
    · exact ⟨false, by simpa using h⟩
  obtain ⟨fz, hfz⟩ := hfz
  -- the part from the msgid on
  have fromId : ∀ (k : Nat) (c : Option Str) (ns : List Note), RStart ct b n (block L n k) fz c ns → b!"msgid" <+: L (n + k) →
      (∃ k e, REntry ct b n (block L n k) e ∧ Separator ct (L (n + k))) ∨
      (∃ k pre ns m, BadEntry ct b n (block L n k) (L (n + k)) pre ns m) ∨ Endless ct b L n := by
    intro k c ns hst hid
    rcases field_total (ct := ct) (b := b) L _ (n + k) hid with ⟨k2, id, ns2, h1, h2⟩ | ⟨k2, ns2, m, h⟩ | hx
    case inr.inr => exact .inr (.inr (.id hst hx))
    · have hh : RHead ct b n (block L n (k + k2)) fz c id (ns ++ ns2) := by
        rw [block_append]; exact .mk hst (by rw [block_len]; exact h1)
      rw [Nat.add_assoc] at h2
      by_cases hp : b!"msgid_plural" <+: L (n + (k + k2))
      · rcases field_total (ct := ct) (b := b) L _ _ hp with ⟨k3, idp, ns3, h3, h4⟩ | ⟨k3, ns3, m, h⟩ | hx
        case inr.inr => exact .inr (.inr (.idPlural hh hx))
        · obtain ⟨k4, strs, h5, h6, h7⟩ := strs_total (ct := ct) (b := b) hL N (n + (k + k2) + k3) (by omega) h4
          have hpl : RPlural ct b n (block L n (k + k2 + k3 + k4)) fz c id idp strs (ns ++ ns2 ++ ns3) := by
            rw [block_append, block_append]
            refine .mk hh (by rw [block_len]; exact h3) ?_
            rw [← block_append, block_len]
            simpa only [Nat.add_assoc] using h5
          have e1 : n + (k + k2) + k3 + k4 = n + (k + k2 + k3 + k4) := by omega
          rw [e1] at h6 h7
          rcases h7 with h7 | ⟨j, k', ns', m, hj, h8⟩ | ⟨j, hj, hx⟩ | hx
          case inr.inr.inl => exact .inr (.inr (.strN hpl hj hx))
          case inr.inr.inr => exact .inr (.inr (.strs hpl hx))
          · by_cases hsep : Separator ct (L (n + (k + k2 + k3 + k4)))
            · by_cases hs : strs = []
              · subst hs
                exact .inr (.inl ⟨_, _, _, _, .noStrs hpl hsep⟩)
              · exact .inl ⟨_, _, .plural hpl hs, hsep⟩
            · exact .inr (.inl ⟨_, _, _, _, .otherStr hpl hsep h6 h7⟩)
          · refine .inr (.inl ⟨k + k2 + k3 + k4 + k', [.broken (ns ++ ns2 ++ ns3) strs], ns', m, ?_⟩)
            rw [block_append, ← Nat.add_assoc]
            exact .strN hpl hj (by rw [block_len]; simpa only [Nat.add_assoc] using h8)
        · refine .inr (.inl ⟨k + k2 + k3, [], ns ++ ns2 ++ ns3, m, ?_⟩)
          rw [block_append, ← Nat.add_assoc]
          exact .idPlural hh (by rw [block_len]; simpa only [Nat.add_assoc] using h)
      · by_cases hs : b!"msgstr" <+: L (n + (k + k2))
        · rcases field_total (ct := ct) (b := b) L _ _ hs with ⟨k3, t, ns3, h3, h4⟩ | ⟨k3, ns3, m, h⟩ | hx
          case inr.inr => exact .inr (.inr (.str hh hx))
          · have he : REntry ct b n (block L n (k + k2 + k3)) (.single (ns ++ ns2 ++ ns3) fz c id t (n + (k + k2 + k3))) := by
              have := REntry.single hh (ls' := block L (n + (k + k2)) k3) (t := t) (ns' := ns3) (by rw [block_len]; exact h3)
              rw [← block_append, block_len] at this
              exact this
            rw [Nat.add_assoc] at h4
            by_cases hsep : Separator ct (L (n + (k + k2 + k3)))
            · exact .inl ⟨_, _, he, hsep⟩
            · exact .inr (.inl ⟨_, _, _, _, .after he hsep h4⟩)
          · refine .inr (.inl ⟨k + k2 + k3, [], ns ++ ns2 ++ ns3, m, ?_⟩)
            rw [block_append, ← Nat.add_assoc]
            exact .str hh (by rw [block_len]; simpa only [Nat.add_assoc] using h)
        · exact .inr (.inl ⟨_, _, _, _, .noStr hh h2 hp hs⟩)
    · refine .inr (.inl ⟨k + k2, [], ns ++ ns2, m, ?_⟩)
      rw [block_append, ← Nat.add_assoc]
      exact .id hst (by rw [block_len]; exact h)
  by_cases hctx : b!"msgctxt" <+: L (n + kc)
  · rcases field_total (ct := ct) (b := b) L _ _ hctx with ⟨k2, t, ns2, h1, h2⟩ | ⟨k2, ns2, m, h⟩ | hx
    case inr.inr => exact .inr (.inr (.ctxt hc hx))
    · have hst : RStart ct b n (block L n (kc + k2)) fz (some t) ns2 := by
        rw [block_append]; exact .some hc hfz (by rw [block_len]; exact h1)
      rw [Nat.add_assoc] at h2
      by_cases hid : b!"msgid" <+: L (n + (kc + k2))
      · exact fromId _ _ _ hst hid
      · exact .inr (.inl ⟨_, _, _, _, .noIdAfterCtxt hst h2 hid⟩)
    · refine .inr (.inl ⟨kc + k2, [], ns2, m, ?_⟩)
      rw [block_append, ← Nat.add_assoc]
      exact .ctxt hc (by rw [block_len]; exact h)
  · by_cases hid : b!"msgid" <+: L (n + kc)
    · exact fromId _ _ _ (.none hc hfz) hid
    · exact .inr (.inl ⟨kc, _, _, _, .noId hc hnc hns hctx hid⟩)

theorem resume_total (L : Nat → Str) (N : Nat) : ∀ (d p : Nat), N ≤ p + d → ∃ q, Resume ct L N p q := by
  intro d
  induction d with
  | zero =>
    intro p hp
    exact ⟨p + 1, by omega, fun j h1 h2 => (by omega), .inl (by omega)⟩
  | succ d ih =>
    intro p hp
    by_cases hs : N ≤ p + 1 ∨ Separator ct (L (p + 1))
    · exact ⟨p + 1, by omega, fun j h1 h2 => (by omega), hs⟩
    · obtain ⟨q, h1, h2, h3⟩ := ih (p + 1) (by omega)
      refine ⟨q, by omega, fun j h4 h5 => ?_, h3⟩
      by_cases hj : j = p + 1
      · subst hj
        exact ⟨Nat.lt_of_not_le (fun h => hs (.inl h)), fun h => hs (.inr h)⟩
      · exact h2 j (by omega) h5

/-- Every text has a reading. -/
theorem reading_total (hL : ∀ p, N ≤ p → L p = L N) : ∀ (d n : Nat) (b : Bool), N ≤ n + d → ∃ ps e, Reading ct L N b n ps e := by
  intro d
  induction d with
  | zero => intro n b hn; exact ⟨[], _, .done (by omega)⟩
  | succ d ih =>
    intro n b hn
    by_cases hN : N ≤ n
    · exact ⟨[], _, .done hN⟩
    rcases next_total (ct := ct) (b := b) hL n with ⟨k, h1, h2⟩ | ⟨k, e, h1, h2⟩ | ⟨k, pre, ns, m, h⟩ | hx
    · obtain ⟨ps, e, hps⟩ := ih (n + k + 1) b (by omega)
      exact ⟨ps, e, .gap (by omega) h1 h2 hps⟩
    · obtain ⟨ps, e, hps⟩ := ih (n + k + 1) (b || saysBig5 ct e) (by omega)
      exact ⟨_, _, .entry (by omega) h1 h2 hps⟩
    · obtain ⟨q, h1, h2, h3⟩ := resume_total (ct := ct) L N N (n + k) (by omega)
      obtain ⟨ps, e, hps⟩ := ih q (b || pre.any (saysBig5 ct)) (by omega)
      exact ⟨_, _, .fault (by omega) h h1 h2 h3 hps⟩
    · exact ⟨[], _, .endless (by omega) hx⟩
end
end Tgt.POParser
