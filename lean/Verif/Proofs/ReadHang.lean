import Verif.Proofs.Read3
import Verif.Proofs.Hang
/-
Entries without end.
-/
namespace Tgt.POParser
open Spec Spec.Po

/-- Events that can be part of an entry without end. -/
def mild (x : Ev) : Bool := x.isDiag || x.soft

theorem evN_mild (ns : List Note) : ∀ x ∈ evN ns, mild x = true := by
  intro x hx
  obtain ⟨y, _, rfl⟩ := List.mem_map.1 hx
  rfl

theorem strEvs_mild (strs : List NumberedStr) : ∀ x ∈ strEvs strs, mild x = true := by
  intro x hx
  unfold strEvs at hx
  obtain ⟨y, _, hy⟩ := List.mem_flatMap.1 hx
  rcases List.mem_append.1 hy with h | h
  · exact evN_mild _ x h
  · rw [List.mem_singleton] at h
    subst h; rfl

theorem essence_mild {w : List Ev} (h : ∀ x ∈ w, mild x = true) : ∀ x ∈ essence w, x.soft = true := by
  intro x hx
  unfold essence at hx
  obtain ⟨y, hy, rfl⟩ := List.mem_map.1 hx
  obtain ⟨h1, h2⟩ := List.mem_filter.1 hy
  have := h y h1
  unfold mild at this
  cases y <;> simp_all [Ev.isDiag, Ev.soft, Ev.norm]

section
variable {α β : Type} {p q : Nat} {ns : List Note} {v : List Ev} {a : α}

theorem HangS.does {e : E α} {f : α → E β} (h1 : Does e p v (.ok a q)) (hv : ∀ x ∈ v, mild x = true) (h2 : HangS (f a) q) : HangS (e >>= f) p := by
  unfold HangS Does at *
  rw [e_bind]
  unfold E.bind
  rw [h1]
  dsimp only
  refine ⟨h2.1, fun x hx => ?_⟩
  rw [essence_append] at hx
  rcases List.mem_append.1 hx with h | h
  · exact essence_mild hv x h
  · exact h2.2 x h

theorem HangS.acts {e : E α} {f : α → E β} (h1 : Acts e p ns [] (.ok a q)) (h2 : HangS (f a) q) : HangS (e >>= f) p :=
  HangS.does h1.does (evN_mild ns) h2

theorem HangS.pos {e1 e2 : E α} {c : Prop} [Decidable c] (hc : c) (h : HangS e1 p) : HangS (if c then e1 else e2) p := by
  rw [if_pos hc]; exact h
theorem HangS.neg {e1 e2 : E α} {c : Prop} [Decidable c] (hc : ¬ c) (h : HangS e2 p) : HangS (if c then e1 else e2) p := by
  rw [if_neg hc]; exact h

/-- Something before. -/
theorem HangS.from {e : E α} {e' : E β} (h : HangS e q) (hv : ∀ x ∈ v, mild x = true)
    (h1 : ∀ {w}, Does e q w .diverge → Does e' p (v ++ w) .diverge) (h2 : ∀ {w}, Does e q w .overflow → Does e' p (v ++ w) .overflow) : HangS e' p := by
  obtain ⟨hr, he⟩ := h
  have hx : e q = ((e q).1, (e q).2) := rfl
  have key : ∀ x ∈ essence (v ++ (e q).1), x.soft = true := by
    intro x hx
    rw [essence_append] at hx
    rcases List.mem_append.1 hx with h | h
    · exact essence_mild hv x h
    · exact he x h
  rcases hr with hr | hr
  · rw [hr] at hx
    have := h1 hx
    unfold Does at this
    unfold HangS
    rw [this]
    exact ⟨.inl rfl, key⟩
  · rw [hr] at hx
    have := h2 hx
    unfold Does at this
    unfold HangS
    rw [this]
    exact ⟨.inr rfl, key⟩
end

section
variable {ct : CType} {fuel : Nat} {T : Tape} {L : Nat → Str} {N : Nat} {b : Bool}

theorem quoted_reindex {n : Nat} {q t : Str} {ns : List Note} (h : RQuoted ct b n q t ns) (n' : Nat) : ∃ ns', RQuoted ct b n' q t ns' := by
  obtain ⟨h⟩ := h
  exact ⟨_, .mk h⟩

theorem e_contLoop (h : Calm ct fuel T L N) : ∀ (f p : Nat) (out : Str), (∀ q, p < q → WholeCont ct b (L q)) → HangS (contLoopE ct fuel T b f out) p := by
  intro f
  induction f with
  | zero => intro p out _; exact HangS.diverge
  | succ f ih =>
    intro p out hw
    unfold contLoopE
    refine HangS.next (fun _ => HangS.line ?_)
    obtain ⟨ws, q, n, t, ns, h1, h2, h3⟩ := whole_iff.1 (hw (p + 1) (by omega))
    obtain ⟨ns', h3⟩ := quoted_reindex h3 (p + 1)
    have hl : (T (p + 1)).line = ws ++ q := by rw [h.line, h2]
    have hsq : scanQuote ct (T (p + 1)).line 0 = some ws.length := by
      obtain ⟨s, rfl⟩ := quoted_head h3
      rw [hl, scanQuote_blank h1]
      simp
    rw [hsq]
    dsimp only
    exact HangS.acts (indent_ev _ _) (HangS.acts (a_getStringLine h out hl rfl h3) (ih (p + 1) (out ++ t) (fun q hq => hw q (by omega))))

/-- Stuck after the first line of a field. -/
theorem e_first (h : Calm ct fuel T L N) {kw : Str} {p : Nat} {text : Str} {ns : List Note}
    (hf : RField ct b kw p [L p] text ns) (skip : Nat) (hk : kw.length = skip) (hc : ∀ out, HangS (contLoopE ct fuel T b fuel out) p) :
    HangS (getStringE ct fuel T b skip) p := by
  obtain ⟨sep, q, hsep, hl, n, t, ns', hq⟩ := field_one hf
  obtain ⟨ns', hq⟩ := quoted_reindex hq p
  rw [← h.line] at hl
  have hlen := len_line h (show (T p).line = kw ++ (sep ++ q) by rw [hl, List.append_assoc])
  have h2 : 2 ≤ (sep ++ q).length := by
    obtain ⟨_⟩ := hq; simp; omega
  unfold getStringE
  refine HangS.line (HangS.neg (by rw [hlen]; omega) (HangS.acts (a := t) (q := p) (a_first (ns := ns') h hl hk hsep (quoted_head hq) h2 (fun i hi => ?_)) (hc t)))
  have := a_getStringLine (p := p) (skip := i) h [] hl (by simp [hk, hi]) hq
  rwa [List.nil_append] at this

theorem e_field (h : Calm ct fuel T L N) {kw : Str} {p : Nat} (hf : EndlessField ct b L kw p) (skip : Nat) (hk : kw.length = skip) :
    HangS (getStringE ct fuel T b skip) p := by
  obtain ⟨⟨t, ns, h1⟩, h2⟩ := hf
  exact e_first h h1 skip hk (fun out => e_contLoop h fuel p out h2)

theorem e_overflow {f p : Nat} {out : Str} (hp : intMax ≤ p + 1) : HangS (contLoopE ct fuel T b f out) p := by
  cases f with
  | zero => exact HangS.diverge
  | succ f =>
    unfold contLoopE
    exact HangS.next (fun h => by omega)

/-- A field at the start. -/
theorem strs_head (h : Calm ct fuel T L N) {n : Nat} {ls : List Str} {strs : List NumberedStr} (hs : RStrs ct b n ls strs) (hat : At T n ls)
    (hg : ∀ p, n + ls.length ≤ p → ∃ j t ns', j ≤ 9 ∧ RField ct b (msgstrN j) p [L p] t ns') :
    ∃ k ls1 t ns ls' strs', k ≤ 9 ∧ RField ct b (msgstrN k) n ls1 t ns ∧ At T n ls1 ∧ ¬ Continues ct (T (n + ls1.length)).line ∧
      RStrs ct b (n + ls1.length) ls' strs' ∧ At T (n + ls1.length) ls' ∧
      ∀ p, n + ls1.length + ls'.length ≤ p → ∃ j t ns', j ≤ 9 ∧ RField ct b (msgstrN j) p [L p] t ns' := by
  have good : ∀ {p j : Nat} {t : Str} {ns : List Note}, RField ct b (msgstrN j) p [L p] t ns → ¬ Continues ct (T p).line := by
    intro p j t ns hf
    obtain ⟨r, ls', he⟩ := rfield_head hf
    simp only [List.cons.injEq] at he
    exact (kw_line (ct := ct) (l := (T p).line) (by rw [h.line, he.1]; rfl)).1
  cases hs with
  | nil =>
    obtain ⟨j, t, ns, hj, hf⟩ := hg n (by simp)
    obtain ⟨j2, t2, ns2, _, hf2⟩ := hg (n + 1) (by simp)
    exact ⟨j, [L n], t, ns, [], [], hj, hf, ⟨h.line n, trivial⟩, good hf2, .nil, trivial, fun p hp => hg p (by simp at hp ⊢; omega)⟩
  | @cons n k ls t ns1 ls' rs hk hfl hrs =>
    obtain ⟨hat1, hat2⟩ := At_append.1 hat
    rw [List.length_append, ← Nat.add_assoc] at hg
    refine ⟨k, ls, t, ns1, ls', rs, hk, hfl, hat1, ?_, hrs, hat2, hg⟩
    cases hrs with
    | nil =>
      obtain ⟨j, t, ns, hj, hf⟩ := hg (n + ls.length) (by simp)
      exact good hf
    | cons _ hf2 _ =>
      obtain ⟨r1, ls1, hl1⟩ := rfield_head hf2
      rw [hl1] at hat2
      exact (kw_line (ct := ct) (l := (T (n + ls.length)).line) (by rw [hat2.1]; rfl)).1

/-- Numbered strings for ever. -/
theorem e_strs (h : Calm ct fuel T L N) : ∀ (f : Nat) {n : Nat} {ls : List Str} {strs : List NumberedStr} (first saw : Bool), RStrs ct b n ls strs → At T n ls →
    (∀ p, n + ls.length ≤ p → ∃ j t ns', j ≤ 9 ∧ RField ct b (msgstrN j) p [L p] t ns') → HangS (pluralLoopE ct fuel T b f first saw) n := by
  have hfew := h.few
  have hfu := h.fuel
  intro f
  induction f with
  | zero => intro n ls strs first saw _ _ _; exact HangS.diverge
  | succ f ih =>
    intro n ls strs first saw hs hat hg
    obtain ⟨k, ls1, t, ns, ls', strs', hk, hf, hat1, hc, hs', hat', hg'⟩ := strs_head h hs hat hg
    obtain ⟨r0, ls0, hl0⟩ := rfield_head hf
    have hl : (T n).line = msgstrN k ++ r0 := by rw [hl0] at hat1; exact hat1.1
    have hkl := kw_line (ct := ct) (l := (T n).line) (by rw [hl]; rfl)
    unfold pluralLoopE
    refine HangS.line (HangS.neg (by rw [not_sep_empty hkl.2.1]; simp) ?_)
    rw [show msgstrIndex (T n).line = some k by rw [hl]; exact msgstrIndex_kw k hk _]
    dsimp only
    have hle := field_le h hf hat1 (not_whole hc)
    by_cases hm : n + ls1.length < intMax
    · exact HangS.acts (a_getString' h hf 9 (msgstrN_length k) hat1 (by omega) hm hc)
        (HangS.does (v := [.conv k t]) (Does.emit _) (fun x hx => by rw [List.mem_singleton] at hx; subst hx; rfl) (ih _ _ hs' hat' hg'))
    · have h1 : ls1.length = 1 := by omega
      refine HangS.first ?_
      match ls1, h1 with
      | [l], _ =>
        have e1 : l = L n := by rw [← h.line]; exact hat1.1.symm
        subst e1
        exact e_first h hf 9 (msgstrN_length k) (fun out => e_overflow (by simpa using hm))

/-- An entry without end. -/
theorem e_entry (h : Calm ct fuel T L N) {n : Nat} (hn : n < N) (he : Endless ct b L n) : HangS (entryE ct fuel T b) n := by
  have hfew := h.few
  have hfu := h.fuel
  have hnN := Nat.le_of_lt hn
  -- the first line of a field
  have kw : ∀ {p : Nat} {k : Str}, EndlessField ct b L (109 :: k) p → ∃ r, (T p).line = 109 :: k ++ r := by
    intro p k ⟨⟨t, ns, hf⟩, _⟩
    obtain ⟨r, ls', he⟩ := rfield_head hf
    simp only [List.cons.injEq] at he
    exact ⟨r, by rw [h.line, he.1]⟩
  have body : ∀ {p1 : Nat} {fz : Bool}, Acts (commentLoopE T fuel false) n [] [] (.ok fz p1) → emptyLine ct (T p1).line = false →
      HangS (entryBodyE ct fuel T b fz) p1 → HangS (entryE ct fuel T b) n := by
    intro p1 fz h1 h2 h3
    unfold entryE
    exact HangS.acts h1 (HangS.line (HangS.first (HangS.pos (by rw [h2]; rfl) h3)))
  cases he with
  | comments hc =>
    unfold entryE
    exact HangS.first (h_comments _ _ _ (fun q hq => by rw [h.line]; exact hc q hq))
  | @ctxt k hc hf =>
    obtain ⟨r, hl⟩ := kw hf
    have hk := kw_line (ct := ct) (l := (T (n + k)).line) (by rw [hl]; rfl)
    have hat := block_at (T := T) h.line n k
    have hle := comments_le h _ n hc hat hnN (by rw [block_length]; exact hk.2.2)
    have hcl := a_commentLoop (T := T) (block L n k) hc (fz := decide (∃ l ∈ block L n k, fuzzyFlag l = true)) (by
      simp only [decide_eq_true_eq]
      constructor
      · rintro ⟨l, h1, h2⟩; exact ⟨l, h1, (fuzzyFlag_iff l (hc l h1)).1 h2⟩
      · rintro ⟨l, h1, h2⟩; exact ⟨l, h1, (fuzzyFlag_iff l (hc l h1)).2 h2⟩) fuel n hat (by omega) (by omega) (by rw [block_length]; exact hk.2.2)
    rw [block_length] at hcl
    refine body hcl (not_sep_empty hk.2.1) ?_
    rw [entryBody_eq]
    refine HangS.first ?_
    unfold ctxtE
    exact HangS.line (HangS.pos (by rw [hl]; exact prefix_kw _ _) (HangS.first (e_field h hf 7 rfl)))
  | @id k fz c ns hs hf =>
    obtain ⟨r, hl⟩ := kw hf
    have hk := kw_line (ct := ct) (l := (T (n + k)).line) (by rw [hl]; rfl)
    have hat := block_at (T := T) h.line n k
    obtain ⟨n1, n2⟩ := rstart_next hs hl
    have hle := start_le h hs hat hnN (fun _ => by rw [block_length]; exact hk.2.2) (by rw [block_length]; exact not_whole hk.1)
    obtain ⟨p1, k1, k2, k3⟩ := a_start h hs hat (by omega) (by rw [block_length]; exact n1) (by rw [block_length]; exact n2)
    rw [block_length] at k3
    refine body k1 k2 ?_
    rw [entryBody_eq]
    refine HangS.acts k3 (HangS.first ?_)
    unfold msgidE
    exact HangS.line (HangS.pos (by rw [hl]; exact prefix_kw _ _) (e_field h hf 5 rfl))
  | @str k fz c id ns hh hf =>
    obtain ⟨r, hl⟩ := kw hf
    have hk := kw_line (ct := ct) (l := (T (n + k)).line) (by rw [hl]; rfl)
    have hat := block_at (T := T) h.line n k
    have hle := head_le h hh hat hnN (by rw [block_length]; exact not_whole hk.1)
    obtain ⟨p1, k1, k2, k3⟩ := a_head h hh hat (by omega) (by rw [block_length]; exact hk.1)
    rw [block_length] at k3
    refine body k1 k2 (HangS.from (e := afterIdE ct fuel T b fz c id) (q := n + k) ?_ (evN_mild ns) (fun h => k3 h) (fun h => k3 h))
    unfold afterIdE
    refine HangS.line (HangS.neg (by rw [hl]; simp [hasPrefix]) (HangS.line (HangS.pos (by rw [hl]; exact prefix_kw _ _) ?_)))
    unfold singularEntryE
    exact HangS.first (e_field h hf 6 rfl)
  | @idPlural k fz c id ns hh hf =>
    obtain ⟨r, hl⟩ := kw hf
    have hk := kw_line (ct := ct) (l := (T (n + k)).line) (by rw [hl]; rfl)
    have hat := block_at (T := T) h.line n k
    have hle := head_le h hh hat hnN (by rw [block_length]; exact not_whole hk.1)
    obtain ⟨p1, k1, k2, k3⟩ := a_head h hh hat (by omega) (by rw [block_length]; exact hk.1)
    rw [block_length] at k3
    refine body k1 k2 (HangS.from (e := afterIdE ct fuel T b fz c id) (q := n + k) ?_ (evN_mild ns) (fun h => k3 h) (fun h => k3 h))
    unfold afterIdE
    refine HangS.line (HangS.pos (by rw [hl]; exact prefix_kw _ _) ?_)
    unfold pluralEntryE
    exact HangS.first (e_field h hf 12 rfl)
  | @strN k fz c id idp strs ns j hp hj hf =>
    obtain ⟨r, hl⟩ := kw hf
    have hk := kw_line (ct := ct) (l := (T (n + k)).line) (by rw [hl]; rfl)
    have hat := block_at (T := T) h.line n k
    have hle := plural_le h hp hat hnN (by rw [block_length]; exact not_whole hk.1) (by
      intro hN
      exfalso
      rw [block_length] at hN
      have := whole_continues (hf.2 (n + k + 1) (by omega))
      rw [← h.line, h.same (p := n + k + 1) (q := n + k) (by omega) hN] at this
      exact hk.1 this)
    obtain ⟨p1, f, h0, k1, k2, k3⟩ := a_plural h hp hat hle (by rw [block_length]; exact hk.1)
    obtain ⟨f, rfl⟩ : ∃ g, f = g + 1 := ⟨f - 1, by omega⟩
    rw [block_length] at k3
    refine body k1 k2 (HangS.from (v := evN ns ++ (.clear :: strEvs strs)) (e := pluralLoopE ct fuel T b (f + 1) strs.isEmpty (strs.any (fun x => !x.2.2.isEmpty)) >>= pluralEndE ct fuel T fz c id idp) (q := n + k) ?_ ?_
      (fun h => k3 h) (fun h => k3 h))
    · refine HangS.first ?_
      unfold pluralLoopE
      refine HangS.line (HangS.neg (by rw [not_sep_empty hk.2.1]; simp) ?_)
      rw [show msgstrIndex (T (n + k)).line = some j by rw [hl]; exact msgstrIndex_kw j hj _]
      exact HangS.first (e_field h hf 9 (msgstrN_length j))
    · intro x hx
      rcases List.mem_append.1 hx with hx | hx
      · exact evN_mild ns x hx
      · rcases List.mem_cons.1 hx with rfl | hx
        · rfl
        · exact strEvs_mild strs x hx
  | @strs k fz c id idp strs ns hp hg =>
    have hat := block_at (T := T) h.line n k
    have hlen := block_length (L := L) n k
    generalize block L n k = ls at hp hat hlen
    obtain ⟨hh, hf, hs⟩ := hp
    rename_i ls1 ns1 ls2 ns2 ls3
    obtain ⟨hat12, hat3⟩ := At_append.1 hat
    rw [List.length_append] at hlen
    have hg' : ∀ p, n + (ls1 ++ ls2).length + ls3.length ≤ p → ∃ j t ns', j ≤ 9 ∧ RField ct b (msgstrN j) p [L p] t ns' := fun p hp => hg p (by omega)
    obtain ⟨k', lsx, t, nsx, ls', strs', hk', hfx, hatx, -, -, -, -⟩ := strs_head h hs hat3 hg'
    obtain ⟨r0, ls0, hl0⟩ := rfield_head hfx
    have hl : (T (n + (ls1 ++ ls2).length)).line = msgstrN k' ++ r0 := by rw [hl0] at hatx; exact hatx.1
    have hkl := kw_line (ct := ct) (l := (T (n + (ls1 ++ ls2).length)).line) (by rw [hl]; rfl)
    have hp0 : RPlural ct b n (ls1 ++ ls2) fz c id idp [] (ns1 ++ ns2) := by
      have := RPlural.mk hh hf (ls'' := []) (strs := []) .nil
      rwa [List.append_nil] at this
    obtain ⟨hat1, hat2⟩ := At_append.1 hat12
    have hle : n + (ls1 ++ ls2).length ≤ N + 3 := by
      obtain ⟨r1, ls1', hl1⟩ := rfield_head hf
      have hl' : (T (n + ls1.length)).line = b!"msgid_plural" ++ r1 := by rw [hl1] at hat2; exact hat2.1
      have hkl' := kw_line (ct := ct) (l := (T (n + ls1.length)).line) (by rw [hl']; rfl)
      have b1 := head_le h hh hat1 hnN (not_whole hkl'.1)
      have b2 := field_le h hf hat2 (by rw [List.length_append, ← Nat.add_assoc] at hkl; exact not_whole hkl.1)
      rw [List.length_append]
      omega
    obtain ⟨p1, f, h0, k1, k2, k3⟩ := a_plural h hp0 hat12 hle hkl.1
    refine body k1 k2 (HangS.from (v := evN (ns1 ++ ns2) ++ (.clear :: strEvs [])) (e := pluralLoopE ct fuel T b f [].isEmpty (List.any [] (fun (x : NumberedStr) => !x.2.2.isEmpty)) >>= pluralEndE ct fuel T fz c id idp) (q := n + (ls1 ++ ls2).length) ?_ ?_
      (fun h => k3 h) (fun h => k3 h))
    · exact HangS.first (e_strs h f _ _ hs hat3 hg')
    · intro x hx
      rcases List.mem_append.1 hx with hx | hx
      · exact evN_mild _ x hx
      · rcases List.mem_cons.1 hx with rfl | hx
        · rfl
        · exact strEvs_mild _ x hx

theorem e_main (h : Calm ct fuel T L N) {n : Nat} (hn : n < N) (he : Endless ct b L n) (f : Nat) : HangS (mainLoopE ct fuel T f b) n := by
  cases f with
  | zero => exact HangS.diverge
  | succ f =>
    have hx : (T n).eof = false := by
      cases hx : (T n).eof with
      | false => rfl
      | true => have := (h.eof _).1 hx; omega
    obtain ⟨h1, h2⟩ := e_entry h hn he
    unfold HangS mainLoopE
    rw [hx]
    simp only [Bool.not_false, if_true]
    rcases hy : entryE ct fuel T b n with ⟨w, r⟩
    rw [hy] at h1 h2
    dsimp only at h1 h2
    rcases h1 with rfl | rfl
    · exact ⟨.inl rfl, h2⟩
    · exact ⟨.inr rfl, h2⟩

/-- What reading a text without end comes to. -/
theorem a_endless (h : Calm ct fuel T L N) {b : Bool} {n : Nat} {ps : List Piece} (hr : Reading ct L N b n ps false)
    (f : Nat) (hn : n ≤ N + 5) (hf : N + 6 < f + n) : ∃ w r, mainLoopE ct fuel T f b n = (ps.flatMap pieceEvs ++ w, r) ∧
      (r = .diverge ∨ r = .overflow) ∧ ∀ x ∈ essence w, x.soft = true := by
  obtain ⟨q, w, r, h1, h2⟩ := a_main' h (fun _ w r => (r = .diverge ∨ r = .overflow) ∧ ∀ x ∈ essence w, x.soft = true) hr (fun h => by cases h)
    (fun _ n f b hn he => e_main h hn he f) f hn hf
  exact ⟨w, r, h1, h2⟩
end
end Tgt.POParser
