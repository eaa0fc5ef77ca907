import Verif.Proofs.Split
/-
LF and CRLF line ends: C33.
-/
namespace Tgt
open Spec Spec.Po POParser

namespace POParser

/-! ### A line with a CR at the end looks like the line -/

theorem isspace_cr (ct : CType) : ct.isspace 13 = true := by rw [ct.isspace_ascii 13 (by decide)]; decide

theorem cr_empty (ct : CType) (l : Str) : emptyLine ct (l ++ [13]) = emptyLine ct l := by
  have h := isspace_cr ct
  unfold emptyLine
  match l with
  | [] => simp [h]
  | [b] =>
    by_cases hb : b = 35
    · subst hb; simp [h]
    · simp [h, hb]
  | b :: b2 :: t =>
    by_cases hb : b = 35
    · subst hb; simp
    · simp [h, hb]

theorem cr_prefix (p : Str) (hp : (13 : Byte) ∉ p) : ∀ l : Str, hasPrefix p (l ++ [13]) = hasPrefix p l := by
  unfold hasPrefix
  induction p with
  | nil => intro l; simp
  | cons x p ih =>
    intro l
    simp only [List.mem_cons, not_or] at hp
    cases l with
    | nil => simp [List.isPrefixOf, Ne.symm hp.1]
    | cons y l =>
      simp only [List.cons_append, List.isPrefixOf]
      rw [ih hp.2]

theorem cr_occurs (p : Str) (hp : (13 : Byte) ∉ p) (hne : p ≠ []) : ∀ l : Str, occursIn p (l ++ [13]) = occursIn p l := by
  intro l
  have := cr_prefix p hp
  unfold hasPrefix at this
  induction l with
  | nil =>
    have h := this []
    rw [List.nil_append] at h
    cases p with
    | nil => exact absurd rfl hne
    | cons x p => simpa [occursIn] using h
  | cons y l ih =>
    rw [List.cons_append]
    unfold occursIn
    rw [ih]
    have h := this (y :: l)
    rw [List.cons_append] at h
    rw [h]

theorem cr_fuzzy (l : Str) : fuzzyFlag (l ++ [13]) = fuzzyFlag l := by
  unfold fuzzyFlag
  match l with
  | [] => rfl
  | [b] => simp
  | b :: b2 :: t =>
    have := cr_occurs b!"fuzzy" (by decide) (by decide) t
    simp only [List.cons_append, List.drop_succ_cons, List.drop_zero, List.length_cons, List.length_append]
    rw [this]
    simp

theorem cr_index (l : Str) : msgstrIndex (l ++ [13]) = msgstrIndex l := by
  unfold msgstrIndex
  rw [cr_prefix _ (by decide)]
  by_cases h : l.length ≤ 7
  · have : hasPrefix b!"msgstr[" l = true → l.length = 7 → (l ++ [13])[7]? = some 13 := by
      intro _ h7
      rw [List.getElem?_append_right (by omega), h7]; rfl
    have e : ¬ (l ++ [13]).length > 8 := by simp; omega
    have e2 : ¬ l.length > 8 := by omega
    rw [decide_eq_false e, decide_eq_false e2]; simp
  · by_cases h8 : l.length = 8
    · have e : (l ++ [13])[8]? = some 13 := by rw [List.getElem?_append_right (by omega), h8]; rfl
      have e2 : ¬ l.length > 8 := by omega
      rw [e]
      simp only [e2, decide_false, Bool.and_false, Bool.false_eq_true, if_false]
      cases (l ++ [13])[7]? <;> simp
    · have e7 : (l ++ [13])[7]? = l[7]? := List.getElem?_append_left (by omega)
      have e8 : (l ++ [13])[8]? = l[8]? := List.getElem?_append_left (by omega)
      rw [e7, e8]
      have e : (l ++ [13]).length > 8 := by simp; omega
      have e2 : l.length > 8 := by omega
      rw [decide_eq_true e, decide_eq_true e2]

/-- What a string literal reads as, if well-formed. -/
def Lex.text? (r : Lex) : Option Str := match r.res with | .ok (t, _) => some t | .error _ => none

theorem text_of {b : Bool} {t x : Str} : (lex b t).text? = some x ↔ ∃ body u rest, Lit b body x u ∧ t = body ++ 34 :: rest := by
  constructor
  · intro h
    unfold Lex.text? at h
    cases hr : (lex b t).res with
    | error m => rw [hr] at h; cases h
    | ok y =>
      obtain ⟨y, rest⟩ := y
      rw [hr] at h
      obtain rfl : y = x := by simpa using h
      obtain ⟨body, h1, h2⟩ := lit_lex b t.length t y rest (Nat.le_refl _) hr
      exact ⟨body, _, rest, h2, h1⟩
  · rintro ⟨body, u, rest, h, rfl⟩
    rw [lex_lit h]; rfl

theorem cr_lex (b : Bool) (t : Str) : (lex b (t ++ [13])).text? = (lex b t).text? := by
  apply Option.ext
  intro x
  rw [text_of, text_of]
  constructor
  · rintro ⟨body, u, rest, h, e⟩
    rcases List.eq_nil_or_concat rest with rfl | ⟨r, z, rfl⟩
    · have := congrArg List.getLast? e
      simp at this
    · rw [List.concat_eq_append] at e
      have e' : t ++ [13] = (body ++ 34 :: r) ++ [z] := by rw [e]; simp
      exact ⟨body, u, r, h, (List.append_inj' e' rfl).1⟩
  · rintro ⟨body, u, rest, h, rfl⟩
    exact ⟨body, u, rest ++ [13], h, by simp⟩

theorem rdLine_eq (b : Bool) (l : Str) (skip : Nat) : rdLine b l skip
    = if skip + 1 ≥ u32 l.length then none else if l[skip]? ≠ some 34 then none else (lex b (l.drop (skip + 1))).text? := by
  unfold rdLine Lex.text?
  split
  · rfl
  · split
    · rfl
    · cases (lex b (l.drop (skip + 1))).res <;> rfl

theorem lex_nil_text (b : Bool) : (lex b []).text? = none := rfl

theorem cr_rdLine (b : Bool) (l : Str) (hl : l.length + 1 < 4294967296) (skip : Nat) : rdLine b (l ++ [13]) skip = rdLine b l skip := by
  have e1 : u32 (l ++ [13]).length = l.length + 1 := by unfold u32; simp; omega
  have e2 : u32 l.length = l.length := by unfold u32; omega
  rw [rdLine_eq, rdLine_eq, e1, e2]
  by_cases h : skip + 1 < l.length
  · rw [if_neg (show ¬ skip + 1 ≥ l.length + 1 by omega), if_neg (show ¬ skip + 1 ≥ l.length by omega), List.getElem?_append_left (by omega), List.drop_append_of_le_length (by omega), cr_lex]
  · rw [if_pos (show skip + 1 ≥ l.length by omega)]
    by_cases h' : skip + 1 = l.length
    · rw [if_neg (by omega), List.drop_append_of_le_length (by omega), cr_lex, List.drop_eq_nil_of_le (by omega), lex_nil_text]
      simp
    · rw [if_pos (by omega)]

theorem cr_skipTo (ct : CType) : ∀ (l : Str) (i : Nat),
    (match skipTo ct (l ++ [13]) i with | .error _ => none | .ok j => some j) = (match skipTo ct l i with | .error _ => none | .ok j => some j) := by
  intro l
  induction l with
  | nil => intro i; simp [skipTo, isspace_cr]
  | cons x l ih =>
    intro i
    rw [List.cons_append]
    unfold skipTo
    by_cases hx : x = 34
    · rw [if_pos hx, if_pos hx]
    · rw [if_neg hx, if_neg hx]
      by_cases hs : (!ct.isspace x) = true
      · rw [if_pos hs, if_pos hs]
      · rw [if_neg hs, if_neg hs]; exact ih (i + 1)

theorem cr_rdKw (ct : CType) (b : Bool) (l : Str) (hl : l.length + 1 < 4294967296) (skip : Nat) : rdKw ct b (l ++ [13]) skip = rdKw ct b l skip := by
  have e1 : u32 (l ++ [13]).length = l.length + 1 := by unfold u32; simp; omega
  have e2 : u32 l.length = l.length := by unfold u32; omega
  unfold rdKw
  rw [e1, e2, List.take_of_length_le (by simp), List.take_of_length_le (Nat.le_refl _)]
  have key : ∀ {x y : Except Str Nat}, (match x with | .error _ => none | .ok j => some j) = (match y with | .error _ => none | .ok j => some j) →
      (match x with | .error _ => none | .ok i => rdLine b (l ++ [13]) i) = (match y with | .error _ => none | .ok i => rdLine b l i) := by
    intro x y h
    cases x <;> cases y <;> dsimp only at h ⊢ <;> (try cases h)
    exact cr_rdLine b l hl _
  by_cases h : skip + 1 < l.length
  · rw [if_neg (show ¬ skip + 1 ≥ l.length + 1 by omega), if_neg (show ¬ skip + 1 ≥ l.length by omega), List.getElem?_append_left (by omega), List.getElem?_append_left (by omega), cr_rdLine b l hl]
    split
    · rfl
    · rw [List.drop_append_of_le_length (by omega)]
      exact key (cr_skipTo ct _ _)
  · rw [if_pos (show skip + 1 ≥ l.length by omega)]
    by_cases h' : skip + 1 = l.length
    · rw [if_neg (by omega)]
      have e3 : (l ++ [13])[skip + 1]? = some 13 := by rw [List.getElem?_append_right (by omega), h']; simp
      rw [if_neg (by rw [e3]; simp), List.drop_append_of_le_length (by omega)]
      have none' : ∀ i, skip ≤ i → rdLine b l i = none := by
        intro i hi
        rw [rdLine_eq, if_pos (by omega)]
      have ge : ∀ (t : Str) (i j : Nat), skipTo ct t i = .ok j → i ≤ j := by
        intro t
        induction t with
        | nil => intro i j h; cases h
        | cons x t ih =>
          intro i j h
          unfold skipTo at h
          split at h
          · cases h; omega
          · split at h
            · cases h
            · have := ih _ _ h; omega
      cases hs : skipTo ct (List.drop skip l ++ [13]) skip with
      | error m => rfl
      | ok i =>
        dsimp only
        rw [cr_rdLine b l hl]
        exact none' i (ge _ _ _ hs)
    · rw [if_pos (by omega)]

theorem cr_scanQuote (ct : CType) : ∀ (l : Str) (i : Nat), scanQuote ct (l ++ [13]) i = scanQuote ct l i := by
  intro l
  induction l with
  | nil => intro i; simp [scanQuote]
  | cons x l ih =>
    intro i
    rw [List.cons_append]
    unfold scanQuote
    rw [ih]

theorem cr_rdCont (ct : CType) (b : Bool) (l : Str) (hl : l.length + 1 < 4294967296) : rdCont ct b (l ++ [13]) = rdCont ct b l := by
  unfold rdCont
  rw [cr_scanQuote]
  congr 1
  funext i
  exact cr_rdLine b l hl i

theorem cr_sim (ct : CType) (l : Str) (hl : l.length + 1 < 4294967296) : LineSim ct ct l (l ++ [13]) where
  empty := (cr_empty ct l).symm
  hash := (cr_prefix _ (by decide) l).symm
  msgid := (cr_prefix _ (by decide) l).symm
  plural := (cr_prefix _ (by decide) l).symm
  ctxt := (cr_prefix _ (by decide) l).symm
  msgstr := (cr_prefix _ (by decide) l).symm
  fuzzy := (cr_fuzzy l).symm
  index := (cr_index l).symm
  kw := fun b skip => (cr_rdKw ct b l hl skip).symm
  cont := fun b => (cr_rdCont ct b l hl).symm

/-! ### Lines of the converted text -/

theorem toCrlf_append (a b : Str) : toCrlf (a ++ b) = toCrlf a ++ toCrlf b := by unfold toCrlf; simp

theorem toCrlf_plain : ∀ (l : Str), (10 : Byte) ∉ l → toCrlf l = l := by
  intro l
  induction l with
  | nil => intro _; rfl
  | cons x l ih =>
    intro h
    simp only [List.mem_cons, not_or] at h
    have := ih h.2
    unfold toCrlf at this ⊢
    rw [List.flatMap_cons, this, if_neg (Ne.symm h.1)]
    rfl

theorem toCrlf_unlines (ls : List Str) (h : ∀ l ∈ ls, (10 : Byte) ∉ l) : toCrlf (unlines ls) = unlines (ls.map (· ++ [13])) := by
  induction ls with
  | nil => rfl
  | cons l ls ih =>
    have e : (10 : Byte) :: unlines ls = [10] ++ unlines ls := rfl
    simp only [unlines, List.map_cons]
    rw [toCrlf_append, e, toCrlf_append, ih (fun x hx => h x (List.mem_cons_of_mem _ hx)), toCrlf_plain l (h l List.mem_cons_self)]
    have : toCrlf [10] = [13, 10] := rfl
    rw [this]
    simp

theorem split_toCrlf (s : Str) (h : (splitLines s).2 = []) : splitLines (toCrlf s) = ((splitLines s).1.map (· ++ [13]), []) := by
  have h1 := splitLines_join s
  rw [h, List.append_nil] at h1
  have h2 := (splitLines_no_nl s).1
  have h3 := splitLines_unlines ((splitLines s).1.map (· ++ [13])) [] (by
    intro l hl
    obtain ⟨l', hl', rfl⟩ := List.mem_map.1 hl
    simpa using h2 l' hl') (by simp)
  rw [List.append_nil, ← toCrlf_unlines _ h2, h1] at h3
  exact h3

theorem toCrlf_bom (s : Str) : withoutBom (toCrlf s) = toCrlf (withoutBom s) := by
  by_cases hb : ∃ t, s = 0xef :: 0xbb :: 0xbf :: t
  · obtain ⟨t, rfl⟩ := hb
    rfl
  · have e1 : withoutBom s = s := by
      unfold withoutBom
      split
      · rename_i t; exact absurd ⟨t, rfl⟩ hb
      · rfl
    rw [e1]
    unfold withoutBom
    split
    · rename_i t h
      refine absurd ?_ hb
      match s with
      | [] => cases h
      | [x] =>
        unfold toCrlf at h
        by_cases hx : x = 10 <;> simp [hx] at h
      | [x, y] =>
        unfold toCrlf at h
        by_cases hx : x = 10 <;> by_cases hy : y = 10 <;> simp [hx, hy] at h
      | x :: y :: z :: s =>
        unfold toCrlf at h
        by_cases hx : x = 10 <;> by_cases hy : y = 10 <;> by_cases hz : z = 10 <;> simp [hx, hy, hz] at h
        obtain ⟨rfl, rfl, rfl, _⟩ := h
        exact ⟨s, rfl⟩
    · rfl

theorem crlf_lineCount (s : Str) (h : Terminated s) : lineCount (toCrlf s) = lineCount s := by
  unfold lineCount
  have h0 : (splitLines s).2 = [] := h
  rw [split_toCrlf s h, if_pos rfl, if_pos h0]
  simp

theorem crlf_tape (ct : CType) (s : Str) (h : Terminated s) (hl : ∀ l ∈ (splitLines s).1, l.length + 1 < 4294967296) :
    TapeSim ct ct 0 (startTape (.ofBytes s)) (startTape (.ofBytes (toCrlf s))) := by
  refine ⟨fun p => ?_, fun p => ?_⟩
  · rw [Nat.add_zero, (startTape_lines _ p).1, (startTape_lines _ p).1, toCrlf_bom]
    have hr := terminated_rest s h
    have hl' : ∀ l ∈ (splitLines (withoutBom s)).1, l.length + 1 < 4294967296 := by
      unfold withoutBom
      split
      · rename_i t
        intro l hm
        have hs : (splitLines t).1 ≠ [] := ((splitLines_bom t).2.1 h).1
        cases ht : (splitLines t).1 with
        | nil => exact absurd ht hs
        | cons l0 ls =>
          rw [ht] at hm
          have e : (splitLines (0xef :: 0xbb :: 0xbf :: t)).1 = (0xef :: 0xbb :: 0xbf :: l0) :: ls := by simp [splitLines, ht]
          rw [e] at hl
          rcases List.mem_cons.1 hm with rfl | hm
          · have := hl _ List.mem_cons_self
            simp only [List.length_cons] at this
            omega
          · exact hl l (List.mem_cons_of_mem _ hm)
      · exact hl
    unfold lineAt
    rw [split_toCrlf _ hr, hr]
    dsimp only
    rw [List.getD_eq_getElem?_getD, List.getD_eq_getElem?_getD, List.getElem?_map]
    cases hx : (splitLines (withoutBom s)).1[p]? with
    | none => exact LineSim.rfl
    | some l => exact cr_sim ct l (hl' l (List.mem_of_getElem? hx))
  · rw [Nat.add_zero, (startTape_lines _ p).2, (startTape_lines _ p).2, crlf_lineCount s h]

theorem toCrlf_length (s : Str) : s.length ≤ (toCrlf s).length := by
  induction s with
  | nil => simp
  | cons x s ih =>
    unfold toCrlf at ih ⊢
    rw [List.flatMap_cons, List.length_append, List.length_cons]
    have : 1 ≤ (if x = 10 then [13, 10] else [x]).length := by split <;> simp
    omega

end POParser

/-- C33.  Turning the LF line ends of a newline-terminated text (lines shorter than 4 GiB, fewer of them than an `int`
counts) into CR LF changes neither the dictionary nor the outcome of a parse. -/
theorem C33_crlf (c : Cfg) (s : Str) (d : Dictionary) (ht : Terminated s) (hl : ∀ l ∈ (splitLines s).1, l.length + 1 < 4294967296)
    (hN : lineCount s + 8 < 2147483647) (hF : (toCrlf s).length + 1 < c.fuel) :
    (observe (run c (.ofBytes (toCrlf s)) d)).noLog = (observe (run c (.ofBytes s) d)).noLog := by
  have hlen := toCrlf_length s
  have ht' : Terminated (toCrlf s) := by unfold Terminated; rw [split_toCrlf s ht]
  obtain ⟨w, q, h1, _⟩ := run_ends c s hN (by rw [terminated_rest s ht]; exact unlooped_nil _) (by omega)
  obtain ⟨w', q', h1', _⟩ := run_ends c (toCrlf s) (by rw [crlf_lineCount s ht]; exact hN)
    (by rw [terminated_rest _ ht']; exact unlooped_nil _) (by omega)
  have hs := sim_mainLoop (fuel := c.fuel) (fuel' := c.fuel) (crlf_tape c.ct s ht hl) (fun _ _ => rfl) c.fuel c.fuel false 0
  have e1 : mainLoopE c.ct c.fuel (startTape (.ofBytes s)) c.fuel false 0 = (w, .ok () q) := h1
  have e2 : mainLoopE c.ct c.fuel (startTape (.ofBytes (toCrlf s))) c.fuel false (0 + 0) = (w', .ok () q') := h1'
  rw [e1, e2] at hs
  rcases hs with hs | hs | ⟨hs, _⟩
  · exact hs.elim
  · exact hs.elim
  · rw [run_core c _ d (by show (toCrlf s).length < _; omega), run_core c _ d (by show s.length < _; omega), h1, h1',
      ← coreInterp_essence _ _ _ _ w, ← coreInterp_essence _ _ _ _ w', hs]
    rfl

/-- A text with a header, a comment, a string in two pieces, a plural entry and garbage. -/
def crlfDemo : Str := unlines [b!"msgid \"\"", b!"msgstr \"Content-Type: text/plain; charset=UTF-8\\n\"", [], b!"#, fuzzy", b!"msgid \"a\"", b!"\"b\"", b!"msgstr \"AB\"",
  [], b!"msgid \"c\"", b!"msgid_plural \"d\"", b!"msgstr[0] \"C\"", b!"msgstr[1] \"D\"", [], b!"msgid x", []]

example : Terminated crlfDemo ∧ (∀ l ∈ (splitLines crlfDemo).1, l.length + 1 < 4294967296) ∧ lineCount crlfDemo + 8 < 2147483647 := by decide +kernel

example : (observe (run ⟨.c, demoLib, true, b!"f", true, 400⟩ (.ofBytes (toCrlf crlfDemo)) (.init b!"UTF-8"))).noLog
    = .returned ((Add.plural none b!"c" b!"d" [b!"C", b!"D"]).apply ((Add.singular none b!"ab" b!"AB").apply (.init b!"UTF-8")).1).1 [] := by
  rw [C33_crlf _ _ _ (by decide +kernel) (by decide +kernel) (by decide +kernel) (by decide +kernel)]
  decide +kernel

end Tgt
