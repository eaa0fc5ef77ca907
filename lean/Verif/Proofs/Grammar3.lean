import Verif.Proofs.Grammar2
/-
Well-formed files: the whole parse.
-/
namespace Tgt.POParser
open Spec Spec.Po

/-! ### Headers -/

theorem headerLines_eq (t acc : Str) : headerLines t acc
    = match (splitLines t).1 with
      | [] => []
      | l :: ls => (acc ++ l) :: ls := by
  induction t generalizing acc with
  | nil => rfl
  | cons b t ih =>
    unfold headerLines splitLines
    by_cases hb : b = 10
    · simp only [hb, if_true, List.append_nil]
      rw [ih]
      congr 1
      cases (splitLines t).1 <;> rfl
    · simp only [hb, if_false]
      rw [ih]
      cases (splitLines t).1 with
      | nil => rfl
      | cons l ls => simp

theorem headerLines_nil (t : Str) : headerLines t [] = (splitLines t).1 := by
  rw [headerLines_eq]
  cases (splitLines t).1 <;> rfl

theorem headerCharset_go (ct : CType) (t acc fr : Str) : headerCharset.go ct t acc fr
    = (headerLines t acc).foldl (fun fr l => if hasPrefix b!"Content-Type: text/plain; charset=" l
        then (l.drop 34).map ct.toupper else fr) fr := by
  induction t generalizing acc fr with
  | nil => rfl
  | cons b t ih =>
    unfold headerCharset.go headerLines
    by_cases hb : b = 10
    · simp only [hb, if_true, List.foldl_cons]
      rw [ih]
    · simp only [hb, if_false]
      rw [ih]

theorem afterPrefix_eq (w l : Str) : afterPrefix w l = if hasPrefix w l then some (l.drop w.length) else none := by
  induction w generalizing l with
  | nil => simp [afterPrefix, hasPrefix]
  | cons a w ih =>
    cases l with
    | nil => simp [afterPrefix, hasPrefix]
    | cons b l =>
      unfold afterPrefix
      by_cases h : a = b
      · subst h
        rw [if_pos rfl, ih]
        simp [hasPrefix, List.isPrefixOf]
      · rw [if_neg h]
        simp [hasPrefix, List.isPrefixOf, h]

theorem headerCharset_eq (ct : CType) (t : Str) : headerCharset ct t = declaredCharset ct t := by
  unfold headerCharset declaredCharset
  rw [headerCharset_go, headerLines_nil]
  generalize (splitLines t).1 = ls
  have key : ∀ (ls : List Str) (fr : Str), ls.foldl (fun fr l => if hasPrefix b!"Content-Type: text/plain; charset=" l
        then (l.drop 34).map ct.toupper else fr) (fr.map ct.toupper)
      = (((ls.filterMap (afterPrefix b!"Content-Type: text/plain; charset=")).getLast?).getD fr).map ct.toupper := by
    intro ls
    induction ls with
    | nil => intro fr; rfl
    | cons l ls ih =>
      intro fr
      rw [List.foldl_cons, List.filterMap_cons, afterPrefix_eq]
      by_cases h : hasPrefix b!"Content-Type: text/plain; charset=" l = true
      · rw [if_pos h, if_pos h, ih]
        dsimp only
        rw [List.getLast?_cons]
        show _ = List.map ct.toupper (((List.filterMap _ ls).getLast?.getD (l.drop 34)))
        rfl
      · rw [if_neg h, if_neg h, ih]
  exact key ls []

theorem sourceCharset_eq (ct : CType) (t : Str) : sourceCharset (headerCharset ct t) = Po.sourceCharset ct t := by
  unfold sourceCharset Po.sourceCharset
  rw [headerCharset_eq]
  by_cases h1 : declaredCharset ct t = []
  · simp [h1]
  · by_cases h2 : declaredCharset ct t = b!"CHARSET"
    · simp [h2]
    · simp [h1, h2]

theorem firstRule_eq (ct : CType) (t : Str) : firstRule ct (headerLines t []) = headerRule ct t := by
  unfold headerRule
  rw [headerLines_nil]
  generalize (splitLines t).1 = ls
  induction ls with
  | nil => rfl
  | cons l ls ih =>
    unfold firstRule
    rw [List.filterMap_cons]
    have hex : hasPrefix b!"Plural-Forms:" l = true → hasPrefix b!"Content-Type:" l = false := by
      intro h
      unfold hasPrefix at *
      cases l with
      | nil => simp [List.isPrefixOf] at h
      | cons b l =>
        simp only [List.isPrefixOf, Bool.and_eq_true, beq_iff_eq] at h
        rw [← h.1]
        simp [List.isPrefixOf]
    by_cases h1 : hasPrefix b!"Plural-Forms:" l = true
    · have h1' : b!"Plural-Forms:".isPrefixOf l = true := h1
      by_cases h2 : (PluralForms.fromString ct l).isDefined = true
      · rw [if_pos (by simp [hex h1, h1, h2]), if_pos ⟨h1', h2⟩]
        rfl
      · rw [if_neg (by simp [h2]), if_neg (fun h => h2 h.2)]
        exact ih
    · have h1' : ¬ b!"Plural-Forms:".isPrefixOf l = true := h1
      rw [if_neg (by simp [h1]), if_neg (fun h => h1' h.1)]
      exact ih

/-! ### Plural strings -/

theorem foldl_max_le (l : List Nat) (a : Nat) : a ≤ l.foldl max a ∧ ∀ x ∈ l, x ≤ l.foldl max a := by
  induction l generalizing a with
  | nil => exact ⟨Nat.le_refl _, fun x hx => by cases hx⟩
  | cons b l ih =>
    obtain ⟨h1, h2⟩ := ih (max a b)
    refine ⟨by simp only [List.foldl_cons]; omega, ?_⟩
    intro x hx
    simp only [List.foldl_cons]
    rcases List.mem_cons.1 hx with rfl | hx
    · omega
    · exact h2 x hx

theorem setAt_getElem? (v : List Str) (n : Nat) (s : Str) (i : Nat) :
    (setAt v n s)[i]? = if i = n then some s else if i < v.length then v[i]? else if i < n then some [] else none := by
  unfold setAt
  by_cases h : n ≥ v.length
  · rw [if_pos h, List.getElem?_set]
    simp only [List.length_append, List.length_replicate]
    by_cases h1 : n = i
    · subst h1
      rw [if_pos rfl, if_pos (by omega), if_pos rfl]
    · rw [if_neg h1, if_neg (Ne.symm h1)]
      by_cases h2 : i < v.length
      · rw [List.getElem?_append_left h2, if_pos h2]
      · rw [List.getElem?_append_right (by omega), if_neg h2, List.getElem?_replicate]
        by_cases h3 : i < n
        · rw [if_pos (by omega), if_pos h3]
        · rw [if_neg (by omega), if_neg h3]
  · rw [if_neg h, List.getElem?_set]
    by_cases h1 : n = i
    · subst h1
      rw [if_pos rfl, if_pos (by omega), if_pos rfl]
    · rw [if_neg h1, if_neg (Ne.symm h1)]
      by_cases h2 : i < v.length
      · rw [if_pos h2]
      · rw [if_neg h2, if_neg (by omega)]
        exact List.getElem?_eq_none (by omega)

theorem setAt_length (v : List Str) (n : Nat) (s : Str) : (setAt v n s).length = max v.length (n + 1) := by
  unfold setAt
  split
  · simp; omega
  · simp; omega

/-- The collected strings. -/
theorem collect_eq (strs : List (Nat × Str)) (h : strs ≠ []) :
    strs.foldl (fun v x => setAt v x.1 x.2) [] = pluralVec strs := by
  have key : ∀ (strs : List (Nat × Str)) (v : List Str),
      (strs.foldl (fun v x => setAt v x.1 x.2) v).length = (strs.map (fun x => x.1 + 1)).foldl max v.length ∧
      ∀ i, (strs.foldl (fun v x => setAt v x.1 x.2) v)[i]?
        = if i < (strs.map (fun x => x.1 + 1)).foldl max v.length then
            some ((((strs.filter (fun x => x.1 == i)).getLast?).map Prod.snd).getD (v[i]?.getD []))
          else none := by
    intro strs
    induction strs with
    | nil =>
      intro v
      refine ⟨rfl, fun i => ?_⟩
      simp only [List.foldl_nil, List.map_nil, List.filter_nil, List.getLast?_nil, Option.map_none, Option.getD_none]
      by_cases hi : i < v.length
      · rw [if_pos hi, List.getElem?_eq_getElem hi]; rfl
      · rw [if_neg hi]; exact List.getElem?_eq_none (by omega)
    | cons x strs ih =>
      intro v
      obtain ⟨h1, h2⟩ := ih (setAt v x.1 x.2)
      rw [setAt_length] at h1
      simp only [setAt_length] at h2
      refine ⟨by simpa using h1, fun i => ?_⟩
      rw [List.foldl_cons, h2, List.map_cons, List.foldl_cons]
      by_cases hi : i < (strs.map (fun x => x.1 + 1)).foldl max (max v.length (x.1 + 1))
      · rw [if_pos hi, if_pos hi, List.filter_cons]
        congr 1
        rw [setAt_getElem?]
        by_cases hx : i = x.1
        · subst hx
          simp only [beq_self_eq_true, if_true, List.getLast?_cons, Option.map_some, Option.getD_some]
          cases (strs.filter (fun y => y.1 == x.1)).getLast? <;> rfl
        · have : (x.1 == i) = false := by simpa using Ne.symm hx
          simp only [hx, if_false, this, Bool.false_eq_true]
          cases (strs.filter (fun y => y.1 == i)).getLast? with
          | some y => rfl
          | none =>
            simp only [Option.map_none, Option.getD_none]
            by_cases hv : i < v.length
            · rw [if_pos hv]
            · rw [if_neg hv, List.getElem?_eq_none (by omega)]
              split <;> rfl
      · rw [if_neg hi, if_neg hi]
  obtain ⟨_, h2⟩ := key strs []
  have hmax : ∀ (l : List (Nat × Str)) (a : Nat), (l.map (fun x => x.1 + 1)).foldl max (a + 1) = (l.map Prod.fst).foldl max a + 1 := by
    intro l
    induction l with
    | nil => intro a; rfl
    | cons x l ih =>
      intro a
      simp only [List.map_cons, List.foldl_cons]
      rw [← ih]
      congr 1
      omega
  have hlen : (strs.map (fun x => x.1 + 1)).foldl max 0 = (strs.map Prod.fst).foldl max 0 + 1 := by
    cases strs with
    | nil => exact absurd rfl h
    | cons x l =>
      simp only [List.map_cons, List.foldl_cons]
      have e1 : max 0 (x.1 + 1) = max 0 x.1 + 1 := by omega
      rw [e1, hmax]
  apply List.ext_getElem?
  intro i
  rw [h2]
  unfold pluralVec
  simp only [List.length_nil, hlen, List.getElem?_nil, Option.getD_none]
  by_cases hi : i < (strs.map Prod.fst).foldl max 0 + 1
  · rw [if_pos hi, List.getElem?_map, List.getElem?_range hi]
    rfl
  · rw [if_neg hi]
    symm
    apply List.getElem?_eq_none
    simp; omega

/-! ### Meaning -/

theorem convertAll_interp (ct : CType) (lib : IconvLib) (uf : Bool) (cs : Str) (strs : List (Nat × Str)) (k : Core) :
    coreInterp ct lib uf cs (strs.map (fun x => Ev.conv x.1 x.2)) k
      = match convertAll lib k.conv strs with
        | .error f => .fault f
        | .ok (strs', cv) => .ok () { k with vec := strs'.foldl (fun v x => setAt v x.1 x.2) k.vec, conv := cv } := by
  induction strs generalizing k with
  | nil => rfl
  | cons x strs ih =>
    obtain ⟨n, t⟩ := x
    simp only [List.map_cons, coreInterp, bind_apply, coreStep, convertAll]
    cases hc : k.conv.convert lib t with
    | fault f => rfl
    | ok t' cv' l =>
      dsimp only
      rw [ih]
      dsimp only
      cases convertAll lib cv' strs with
      | error f => rfl
      | ok y => rfl

theorem convertAll_ne {lib : IconvLib} {cv cv' : IConv} {strs strs' : List (Nat × Str)} (h : strs ≠ [])
    (hc : convertAll lib cv strs = .ok (strs', cv')) : strs' ≠ [] := by
  cases strs with
  | nil => exact absurd rfl h
  | cons x r =>
    obtain ⟨n, t⟩ := x
    unfold convertAll at hc
    split at hc
    · cases hc
    · split at hc
      · cases hc
      · cases hc; simp

/-- Result of loading, as a core result. -/
def loadRes : Res Core Unit → Ending × Effect
  | .ok _ k => (.returned, k.eff)
  | .poError k => (.unfinished, k.eff)
  | .exn w k => (.threw w, k.eff)
  | .fault f => (.crashed f, ⟨[], none⟩)
  | .diverge => (.unfinished, ⟨[], none⟩)

theorem load_eq (ct : CType) (lib : IconvLib) (uf : Bool) (cs : Str) (es : List Entry)
    (hes : ∀ e ∈ es, ∀ idp, e.body ≠ .plural idp []) : ∀ (k : Core),
    loadRes (coreInterp ct lib uf cs (es.flatMap evsOf) k) = load ct lib uf cs es k.conv k.eff := by
  induction es with
  | nil => intro k; rfl
  | cons e es ih =>
    intro k
    have ih := ih (fun x hx => hes x (List.mem_cons_of_mem _ hx))
    rw [List.flatMap_cons, coreInterp_append, bind_apply]
    unfold load
    have hne := hes e List.mem_cons_self
    cases hb : e.body with
    | single t =>
      have hev : evsOf e = if e.msgid.isEmpty then [.header 0 t] else if !t.isEmpty then [.singular e.fuzzy e.ctxt e.msgid t] else [] := by
        unfold evsOf; rw [hb]
      have hhd : e.header? = if e.msgid = [] then some t else none := by
        unfold Entry.header?; rw [hb]
      rw [hev, hhd]
      by_cases h1 : e.msgid = []
      · rw [if_pos (by simp [h1]), if_pos h1]
        dsimp only
        simp only [coreInterp, bind_apply, coreStep]
        rw [sourceCharset_eq, firstRule_eq]
        generalize k.conv.setCharsets ct lib (Po.sourceCharset ct t) cs = g
        obtain ⟨cv, o⟩ := g
        cases o with
        | none =>
          dsimp only
          simp only [Prog.pure]
          rw [ih]
        | some w => rfl
      · rw [if_neg (by simpa using h1), if_neg h1]
        dsimp only
        by_cases h2 : t = []
        · subst h2
          rw [if_neg (by simp), if_neg (by simp)]
          simp only [coreInterp, Prog.pure]
          rw [ih]
        · rw [if_pos (by simpa using h2)]
          simp only [coreInterp, bind_apply, coreStep]
          by_cases h3 : uf = true ∨ e.fuzzy = false
          · rw [if_pos (by simpa using h3), if_pos ⟨h2, h3⟩]
            cases hc : k.conv.convert lib t with
            | fault f => rfl
            | ok t' cv' l =>
              dsimp only
              simp only [Prog.pure]
              rw [ih]
          · rw [if_neg (by simpa using h3), if_neg (fun h => h3 h.2)]
            simp only [Prog.pure]
            rw [ih]
    | plural idp strs =>
      have hs : strs ≠ [] := by intro h; rw [h] at hb; exact hne idp hb
      have hev : evsOf e = .clear :: (strs.map (fun x => Ev.conv x.1 x.2) ++
          (if strs.any (fun x => !x.2.isEmpty) then [.plural 0 e.fuzzy e.ctxt e.msgid idp] else [])) := by
        unfold evsOf; rw [hb]
      have hhd : e.header? = none := by
        unfold Entry.header?; rw [hb]
      rw [hev, hhd]
      dsimp only
      rw [show (Ev.clear :: (strs.map (fun x => Ev.conv x.1 x.2) ++
          (if strs.any (fun x => !x.2.isEmpty) = true then [Ev.plural 0 e.fuzzy e.ctxt e.msgid idp] else [])))
        = [Ev.clear] ++ (strs.map (fun x => Ev.conv x.1 x.2) ++
          (if strs.any (fun x => !x.2.isEmpty) = true then [Ev.plural 0 e.fuzzy e.ctxt e.msgid idp] else [])) from rfl,
        coreInterp_append, bind_apply]
      simp only [coreInterp, coreStep, bind_apply, Prog.pure]
      rw [coreInterp_append, bind_apply, convertAll_interp]
      dsimp only
      cases hc : convertAll lib k.conv strs with
      | error f => rfl
      | ok y =>
        obtain ⟨strs', cv'⟩ := y
        dsimp only
        rw [collect_eq strs' (convertAll_ne hs hc)]
        have hany : (strs.any (fun x => !x.2.isEmpty) = true) ↔ ∃ x ∈ strs, x.2 ≠ [] := by
          simp [List.any_eq_true]
        by_cases h1 : ∃ x ∈ strs, x.2 ≠ []
        · rw [if_pos (hany.2 h1)]
          simp only [coreInterp, bind_apply, coreStep]
          by_cases h3 : uf = true ∨ e.fuzzy = false
          · rw [if_pos (by simpa using h3), if_pos ⟨h1, h3⟩]
            simp only [Prog.pure]
            rw [ih]
          · rw [if_neg (by simpa using h3), if_neg (fun h => h3 h.2)]
            simp only [Prog.pure]
            rw [ih]
        · rw [if_neg (fun h => h1 (hany.1 h)), if_neg (fun h => h1 h.1)]
          simp only [coreInterp, Prog.pure]
          rw [ih]

/-! ### Files -/

section
variable {ct : CType} {fuel : Nat} {T : Tape} {st : Bool}

theorem entryLines_pos {b : Bool} {ls : List Str} {e : Entry} (h : EntryLines ct b st ls e) : 0 < ls.length := by
  cases h with
  | single _ _ _ hid hst =>
    obtain ⟨sep, q, ls', rfl, _⟩ := field_head hid
    simp; omega
  | plural _ _ _ hid _ _ =>
    obtain ⟨sep, q, ls', rfl, _⟩ := field_head hid
    simp; omega

theorem mainLoop_step {f : Nat} {b : Bool} {p q : Nat} {w : List Ev} {b' : Bool} (he : (T p).eof = false)
    (h : Yields st (entryE ct fuel T b) p w () q) (hb : ∀ w', essence w' = w → big5After ct b w' = b')
    {w2 : List Ev} {r : Nat} (h2 : Yields st (mainLoopE ct fuel T f b') q w2 () r) :
    Yields st (mainLoopE ct fuel T (f + 1) b) p (w ++ w2) () r := by
  obtain ⟨v1, e1, s1, d1⟩ := h
  obtain ⟨v2, e2, s2, d2⟩ := h2
  refine ⟨v1 ++ v2, ?_, by rw [essence_append, s1, s2], ?_⟩
  · unfold mainLoopE
    rw [he]
    simp only [Bool.not_false, if_true]
    rw [e1]
    dsimp only
    rw [hb v1 s1, e2]
  · intro x hx
    rcases List.mem_append.1 hx with h | h
    · exact d1 x h
    · exact d2 x h

theorem mainLoop_end {f : Nat} {b : Bool} {p : Nat} (he : (T p).eof = true) (hf : 0 < f) :
    Yields st (mainLoopE ct fuel T f b) p [] () p := by
  obtain ⟨f, rfl⟩ : ∃ g, f = g + 1 := ⟨f - 1, by omega⟩
  refine ⟨[], ?_, rfl, fun x hx => by cases hx⟩
  unfold mainLoopE
  rw [he]
  rfl

theorem y_file (hs : Short T) {b : Bool} {ls : List Str} {es : List Entry} (h : File ct st b ls es) :
    ∀ (f p : Nat), At T p ls → (∀ q, (T q).eof = decide (p + ls.length ≤ q)) →
      (∀ q, p + ls.length ≤ q → (T q).line = []) → ls.length + 1 < f → ls.length < fuel → p + ls.length + 1 < intMax →
      ∃ q, Yields st (mainLoopE ct fuel T f b) p (es.flatMap evsOf) () q := by
  have hblank : Blank ct ([] : Str) := fun x hx => by cases hx
  have noEv : ∀ b w', essence w' = [] → big5After ct b w' = b := by
    intro b w' hw
    rw [big5After_essence, hw]
    simp [big5After]
  induction h with
  | @comments b cs hc =>
    intro f p hat heof hend hf hfu hm
    by_cases h0 : cs.length = 0
    · refine ⟨p, mainLoop_end ?_ (by omega)⟩
      rw [heof]; simp [h0]
    · obtain ⟨f, rfl⟩ : ∃ g, f = g + 1 := ⟨f - 1, by omega⟩
      refine ⟨p + cs.length + 1, ?_⟩
      have := mainLoop_step (f := f) (b' := b) (by rw [heof]; exact decide_eq_false (by omega))
        (y_blank p (st := st) (big5 := b) hc hat (by omega) (by omega) (by rw [hend _ (Nat.le_refl _)]; exact hblank))
        (noEv b) (mainLoop_end (by rw [heof]; exact decide_eq_true (by omega)) (by omega))
      simpa using this
  | @blank b cs bl ls es hc hbl _ ih =>
    intro f p hat heof hend hf hfu hm
    obtain ⟨f, rfl⟩ : ∃ g, f = g + 1 := ⟨f - 1, by omega⟩
    obtain ⟨hat1, hat2⟩ := At_append.1 hat
    simp only [List.length_append, List.length_cons] at *
    have e1 : p + (cs.length + (ls.length + 1)) = p + cs.length + 1 + ls.length := by omega
    obtain ⟨q, hq⟩ := ih f (p + cs.length + 1) hat2.2 (fun q => by rw [heof, e1]) (fun q h => hend q (by omega))
      (by omega) (by omega) (by omega)
    refine ⟨q, ?_⟩
    exact mainLoop_step (f := f) (b' := b) (by rw [heof]; exact decide_eq_false (by omega))
      (y_blank p (st := st) (big5 := b) hc hat1 (by omega) (by omega) (by rw [hat2.1]; exact hbl)) (noEv b) hq
  | @last b ls e he =>
    intro f p hat heof hend hf hfu hm
    obtain ⟨f, rfl⟩ : ∃ g, f = g + 1 := ⟨f - 1, by omega⟩
    have hpos := entryLines_pos he
    refine ⟨p + ls.length + 1, ?_⟩
    have := mainLoop_step (f := f) (by rw [heof]; exact decide_eq_false (by omega))
      (y_entry hs he p hat hfu (by omega) (by rw [hend _ (Nat.le_refl _)]; rfl))
      (fun w' hw => headerCharset_big5 b e w' hw) (mainLoop_end (by rw [heof]; exact decide_eq_true (by omega)) (by omega))
    simpa using this
  | @entry b ls e sep ls' es he hsep _ ih =>
    intro f p hat heof hend hf hfu hm
    obtain ⟨f, rfl⟩ : ∃ g, f = g + 1 := ⟨f - 1, by omega⟩
    have hpos := entryLines_pos he
    obtain ⟨hat1, hat2⟩ := At_append.1 hat
    simp only [List.length_append, List.length_cons] at *
    have e1 : p + (ls.length + (ls'.length + 1)) = p + ls.length + 1 + ls'.length := by omega
    obtain ⟨q, hq⟩ := ih f (p + ls.length + 1) hat2.2 (fun q => by rw [heof, e1]) (fun q h => hend q (by omega))
      (by omega) (by omega) (by omega)
    refine ⟨q, ?_⟩
    rw [List.flatMap_cons]
    refine mainLoop_step (f := f) (by rw [heof]; exact decide_eq_false (by omega))
      (y_entry hs he p hat1 (by omega) (by omega) (by rw [hat2.1]; exact (separator_iff _).1 hsep))
      (fun w' hw => ?_) hq
    rw [headerCharset_big5 b e w' hw]
    simp only [headerCharset_eq]

theorem file_strs {b : Bool} {ls : List Str} {es : List Entry} (h : File ct st b ls es) :
    ∀ e ∈ es, ∀ idp, e.body ≠ .plural idp [] := by
  have hent : ∀ {b ls e}, EntryLines ct b st ls e → ∀ idp, e.body ≠ .plural idp [] := by
    intro b ls e h idp
    cases h with
    | single => simp
    | plural _ _ _ _ _ hst =>
      intro h
      simp only [Body.plural.injEq] at h
      rw [h.2] at hst
      cases hst
  induction h with
  | comments => intro e he; cases he
  | blank _ _ _ ih => exact ih
  | last h =>
    intro e he
    simp only [List.mem_singleton] at he
    subst he
    exact hent h
  | entry h _ _ ih =>
    intro e he
    rcases List.mem_cons.1 he with rfl | he
    · exact hent h
    · exact ih e he
end

theorem unlines_length (ls : List Str) : ls.length ≤ (unlines ls).length := by
  induction ls with
  | nil => simp
  | cons l ls ih => simp [unlines]; omega

theorem withoutBom_unlines (ls : List Str) (h : ¬ [0xef, 0xbb, 0xbf] <+: ls.headD []) : withoutBom (unlines ls) = unlines ls := by
  cases ls with
  | nil => rfl
  | cons l ls =>
    unfold withoutBom
    split
    · rename_i t ht
      exfalso
      apply h
      simp only [unlines] at ht
      match l, ht with
      | [], ht => simp at ht
      | [a], ht => simp at ht
      | [a, b], ht => simp at ht
      | a :: b :: c :: l', ht =>
        simp only [List.cons_append, List.cons.injEq] at ht
        obtain ⟨rfl, rfl, rfl, _⟩ := ht
        exact ⟨l', rfl⟩
    · rfl

theorem text_tape (ls : List Str) (h : TextOk ls) :
    At (startTape (.ofBytes (unlines ls))) 0 ls ∧
    (∀ q, (startTape (.ofBytes (unlines ls)) q).eof = decide (ls.length ≤ q)) ∧
    (∀ q, ls.length ≤ q → (startTape (.ofBytes (unlines ls)) q).line = []) ∧
    Short (startTape (.ofBytes (unlines ls))) := by
  have hw := withoutBom_unlines ls h.noBom
  have hsp := splitLines_unlines ls [] h.noNl (by simp)
  rw [List.append_nil] at hsp
  have hline : ∀ q, (startTape (.ofBytes (unlines ls)) q).line = ls.getD q [] := by
    intro q
    rw [(startTape_lines _ q).1, hw]
    unfold lineAt
    rw [hsp]
  have heof : ∀ q, (startTape (.ofBytes (unlines ls)) q).eof = decide (ls.length ≤ q) := by
    intro q
    rw [(startTape_lines _ q).2]
    unfold lineCount
    rw [hsp]
    simp
  refine ⟨?_, heof, ?_, ?_⟩
  · have : ∀ (l2 l1 : List Str), ls = l1 ++ l2 → At (startTape (.ofBytes (unlines ls))) l1.length l2 := by
      intro l2
      induction l2 with
      | nil => intro l1 _; trivial
      | cons x l2 ih =>
        intro l1 hl
        refine ⟨?_, ?_⟩
        · rw [hline, hl]; simp
        · have := ih (l1 ++ [x]) (by rw [hl]; simp)
          simpa using this
    exact this ls [] rfl
  · intro q hq
    rw [hline]
    rw [List.getD_eq_getElem?_getD, List.getElem?_eq_none hq]
    rfl
  · intro q
    rw [hline]
    by_cases hq : q < ls.length
    · rw [List.getD_eq_getElem?_getD, List.getElem?_eq_getElem hq]
      exact h.short _ (List.getElem_mem hq)
    · rw [List.getD_eq_getElem?_getD, List.getElem?_eq_none (by omega)]
      simp

/-- Events of a well-formed file. -/
theorem file_events {ct : CType} {st : Bool} {fuel : Nat} {ls : List Str} {es : List Entry} (h : File ct st false ls es)
    (ht : TextOk ls) (hf : (unlines ls).length + 2 ≤ fuel) :
    ∃ w q, events ct fuel (.ofBytes (unlines ls)) = (w, .ok () q) ∧ essence w = es.flatMap evsOf ∧
      (∀ x ∈ w, x.isErr = false ∧ (st = true → x.isDiag = false)) := by
  obtain ⟨h1, h2, h3, h4⟩ := text_tape ls ht
  have hl := unlines_length ls
  have : ls.length + 8 < intMax := ht.few
  obtain ⟨q, w, e1, e2, e3⟩ := y_file (fuel := fuel) h4 h fuel 0 h1 (fun q => by rw [h2]; simp) (fun q hq => h3 q (by omega))
    (by omega) (by omega) (by omega)
  exact ⟨w, q, e1, e2, e3⟩

/-- A well-formed file does what it says. -/
theorem run_file (c : Cfg) {st : Bool} {ls : List Str} {es : List Entry} (h : File c.ct st false ls es)
    (ht : TextOk ls) (hf : (unlines ls).length + 2 ≤ c.fuel) (d : Dictionary) :
    (observe (run c (.ofBytes (unlines ls)) d)).noLog
      = (load c.ct c.lib c.useFuzzy d.charset es .init ⟨[], none⟩).1.at
          ((load c.ct c.lib c.useFuzzy d.charset es .init ⟨[], none⟩).2.applyTo d) := by
  obtain ⟨w, q, e1, e2, _⟩ := file_events h ht hf
  rw [run_core c _ d (by show (unlines ls).length < _; omega), e1]
  dsimp only
  rw [← coreInterp_essence, e2]
  have := load_eq c.ct c.lib c.useFuzzy d.charset es (file_strs h) core0
  have hk : core0.conv = .init := rfl
  have hk2 : core0.eff = ⟨[], none⟩ := rfl
  rw [hk, hk2] at this
  rw [← this]
  cases hx : coreInterp c.ct c.lib c.useFuzzy d.charset (es.flatMap evsOf) core0 with
  | poError k => exact absurd hx (by
      intro hx
      have := interp_rel c (startTape (.ofBytes [])) d (es.flatMap evsOf) core0 ([], initState (.ofBytes []) d) (rel0 _ d)
      rw [hx] at this
      cases h2 : interp c (startTape (.ofBytes [])) (es.flatMap evsOf) ([], initState (.ofBytes []) d) with
      | poError x => exact (interp_no_poError c _ _ _ x).1 h2
      | _ => rw [h2] at this; exact this)
  | _ => rfl

end Tgt.POParser
