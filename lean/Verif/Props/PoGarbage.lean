import Verif.Proofs.Split
import Verif.Proofs.Post
import Verif.Proofs.Writer
/-
Errors are contained: C30.
-/
namespace Tgt
open Spec Spec.Po POParser

namespace POParser

theorem file_prefix {ct : CType} {st : Bool} {fuel : Nat} {T : Tape} (hs : Short T) {b : Bool} {ls : List Str} {es : List Entry} (h : File ct st b ls es) :
    ∀ (f p : Nat), At T p ls → Blank ct (T (p + ls.length)).line → (∀ q, q ≤ p + ls.length → (T q).eof = false) → ls.length + 1 < f →
      ls.length < fuel → p + ls.length + 1 < intMax →
      ∃ v f' b', mainLoopE ct fuel T f b p
        = (v ++ (mainLoopE ct fuel T f' b' (p + ls.length + 1)).1, (mainLoopE ct fuel T f' b' (p + ls.length + 1)).2) ∧
        essence v = es.flatMap evsOf ∧ b' = big5After ct b v := by
  have noEv : ∀ b w', essence w' = [] → big5After ct b w' = b := by
    intro b w' hw
    rw [big5After_essence, hw]
    simp [big5After]
  have step : ∀ {f : Nat} {b : Bool} {p q : Nat} {w : List Ev}, (T p).eof = false → Yields st (entryE ct fuel T b) p w () q →
      ∃ v, mainLoopE ct fuel T (f + 1) b p = (v ++ (mainLoopE ct fuel T f (big5After ct b v) q).1, (mainLoopE ct fuel T f (big5After ct b v) q).2) ∧ essence v = w := by
    intro f b p q w he hy
    obtain ⟨v, e1, e2, _⟩ := hy
    refine ⟨v, ?_, e2⟩
    conv => lhs; unfold mainLoopE
    rw [he]
    simp only [Bool.not_false, if_true]
    rw [e1]
  have b5 : ∀ (b : Bool) (v w : List Ev), big5After ct b (v ++ w) = big5After ct (big5After ct b v) w := by
    intro b v w; simp [big5After, Bool.or_assoc]
  induction h with
  | @comments b cs hc =>
    intro f p hat hbl heof hf hfu hm
    obtain ⟨f, rfl⟩ : ∃ g, f = g + 1 := ⟨f - 1, by omega⟩
    obtain ⟨v, h1, h2⟩ := step (f := f) (heof p (by omega)) (y_blank p (st := st) (big5 := b) hc hat hfu (by omega) hbl)
    exact ⟨v, f, _, h1, h2, rfl⟩
  | @blank b cs bl ls es hc hbl _ ih =>
    intro f p hat hb heof hf hfu hm
    obtain ⟨f, rfl⟩ : ∃ g, f = g + 1 := ⟨f - 1, by omega⟩
    obtain ⟨hat1, hat2⟩ := At_append.1 hat
    simp only [List.length_append, List.length_cons] at *
    have e1 : p + (cs.length + (ls.length + 1)) = p + cs.length + 1 + ls.length := by omega
    rw [e1] at hb heof
    obtain ⟨v, h1, h2⟩ := step (f := f) (heof p (by omega)) (y_blank p (st := st) (big5 := b) hc hat1 (by omega) (by omega) (by rw [hat2.1]; exact hbl))
    obtain ⟨v', f', b', h3, h4, h5⟩ := ih f (p + cs.length + 1) hat2.2 hb heof (by omega) (by omega) (by omega)
    refine ⟨v ++ v', f', b', ?_, by rw [essence_append, h2, h4]; rfl, ?_⟩
    · rw [h1, noEv b v h2, h3, e1]
      simp only [List.append_assoc]
    · rw [h5, b5, noEv b v h2]
  | @last b ls e he =>
    intro f p hat hb heof hf hfu hm
    obtain ⟨f, rfl⟩ : ∃ g, f = g + 1 := ⟨f - 1, by omega⟩
    obtain ⟨v, h1, h2⟩ := step (f := f) (heof p (by omega)) (y_entry hs he p hat hfu (by omega) (blank_empty hb))
    exact ⟨v, f, _, h1, by rw [h2]; simp, rfl⟩
  | @entry b ls e sep ls' es he hsep _ ih =>
    intro f p hat hb heof hf hfu hm
    obtain ⟨f, rfl⟩ : ∃ g, f = g + 1 := ⟨f - 1, by omega⟩
    obtain ⟨hat1, hat2⟩ := At_append.1 hat
    simp only [List.length_append, List.length_cons] at *
    have e1 : p + (ls.length + (ls'.length + 1)) = p + ls.length + 1 + ls'.length := by omega
    rw [e1] at hb heof
    obtain ⟨v, h1, h2⟩ := step (f := f) (heof p (by omega)) (y_entry hs he p hat1 (by omega) (by omega) (by rw [hat2.1]; exact (separator_iff _).1 hsep))
    obtain ⟨v', f', b', h3, h4, h5⟩ := ih f (p + ls.length + 1) hat2.2 hb heof (by omega) (by omega) (by omega)
    have hbb : big5After ct b v = (b || e.header?.any (fun t => declaredCharset ct t == b!"BIG5")) := by
      rw [headerCharset_big5 b e v h2]
      simp only [headerCharset_eq]
    rw [← hbb] at h3 h5
    refine ⟨v ++ v', f', b', ?_, by rw [essence_append, h2, h4]; rfl, ?_⟩
    · rw [h1, h3, e1]
      simp only [List.append_assoc]
    · rw [h5, b5]

theorem textOk_prefix {A X : List Str} (h : TextOk (A ++ X)) (hA : A ≠ []) : TextOk A := by
  refine ⟨fun l hl => h.noNl l (List.mem_append_left _ hl), fun l hl => h.short l (List.mem_append_left _ hl), ?_, ?_⟩
  · have := h.few; rw [List.length_append] at this; omega
  · have := h.noBom; cases A with
    | nil => exact absurd rfl hA
    | cons a A => simpa using this

theorem textOk_nil : TextOk ([] : List Str) := ⟨fun l hl => (by cases hl), fun l hl => (by cases hl), by decide, by decide⟩

theorem evb_nil (ct : CType) (fuel : Nat) (b : Bool) : (evb ct fuel b []).1 = [] := by
  have : (startTape (.ofBytes (unlines [])) 0).eof = true := by rfl
  unfold evb
  cases fuel with
  | zero => rfl
  | succ g =>
    unfold mainLoopE
    rw [this]
    rfl

/-- After closed lines, the parser starts afresh. -/
theorem closed_split (ct : CType) {fuel : Nat} {P X : List Str} (hP : Closed ct P) (h : TextOk (P ++ X)) (hX : TextOk X)
    (hf : (P ++ X).length + 4 ≤ fuel) :
    essence (evb ct fuel false (P ++ X)).1
      = essence (evb ct fuel false P).1 ++ essence (evb ct fuel (big5After ct false (evb ct fuel false P).1) X).1 := by
  cases hP with
  | none =>
    rw [List.nil_append, evb_nil]
    simp [essence, big5After]
  | @blanks ls s1 s2 h1 h2 =>
    have e : ls ++ [s1, s2] ++ X = ls ++ s1 :: s2 :: X := by simp
    rw [e] at h hf ⊢
    exact evb_split ct false h1 h2 h hX hf
  | @file st ls es s hF hb =>
    have hlen : (ls ++ [s]).length = ls.length + 1 := by simp
    have hfew : ls.length + 1 + X.length + 8 < intMax := by
      have := h.few; simp only [List.length_append, hlen] at this; exact this
    have hf' : ls.length + 1 + X.length + 4 ≤ fuel := by simp only [List.length_append, hlen] at hf; simpa using hf
    -- the events of the well-formed part
    have cut : ∀ Y, TextOk (ls ++ [s] ++ Y) → TextOk Y → Y.length ≤ X.length →
        ∃ v, essence v = es.flatMap evsOf ∧ essence (evb ct fuel false (ls ++ [s] ++ Y)).1 = essence v ++ essence (evb ct fuel (big5After ct false v) Y).1 := by
      intro Y hA hY hle
      obtain ⟨t1, t2, t3, t4⟩ := text_tape _ hA
      obtain ⟨a1, a2⟩ := At_append.1 (At_append.1 t1).1
      have hb' : Blank ct (startTape (.ofBytes (unlines (ls ++ [s] ++ Y))) (0 + ls.length)).line := by rw [a2.1]; exact hb
      obtain ⟨v, f', b', e1, e2, e3⟩ := file_prefix (fuel := fuel) t4 hF fuel 0 a1 hb'
        (fun q hq => by rw [t2]; exact decide_eq_false (by simp; omega)) (by omega) (by omega) (by omega)
      subst e3
      refine ⟨v, e2, ?_⟩
      have hsh := text_shift ct (A := ls ++ [s]) (X := Y) hA hY
      rw [hlen] at hsh
      have hs := sim_mainLoop (fuel := fuel) (fuel' := fuel) hsh (fun _ _ => rfl) fuel f' (big5After ct false v) 0
      obtain ⟨u, q, hu⟩ := evb_ends ct (fuel := fuel) hY (by omega) (big5After ct false v)
      obtain ⟨u', q', hu'⟩ := evb_ends ct (fuel := fuel) hA (by simp; omega) false
      have e3 : evb ct fuel false (ls ++ [s] ++ Y) = mainLoopE ct fuel (startTape (.ofBytes (unlines (ls ++ [s] ++ Y)))) fuel false 0 := rfl
      rw [e3, e1]
      dsimp only
      rw [essence_append]
      rw [e3, e1] at hu'
      have hg := congrArg Prod.snd hu'
      dsimp only at hg
      have hu2 : mainLoopE ct fuel (startTape (.ofBytes (unlines Y))) fuel (big5After ct false v) 0 = (u, .ok () q) := hu
      have e4 : 0 + (ls.length + 1) = 0 + ls.length + 1 := by omega
      rw [hu2, e4] at hs
      rcases hs with hs | hs | ⟨hs, _⟩
      · exact hs.elim
      · rw [hg] at hs; exact hs.elim
      · rw [← hs, hu]
    obtain ⟨v, hv1, hv2⟩ := cut X h hX (Nat.le_refl _)
    obtain ⟨v0, hv3, hv4⟩ := cut [] (by rw [List.append_nil]; exact textOk_prefix h (by simp)) textOk_nil (by simp)
    rw [evb_nil, List.append_nil] at hv4
    have : essence v = essence v0 := by rw [hv1, hv3]
    have hv4 : essence (evb ct fuel false (ls ++ [s])).1 = essence v := by rw [hv4, this]; simp [essence]
    rw [hv2, hv4, big5After_essence (ct := ct) false (evb ct fuel false (ls ++ [s])).1, hv4, ← big5After_essence]


/-! ### What events do after other events -/

theorem ConvSame.trans {lib : IconvLib} {a b c : IConv} (h : ConvSame lib a b) (h' : ConvSame lib b c) : ConvSame lib a c := by
  unfold ConvSame at *
  cases ha : a.cd <;> cases hb : b.cd <;> cases hc : c.cd <;> rw [ha, hb] at h <;> rw [hb, hc] at h' <;> (try exact h.elim) <;> (try exact h'.elim) <;> try trivial
  obtain ⟨h1, h2, h3⟩ := h
  obtain ⟨h4, h5, h6⟩ := h'
  subst h1 h2 h4 h5
  exact ⟨rfl, rfl, fun hs t cap => (h3 hs t cap).trans (h6 hs t cap)⟩

theorem convert_keeps {lib : IconvLib} (hl : Memoryless lib) {c cv : IConv} {t r : Str} {l : List Diag} (h : c.convert lib t = .ok r cv l) :
    ConvSame lib c cv := by
  unfold IConv.convert at h
  unfold ConvSame
  cases hc : c.cd with
  | null => rw [hc] at h; cases h; rw [hc]; trivial
  | invalid => rw [hc] at h; cases h
  | opened id to fr hist =>
    rw [hc] at h
    dsimp only at h
    split at h <;> cases h <;> exact ⟨rfl, rfl, fun _ _ _ => hl _ _ _ _ _ _⟩

theorem convert_null_same {lib : IconvLib} {c cv : IConv} {t r : Str} {l : List Diag} (hc : c.cd = .null) (h : c.convert lib t = .ok r cv l) : cv = c := by
  unfold IConv.convert at h
  rw [hc] at h
  cases h; rfl

/-- Events without a header end normally or crash; they only add translations. -/
theorem noHeader_interp (ct : CType) (lib : IconvLib) (uf : Bool) (cs : Str) (w : List Ev) (hw : ∀ e ∈ w, e.noHdr = true) : ∀ k : Core,
    (∃ k' adds, coreInterp ct lib uf cs w k = .ok () k' ∧ k'.eff = k.eff.plus ⟨adds, none⟩ ∧
      (Memoryless lib → ConvSame lib k.conv k'.conv) ∧ (k.conv.cd = .null → k'.conv = k.conv)) ∨
    (∃ f, coreInterp ct lib uf cs w k = .fault f) := by
  induction w with
  | nil =>
    intro k
    exact .inl ⟨k, [], rfl, by simp [Effect.plus], fun _ => ConvSame.refl _ _, fun _ => rfl⟩
  | cons e w ih =>
    intro k
    have ih := ih (fun x hx => hw x (List.mem_cons_of_mem _ hx))
    simp only [coreInterp, bind_apply]
    have go : ∀ (k1 : Core) (a1 : List Add), k1.eff = k.eff.plus ⟨a1, none⟩ → (Memoryless lib → ConvSame lib k.conv k1.conv) → (k.conv.cd = .null → k1.conv = k.conv) →
        (∃ k' adds, coreInterp ct lib uf cs w k1 = .ok () k' ∧ k'.eff = k.eff.plus ⟨adds, none⟩ ∧
          (Memoryless lib → ConvSame lib k.conv k'.conv) ∧ (k.conv.cd = .null → k'.conv = k.conv)) ∨
        (∃ f, coreInterp ct lib uf cs w k1 = .fault f) := by
      intro k1 a1 h1 h2 h3
      rcases ih k1 with ⟨k', adds, g1, g2, g3, g4⟩ | ⟨f, g⟩
      · refine .inl ⟨k', a1 ++ adds, g1, ?_, fun hl => (h2 hl).trans (g3 hl), fun hn => ?_⟩
        · rw [g2, h1]; simp [Effect.plus]
        · rw [g4 (by rw [h3 hn]; exact hn), h3 hn]
      · exact .inr ⟨f, g⟩
    have e0 : ∀ x : Effect, x = x.plus ⟨[], none⟩ := by intro x; simp [Effect.plus]
    cases e with
    | diag lv p m pd => exact go k [] (e0 _) (fun _ => ConvSame.refl _ _) (fun _ => rfl)
    | clear => exact go _ [] (e0 _) (fun _ => ConvSame.refl _ _) (fun _ => rfl)
    | conv n t =>
      simp only [coreStep]
      cases hc : k.conv.convert lib t with
      | ok r cv l => exact go _ [] (e0 _) (fun hl => convert_keeps hl hc) (fun hn => convert_null_same hn hc)
      | fault f => exact .inr ⟨f, rfl⟩
    | singular fz c i t =>
      simp only [coreStep]
      by_cases hu : (uf || !fz) = true
      · rw [if_pos hu]
        cases hc : k.conv.convert lib t with
        | ok r cv l => exact go _ [.singular c i r] (by simp [Effect.plus]) (fun hl => convert_keeps hl hc) (fun hn => convert_null_same hn hc)
        | fault f => exact .inr ⟨f, rfl⟩
      · rw [if_neg hu]; exact go k [] (e0 _) (fun _ => ConvSame.refl _ _) (fun _ => rfl)
    | plural p fz c i ip =>
      simp only [coreStep]
      by_cases hu : (uf || !fz) = true
      · rw [if_pos hu]
        exact go _ [.plural c i ip k.vec] (by simp [Effect.plus]) (fun _ => ConvSame.refl _ _) (fun _ => rfl)
      · rw [if_neg hu]; exact go k [] (e0 _) (fun _ => ConvSame.refl _ _) (fun _ => rfl)
    | header p t => exact absurd (hw _ List.mem_cons_self) (by simp [Ev.noHdr, Ev.isHeader])

/-- What is seen of a parse in terms of its events. -/
theorem run_evb (c : Cfg) {ls : List Str} (h : TextOk ls) (hf : (unlines ls).length + 2 ≤ c.fuel) (d : Dictionary) :
    (observe (run c (.ofBytes (unlines ls)) d)).noLog
      = obsCore d (.ok () 0) (coreInterp c.ct c.lib c.useFuzzy d.charset (essence (evb c.ct c.fuel false ls).1) core0) := by
  have hl := unlines_length ls
  obtain ⟨v, q, hv⟩ := evb_ends c.ct (fuel := c.fuel) h (by omega) false
  have : events c.ct c.fuel (.ofBytes (unlines ls)) = (v, .ok () q) := hv
  rw [run_core c _ d (by show (unlines ls).length < _; omega), this, hv]
  dsimp only
  rw [coreInterp_essence]
  rfl

theorem text_noHeader {ct : CType} {A : List Str} (h : TextOk A) (hA : ∀ l ∈ A, ¬ StartsHeader ct l) :
    ∀ p ws t, Blank ct ws → (startTape (.ofBytes (unlines A)) p).line ≠ b!"msgid" ++ ws ++ 34 :: 34 :: t := by
  intro p ws t hw he
  rw [text_line h] at he
  by_cases hp : p < A.length
  · rw [List.getD_eq_getElem?_getD, List.getElem?_eq_getElem hp] at he
    exact hA _ (List.getElem_mem hp) ⟨ws, t, hw, he⟩
  · rw [List.getD_eq_getElem?_getD, List.getElem?_eq_none (by omega)] at he
    simp at he

theorem evb_noHeader {ct : CType} {fuel : Nat} {A : List Str} {s1 s2 : Str} (h : TextOk (A ++ [s1, s2])) (hA : ∀ l ∈ A, ¬ StartsHeader ct l)
    (h1 : Blank ct s1) (h2 : Blank ct s2) (b : Bool) : ∀ e ∈ (evb ct fuel b (A ++ [s1, s2])).1, e.noHdr = true := by
  refine noHeader_mainLoop ct fuel _ (text_noHeader h (fun l hl => ?_)) fuel b 0
  have hno : ∀ s : Str, Blank ct s → ¬ StartsHeader ct s := by
    rintro s hs ⟨ws, t, _, rfl⟩
    have := hs 109 (by simp)
    rw [m_nospace] at this
    cases this
  rcases List.mem_append.1 hl with hl | hl
  · exact hA l hl
  · simp only [List.mem_cons, List.not_mem_nil, or_false] at hl
    rcases hl with rfl | rfl
    · exact hno _ h1
    · exact hno _ h2

theorem big5After_noHdr (ct : CType) (b : Bool) (w : List Ev) (h : ∀ e ∈ w, e.noHdr = true) : big5After ct b w = b := by
  have key : ∀ f : Ev → Bool, (∀ e ∈ w, f e = false) → (b || w.any f) = b := by
    intro f hf
    rw [List.any_eq_false.2 (fun e he => by rw [hf e he]; simp), Bool.or_false]
  refine key _ (fun e he => ?_)
  have := h e he
  cases e <;> first | rfl | (simp [Ev.noHdr, Ev.isHeader] at this)

theorem noHdr_essence {w : List Ev} (h : ∀ e ∈ w, e.noHdr = true) : ∀ e ∈ essence w, e.noHdr = true := by
  intro e he
  unfold essence at he
  obtain ⟨x, hx, rfl⟩ := List.mem_map.1 he
  have := h x (List.mem_filter.1 hx).1
  cases x <;> first | exact this | rfl

end POParser

theorem Effect.plus_applyTo (e x : Effect) (d : Dictionary) (h : e.rule = none) : (e.plus x).applyTo d = x.applyTo (e.applyTo d) := by
  have hpf : ∀ (l : List Add) (d : Dictionary) (p : PluralForms), addAll { d with pluralForms := p } l = { addAll d l with pluralForms := p } := by
    intro l
    induction l with
    | nil => intro d p; rfl
    | cons a l ih =>
      intro d p
      show addAll (a.apply { d with pluralForms := p }).1 l = _
      rw [apply_withPf, ih]
      rfl
  have e1 : e.applyTo d = { addAll d e.adds with pluralForms := d.pluralForms } := by
    unfold Effect.applyTo; rw [h]; simp
  have h2 : addAll d (e.adds ++ x.adds) = addAll (addAll d e.adds) x.adds := by simp [addAll]
  rw [e1]
  unfold Effect.applyTo Effect.plus
  dsimp only
  have h3 := hpf x.adds (addAll d e.adds) d.pluralForms
  dsimp only at h3
  rw [h2, h, Option.none_or]
  rw [h3]

/-! ### C30: errors are contained -/

/-- C30.  Whatever lines `A` come first (malformed in any way, but none starting a header), and whatever lines `B` come
after two blank lines: parsing the text does to the dictionary what parsing the first part does and then, on the
result, parsing `B` alone.  In particular every entry of `B` is loaded. -/
theorem C30_sequential_partial (c : Cfg) (d : Dictionary) {A B : List Str} {s1 s2 : Str} (h1 : Blank c.ct s1) (h2 : Blank c.ct s2)
    (hA : ∀ l ∈ A, ¬ StartsHeader c.ct l) (ht : TextOk (A ++ [s1, s2] ++ B)) (hB : TextOk B)
    (hf : (unlines (A ++ [s1, s2] ++ B)).length + 4 ≤ c.fuel) :
    (observe (run c (.ofBytes (unlines (A ++ [s1, s2] ++ B))) d)).noLog
      = match (observe (run c (.ofBytes (unlines (A ++ [s1, s2]))) d)).noLog with
        | .returned d' _ => (observe (run c (.ofBytes (unlines B)) d')).noLog
        | o => o := by
  have hA2 : TextOk (A ++ [s1, s2]) := textOk_prefix ht (by simp)
  rw [unlines_append, List.length_append] at hf
  have hl1 := unlines_length (A ++ [s1, s2])
  have hl2 := unlines_length B
  rw [run_evb c ht (by rw [unlines_append, List.length_append]; omega), run_evb c hA2 (by omega),
    closed_split c.ct (Closed.blanks h1 h2) ht hB (by simp only [List.length_append] at hl1 ⊢; omega)]
  have hnh := evb_noHeader (fuel := c.fuel) hA2 hA h1 h2 false
  rw [big5After_noHdr c.ct false _ hnh, coreInterp_append, bind_apply]
  rcases noHeader_interp c.ct c.lib c.useFuzzy d.charset _ (noHdr_essence hnh) core0 with ⟨k, adds, g1, g2, _, g4⟩ | ⟨f, g⟩
  · rw [g1]
    have hk : k.eff = ⟨adds, none⟩ := by rw [g2]; simp [Effect.plus, core0]
    show _ = (observe (run c (.ofBytes (unlines B)) (k.eff.applyTo d))).noLog
    rw [run_evb c hB (by omega), applyTo_charset]
    have hkr : KRel c.lib ⟨[], none⟩ k.eff false core0 k :=
      ⟨(fun h => by cases h), by rw [g4 rfl]; exact ConvSame.refl _ _, ⟨[], none⟩, rfl, by simp [Effect.plus]⟩
    have := krel c.ct c.lib c.useFuzzy d.charset _ _ (essence (evb c.ct c.fuel false B).1) false core0 k
      (guarded_mainLoop c.ct c.fuel _ c.fuel false 0).norm hkr
    have hz : ∀ x : Effect, (Effect.plus ⟨[], none⟩ x) = x := by intro x; simp [Effect.plus]
    have hp : ∀ x : Effect, (k.eff.plus x).applyTo d = x.applyTo (k.eff.applyTo d) := fun x => Effect.plus_applyTo _ _ _ (by rw [hk])
    cases hx : coreInterp c.ct c.lib c.useFuzzy d.charset (essence (evb c.ct c.fuel false B).1) core0 <;>
      cases hy : coreInterp c.ct c.lib c.useFuzzy d.charset (essence (evb c.ct c.fuel false B).1) k <;>
      rw [hx, hy] at this <;> (try exact this.elim)
    · obtain ⟨x, e1, e2⟩ := this.eff
      dsimp only
      rw [hy]
      simp only [obsCore]
      rw [e1, e2, hz, hp]
    · obtain ⟨rfl, this⟩ := this
      obtain ⟨x, e1, e2⟩ := this.eff
      dsimp only
      rw [hy]
      simp only [obsCore]
      rw [e1, e2, hz, hp]
    · have hff : _ = _ := this
      dsimp only
      rw [hy]
      simp only [obsCore]; rw [hff]
  · rw [g]
    rfl

/-- C30.  A bad block in the middle: after lines `P` (a well-formed file followed by a blank line, or anything followed by
two blank lines, with or without a header), any lines `A` that start no header, two blank lines, any lines `B`.  Parsing
`P`, `A`, `B` adds what parsing `P` adds, then what `A` adds in `P`, `A`, and then what `B` adds in `P`, `B`: the bad
block neither changes what was loaded before nor what comes after.  (The converter library is assumed not to carry state
from one string to the next.) -/
theorem C30_contained_partial (c : Cfg) (hlib : Memoryless c.lib) (cs : Str) {P A B : List Str} {s1 s2 : Str} (hP : Closed c.ct P)
    (h1 : Blank c.ct s1) (h2 : Blank c.ct s2) (hA : ∀ l ∈ A, ¬ StartsHeader c.ct l)
    (ht : TextOk (P ++ (A ++ [s1, s2] ++ B))) (htA : TextOk (A ++ [s1, s2] ++ B)) (htB : TextOk B)
    (hf : (unlines (P ++ (A ++ [s1, s2] ++ B))).length + 4 ≤ c.fuel)
    (d0 d1 : Dictionary) (hd0 : d0.charset = cs)
    (hret : (observe (run c (.ofBytes (unlines (P ++ (A ++ [s1, s2])))) d0)).noLog = .returned d1 []) :
    ∃ (eP eA eB : Effect) (en : Ending), eA.rule = none ∧ ∀ d, d.charset = cs →
      (observe (run c (.ofBytes (unlines P)) d)).noLog = .returned (eP.applyTo d) [] ∧
      (observe (run c (.ofBytes (unlines (P ++ (A ++ [s1, s2])))) d)).noLog = .returned ((eP.plus eA).applyTo d) [] ∧
      (observe (run c (.ofBytes (unlines (P ++ B))) d)).noLog = en.at ((eP.plus eB).applyTo d) ∧
      (observe (run c (.ofBytes (unlines (P ++ (A ++ [s1, s2] ++ B)))) d)).noLog = en.at (((eP.plus eA).plus eB).applyTo d) := by
  have ht' : TextOk (P ++ (A ++ [s1, s2])) := textOk_prefix (X := B) (by simpa using ht) (by simp)
  have htA2 : TextOk (A ++ [s1, s2]) := textOk_prefix htA (by simp)
  have htPB : TextOk (P ++ B) := by
    refine ⟨fun l hl => ?_, fun l hl => ?_, ?_, ?_⟩
    · rcases List.mem_append.1 hl with hl | hl
      · exact ht.noNl l (List.mem_append_left _ hl)
      · exact htB.noNl l hl
    · rcases List.mem_append.1 hl with hl | hl
      · exact ht.short l (List.mem_append_left _ hl)
      · exact htB.short l hl
    · have := ht.few; simp only [List.length_append] at this ⊢; omega
    · have := ht.noBom
      cases P with
      | nil => exact htB.noBom
      | cons x P => simpa using this
  have htP : TextOk P := by
    cases hP0 : P with
    | nil => exact textOk_nil
    | cons x P' => rw [← hP0]; exact textOk_prefix ht (by rw [hP0]; simp)
  simp only [unlines_append, List.length_append] at hf
  have lP := unlines_length P
  have lA := unlines_length A
  have lB := unlines_length B
  have ls2 := unlines_length [s1, s2]
  simp only [List.length_cons, List.length_nil] at ls2
  -- events
  have evPA := closed_split c.ct (fuel := c.fuel) hP ht' htA2 (by simp only [List.length_append, List.length_cons, List.length_nil]; omega)
  have evPB := closed_split c.ct (fuel := c.fuel) hP htPB htB (by simp only [List.length_append]; omega)
  have evPAB := closed_split c.ct (fuel := c.fuel) hP ht htA (by simp only [List.length_append, List.length_cons, List.length_nil]; omega)
  generalize hwP : (evb c.ct c.fuel false P).1 = wP at evPA evPB evPAB
  generalize hbP : big5After c.ct false wP = bP at evPA evPB evPAB
  have evAB := evb_split c.ct (fuel := c.fuel) bP (A := A) (X := B) h1 h2 (by simpa using htA) htB (by simp only [List.length_append, List.length_cons]; omega)
  have hnh := evb_noHeader (fuel := c.fuel) htA2 hA h1 h2 bP
  rw [big5After_noHdr c.ct bP _ hnh] at evAB
  have eAB : A ++ [s1, s2] ++ B = A ++ s1 :: s2 :: B := by simp
  rw [eAB, evAB] at evPAB
  rw [← eAB] at evPAB
  generalize hwA : (evb c.ct c.fuel bP (A ++ [s1, s2])).1 = wA at evPA evPAB hnh
  have hgB := (guarded_mainLoop c.ct c.fuel (startTape (.ofBytes (unlines B))) c.fuel bP 0).norm
  have hgB' : Guarded false (essence (evb c.ct c.fuel bP B).1) := hgB
  generalize hwB : essence (evb c.ct c.fuel bP B).1 = wB at evPB evPAB hgB'
  have runs : ∀ {X : List Str} {w : List Ev} (hX : TextOk X) (hfX : (unlines X).length + 2 ≤ c.fuel) (hw : essence (evb c.ct c.fuel false X).1 = w) (d : Dictionary),
      d.charset = cs → (observe (run c (.ofBytes (unlines X)) d)).noLog = obsCore d (.ok () 0) (coreInterp c.ct c.lib c.useFuzzy cs w core0) := by
    intro X w hX hfX hw d hd
    rw [run_evb c hX hfX, hw, hd]
  rw [runs ht' (by simp only [unlines_append, List.length_append]; omega) evPA d0 hd0, coreInterp_append, bind_apply] at hret
  cases hkP : coreInterp c.ct c.lib c.useFuzzy cs (essence wP) core0 with
  | ok a kP =>
    rw [hkP] at hret
    dsimp only at hret
    rcases noHeader_interp c.ct c.lib c.useFuzzy cs _ (noHdr_essence hnh) kP with ⟨kA, adds, g1, g2, g3, _⟩ | ⟨f, g⟩
    · have hkr : KRel c.lib kP.eff kA.eff false kP kA :=
        ⟨(fun h => by cases h), g3 hlib, ⟨[], none⟩, by simp [Effect.plus], by simp [Effect.plus]⟩
      have := krel c.ct c.lib c.useFuzzy cs _ _ wB false kP kA hgB' hkr
      have rP := fun d hd => runs (X := P) (w := essence wP) htP (by omega) (by rw [hwP]) d hd
      have rPA := fun d hd => runs ht' (by simp only [unlines_append, List.length_append]; omega) evPA d hd
      have rPB := fun d hd => runs htPB (by simp only [unlines_append, List.length_append]; omega) evPB d hd
      have rPAB := fun d hd => runs ht (by simp only [unlines_append, List.length_append]; omega) evPAB d hd
      have i1 : coreInterp c.ct c.lib c.useFuzzy cs (essence wP ++ essence wA) core0 = .ok () kA := by
        rw [coreInterp_append, bind_apply, hkP]; exact g1
      have i2 : coreInterp c.ct c.lib c.useFuzzy cs (essence wP ++ wB) core0 = coreInterp c.ct c.lib c.useFuzzy cs wB kP := by
        rw [coreInterp_append, bind_apply, hkP]
      have i3 : coreInterp c.ct c.lib c.useFuzzy cs (essence wP ++ (essence wA ++ wB)) core0 = coreInterp c.ct c.lib c.useFuzzy cs wB kA := by
        rw [← List.append_assoc, coreInterp_append, bind_apply, i1]
      cases hx : coreInterp c.ct c.lib c.useFuzzy cs wB kP <;>
        cases hy : coreInterp c.ct c.lib c.useFuzzy cs wB kA <;>
        rw [hx, hy] at this <;> (try exact this.elim)
      · obtain ⟨x, e1, e2⟩ := this.eff
        refine ⟨kP.eff, ⟨adds, none⟩, x, .returned, rfl, fun d hd => ⟨?_, ?_, ?_, ?_⟩⟩
        · rw [rP d hd, hkP]; rfl
        · rw [rPA d hd, i1]; show Observed.returned _ _ = _; rw [g2]
        · rw [rPB d hd, i2, hx]; show Observed.returned _ _ = _; rw [e1]; rfl
        · rw [rPAB d hd, i3, hy]; show Observed.returned _ _ = _; rw [e2, g2]; rfl
      · rename_i w1 k1 w2 k2
        obtain ⟨hw12, this⟩ := this
        obtain ⟨x, e1, e2⟩ := this.eff
        refine ⟨kP.eff, ⟨adds, none⟩, x, .threw w1, rfl, fun d hd => ⟨?_, ?_, ?_, ?_⟩⟩
        · rw [rP d hd, hkP]; rfl
        · rw [rPA d hd, i1]; show Observed.returned _ _ = _; rw [g2]
        · rw [rPB d hd, i2, hx]; show Observed.threw _ _ _ = _; rw [e1]; rfl
        · rw [rPAB d hd, i3, hy]; show Observed.threw _ _ _ = _; rw [e2, g2, ← hw12]; rfl
      · rename_i f1 f2
        have hff : f1 = f2 := this
        refine ⟨kP.eff, ⟨adds, none⟩, ⟨[], none⟩, .crashed f2, rfl, fun d hd => ⟨?_, ?_, ?_, ?_⟩⟩
        · rw [rP d hd, hkP]; rfl
        · rw [rPA d hd, i1]; show Observed.returned _ _ = _; rw [g2]
        · rw [rPB d hd, i2, hx, hff]; rfl
        · rw [rPAB d hd, i3, hy]; rfl
    · rw [g] at hret; cases hret
  | exn w k => rw [hkP] at hret; cases hret
  | fault f => rw [hkP] at hret; cases hret
  | poError k => rw [hkP] at hret; cases hret
  | diverge => rw [hkP] at hret; cases hret


/-- C30 in full: one blank line is enough. -/
def C30_Statement : Prop :=
  ∀ (c : Cfg) (d : Dictionary) (A B : List Str) (s : Str), Blank c.ct s → (∀ l ∈ A, ¬ StartsHeader c.ct l) →
    TextOk (A ++ [s] ++ B) → TextOk B → (unlines (A ++ [s] ++ B)).length + 4 ≤ c.fuel →
    (observe (run c (.ofBytes (unlines (A ++ [s] ++ B))) d)).noLog
      = match (observe (run c (.ofBytes (unlines (A ++ [s]))) d)).noLog with
        | .returned d' _ => (observe (run c (.ofBytes (unlines B)) d')).noLog
        | o => o

/-- An entry that is cut off after `msgid`. -/
def cutOff : List Str := [b!"msgid \"a\""]
/-- A good entry. -/
def goodEntry : List Str := [b!"msgid \"b\"", b!"msgstr \"B\""]

theorem noHeader_of (ct : CType) (A : List Str) (h : A.all (fun l => (hasPrefix b!"msgid" l && ((l.drop 5).head? == some 34 || ct.isspace ((l.drop 5).headD 0)) &&
    hasPrefix b!"\"\"" ((l.drop 5).dropWhile ct.isspace)) == false) = true) : ∀ l ∈ A, ¬ StartsHeader ct l := by
  rintro l hl ⟨ws, t, hb, rfl⟩
  have := List.all_eq_true.1 h _ hl
  have hdw : ∀ (ws : Str), Blank ct ws → (ws ++ 34 :: 34 :: t).dropWhile ct.isspace = 34 :: 34 :: t := by
    intro ws
    induction ws with
    | nil =>
      intro _
      have : ct.isspace 34 = false := by rw [ct.isspace_ascii 34 (by decide)]; rfl
      simp [this]
    | cons x ws ih =>
      intro hb
      rw [List.cons_append, List.dropWhile_cons, if_pos (hb x (by simp))]
      exact ih (fun y hy => hb y (List.mem_cons_of_mem _ hy))
  have hd : (b!"msgid" ++ ws ++ 34 :: 34 :: t).drop 5 = ws ++ 34 :: 34 :: t := rfl
  rw [hd, hdw ws hb] at this
  have h2 : ((ws ++ 34 :: 34 :: t).head? == some 34 || ct.isspace ((ws ++ 34 :: 34 :: t).headD 0)) = true := by
    cases ws with
    | nil => rfl
    | cons x ws => simp [hb x (by simp)]
  rw [h2] at this
  simp [hasPrefix, List.isPrefixOf] at this

/-- C30 fails for one blank line: the error in the cut-off entry is found on the blank line, recovery starts by skipping
that line and so runs through the good entry behind it. -/
theorem C30_false : ¬ C30_Statement := by
  intro h
  have := h ⟨.c, demoLib, false, b!"f", false, 200⟩ (.init b!"UTF-8") cutOff goodEntry [] (fun b hb => by cases hb)
    (noHeader_of _ _ (by decide)) ⟨by decide, by decide, by decide, by decide⟩ ⟨by decide, by decide, by decide, by decide⟩ (by decide)
  revert this
  decide +kernel

-- the hypotheses of C30_sequential_partial, on the same entries with two blank lines: `b` is loaded
example : (observe (run ⟨.c, demoLib, false, b!"f", false, 200⟩ (.ofBytes (unlines (cutOff ++ [[], []] ++ goodEntry))) (.init b!"UTF-8"))).noLog
    = .returned ((Add.singular none b!"b" b!"B").apply (.init b!"UTF-8")).1 [] := by
  rw [C30_sequential_partial _ _ (fun b hb => by cases hb) (fun b hb => by cases hb) (noHeader_of _ _ (by decide))
    ⟨by decide, by decide, by decide, by decide⟩ ⟨by decide, by decide, by decide, by decide⟩ (by decide)]
  decide +kernel

/-- A header and an entry, and a blank line more than needed. -/
def goodStart : List Str := writeCatalog b!"iso-8859-1" none [⟨none, b!"p", none, [b!"P"]⟩]

theorem goodStart_closed : Closed .c (goodStart ++ [[]]) := by
  refine Closed.file (st := true) (writeCatalog_file (ct := .c) (st := true) b!"iso-8859-1" none [⟨none, b!"p", none, [b!"P"]⟩] ?_ ?_) (fun b hb => by cases hb)
  · intro m hm
    simp only [List.mem_singleton] at hm
    subst hm
    exact ⟨by decide, _, rfl, by decide⟩
  · decide +kernel

-- the hypotheses of C30_contained_partial: header and `p` first, then the cut-off entry, then `b`
example : ∃ (eP eA eB : Effect) (en : Ending), eA.rule = none ∧ ∀ d : Dictionary, d.charset = b!"UTF-8" →
    (observe (run ⟨.c, demoLib, false, b!"f", false, 400⟩ (.ofBytes (unlines ((goodStart ++ [[]]) ++ (cutOff ++ [[], []] ++ goodEntry)))) d)).noLog
      = en.at (((eP.plus eA).plus eB).applyTo d) := by
  obtain ⟨eP, eA, eB, en, h, h'⟩ := C30_contained_partial ⟨.c, demoLib, false, b!"f", false, 400⟩ (fun _ _ _ _ _ _ => rfl) b!"UTF-8" (P := goodStart ++ [[]]) (A := cutOff) (B := goodEntry)
    goodStart_closed (s1 := []) (s2 := []) (fun b hb => by cases hb) (fun b hb => by cases hb) (noHeader_of _ _ (by decide))
    ⟨by decide +kernel, by decide +kernel, by decide +kernel, by decide +kernel⟩ ⟨by decide, by decide, by decide, by decide⟩
    ⟨by decide, by decide, by decide, by decide⟩ (by decide +kernel) (.init b!"UTF-8")
    ((Add.singular none b!"p" b!"P").apply (.init b!"UTF-8")).1 rfl (by decide +kernel)
  exact ⟨eP, eA, eB, en, h, fun d hd => (h' d hd).2.2.2⟩

end Tgt
