import Verif.Spec.Starved
import Verif.Props.Memory
import Verif.Props.Parse
/-
A parse when memory may run out.
-/
namespace Tgt.Starved
open Spec POParser

theorem bind_ok {σ α β : Type} {p : Sh σ α} {f : α → Sh σ β} {s s1 : σ} {t t1 : Nat} {a : α} (h : p s t = .ok a s1 t1) : bind p f s t = f a s1 t1 := by
  unfold bind; rw [h]
theorem bind_thrown {σ α β : Type} {p : Sh σ α} {f : α → Sh σ β} {s s1 : σ} {t t1 : Nat} {w : Str} (h : p s t = .thrown w s1 t1) : bind p f s t = .thrown w s1 t1 := by
  unfold bind; rw [h]
theorem bind_terminated {σ α β : Type} {p : Sh σ α} {f : α → Sh σ β} {s : σ} {t : Nat} (h : p s t = .terminated) : bind p f s t = .terminated := by
  unfold bind; rw [h]
theorem bind_crashed {σ α β : Type} {p : Sh σ α} {f : α → Sh σ β} {s : σ} {t : Nat} {e : Fault} (h : p s t = .crashed e) : bind p f s t = .crashed e := by
  unfold bind; rw [h]
theorem bind_unfinished {σ α β : Type} {p : Sh σ α} {f : α → Sh σ β} {s : σ} {t : Nat} (h : p s t = .unfinished) : bind p f s t = .unfinished := by
  unfold bind; rw [h]

theorem alloc_cases {σ : Type} (sh : Shortage) (s : σ) (t : Nat) :
    (alloc sh s t = .thrown badAlloc s (t + 1) ∧ Shortage.Fails sh) ∨ alloc sh s t = .ok () s (t + 1) := by
  unfold alloc
  split
  · rename_i h; exact .inl ⟨rfl, t, h⟩
  · exact .inr rfl

/-- After messages. -/
def logged (x : PS) (d : List Diag) : PS := (x.1, { x.2 with log := x.2.log ++ d })

theorem saysP_cases (sh : Shortage) (d : List Diag) : ∀ (x : PS) (t : Nat),
    (saysP sh d x t = .terminated ∧ Shortage.Fails sh) ∨ ∃ t', saysP sh d x t = .ok () (logged x d) t' := by
  induction d with
  | nil => intro x t; exact .inr ⟨t, by simp [saysP, pure, logged]⟩
  | cons m d ih =>
    intro x t
    by_cases h : sh.fails t = true
    · refine .inl ⟨?_, t, h⟩
      unfold saysP
      exact bind_terminated (by unfold sayP; rw [if_pos h])
    · have h1 : sayP sh m x t = .ok () (logged x [m]) (t + 1) := by unfold sayP; rw [if_neg h]; rfl
      unfold saysP
      rw [bind_ok h1]
      rcases ih (logged x [m]) (t + 1) with h2 | ⟨t', h2⟩
      · exact .inl h2
      · exact .inr ⟨t', by rw [h2]; simp [logged]⟩

/-- `convert`. -/
theorem convertP_cases (sh : Shortage) (c : Cfg) (text : Str) (x : PS) (t : Nat) :
    (∃ t', convertP sh c text x t = .thrown badAlloc x t' ∧ Shortage.Fails sh) ∨
    (convertP sh c text x t = .terminated ∧ Shortage.Fails sh) ∨
    (∃ r s t', convertP sh c text x t = .ok r (x.1, s) t' ∧ convert c text x.2 = .ok r s ∧ s.dict = x.2.dict ∧ x.2.log <+: s.log) ∨
    (∃ f, convertP sh c text x t = .crashed f ∧ convert c text x.2 = .fault f) := by
  unfold convertP
  rcases alloc_cases sh x t with ⟨h, hf⟩ | h
  · exact .inl ⟨_, bind_thrown h, hf⟩
  · rw [bind_ok h]
    unfold convert
    cases hc : x.2.conv.convert c.lib text with
    | fault f => exact .inr (.inr (.inr ⟨f, rfl, rfl⟩))
    | ok r cv d =>
      dsimp only
      rcases saysP_cases sh d x (t + 1) with ⟨h1, h2⟩ | ⟨t', h1⟩
      · exact .inr (.inl ⟨bind_terminated h1, h2⟩)
      · refine .inr (.inr (.inl ⟨r, { x.2 with conv := cv, log := x.2.log ++ d }, t', ?_, rfl, rfl, ⟨d, rfl⟩⟩))
        rw [bind_ok h1]
        rfl

/-- `add_translation`. -/
theorem addP_cases (sh : Shortage) (a : Add) (x : PS) (t : Nat) :
    (∃ t', addP sh a x t = .ok () (x.1, { x.2 with dict := (a.apply x.2.dict).1, log := x.2.log ++ (a.apply x.2.dict).2 }) t') ∨
    (∃ y t', addP sh a x t = .thrown badAlloc y t' ∧ Shortage.Fails sh ∧ x.2.log <+: y.2.log ∧ SameBut (target a).1 (target a).2 x.2.dict y.2.dict ∧
      Left a (stored x.2.dict (target a).1 (target a).2) (stored y.2.dict (target a).1 (target a).2)) ∨
    (addP sh a x t = .terminated ∧ Shortage.Fails sh) := by
  unfold addP
  rcases Mem.add_cases sh.fails a x.2.dict x.2.log t with ⟨t', h, _⟩ | ⟨d', log', t', h, _, h1, h2, h3, k, _, hk⟩ | ⟨h, _, k, hk⟩
  · rw [h]; exact .inl ⟨t', rfl⟩
  · rw [h]
    refine .inr (.inl ⟨_, t', rfl, ⟨k, hk⟩, ?_, h1.but, h2⟩)
    rcases h3 with h3 | h3
    · dsimp only; rw [h3]; exact List.prefix_refl _
    · dsimp only; rw [h3]; exact List.prefix_append _ _
  · rw [h]; exact .inr (.inr ⟨rfl, k, hk⟩)

/-! ### The header -/

theorem hdrEffect_log (c : Cfg) (n : Nat) (cur : Str) (x : Dictionary × List Diag) (l : Str) :
    (hdrEffect c n cur x l).2 = x.2 ++ (hdrEffect c n cur x l).2.drop x.2.length := by
  unfold hdrEffect
  split
  · split <;> simp
  · split
    · split
      · simp
      · split
        · simp
        · split <;> simp
    · simp

theorem hdrEffects_log (c : Cfg) (n : Nat) (cur : Str) (ls : List Str) : ∀ (x : Dictionary × List Diag), x.2 <+: (hdrEffects c n cur ls x).2 := by
  induction ls with
  | nil => intro x; exact List.prefix_refl _
  | cons l ls ih =>
    intro x
    have h1 : x.2 <+: (hdrEffect c n cur x l).2 := ⟨_, (hdrEffect_log c n cur x l).symm⟩
    exact h1.trans (ih _)

/-- After some lines of the header. -/
def afterLines (c : Cfg) (ls : List Str) (x : PS) : PS :=
  (x.1, { x.2 with dict := (hdrEffects c x.2.lineNumber x.2.currentLine ls (x.2.dict, x.2.log)).1,
                   log := (hdrEffects c x.2.lineNumber x.2.currentLine ls (x.2.dict, x.2.log)).2 })

theorem afterLines_log (c : Cfg) (ls : List Str) (x : PS) : x.2.log <+: (afterLines c ls x).2.log :=
  hdrEffects_log c x.2.lineNumber x.2.currentLine ls (x.2.dict, x.2.log)

theorem headerLineP_cases (sh : Shortage) (c : Cfg) (l : Str) (x : PS) (t : Nat) :
    (∃ t', headerLineP sh c l x t = .thrown badAlloc x t' ∧ Shortage.Fails sh) ∨
    (headerLineP sh c l x t = .terminated ∧ Shortage.Fails sh) ∨
    ∃ t', headerLineP sh c l x t = .ok () (afterLines c [l] x) t' := by
  unfold headerLineP
  rcases alloc_cases sh x t with ⟨h, hf⟩ | h
  · exact .inl ⟨_, bind_thrown h, hf⟩
  · rw [bind_ok h]
    dsimp only
    rcases saysP_cases sh ((hdrEffect c x.2.lineNumber x.2.currentLine (x.2.dict, x.2.log) l).2.drop x.2.log.length) x (t + 1) with ⟨h1, h2⟩ | ⟨t', h1⟩
    · exact .inr (.inl ⟨bind_terminated h1, h2⟩)
    · refine .inr (.inr ⟨t', ?_⟩)
      rw [bind_ok h1]
      have := hdrEffect_log c x.2.lineNumber x.2.currentLine (x.2.dict, x.2.log) l
      unfold modify logged afterLines hdrEffects
      rw [List.foldl_cons, List.foldl_nil]
      dsimp only at this ⊢
      rw [← this]

theorem headerLinesP_cases (sh : Shortage) (c : Cfg) (ls : List Str) : ∀ (x : PS) (t : Nat),
    (∃ l1 t', headerLinesP sh c ls x t = .thrown badAlloc (afterLines c l1 x) t' ∧ Shortage.Fails sh ∧ l1 <+: ls) ∨
    (headerLinesP sh c ls x t = .terminated ∧ Shortage.Fails sh) ∨
    ∃ t', headerLinesP sh c ls x t = .ok () (afterLines c ls x) t' := by
  induction ls with
  | nil => intro x t; exact .inr (.inr ⟨t, rfl⟩)
  | cons l ls ih =>
    intro x t
    unfold headerLinesP
    rcases headerLineP_cases sh c l x t with ⟨t', h, hf⟩ | ⟨h, hf⟩ | ⟨t', h⟩
    · exact .inl ⟨[], t', bind_thrown h, hf, List.nil_prefix⟩
    · exact .inr (.inl ⟨bind_terminated h, hf⟩)
    · rw [bind_ok h]
      have hcomp : ∀ ls, afterLines c ls (afterLines c [l] x) = afterLines c (l :: ls) x := fun _ => rfl
      rcases ih (afterLines c [l] x) t' with ⟨l1, t2, h1, h2, h3⟩ | h1 | ⟨t2, h1⟩
      · exact .inl ⟨l :: l1, t2, by rw [h1, hcomp], h2, List.cons_prefix_cons.2 ⟨rfl, h3⟩⟩
      · exact .inr (.inl h1)
      · exact .inr (.inr ⟨t2, by rw [h1, hcomp]⟩)

theorem charsets_end (sh : Shortage) (c : Cfg) (text : Str) (x : PS) (t2 : Nat) (z : PS) (hzz : z = (x.1, afterHeader c text x.2)) (hzl : x.2.log <+: z.2.log) :
    (∃ t' s, setCharsetsP sh c (sourceCharset (headerCharset c.ct text)) z t2 = .ok () (x.1, s) t' ∧ parseHeader c text x.2 = .ok () s) ∨
    (∃ w t' s, setCharsetsP sh c (sourceCharset (headerCharset c.ct text)) z t2 = .thrown w (x.1, s) t' ∧ parseHeader c text x.2 = .exn w s) ∨
    (∃ y t' l1, setCharsetsP sh c (sourceCharset (headerCharset c.ct text)) z t2 = .thrown badAlloc y t' ∧ Shortage.Fails sh ∧ l1 <+: headerLines text [] ∧ x.2.log <+: y.2.log ∧
      y.2.dict = (hdrEffects c x.2.lineNumber x.2.currentLine l1 (x.2.dict, x.2.log)).1) ∨
    (setCharsetsP sh c (sourceCharset (headerCharset c.ct text)) z t2 = .terminated ∧ Shortage.Fails sh) ∨
    (setCharsetsP sh c (sourceCharset (headerCharset c.ct text)) z t2 = .crashed .useAfterFree ∧ Shortage.Fails sh) := by
  have hzd : z.2.dict = (hdrEffects c x.2.lineNumber x.2.currentLine (headerLines text []) (x.2.dict, x.2.log)).1 := by rw [hzz]; rfl
  have hzc : z.2.conv = x.2.conv := by rw [hzz]; rfl
  rw [parseHeader_eq]
  have he : ∀ cs, setCharsets c (sourceCharset (headerCharset c.ct text)) cs (afterHeader c text x.2)
    = setCharsets c (sourceCharset (headerCharset c.ct text)) cs z.2 := by intro cs; rw [hzz]
  have he1 : x.1 = z.1 := by rw [hzz]
  have he2 : (afterHeader c text x.2).dict.charset = z.2.dict.charset := by rw [hzz]
  rw [he, he1, he2]
  unfold setCharsetsP
  rcases alloc_cases sh z t2 with ⟨h4, hf⟩ | h4
  · exact .inr (.inr (.inl ⟨_, _, _, bind_thrown h4, hf, List.prefix_refl _, hzl, hzd⟩))
  · rw [bind_ok h4]
    dsimp only
    by_cases ho : sh.fails (t2 + 1) = true
    · rw [if_pos ho]
      cases z.2.conv.cd with
      | opened a b c d => exact .inr (.inr (.inr (.inr ⟨rfl, _, ho⟩)))
      | null => exact .inr (.inr (.inl ⟨_, _, _, rfl, ⟨_, ho⟩, List.prefix_refl _, hzl, hzd⟩))
      | invalid => exact .inr (.inr (.inl ⟨_, _, _, rfl, ⟨_, ho⟩, List.prefix_refl _, hzl, hzd⟩))
    · rw [if_neg ho]
      unfold setCharsets
      cases hr : (z.2.conv.setCharsets c.ct c.lib (sourceCharset (headerCharset c.ct text)) z.2.dict.charset) with
      | mk cv o =>
        cases o with
        | none => exact .inl ⟨_, _, rfl, rfl⟩
        | some w => exact .inr (.inl ⟨w, _, _, rfl, rfl⟩)

/-- `parse_header`. -/
theorem headerP_cases (sh : Shortage) (c : Cfg) (text : Str) (x : PS) (t : Nat) :
    (∃ t' s, headerP sh c text x t = .ok () (x.1, s) t' ∧ parseHeader c text x.2 = .ok () s) ∨
    (∃ w t' s, headerP sh c text x t = .thrown w (x.1, s) t' ∧ parseHeader c text x.2 = .exn w s) ∨
    (∃ y t' l1, headerP sh c text x t = .thrown badAlloc y t' ∧ Shortage.Fails sh ∧ l1 <+: headerLines text [] ∧ x.2.log <+: y.2.log ∧
      y.2.dict = (hdrEffects c x.2.lineNumber x.2.currentLine l1 (x.2.dict, x.2.log)).1) ∨
    (headerP sh c text x t = .terminated ∧ Shortage.Fails sh) ∨
    (headerP sh c text x t = .crashed .useAfterFree ∧ Shortage.Fails sh) := by
  unfold headerP
  rcases headerLinesP_cases sh c (headerLines text []) x t with ⟨l1, t1, h, hf, hl⟩ | ⟨h, hf⟩ | ⟨t1, h⟩
  · exact .inr (.inr (.inl ⟨_, t1, l1, bind_thrown h, hf, hl, afterLines_log _ _ _, rfl⟩))
  · exact .inr (.inr (.inr (.inl ⟨bind_terminated h, hf⟩)))
  · rw [bind_ok h]
    have hlog : x.2.log <+: (afterLines c (headerLines text []) x).2.log := afterLines_log _ _ _
    rcases alloc_cases sh (afterLines c (headerLines text []) x) t1 with ⟨h1, hf⟩ | h1
    · exact .inr (.inr (.inl ⟨_, _, _, bind_thrown h1, hf, List.prefix_refl _, hlog, rfl⟩))
    · rw [bind_ok h1]
      have hw : ∀ z t, charsetWarningP sh c text z t = saysP sh (if (headerCharset c.ct text).isEmpty || headerCharset c.ct text = b!"CHARSET" then
          [.po .warning c.filename z.2.lineNumber b!"charset not specified for .po, fallback to utf-8" z.2.currentLine] else []) z t := fun _ _ => rfl
      rcases saysP_cases sh _ (afterLines c (headerLines text []) x) (t1 + 1) with ⟨h2, hf⟩ | ⟨t2, h2⟩
      · exact .inr (.inr (.inr (.inl ⟨bind_terminated ((hw _ _).trans h2), hf⟩)))
      · rw [bind_ok ((hw _ _).trans h2)]
        have h3 : ∀ z : PS, modify (fun x : PS => (x.1, { x.2 with big5 := x.2.big5 || (headerCharset c.ct text == b!"BIG5") })) z t2
          = .ok () (z.1, { z.2 with big5 := z.2.big5 || (headerCharset c.ct text == b!"BIG5") }) t2 := fun _ => rfl
        rw [bind_ok (h3 _)]
        exact charsets_end sh c text x t2 _ rfl (hlog.trans (List.prefix_append _ _))

/-! ### Events -/

/-- The effect after an event. -/
def effAfter (k : Core) : Res Core Unit → Effect
  | .ok _ k' => k'.eff
  | .exn _ k' => k'.eff
  | _ => k.eff

/-- Where an event for which there was not enough memory leaves the dictionary. -/
inductive Broke (d : Dictionary) (eff eff' : Effect) : Dictionary → Prop where
  | rule {r : Option PluralForms} : (r = eff.rule ∨ r = eff'.rule) → Broke d eff eff' (({ eff with rule := r } : Effect).applyTo d)
  | add {a : Add} {d' : Dictionary} : eff'.adds = eff.adds ++ [a] → SameBut (target a).1 (target a).2 (eff.applyTo d) d' →
    Left a (stored (eff.applyTo d) (target a).1 (target a).2) (stored d' (target a).1 (target a).2) → Broke d eff eff' d'

theorem Broke.same {d d' : Dictionary} {eff eff' : Effect} (h : d' = eff.applyTo d) : Broke d eff eff' d' := by
  subst h; exact Broke.rule (eff := eff) (r := eff.rule) (.inl rfl)

theorem firstRule_prefix (ct : CType) {l1 ls : List Str} (h : l1 <+: ls) : firstRule ct l1 = none ∨ firstRule ct l1 = firstRule ct ls := by
  obtain ⟨l2, rfl⟩ := h
  induction l1 with
  | nil => exact .inl rfl
  | cons l l1 ih =>
    simp only [List.cons_append, firstRule]
    split
    · exact .inr rfl
    · exact ih

/-- The results of a piece of code with and without limits on the memory. -/
inductive Near (sh : Shortage) (r0 : Res PS Unit) (log : List Diag) (B : Dictionary → Prop) : Out PS Unit → Prop where
  | ok {y : PS} {t : Nat} : r0 = .ok () y → Near sh r0 log B (.ok () y t)
  | exn {w : Str} {y : PS} {t : Nat} : r0 = .exn w y → Near sh r0 log B (.thrown w y t)
  | badAlloc {y : PS} {t : Nat} : Shortage.Fails sh → log <+: y.2.log → B y.2.dict → Near sh r0 log B (.thrown badAlloc y t)
  | terminated : Shortage.Fails sh → Near sh r0 log B .terminated
  | twice : Shortage.Fails sh → Near sh r0 log B (.crashed .useAfterFree)
  | crashed {f : Fault} : r0 = .fault f → Near sh r0 log B (.crashed f)

theorem convert_core {c : Cfg} {text : Str} {x : PS} {k : Core} (h : x.2.conv = k.conv) :
    (∀ r s, convert c text x.2 = .ok r s → ∃ cv d, k.conv.convert c.lib text = .ok r cv d) := by
  intro r s hc
  unfold convert at hc
  rw [h] at hc
  cases hk : k.conv.convert c.lib text with
  | fault f => rw [hk] at hc; cases hc
  | ok r' cv d => rw [hk] at hc; cases hc; exact ⟨cv, d, rfl⟩

theorem stepP_near (sh : Shortage) (c : Cfg) (T : Tape) (d : Dictionary) (e : Ev) (k : Core) (x : PS) (t : Nat) (h : Rel d k x) :
    Near sh (evStep c T e x) x.2.log (Broke d k.eff (effAfter k (coreStep c.ct c.lib c.useFuzzy d.charset e k))) (stepP sh c T e x t) := by
  cases e with
  | diag lv p m ped =>
    unfold stepP evStep
    dsimp only
    split
    · exact .ok rfl
    · unfold sayP
      by_cases ho : sh.fails t = true
      · rw [if_pos ho]; exact .terminated ⟨t, ho⟩
      · rw [if_neg ho]; exact .ok rfl
  | clear => exact .ok rfl
  | conv n text =>
    unfold stepP evStep
    dsimp only
    rcases convertP_cases sh c text x t with ⟨t', h1, hf⟩ | ⟨h1, hf⟩ | ⟨r, s, t', h1, h2, h3, h4⟩ | ⟨f, h1, h2⟩
    · rw [bind_thrown h1]; exact .badAlloc hf (List.prefix_refl _) (.same h.dict)
    · rw [bind_terminated h1]; exact .terminated hf
    · rw [bind_ok h1]
      rcases alloc_cases sh (x.1, s) t' with ⟨h5, hf⟩ | h5
      · rw [bind_thrown h5]; exact .badAlloc hf h4 (.same (h3.trans h.dict))
      · rw [bind_ok h5, h2]; exact .ok rfl
    · rw [bind_crashed h1, h2]; exact .crashed rfl
  | singular fz ctxt id text =>
    unfold stepP evStep coreStep
    dsimp only
    by_cases hz : (c.useFuzzy || !fz) = true
    · rw [if_pos hz, if_pos hz, if_pos hz]
      rcases convertP_cases sh c text x t with ⟨t', h1, hf⟩ | ⟨h1, hf⟩ | ⟨r, s, t', h1, h2, h3, h4⟩ | ⟨f, h1, h2⟩
      · rw [bind_thrown h1]; exact .badAlloc hf (List.prefix_refl _) (.same h.dict)
      · rw [bind_terminated h1]; exact .terminated hf
      · rw [bind_ok h1]
        rcases alloc_cases sh (x.1, s) t' with ⟨h5, hf⟩ | h5
        · rw [bind_thrown h5]; exact .badAlloc hf h4 (.same (h3.trans h.dict))
        · rw [bind_ok h5, h2]
          dsimp only
          obtain ⟨cv, dg, hk⟩ := convert_core h.conv _ _ h2
          rw [hk]
          rcases addP_cases sh (.singular ctxt id r) (x.1, s) (t' + 1) with ⟨t2, h6⟩ | ⟨y, t2, h6, hf, h7, h8, h9⟩ | ⟨h6, hf⟩
          · rw [h6]; exact .ok rfl
          · rw [h6]
            refine .badAlloc hf (h4.trans h7) (.add (a := .singular ctxt id r) rfl ?_ ?_)
            · rw [← h.dict, ← h3]; exact h8
            · rw [← h.dict, ← h3]; exact h9
          · rw [h6]; exact .terminated hf
      · rw [bind_crashed h1, h2]; exact .crashed rfl
    · rw [if_neg hz, if_neg hz, if_neg hz]; exact .ok rfl
  | plural p fz ctxt id idp =>
    unfold stepP evStep coreStep
    dsimp only
    by_cases hz : (c.useFuzzy || !fz) = true
    · rw [if_pos hz, if_pos hz, if_pos hz]
      have hw : ∀ z t, pluralWarningP sh c T p z t = saysP sh (if !z.2.dict.pluralForms.isDefined then
            [.po .warning c.filename (p + 1) b!"msgstr[N] seen, but no Plural-Forms given" (T p).line]
          else if z.1.length ≠ z.2.dict.pluralForms.getNplural then
            [.po .warning c.filename (p + 1) b!"msgstr[N] count doesn't match Plural-Forms.nplural" (T p).line]
          else []) z t := fun _ _ => rfl
      rcases saysP_cases sh _ x t with ⟨h1, hf⟩ | ⟨t1, h1⟩
      · rw [bind_terminated ((hw _ _).trans h1)]; exact .terminated hf
      · rw [bind_ok ((hw _ _).trans h1)]
        generalize (if !x.2.dict.pluralForms.isDefined then
            [Diag.po .warning c.filename (p + 1) b!"msgstr[N] seen, but no Plural-Forms given" (T p).line]
          else if x.1.length ≠ x.2.dict.pluralForms.getNplural then
            [.po .warning c.filename (p + 1) b!"msgstr[N] count doesn't match Plural-Forms.nplural" (T p).line]
          else []) = ws
        have hx1 : (logged x ws).1 = x.1 := rfl
        rw [hx1]
        rcases addP_cases sh (.plural ctxt id idp x.1) (logged x ws) t1 with ⟨t2, h6⟩ | ⟨y, t2, h6, hf, h7, h8, h9⟩ | ⟨h6, hf⟩
        · rw [h6]; exact .ok rfl
        · rw [h6]
          have hd : (logged x ws).2.dict = k.eff.applyTo d := h.dict
          rw [hd] at h8 h9
          refine .badAlloc hf (List.IsPrefix.trans ⟨ws, rfl⟩ h7) (.add (a := .plural ctxt id idp x.1) ?_ h8 h9)
          rw [← h.vec]
          rfl
        · rw [h6]; exact .terminated hf
    · rw [if_neg hz, if_neg hz, if_neg hz]; exact .ok rfl
  | header p text =>
    unfold stepP evStep
    have h0 : ∀ t, modify (fun x : PS => (x.1, mv T x.2 p)) x t = .ok () (x.1, mv T x.2 p) t := fun _ => rfl
    dsimp only
    rw [bind_ok (h0 t)]
    rcases headerP_cases sh c text (x.1, mv T x.2 p) t with ⟨t', s, h1, h2⟩ | ⟨w, t', s, h1, h2⟩ | ⟨y, t', l1, h1, hf, h2, h3, h4⟩ | ⟨h1, hf⟩ | ⟨h1, hf⟩
    · dsimp only at h1 h2
      rw [h1, h2]; exact .ok rfl
    · dsimp only at h1 h2
      rw [h1, h2]; exact .exn rfl
    · rw [h1]
      refine .badAlloc hf h3 ?_
      have hd := (hdr_dict c (mv T x.2 p).lineNumber (mv T x.2 p).currentLine d l1 k.eff x.2.log h.rule).1
      have hx : (mv T x.2 p).dict = k.eff.applyTo d := h.dict
      have hl : (mv T x.2 p).log = x.2.log := rfl
      dsimp only at h4
      rw [hx, hl, hd] at h4
      rw [h4]
      have hr : (effAfter k (coreStep c.ct c.lib c.useFuzzy d.charset (.header p text) k)).rule = k.eff.rule.or (firstRule c.ct (headerLines text [])) := by
        unfold coreStep
        dsimp only
        cases (k.conv.setCharsets c.ct c.lib (sourceCharset (headerCharset c.ct text)) d.charset).2 <;> rfl
      refine .rule ?_
      rw [hr]
      rcases firstRule_prefix c.ct h2 with h5 | h5
      · rw [h5]; exact .inl (by simp)
      · rw [h5]; exact .inr rfl
    · rw [h1]; exact .terminated hf
    · rw [h1]; exact .twice hf

theorem coreStep_grows (ct : CType) (lib : IconvLib) (uf : Bool) (cs : Str) (e : Ev) (k : Core) :
    k.eff.adds <+: (effAfter k (coreStep ct lib uf cs e k)).adds ∧
    (k.eff.rule = none ∨ k.eff.rule = (effAfter k (coreStep ct lib uf cs e k)).rule) := by
  cases e with
  | diag lv p m ped => exact ⟨List.prefix_refl _, .inr rfl⟩
  | clear => exact ⟨List.prefix_refl _, .inr rfl⟩
  | conv n t => unfold coreStep; dsimp only; cases k.conv.convert lib t <;> exact ⟨List.prefix_refl _, .inr rfl⟩
  | singular fz ctxt id t =>
    unfold coreStep
    dsimp only
    split
    · cases k.conv.convert lib t
      · exact ⟨List.prefix_append _ _, .inr rfl⟩
      · exact ⟨List.prefix_refl _, .inr rfl⟩
    · exact ⟨List.prefix_refl _, .inr rfl⟩
  | plural p fz ctxt id idp =>
    unfold coreStep
    dsimp only
    split
    · exact ⟨List.prefix_append _ _, .inr rfl⟩
    · exact ⟨List.prefix_refl _, .inr rfl⟩
  | header p t =>
    unfold coreStep
    dsimp only
    have : k.eff.rule = none ∨ k.eff.rule = k.eff.rule.or (firstRule ct (headerLines t [])) := by
      cases k.eff.rule with
      | none => exact .inl rfl
      | some r => exact .inr rfl
    cases (k.conv.setCharsets ct lib (sourceCharset (headerCharset ct t)) cs).2 <;> exact ⟨List.prefix_refl _, this⟩

theorem gathered_grows (c : Cfg) (cs : Str) (w : List Ev) : ∀ k : Core, k.eff.adds <+: (gathered c cs w k).adds ∧
    (k.eff.rule = none ∨ k.eff.rule = (gathered c cs w k).rule) := by
  induction w with
  | nil => intro k; exact ⟨List.prefix_refl _, .inr rfl⟩
  | cons e w ih =>
    intro k
    have h := coreStep_grows c.ct c.lib c.useFuzzy cs e k
    unfold gathered
    cases hs : coreStep c.ct c.lib c.useFuzzy cs e k with
    | ok a k' =>
      rw [hs] at h
      obtain ⟨h1, h2⟩ := h
      obtain ⟨h3, h4⟩ := ih k'
      refine ⟨h1.trans h3, ?_⟩
      rcases h2 with h2 | h2
      · exact .inl h2
      · rcases h4 with h4 | h4
        · exact .inl (h2.trans h4)
        · exact .inr (h2.trans h4)
    | exn w k' => rw [hs] at h; exact h
    | poError k' => exact ⟨List.prefix_refl _, .inr rfl⟩
    | fault f => exact ⟨List.prefix_refl _, .inr rfl⟩
    | diverge => exact ⟨List.prefix_refl _, .inr rfl⟩

/-- The effect after the first event is part of the whole. -/
theorem gathered_step (c : Cfg) (cs : Str) (e : Ev) (w : List Ev) (k : Core) :
    (effAfter k (coreStep c.ct c.lib c.useFuzzy cs e k)).adds <+: (gathered c cs (e :: w) k).adds ∧
    ((effAfter k (coreStep c.ct c.lib c.useFuzzy cs e k)).rule = none ∨
      (effAfter k (coreStep c.ct c.lib c.useFuzzy cs e k)).rule = (gathered c cs (e :: w) k).rule) := by
  unfold gathered
  cases hs : coreStep c.ct c.lib c.useFuzzy cs e k with
  | ok a k' => exact gathered_grows c cs w k'
  | _ => exact ⟨List.prefix_refl _, .inr rfl⟩

theorem partly_of {e e' : Effect} {d : Dictionary} (h : e'.adds <+: e.adds) (hr : e'.rule = none ∨ e'.rule = e.rule) : Partly e d (e'.applyTo d) := by
  have h1 : e.adds.take e'.adds.length = e'.adds := (List.prefix_iff_eq_take.1 h).symm
  have := Partly.some (e := e) (d := d) (n := e'.adds.length) hr
  rw [h1] at this
  exact this

/-- A broken event leaves a part of the whole. -/
theorem Broke.partly {d d' : Dictionary} {eff eff' e : Effect} (h : Broke d eff eff' d') (h1 : eff.adds <+: e.adds) (h2 : eff.rule = none ∨ eff.rule = e.rule)
    (h3 : eff'.adds <+: e.adds) (h4 : eff'.rule = none ∨ eff'.rule = e.rule) : Partly e d d' := by
  cases h with
  | rule hr =>
    refine partly_of (e' := { eff with rule := _ }) h1 ?_
    rcases hr with hr | hr
    · rw [hr]; exact h2
    · rw [hr]; exact h4
  | @add a _ ha hs hl =>
    have e1 : e.adds.take eff.adds.length = eff.adds := (List.prefix_iff_eq_take.1 h1).symm
    have e2 : e.adds[eff.adds.length]? = some a := by
      rw [ha] at h3
      obtain ⟨r, hr⟩ := h3
      rw [← hr]
      simp
    have e3 : (⟨e.adds.take eff.adds.length, eff.rule⟩ : Effect) = eff := by rw [e1]
    refine .failed (n := eff.adds.length) (r := eff.rule) h2 e2 ?_ ?_
    · rw [e3]; exact hs
    · rw [e3]; exact hl

theorem evStep_log (c : Cfg) (T : Tape) (e : Ev) (x y : PS) (h : evStep c T e x = .ok () y ∨ ∃ w, evStep c T e x = .exn w y) : x.2.log <+: y.2.log := by
  have hc : ∀ t, ∀ r s, convert c t x.2 = .ok r s → x.2.log <+: s.log := by
    intro t r s hc
    unfold convert at hc
    cases hk : x.2.conv.convert c.lib t with
    | fault f => rw [hk] at hc; cases hc
    | ok r' cv d => rw [hk] at hc; cases hc; exact ⟨d, rfl⟩
  have hn : ∀ t w s, convert c t x.2 ≠ .exn w s := by
    intro t w s hc
    unfold convert at hc
    cases hk : x.2.conv.convert c.lib t <;> rw [hk] at hc <;> cases hc
  cases e with
  | diag lv p m ped =>
    simp only [evStep] at h
    split at h
    · rcases h with h | ⟨w, h⟩ <;> cases h; exact List.prefix_refl _
    · rcases h with h | ⟨w, h⟩ <;> cases h; exact List.prefix_append _ _
  | clear => rcases h with h | ⟨w, h⟩ <;> cases h; exact List.prefix_refl _
  | conv n t =>
    simp only [evStep] at h
    cases hk : convert c t x.2 with
    | ok r s => rw [hk] at h; rcases h with h | ⟨w, h⟩ <;> cases h; exact hc t r s hk
    | exn w s => exact absurd hk (hn t w s)
    | _ => rw [hk] at h; rcases h with h | ⟨w, h⟩ <;> cases h
  | singular fz ctxt id t =>
    simp only [evStep] at h
    split at h
    · cases hk : convert c t x.2 with
      | ok r s => rw [hk] at h; rcases h with h | ⟨w, h⟩ <;> cases h; exact (hc t r s hk).trans (List.prefix_append _ _)
      | exn w s => exact absurd hk (hn t w s)
      | _ => rw [hk] at h; rcases h with h | ⟨w, h⟩ <;> cases h
    · rcases h with h | ⟨w, h⟩ <;> cases h; exact List.prefix_refl _
  | plural p fz ctxt id idp =>
    simp only [evStep] at h
    split at h
    · rcases h with h | ⟨w, h⟩ <;> cases h
      dsimp only
      rw [List.append_assoc]
      exact List.prefix_append _ _
    · rcases h with h | ⟨w, h⟩ <;> cases h; exact List.prefix_refl _
  | header p t =>
    have ha : x.2.log <+: (afterHeader c t (mv T x.2 p)).log :=
      (hdrEffects_log c (mv T x.2 p).lineNumber (mv T x.2 p).currentLine (headerLines t []) ((mv T x.2 p).dict, (mv T x.2 p).log)).trans (List.prefix_append _ _)
    have hp : ∀ s, (parseHeader c t (mv T x.2 p) = .ok () s ∨ ∃ w, parseHeader c t (mv T x.2 p) = .exn w s) → x.2.log <+: s.log := by
      intro s hs
      rw [parseHeader_eq] at hs
      unfold setCharsets at hs
      cases hr : (afterHeader c t (mv T x.2 p)).conv.setCharsets c.ct c.lib (sourceCharset (headerCharset c.ct t)) (afterHeader c t (mv T x.2 p)).dict.charset with
      | mk cv o =>
        rw [hr] at hs
        cases o <;> rcases hs with hs | ⟨w, hs⟩ <;> cases hs <;> exact ha
    simp only [evStep] at h
    cases hk : parseHeader c t (mv T x.2 p) with
    | ok r s => rw [hk] at h; rcases h with h | ⟨w, h⟩ <;> cases h; exact hp _ (.inl hk)
    | exn w s => rw [hk] at h; rcases h with h | ⟨w, h⟩ <;> cases h; exact hp _ (.inr ⟨_, hk⟩)
    | _ => rw [hk] at h; rcases h with h | ⟨w, h⟩ <;> cases h

theorem eventsP_near (sh : Shortage) (c : Cfg) (T : Tape) (d : Dictionary) (w : List Ev) : ∀ (k : Core) (x : PS) (t : Nat), Rel d k x →
    Near sh (interp c T w x) x.2.log (Partly (gathered c d.charset w k) d) (eventsP sh c T w x t) := by
  induction w with
  | nil =>
    intro k x t h
    unfold eventsP
    rcases alloc_cases sh x t with ⟨h1, hf⟩ | h1
    · rw [h1]; refine .badAlloc hf (List.prefix_refl _) ?_
      rw [h.dict]
      exact partly_of (e' := k.eff) (List.prefix_refl _) (.inr rfl)
    · rw [h1]; exact .ok rfl
  | cons e w ih =>
    intro k x t h
    unfold eventsP
    obtain ⟨g1, g2⟩ := gathered_grows c d.charset (e :: w) k
    obtain ⟨g3, g4⟩ := gathered_step c d.charset e w k
    rcases alloc_cases sh x t with ⟨h1, hf⟩ | h1
    · rw [bind_thrown h1]; refine .badAlloc hf (List.prefix_refl _) ?_
      rw [h.dict]
      exact partly_of g1 g2
    · rw [bind_ok h1]
      have hs := stepP_near sh c T d e k x (t + 1) h
      have hrel := step_rel c T d e k x h
      simp only [interp, bind_apply]
      generalize hres : stepP sh c T e x (t + 1) = res at hs
      cases hs with
      | @ok y t' hev =>
        rw [bind_ok hres, hev]
        rw [hev] at hrel
        have hlog := evStep_log c T e x y (.inl hev)
        cases hk : coreStep c.ct c.lib c.useFuzzy d.charset e k with
        | ok a k' =>
          rw [hk] at hrel
          have hi := ih k' y t' hrel
          have hg : gathered c d.charset (e :: w) k = gathered c d.charset w k' := by rw [gathered, hk]
          rw [hg]
          dsimp only
          generalize eventsP sh c T w y t' = r2 at hi
          cases hi with
          | ok h => exact .ok h
          | exn h => exact .exn h
          | badAlloc h1 h2 h3 => exact .badAlloc h1 (hlog.trans h2) h3
          | terminated h => exact .terminated h
          | twice h => exact .twice h
          | crashed h => exact .crashed h
        | _ => rw [hk] at hrel; exact hrel.elim
      | exn hev => rw [bind_thrown hres, hev]; exact .exn rfl
      | badAlloc hf hl hb => rw [bind_thrown hres]; exact .badAlloc hf hl (hb.partly g1 g2 g3 g4)
      | terminated hf => rw [bind_terminated hres]; exact .terminated hf
      | twice hf => rw [bind_crashed hres]; exact .twice hf
      | crashed hev => rw [bind_crashed hres, hev]; exact .crashed rfl

theorem gathered_ok (c : Cfg) (cs : Str) (w : List Ev) : ∀ (k k' : Core),
    (coreInterp c.ct c.lib c.useFuzzy cs w k = .ok () k' ∨ ∃ m, coreInterp c.ct c.lib c.useFuzzy cs w k = .exn m k') → gathered c cs w k = k'.eff := by
  induction w with
  | nil => intro k k' h; rcases h with h | ⟨m, h⟩ <;> cases h; rfl
  | cons e w ih =>
    intro k k' h
    simp only [coreInterp, bind_apply] at h
    unfold gathered
    cases hs : coreStep c.ct c.lib c.useFuzzy cs e k with
    | ok a k1 => rw [hs] at h; exact ih k1 k' h
    | exn m k1 => rw [hs] at h; rcases h with h | ⟨m, h⟩ <;> cases h; rfl
    | _ => rw [hs] at h; rcases h with h | ⟨m, h⟩ <;> cases h

/-- The results of a parse with and without limits on the memory. -/
inductive NearParse (sh : Shortage) (lib : IconvLib) (o : Observed) (d : Dictionary) (log : List Diag) (e : Effect) : Out (Dictionary × List Diag) Unit → Prop where
  | ok {y : Dictionary} {l : List Diag} {t : Nat} : (o = .returned y l ∨ o = .unfinished) → Partly e d y → NearParse sh lib o d log e (.ok () (y, log ++ l) t)
  | exn {w : Str} {y : Dictionary} {l : List Diag} {t : Nat} : (o = .threw w y l ∨ o = .unfinished) → Partly e d y → NearParse sh lib o d log e (.thrown w (y, log ++ l) t)
  | badAlloc {y : Dictionary} {l : List Diag} {t : Nat} : Shortage.Fails sh → Partly e d y → NearParse sh lib o d log e (.thrown badAlloc (y, log ++ l) t)
  | terminated : Shortage.Fails sh → NearParse sh lib o d log e .terminated
  | twice : Shortage.Fails sh → NearParse sh lib o d log e (.crashed .useAfterFree)
  | crashed {f : Fault} : (o = .crashed f ∨ o = .unfinished) → f = .signedOverflow ∨ (f = .assertFailed ∧ ¬ TameLib lib) → NearParse sh lib o d log e (.crashed f)
  | unfinished : o = .unfinished → NearParse sh lib o d log e .unfinished

theorem parse_near (sh : Shortage) (c : Cfg) (input : Stream) (d : Dictionary) (log : List Diag) (t : Nat) :
    NearParse sh c.lib (observe (run c (delivered sh input t) d)) d log
      (gathered c d.charset (events c.ct (evFuel c (delivered sh input t)) (delivered sh input t)).1 core0) (parse sh c input (d, log) t) := by
  unfold parse
  dsimp only
  generalize delivered sh input t = inp
  have ho := run_obs_mono c inp d (evFuel c inp) (by unfold evFuel; omega) (by unfold evFuel; omega)
  have hn := eventsP_near sh c (startTape inp) d (events c.ct (evFuel c inp) inp).1 core0 ([], initState inp d) t (rel0 inp d)
  have hr := interp_rel c (startTape inp) d (events c.ct (evFuel c inp) inp).1 core0 ([], initState inp d) (rel0 inp d)
  have hf : ∀ f, interp c (startTape inp) (events c.ct (evFuel c inp) inp).1 ([], initState inp d) = .fault f → f = .signedOverflow ∨ (f = .assertFailed ∧ ¬ TameLib c.lib) := by
    intro f h
    refine .inr ⟨interp_fault _ _ _ _ _ h, fun hl => ?_⟩
    rcases interp_tame c hl (startTape inp) (events c.ct (evFuel c inp) inp).1 ([], initState inp d) (by simp [ConvOk, initState, IConv.init]) with ⟨y, hy⟩ | ⟨m, y, hy⟩
    · rw [hy] at h; cases h
    · rw [hy] at h; cases h
  unfold obsE at ho
  generalize heq : eventsP sh c (startTape inp) (events c.ct (evFuel c inp) inp).1 ([], initState inp d) t = out at hn
  have hpart : ∀ (y : PS), (interp c (startTape inp) (events c.ct (evFuel c inp) inp).1 ([], initState inp d) = .ok () y ∨
      ∃ w, interp c (startTape inp) (events c.ct (evFuel c inp) inp).1 ([], initState inp d) = .exn w y) →
      Partly (gathered c d.charset (events c.ct (evFuel c inp) inp).1 core0) d y.2.dict := by
    intro y hy
    rcases hy with hy | ⟨w, hy⟩
    · rw [hy] at hr
      cases hk : coreInterp c.ct c.lib c.useFuzzy d.charset (events c.ct (evFuel c inp) inp).1 core0 with
      | ok a k =>
        rw [hk] at hr
        rw [gathered_ok c d.charset _ _ k (.inl hk), Rel.dict hr]
        exact partly_of (List.prefix_refl _) (.inr rfl)
      | _ => rw [hk] at hr; exact hr.elim
    · rw [hy] at hr
      cases hk : coreInterp c.ct c.lib c.useFuzzy d.charset (events c.ct (evFuel c inp) inp).1 core0 with
      | exn w' k =>
        rw [hk] at hr
        rw [gathered_ok c d.charset _ _ k (.inr ⟨w', hk⟩), Rel.dict hr.2]
        exact partly_of (List.prefix_refl _) (.inr rfl)
      | _ => rw [hk] at hr; exact hr.elim
  cases hn with
  | @ok y t' h =>
    rw [h] at ho
    dsimp only at ho ⊢
    cases hres : (events c.ct (evFuel c inp) inp).2 with
    | ok a p => rw [hres] at ho; exact .ok ho.symm (hpart y (.inl h))
    | err p => exact absurd hres (mainLoopE_not_err _ _ _ _ _ _ _)
    | overflow => rw [hres] at ho; exact .crashed ho.symm (.inl rfl)
    | diverge => rw [hres] at ho; refine .unfinished ?_; rcases ho with ho | ho <;> exact ho
  | exn h => rw [h] at ho; exact .exn ho.symm (hpart _ (.inr ⟨_, h⟩))
  | badAlloc h1 h2 h3 => exact .badAlloc h1 h3
  | terminated h => exact .terminated h
  | twice h => exact .twice h
  | crashed h => have h' := h; rw [h] at ho; exact .crashed ho.symm (hf _ h')

end Tgt.Starved
