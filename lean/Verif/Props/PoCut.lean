import Verif.Proofs.Cut
import Verif.Props.PoGarbage
/-
Texts that begin alike are read alike as far as they agree; a catalogue that is cut off somewhere (C80).
-/
namespace Tgt
open Spec Spec.Po POParser

/-- C80.  Two texts that begin with the same complete lines: both are read in the same way up to a line `n` among these (or right
after them), with the same pieces, and these are loaded in the same way, with the same messages, whatever follows.  The next
thing that is read from either, if there is any, depends on a line after the common ones. -/
theorem C80_same_start (ct : CType) (a x y : Str) (ha : Terminated a) :
    ∃ pre n, n ≤ completeLines a ∧ ReadUpTo ct (a ++ x) pre n (completeLines a) ∧ ReadUpTo ct (a ++ y) pre n (completeLines a) ∧
      ∀ lib uf ped file cv d l,
        loadPieces ct lib uf ped file (lineAt (withoutBom (a ++ x))) pre cv d l =
        loadPieces ct lib uf ped file (lineAt (withoutBom (a ++ y))) pre cv d l := by
  have hL := lines_agree ha x y
  obtain ⟨pre, n, h1, h2, h3, h4, h5, h6⟩ := blocks_agree (ct := ct) hL (complete_le ha x) (complete_le ha y) (completeLines a + 1) false 0
    (by omega) (by omega)
  exact ⟨pre, n, h1, ⟨h2, by simpa using h5⟩, ⟨h3, by simpa using h6⟩, fun lib uf ped file cv d l =>
    loadPieces_lines _ (fun p hp => hL p (h4 p hp)) _ _ _⟩

theorem lineAt_short (s : Str) (p : Nat) : (lineAt (withoutBom s) p).length ≤ s.length := by
  have hb : (withoutBom s).length ≤ s.length := by
    unfold withoutBom
    split <;> simp
    omega
  have hu : ∀ (ls : List Str), ∀ l ∈ ls, l.length ≤ (unlines ls).length := by
    intro ls
    induction ls with
    | nil => intro l hl; cases hl
    | cons m ls ih =>
      intro l hl
      simp only [unlines, List.length_append, List.length_cons]
      rcases List.mem_cons.1 hl with rfl | hl
      · omega
      · have := ih l hl; omega
  have hj := congrArg List.length (splitLines_join (withoutBom s))
  rw [List.length_append] at hj
  unfold lineAt
  rw [List.getD_eq_getElem?_getD]
  cases h : (splitLines (withoutBom s)).1[p]? with
  | none => simp only [Option.getD_none]; omega
  | some l =>
    have := hu _ l (List.mem_of_getElem? h)
    simp only [Option.getD_some]; omega

theorem rest_only {a x : Str} (ha : Terminated a) (hx : (10 : Byte) ∉ x) :
    lineCount (a ++ x) ≤ completeLines a + 1 ∧
    ∀ p, completeLines a ≤ p → lineAt (withoutBom (a ++ x)) p = lineAt (withoutBom (a ++ x)) (completeLines a) := by
  have h0 : (splitLines (a ++ x)).1.length = completeLines a := by
    rw [splitLines_terminated ha, splitLines_single x hx]
    simp [completeLines]
  refine ⟨?_, ?_⟩
  · unfold lineCount
    rw [h0]; split <;> omega
  · intro p hp
    have hw : (splitLines (withoutBom (a ++ x))).1.length ≤ completeLines a := by
      by_cases hne : a = []
      · subst hne
        have : (10 : Byte) ∉ withoutBom x := by
          intro h; apply hx
          unfold withoutBom at h
          split at h
          · simp [h]
          · exact h
        rw [List.nil_append, splitLines_single _ this]
        simp [completeLines, splitLines]
      · obtain ⟨h1, h2, h3⟩ := withoutBom_append ha hne x
        rw [h1, splitLines_terminated h2, splitLines_single x hx]
        simp only [List.append_nil]
        exact Nat.le_of_eq h3
    unfold lineAt
    simp [List.getD, List.getElem?_eq_none (show (splitLines (withoutBom (a ++ x))).1.length ≤ p by omega),
      List.getElem?_eq_none hw]

/-- C80.  A catalogue `a ++ y` of which only the complete lines `a` and a piece `x` of a line are there (so that what is parsed is
`a ++ x`).  If that parse returns, then everything that is read from the catalogue up to some line `n` among the complete ones has
been loaded as from the catalogue itself, with the same messages, in front of all others; and beyond that at most a single
message was added, or the rule for plural forms of a header taken over. -/
theorem C80_cut_at (c : Cfg) (a x y : Str) (d dt : Dictionary) (lt : List Diag) (ha : Terminated a) (hx : (10 : Byte) ∉ x)
    (hsize : (a ++ x).length + 8 < 2147483647) (hF : (a ++ x).length + 8 < c.fuel)
    (hret : observe (run c (.ofBytes (a ++ x)) d) = .returned dt lt) :
    ∃ pre n d1 l1, n ≤ completeLines a ∧ ReadUpTo c.ct (a ++ y) pre n (completeLines a) ∧
      loadPieces c.ct c.lib c.useFuzzy c.pedantic c.filename (lineAt (withoutBom (a ++ y))) pre .init d [] = .returned d1 l1 ∧
      l1 <+: lt ∧
      (dt = d1 ∨ (∃ m : Add, dt = (m.apply d1).1) ∨ ∃ header, dt = withHeaderRule c.ct header d1) := by
  obtain ⟨pre, n, hn, hrx, hry, hload⟩ := C80_same_start c.ct a x y ha
  have hlc := lineCount_le (a ++ x)
  obtain ⟨hN, hrep⟩ := rest_only ha hx
  obtain ⟨qs, e, hq⟩ := reading_total (ct := c.ct) (L := lineAt (withoutBom (a ++ x))) (N := lineCount (a ++ x))
    (fun p hp => by rw [lineAt_ends _ p hp, lineAt_ends _ _ (Nat.le_refl _)]) (lineCount (a ++ x)) n (pre.any (saysBig5 c.ct)) (by omega)
  have hread := hrx.blocks.reading (by simpa using hq)
  obtain ⟨_, hl⟩ := reading_returns c (a ++ x) d (fun p => by have := lineAt_short (a ++ x) p; omega) (by omega) hF hret hread
  obtain ⟨cv1, d1, l1, h1, h2⟩ := loadPieces_split qs pre _ _ _ _ _ hl
  obtain ⟨r, hr⟩ := loadPieces_log _ _ _ _ _ _ h2
  refine ⟨pre, n, d1, l1, hn, hry, by rw [← hload]; exact h1, ⟨r, hr.symm⟩, ?_⟩
  rcases tail_one hN hrep hrx.stops hq with rfl | ⟨z, rfl⟩ | ⟨z, ns, rfl⟩
  · cases h2; exact .inl rfl
  · exact loadPieces_one _ _ _ _ _ _ h2
  · obtain ⟨_, d2, l2, h3, h4⟩ := loadPieces_split [.notes ns] [z] _ _ _ _ _ h2
    cases h4
    exact loadPieces_one _ _ _ _ _ _ h3

/-- Loading pieces takes steps, one by one. -/
theorem loadPieces_steps {ct : CType} {lib : IconvLib} {uf ped : Bool} {file : Str} {line : Nat → Str} (ps : List Piece) :
    ∀ (cv : IConv) (d : Dictionary) (l : List Diag) (d' : Dictionary) (l' : List Diag),
    loadPieces ct lib uf ped file line ps cv d l = .returned d' l' → Loaded ct d d' := by
  induction ps with
  | nil => intro cv d l d' l' h; cases h; exact .none
  | cons x ps ih =>
    intro cv d l d' l' h
    obtain ⟨_, d1, _, h1, h2⟩ := loadPieces_split ps [x] _ _ _ _ _ h
    have := ih _ _ _ _ _ h2
    rcases loadPieces_one _ _ _ _ _ _ h1 with rfl | ⟨a, rfl⟩ | ⟨header, rfl⟩
    · exact this
    · exact .add a this
    · exact .rule header this

/-- C80.  A file that was cut off after any number of bytes, compared with the whole file, if both are parsed and these parses
return: there is a common beginning `d1` that the whole file leads to first, with messages `l1`, and everything that the cut-off
file loads is in `d1`, apart from at most one message or the rule for plural forms of one header.  (That one message may be wrong:
its translation may lack lines at the end, and plural forms may be missing.)  The messages `l1` are the first ones in both cases. -/
theorem C80_cut (c : Cfg) (s : Str) (k : Nat) (d dt ds : Dictionary) (lt ls : List Diag)
    (hsize : s.length + 8 < 2147483647) (hF : s.length + 8 < c.fuel)
    (hcut : observe (run c (.ofBytes (s.take k)) d) = .returned dt lt)
    (hwhole : observe (run c (.ofBytes s) d) = .returned ds ls) :
    ∃ pre n d1 l1, n ≤ completeLines (s.take k) ∧ ReadUpTo c.ct s pre n (completeLines (s.take k)) ∧
      loadPieces c.ct c.lib c.useFuzzy c.pedantic c.filename (lineAt (withoutBom s)) pre .init d [] = .returned d1 l1 ∧
      Loaded c.ct d1 ds ∧ l1 <+: ls ∧ l1 <+: lt ∧
      (dt = d1 ∨ (∃ m : Add, dt = (m.apply d1).1) ∨ ∃ header, dt = withHeaderRule c.ct header d1) := by
  generalize ht : s.take k = t at hcut
  have hst : t ++ s.drop k = s := by rw [← ht, List.take_append_drop]
  have hj := splitLines_join t
  have hnl := splitLines_no_nl t
  have ha : splitLines (unlines (splitLines t).1) = ((splitLines t).1, []) := by
    have := splitLines_unlines (splitLines t).1 [] hnl.1 (by simp)
    simpa using this
  have hta : Terminated (unlines (splitLines t).1) := by unfold Terminated; rw [ha]
  have hca : completeLines (unlines (splitLines t).1) = completeLines t := by unfold completeLines; rw [ha]
  have hlen : t.length ≤ s.length := by rw [← ht]; simp; omega
  have hsy : unlines (splitLines t).1 ++ ((splitLines t).2 ++ s.drop k) = s := by rw [← List.append_assoc, hj, hst]
  obtain ⟨pre, n, d1, l1, h1, h2, h3, h4, h5⟩ := C80_cut_at c (unlines (splitLines t).1) (splitLines t).2 ((splitLines t).2 ++ s.drop k) d dt lt
    hta hnl.2 (by rw [hj]; omega) (by rw [hj]; omega) (by rw [hj]; exact hcut)
  rw [hsy] at h2 h3
  rw [hca] at h1 h2
  have hlc := lineCount_le s
  obtain ⟨qs, e, hq⟩ := reading_total (ct := c.ct) (L := lineAt (withoutBom s)) (N := lineCount s)
    (fun p hp => by rw [lineAt_ends _ p hp, lineAt_ends _ _ (Nat.le_refl _)]) (lineCount s) n (pre.any (saysBig5 c.ct)) (by omega)
  have hread := h2.blocks.reading (by simpa using hq)
  obtain ⟨_, hl⟩ := reading_returns c s d (fun p => by have := lineAt_short s p; omega) (by omega) hF hwhole hread
  obtain ⟨cv1, d1', l1', g1, g2⟩ := loadPieces_split qs pre _ _ _ _ _ hl
  rw [h3] at g1
  cases g1
  obtain ⟨r, hr⟩ := loadPieces_log _ _ _ _ _ _ g2
  exact ⟨pre, n, d1, l1, h1, h2, h3, loadPieces_steps _ _ _ _ _ _ g2, ⟨r, hr.symm⟩, h4, h5⟩

/-! ### What stands at the beginning of a file is loaded, whatever follows -/

theorem at_of {T : Tape} : ∀ (ls : List Str) (p : Nat), (∀ i, i < ls.length → (T (p + i)).line = ls.getD i []) → At T p ls := by
  intro ls
  induction ls with
  | nil => intro p _; trivial
  | cons l ls ih =>
    intro p h
    refine ⟨by simpa using h 0 (by simp), ih (p + 1) (fun i hi => ?_)⟩
    have := h (i + 1) (by simp; omega)
    rw [show p + 1 + i = p + (i + 1) by omega, this]
    simp

theorem core_extends (ct : CType) (lib : IconvLib) (uf : Bool) (cs : Str) (w : List Ev) (hw : Guarded false w) (k : Core) :
    match (generalizing := false) coreInterp ct lib uf cs w k with
    | .ok _ k' | .exn _ k' | .poError k' => ∃ x, k'.eff = k.eff.plus x
    | _ => True := by
  have := krel ct lib uf cs k.eff k.eff w false k k hw ⟨(fun h => by cases h), ConvSame.refl _ _, ⟨[], none⟩, by simp [Effect.plus], by simp [Effect.plus]⟩
  cases hx : coreInterp ct lib uf cs w k with
  | ok a k' => rw [hx] at this; obtain ⟨x, h, _⟩ := this.eff; exact ⟨x, h⟩
  | exn m k' => rw [hx] at this; obtain ⟨x, h, _⟩ := this.2.eff; exact ⟨x, h⟩
  | poError k' => exact absurd hx (coreInterp_no_poError _ _ _ _ _ _ _)
  | _ => trivial

/-- C80.  Well-formed lines followed by a blank line, and then anything at all, be it a part of an entry, garbage or nothing: what
the well-formed entries say is loaded first, exactly as if the text ended there; whatever is made of the rest comes after it.  If
loading the entries already throws, then this is what happens, whatever follows. -/
theorem C80_wellformed_start (c : Cfg) {st : Bool} {ls : List Str} {es : List Entry} {bl : Str} (h : File c.ct st false ls es)
    (hb : Blank c.ct bl) (x : Str) (hnl : ∀ l ∈ ls ++ [bl], (10 : Byte) ∉ l) (hbom : ¬ [0xef, 0xbb, 0xbf] <+: (ls ++ [bl]).headD [])
    (hsize : (unlines (ls ++ [bl]) ++ x).length + 8 < 2147483647) (hF : (unlines (ls ++ [bl]) ++ x).length + 8 < c.fuel) (cs : Str) :
    match (generalizing := false) load c.ct c.lib c.useFuzzy cs es .init ⟨[], none⟩ with
    | (.returned, e) => ∃ (e' : Effect) (en : Ending), ∀ d : Dictionary, d.charset = cs →
        (observe (run c (.ofBytes (unlines (ls ++ [bl]) ++ x)) d)).noLog = en.at ((e.plus e').applyTo d)
    | (en, e) => ∀ d : Dictionary, d.charset = cs →
        (observe (run c (.ofBytes (unlines (ls ++ [bl]) ++ x)) d)).noLog = en.at (e.applyTo d) := by
  generalize hs : unlines (ls ++ [bl]) ++ x = s at hsize hF
  have hlc := lineCount_le s
  have hsp : splitLines s = (ls ++ [bl] ++ (splitLines x).1, (splitLines x).2) := by rw [← hs, splitLines_lines _ _ hnl]
  have hwb : withoutBom s = s := by
    unfold withoutBom
    split
    · rename_i t
      exfalso
      cases hl : ls ++ [bl] with
      | nil => simp at hl
      | cons l r =>
        rw [hl] at hs hbom hnl
        have hn := hnl l List.mem_cons_self
        simp only [unlines, List.append_assoc, List.cons_append] at hs
        simp only [List.headD_cons] at hbom
        match l, hn, hbom, hs with
        | [], _, _, hs => exact absurd (List.cons.inj hs).1 (by decide)
        | [b1], _, _, hs => exact absurd (List.cons.inj (List.cons.inj hs).2).1 (by decide)
        | [b1, b2], _, _, hs => exact absurd (List.cons.inj (List.cons.inj (List.cons.inj hs).2).2).1 (by decide)
        | b1 :: b2 :: b3 :: l, _, hbom, hs =>
          obtain ⟨e1, hs⟩ := List.cons.inj hs
          obtain ⟨e2, hs⟩ := List.cons.inj hs
          obtain ⟨e3, _⟩ := List.cons.inj hs
          subst e1; subst e2; subst e3
          exact hbom ⟨l, rfl⟩
    · rfl
  have hline : ∀ i, i < ls.length + 1 → (startTape (.ofBytes s) i).line = (ls ++ [bl]).getD i [] := by
    intro i hi
    rw [(startTape_lines s i).1, hwb]
    unfold lineAt
    rw [hsp]
    have hi' : i < (ls ++ [bl]).length := by simpa using hi
    simp only [List.getD_eq_getElem?_getD]
    rw [List.getElem?_append_left hi', List.getElem?_eq_getElem hi']
    rfl
  have hcount : ls.length + 1 ≤ lineCount s := by
    unfold lineCount
    rw [hsp]
    simp only [List.length_append, List.length_cons, List.length_nil]
    omega
  have hshort : Short (startTape (.ofBytes s)) := fun p => by
    rw [(startTape_lines s p).1]; have := lineAt_short s p; omega
  have hatt : At (startTape (.ofBytes s)) 0 (ls ++ [bl]) := at_of _ 0 (fun i hi => by rw [Nat.zero_add]; exact hline i (by simpa using hi))
  obtain ⟨a1, a2⟩ := At_append.1 hatt
  have hN : lineCount s + 8 < intMax := by unfold intMax; omega
  obtain ⟨v, f', b', e1, e2, _⟩ := file_prefix (fuel := c.fuel) hshort h c.fuel 0 a1 (by rw [a2.1]; exact hb)
    (fun q hq => by rw [(startTape_lines s q).2]; exact decide_eq_false (by omega)) (by omega) (by omega) (by omega)
  have hg := guarded_mainLoop c.ct c.fuel (startTape (.ofBytes s)) f' b' (0 + ls.length + 1)
  generalize hrest : mainLoopE c.ct c.fuel (startTape (.ofBytes s)) f' b' (0 + ls.length + 1) = rest at e1 hg
  have hev : events c.ct c.fuel (.ofBytes s) = (v ++ rest.1, rest.2) := e1
  have hrun : ∀ d : Dictionary, d.charset = cs → (observe (run c (.ofBytes s) d)).noLog =
      (endingOf rest.2 (coreInterp c.ct c.lib c.useFuzzy cs (v ++ rest.1) core0)).at
        ((effectOf (coreInterp c.ct c.lib c.useFuzzy cs (v ++ rest.1) core0)).applyTo d) := by
    intro d hd
    have := run_effect c (.ofBytes s) d (by show s.length < _; omega)
    unfold parseCore at this
    rw [hev, hd] at this
    exact this
  have hl := load_eq c.ct c.lib c.useFuzzy cs es (file_strs h) core0
  have hk : core0.conv = .init := rfl
  have hk2 : core0.eff = ⟨[], none⟩ := rfl
  rw [hk, hk2, ← e2, coreInterp_essence] at hl
  rw [← hl]
  rw [coreInterp_append, bind_apply] at hrun
  cases hv : coreInterp c.ct c.lib c.useFuzzy cs v core0 with
  | ok a k =>
    rw [hv] at hrun
    dsimp only at hrun
    show ∃ _ _, _
    have hx := core_extends c.ct c.lib c.useFuzzy cs rest.1 hg k
    cases hw : coreInterp c.ct c.lib c.useFuzzy cs rest.1 k with
    | ok a k' =>
      rw [hw] at hx hrun
      obtain ⟨e', he'⟩ := hx
      exact ⟨e', _, fun d hd => by rw [hrun d hd]; show _ = Ending.at _ ((k.eff.plus e').applyTo d); rw [← he']; rfl⟩
    | exn m k' =>
      rw [hw] at hx hrun
      obtain ⟨e', he'⟩ := hx
      exact ⟨e', .threw m, fun d hd => by rw [hrun d hd]; show _ = Ending.at _ ((k.eff.plus e').applyTo d); rw [← he']; rfl⟩
    | poError k' => exact absurd hw (coreInterp_no_poError _ _ _ _ _ _ _)
    | fault f => rw [hw] at hrun; exact ⟨⟨[], none⟩, .crashed f, fun d hd => by rw [hrun d hd]; rfl⟩
    | diverge => rw [hw] at hrun; exact ⟨⟨[], none⟩, .unfinished, fun d hd => by rw [hrun d hd]; rfl⟩
  | exn m k => rw [hv] at hrun; exact fun d hd => by rw [hrun d hd]; rfl
  | poError k => exact absurd hv (coreInterp_no_poError _ _ _ _ _ _ _)
  | fault f => rw [hv] at hrun; exact fun d hd => by rw [hrun d hd]; rfl
  | diverge => rw [hv] at hrun; exact fun d hd => by rw [hrun d hd]; rfl

/-! ### An example -/

/-- Three entries; the translation of the second one has two lines. -/
def cutDemo : Str := unlines [b!"msgid \"a\"", b!"msgstr \"A\"", [], b!"msgid \"b\"", b!"msgstr \"x\"", b!"\"y\"", [], b!"msgid \"c\"", b!"msgstr \"C\""]

/-- A configuration. -/
def cutCfg : Cfg := ⟨.c, demoLib, false, b!"f", false, 200⟩

/-- Messages added to an empty dictionary. -/
def cutDict (ms : List (Str × Str)) : Dictionary := addAll (.init b!"UTF-8") (ms.map (fun m => Add.singular none m.1 m.2))

theorem cutDemo_whole : observe (run cutCfg (.ofBytes cutDemo) (.init b!"UTF-8"))
    = .returned (cutDict [(b!"a", b!"A"), (b!"b", b!"xy"), (b!"c", b!"C")]) [] := by decide +kernel

-- cut off after the first line of the second translation: the translation is loaded, but it is not the right one
theorem cutDemo_cut : observe (run cutCfg (.ofBytes (cutDemo.take 43)) (.init b!"UTF-8"))
    = .returned (cutDict [(b!"a", b!"A"), (b!"b", b!"x")]) [] := by decide +kernel

-- the hypotheses of `C80_cut`
example : ∃ pre n d1 l1, n ≤ completeLines (cutDemo.take 43) ∧ ReadUpTo .c cutDemo pre n (completeLines (cutDemo.take 43)) ∧
    loadPieces .c demoLib false false b!"f" (lineAt (withoutBom cutDemo)) pre .init (.init b!"UTF-8") [] = .returned d1 l1 := by
  obtain ⟨pre, n, d1, l1, h1, h2, h3, _⟩ :=
    C80_cut cutCfg cutDemo 43 _ _ _ _ _ (by decide +kernel) (by decide +kernel) cutDemo_cut cutDemo_whole
  exact ⟨pre, n, d1, l1, h1, h2, h3⟩

-- cut off within the string: an error, and the message is not loaded
example : observe (run cutCfg (.ofBytes (cutDemo.take 41)) (.init b!"UTF-8"))
    = .returned (cutDict [(b!"a", b!"A")]) [.po .error b!"f" 5 b!"unexpected end of string" b!"msgstr \"x"] := by decide +kernel

-- the hypotheses of `C80_wellformed_start`
example (x : Str) (hx : x.length < 100) : ∃ (e' : Effect) (en : Ending), ∀ d : Dictionary, d.charset = b!"UTF-8" →
    (observe (run ⟨.c, demoLib, false, b!"f", false, 400⟩ (.ofBytes (unlines (goodStart ++ [[]]) ++ x)) d)).noLog
      = en.at ((Effect.plus ⟨[.singular none b!"p" b!"P"], none⟩ e').applyTo d) := by
  have hf := writeCatalog_file (ct := .c) (st := true) b!"iso-8859-1" none [⟨none, b!"p", none, [b!"P"]⟩]
    (fun m hm => by simp only [List.mem_singleton] at hm; subst hm; exact ⟨by decide, _, rfl, by decide⟩) (by decide +kernel)
  have hl : (unlines (goodStart ++ [[]])).length < 200 := by decide +kernel
  have := C80_wellformed_start ⟨.c, demoLib, false, b!"f", false, 400⟩ (bl := []) hf (fun b hb => by cases hb) x (by decide +kernel) (by decide +kernel)
    (by show (unlines (goodStart ++ [[]]) ++ x).length + 8 < _; rw [List.length_append]; omega)
    (by show (unlines (goodStart ++ [[]]) ++ x).length + 8 < 400; rw [List.length_append]; omega) b!"UTF-8"
  have he : load .c demoLib false b!"UTF-8" (⟨false, none, [], .single (headerText b!"iso-8859-1" none)⟩ :: [⟨none, b!"p", none, [b!"P"]⟩].map entryOf) .init ⟨[], none⟩
      = (.returned, ⟨[.singular none b!"p" b!"P"], none⟩) := by decide +kernel
  dsimp only at this
  rw [he] at this
  exact this

end Tgt
