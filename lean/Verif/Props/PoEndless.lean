import Verif.Proofs.Hang
import Verif.Props.Termination
import Verif.Props.PoAccept
/-
C26, exactly, for well-formed files: when a missing newline at the end makes the parser loop for ever.
-/
namespace Tgt
open POParser Spec Spec.Po

namespace Spec.Po
/-- The last line `r`, without newline, after lines `ls` of a well-formed file, is read again and again: it is a comment (other
than one directly after an entry), a continuation line or a `msgstr[N]` line. -/
def EndlessEnd (ct : CType) (ls : List Str) (r : Str) : Prop :=
  (Comment r ∧ ∀ l, ls.getLast? = some l → Blank ct l ∨ Comment l) ∨
  (r.dropWhile ct.isspace).head? = some 34 ∨ b!"msgstr[" <+: r
end Spec.Po

theorem noBom_of {x : Str} (h : withoutBom (x ++ [10]) = x ++ [10]) : withoutBom x = x := by
  unfold withoutBom
  split
  · rename_i t
    exfalso
    have h2 : withoutBom (0xef :: 0xbb :: 0xbf :: t ++ [10]) = t ++ [10] := rfl
    rw [h2] at h
    have := congrArg List.length h
    simp at this
  · rfl

theorem unlines_snoc (ls : List Str) (r : Str) : unlines (ls ++ [r]) = unlines ls ++ r ++ [10] := by
  induction ls with
  | nil => simp [unlines]
  | cons l ls ih => simp [unlines, ih]

/-- The tape of a text whose last line has no newline. -/
theorem open_tape (ls : List Str) (r : Str) (h : TextOk (ls ++ [r])) (hr : r ≠ []) :
    At (startTape (.ofBytes (unlines ls ++ r))) 0 (ls ++ [r]) ∧
    (∀ q, (startTape (.ofBytes (unlines ls ++ r)) q).eof = decide (0 + (ls ++ [r]).length ≤ q)) ∧
    (∀ q, 0 + ls.length ≤ q → (startTape (.ofBytes (unlines ls ++ r)) q).line = r) ∧
    Short (startTape (.ofBytes (unlines ls ++ r))) := by
  have hw : withoutBom (unlines ls ++ r) = unlines ls ++ r := by
    apply noBom_of
    rw [← unlines_snoc]
    exact withoutBom_unlines _ h.noBom
  have hsp := splitLines_unlines ls r (fun l hl => h.noNl l (by simp [hl])) (h.noNl r (by simp))
  have hline : ∀ q, (startTape (.ofBytes (unlines ls ++ r)) q).line = ls.getD q r := by
    intro q
    rw [(startTape_lines _ q).1, hw]
    unfold lineAt
    rw [hsp]
  refine ⟨?_, ?_, ?_, ?_⟩
  · have : ∀ (l2 l1 : List Str), ls ++ [r] = l1 ++ l2 → At (startTape (.ofBytes (unlines ls ++ r))) l1.length l2 := by
      intro l2
      induction l2 with
      | nil => intro l1 _; trivial
      | cons x l2 ih =>
        intro l1 hl
        refine ⟨?_, ?_⟩
        · rw [hline]
          have h1 : (ls ++ [r])[l1.length]? = some x := by rw [hl]; simp
          by_cases hlt : l1.length < ls.length
          · rw [List.getElem?_append_left hlt] at h1
            rw [List.getD_eq_getElem?_getD, h1]; rfl
          · rw [List.getElem?_append_right (by omega)] at h1
            rw [List.getD_eq_getElem?_getD, List.getElem?_eq_none (by omega)]
            have : l1.length - ls.length = 0 := by
              have := (List.getElem?_eq_some_iff.1 h1).1
              simp at this; omega
            rw [this] at h1
            simpa using h1
        · have := ih (l1 ++ [x]) (by rw [hl]; simp)
          simpa using this
    exact this _ [] rfl
  · intro q
    rw [(startTape_lines _ q).2]
    unfold lineCount
    rw [hsp, if_neg hr]
    simp
  · intro q hq
    rw [hline, List.getD_eq_getElem?_getD, List.getElem?_eq_none (by omega)]
    rfl
  · intro q
    rw [hline]
    by_cases hq : q < ls.length
    · rw [List.getD_eq_getElem?_getD, List.getElem?_eq_getElem hq]
      exact h.short _ (by simp)
    · rw [List.getD_eq_getElem?_getD, List.getElem?_eq_none (by omega)]
      exact h.short _ (by simp)

/-- Collecting plural strings does not throw. -/
theorem soft_no_exn (ct : CType) (lib : IconvLib) (uf : Bool) (cs : Str) : ∀ (w : List Ev) (k : Core), (∀ x ∈ w, x.soft = true) →
    ∀ m k', coreInterp ct lib uf cs w k ≠ .exn m k' := by
  intro w
  induction w with
  | nil => intro k _ m k' h; cases h
  | cons e w ih =>
    intro k hw m k' h
    have he := hw e (by simp)
    rw [coreInterp, bind_apply] at h
    cases e with
    | clear => exact ih _ (fun x hx => hw x (by simp [hx])) m k' h
    | conv n t =>
      cases hx : coreStep ct lib uf cs (.conv n t) k with
      | ok a k1 => rw [hx] at h; exact ih _ (fun x hx => hw x (by simp [hx])) m k' h
      | exn m1 k1 =>
        simp only [coreStep] at hx
        split at hx <;> cases hx
      | _ => rw [hx] at h; cases h
    | _ => cases he

/-- C26.  If the last line of a well-formed file (that loads) has no newline and is of the wrong kind, no amount of time is
enough: whatever the fuel, the parse is unfinished, or its line counter has overflowed. -/
theorem C26_endless (c : Cfg) (hlib : TameLib c.lib) {st : Bool} {ls : List Str} {r : Str} {es : List Entry}
    (h : File c.ct st false (ls ++ [r]) es) (ht : TextOk (ls ++ [r])) (d d' : Dictionary)
    (hret : ∃ F, (observe (run { c with fuel := F } (.ofBytes (unlines (ls ++ [r]))) d)).noLog = .returned d' [])
    (hend : EndlessEnd c.ct ls r) :
    observe (run c (.ofBytes (unlines ls ++ r)) d) = .unfinished ∨
    observe (run c (.ofBytes (unlines ls ++ r)) d) = .crashed .signedOverflow := by
  have hbad : ¬ HarmlessEnd c.ct r := by
    rintro ⟨h1, h2, h3⟩
    rcases hend with h | h | h
    · exact h1 h.1
    · exact h2 h
    · exact h3 h
  have hr : r ≠ [] := by
    rintro rfl
    exact hbad ⟨by simp, by simp, by simp⟩
  have hprev : Comment r → ∀ l, ls.getLast? = some l → Blank c.ct l ∨ Comment l := by
    intro hc
    rcases hend with h | h | ⟨x, h⟩
    · exact h.2
    · exfalso
      cases r with
      | nil => exact hr rfl
      | cons b t =>
        simp only [Comment, List.head?_cons, Option.some.injEq] at hc
        subst hc
        rw [List.dropWhile_cons, if_neg (by rw [isspace_false c.ct 35 (by decide) (by decide)]; simp)] at h
        simp at h
    · exfalso
      rw [← h] at hc
      simp [Comment] at hc
  obtain ⟨h1, h2, h3, h4⟩ := open_tape ls r ht hr
  have hfew : (ls ++ [r]).length + 8 < intMax := ht.few
  rcases run_obs_mono c (.ofBytes (unlines ls ++ r)) d (c.fuel + (unlines ls ++ r).length + (ls ++ [r]).length + 10) (by omega)
    (by show (unlines ls ++ r).length < _; omega) with hx | hx
  · exact .inl hx
  · generalize hF : c.fuel + (unlines ls ++ r).length + (ls ++ [r]).length + 10 = F at hx
    obtain ⟨es', hpre, hm1, w2, hm2, hm3⟩ := h_file (fuel := F) h4 h ls r F 0 rfl h1 h2 h3 (by omega) (by omega) (by omega) hbad hprev
    -- the entries before load
    have hload : ∃ k, coreInterp c.ct c.lib c.useFuzzy d.charset (es.flatMap evsOf) core0 = .ok () k := by
      obtain ⟨F', hret⟩ := hret
      have hne : observe (run { c with fuel := F' } (.ofBytes (unlines (ls ++ [r]))) d) ≠ .unfinished := by
        intro h; rw [h] at hret; cases hret
      rcases run_obs_mono { c with fuel := F' } (.ofBytes (unlines (ls ++ [r]))) d (F' + (unlines (ls ++ [r])).length + 2) (by show F' ≤ _; omega)
        (by show (unlines (ls ++ [r])).length < _; omega) with hy | hy
      · exact absurd hy hne
      · obtain ⟨w, q, e1, e2, _⟩ := file_events (fuel := F' + (unlines (ls ++ [r])).length + 2) h ht (by omega)
        rw [hy, obsE_core] at hret
        dsimp only at hret
        rw [e1] at hret
        dsimp only at hret
        rw [← coreInterp_essence, e2] at hret
        cases hz : coreInterp c.ct c.lib c.useFuzzy d.charset (es.flatMap evsOf) core0 with
        | ok a k => exact ⟨k, rfl⟩
        | _ => rw [hz] at hret; cases hret
    obtain ⟨k, hk⟩ := hload
    have hk' : ∃ k', coreInterp c.ct c.lib c.useFuzzy d.charset (es'.flatMap evsOf) core0 = .ok () k' := by
      obtain ⟨es2, rfl⟩ := hpre
      rw [List.flatMap_append, coreInterp_append, bind_apply] at hk
      cases hz : coreInterp c.ct c.lib c.useFuzzy d.charset (es'.flatMap evsOf) core0 with
      | ok a k => exact ⟨k, rfl⟩
      | _ => rw [hz] at hk; cases hk
    obtain ⟨k', hk'⟩ := hk'
    -- so nothing throws
    have hnoexn : ∀ m k2, coreInterp c.ct c.lib c.useFuzzy d.charset (events c.ct F (.ofBytes (unlines ls ++ r))).1 core0 ≠ .exn m k2 := by
      intro m k2
      rw [← coreInterp_essence]
      unfold events
      rw [hm2, coreInterp_append, bind_apply, hk']
      exact soft_no_exn _ _ _ _ w2 k' hm3 m k2
    have hrel := interp_rel c (startTape (.ofBytes (unlines ls ++ r))) d (events c.ct F (.ofBytes (unlines ls ++ r))).1 core0
      ([], initState (.ofBytes (unlines ls ++ r)) d) (rel0 _ d)
    rw [hx]
    unfold obsE
    rcases interp_tame c hlib (startTape (.ofBytes (unlines ls ++ r))) (events c.ct F (.ofBytes (unlines ls ++ r))).1
      ([], initState (.ofBytes (unlines ls ++ r)) d) (by simp [ConvOk, initState, IConv.init]) with ⟨y, hy⟩ | ⟨m, y, hy⟩
    · rw [hy]
      unfold events
      rcases hm1 with hm1 | hm1
      · rw [hm1]; exact .inl rfl
      · rw [hm1]; exact .inr rfl
    · exfalso
      rw [hy] at hrel
      cases hz : coreInterp c.ct c.lib c.useFuzzy d.charset (events c.ct F (.ofBytes (unlines ls ++ r))).1 core0 with
      | exn m' k2 => exact hnoexn _ _ hz
      | _ => rw [hz] at hrel; exact hrel

/-- C60, for comments: a well-formed file that ends, directly after an entry, with a comment without newline does what it does
with the newline. -/
theorem C60_comment_after_entry (c : Cfg) {st : Bool} {ls : List Str} {r : Str} {es : List Entry}
    (h : File c.ct st false (ls ++ [r]) es) (ht : TextOk (ls ++ [r])) (hr : Comment r)
    (hprev : ∃ l, ls.getLast? = some l ∧ ¬ Blank c.ct l ∧ ¬ Comment l)
    (hf : (unlines (ls ++ [r])).length + 2 ≤ c.fuel) (d : Dictionary) :
    (observe (run c (.ofBytes (unlines ls ++ r)) d)).noLog = (observe (run c (.ofBytes (unlines (ls ++ [r]))) d)).noLog := by
  have hr' : r ≠ [] := by rintro rfl; cases hr
  obtain ⟨h1, h2, h3, h4⟩ := open_tape ls r ht hr'
  have hfew : (ls ++ [r]).length + 8 < intMax := ht.few
  have hl := unlines_length (ls ++ [r])
  have hlen : (unlines (ls ++ [r])).length = (unlines ls ++ r).length + 1 := by rw [unlines_snoc]; simp; omega
  obtain ⟨q, w, e1, e2, _⟩ := y_file_sep (fuel := c.fuel) h4 h ls r c.fuel 0 rfl h1 h2 (by omega) (by omega) (by omega) hr hprev
  obtain ⟨w', q', e1', e2', _⟩ := file_events h ht hf
  rw [run_core c _ d (by show (unlines ls ++ r).length < _; omega), run_core c _ d (by show (unlines (ls ++ [r])).length < _; omega), e1']
  unfold events
  rw [e1]
  dsimp only
  rw [← coreInterp_essence, e2, ← coreInterp_essence _ _ _ _ w', e2']
  rfl

/-- C26, exactly, for well-formed files that load: without the newline at the end the parse comes back if and only if the last line
is not a comment (other than one directly after an entry), not a continuation line and not a `msgstr[N]` line.  The
condition for all texts is `C26_exact`. -/
theorem C26_wellformed_exact_partial (c : Cfg) (hlib : TameLib c.lib) {st : Bool} {ls : List Str} {r : Str} {es : List Entry}
    (h : File c.ct st false (ls ++ [r]) es) (ht : TextOk (ls ++ [r])) (d d' : Dictionary)
    (hret : ∃ F, (observe (run { c with fuel := F } (.ofBytes (unlines (ls ++ [r]))) d)).noLog = .returned d' []) :
    (∃ F, (observe (run { c with fuel := F } (.ofBytes (unlines ls ++ r)) d)).Ended) ↔ ¬ EndlessEnd c.ct ls r := by
  constructor
  · rintro ⟨F, hF⟩ he
    rcases C26_endless { c with fuel := F } hlib h ht d d' hret he with hx | hx <;> (rw [hx] at hF; exact hF)
  · intro he
    by_cases hb : HarmlessEnd c.ct r
    · refine ⟨(unlines ls ++ r).length + 2, ?_⟩
      have hw : withoutBom (unlines ls ++ r) = unlines ls ++ r := by
        apply noBom_of
        rw [← unlines_snoc]
        exact withoutBom_unlines _ ht.noBom
      have hsp := splitLines_unlines ls r (fun l hl => ht.noNl l (by simp [hl])) (ht.noNl r (by simp))
      have hlc : lineCount (unlines ls ++ r) ≤ ls.length + 1 := by
        unfold lineCount; rw [hsp]; dsimp only; split <;> omega
      have hfew := ht.few
      simp only [List.length_append, List.length_singleton] at hfew
      rcases C26_terminates_partial { c with fuel := (unlines ls ++ r).length + 2 } (unlines ls ++ r) d (by omega)
        (by rw [hw, hsp]; exact hb) (by show _ < (unlines ls ++ r).length + 2; omega) with hx | hx
      · exact hx
      · exact absurd (C24_no_abort { c with fuel := (unlines ls ++ r).length + 2 } hlib _ _ _ hx) (by simp)
    · have hcom : Comment r ∧ ∃ l, ls.getLast? = some l ∧ ¬ Blank c.ct l ∧ ¬ Comment l := by
        unfold EndlessEnd at he
        unfold HarmlessEnd at hb
        have h1 : Comment r := by
          refine Classical.byContradiction fun hn => hb ⟨hn, fun h => he (.inr (.inl h)), fun h => he (.inr (.inr h))⟩
        refine ⟨h1, Classical.byContradiction fun hn => he (.inl ⟨h1, fun l hl => ?_⟩)⟩
        refine Classical.byContradiction fun hb => hn ⟨l, hl, fun h => hb (.inl h), fun h => hb (.inr h)⟩
      refine ⟨(unlines (ls ++ [r])).length + 2, ?_⟩
      have h1 := C60_comment_after_entry { c with fuel := (unlines (ls ++ [r])).length + 2 } h ht hcom.1 hcom.2 (Nat.le_refl _) d
      obtain ⟨w, q, e1, e2, _⟩ := file_events (fuel := (unlines (ls ++ [r])).length + 2) h ht (Nat.le_refl _)
      have h2 : (observe (run { c with fuel := (unlines (ls ++ [r])).length + 2 } (.ofBytes (unlines (ls ++ [r]))) d)).noLog = .returned d' [] := by
        obtain ⟨F', hret⟩ := hret
        have hne : observe (run { c with fuel := F' } (.ofBytes (unlines (ls ++ [r]))) d) ≠ .unfinished := by
          intro h; rw [h] at hret; cases hret
        rcases run_obs_mono { c with fuel := F' } (.ofBytes (unlines (ls ++ [r]))) d (F' + (unlines (ls ++ [r])).length + 2) (by show F' ≤ _; omega)
          (by show (unlines (ls ++ [r])).length < _; omega) with hy | hy
        · exact absurd hy hne
        · obtain ⟨w', q', e1', e2', _⟩ := file_events (fuel := F' + (unlines (ls ++ [r])).length + 2) h ht (by omega)
          rw [hy, obsE_core] at hret
          dsimp only at hret
          rw [e1'] at hret
          dsimp only at hret
          rw [← coreInterp_essence, e2'] at hret
          rw [run_core _ _ d (by show (unlines (ls ++ [r])).length < (unlines (ls ++ [r])).length + 2; omega)]
          dsimp only
          rw [e1]
          dsimp only
          rw [← coreInterp_essence, e2]
          exact hret
      rw [h2] at h1
      cases ho : observe (run { c with fuel := (unlines (ls ++ [r])).length + 2 } (.ofBytes (unlines ls ++ r)) d) with
      | returned => trivial
      | _ => rw [ho] at h1; cases h1

/-- C26, the same without mentioning the form of files: take any text that loads without any error message.  Without its last
newline, the parse comes back if and only if the last line is not a comment (other than one directly after an entry), not a
continuation line and not a `msgstr[N]` line. -/
theorem C26_clean_exact_partial (c : Cfg) (hlib : TameLib c.lib) (ls : List Str) (r : Str) (ht : TextOk (ls ++ [r]))
    (hf : (unlines (ls ++ [r])).length + 2 ≤ c.fuel) (d d' : Dictionary) (log : List Diag)
    (hr : observe (run c (.ofBytes (unlines (ls ++ [r]))) d) = .returned d' log) (hl : ∀ m ∈ log, ¬ FormError m) :
    (∃ F, (observe (run { c with fuel := F } (.ofBytes (unlines ls ++ r)) d)).Ended) ↔ ¬ EndlessEnd c.ct ls r := by
  obtain ⟨es, hes⟩ := (C61_accepted_iff c _ ht hf d d' log hr).1 hl
  exact C26_wellformed_exact_partial c hlib hes ht d d' ⟨c.fuel, by
    show (observe (run c _ d)).noLog = _
    rw [hr]; rfl⟩

/-- Three texts that load, and hang without their last newline; and three that do not. -/
def demoEntry : List Str := [b!"msgid \"p\"", b!"msgid_plural \"ps\"", b!"msgstr[0] \"zero\""]

def demoOpen : List (List Str × Str) :=
  [(demoEntry, b!"msgstr[1] \"one\""), (demoEntry, b!"  \"more\""), (demoEntry ++ [b!""], b!"# end")]

def demoShut : List (List Str × Str) :=
  [(demoEntry, b!"# end"), (demoEntry, b!"  "), ([b!"msgid \"a\""], b!"msgstr \"b\"")]

def demoCfg : Cfg := ⟨.c, demoLib, false, b!"f", true, 400⟩

example : (∀ x ∈ demoOpen, TextOk (x.1 ++ [x.2]) ∧ (unlines (x.1 ++ [x.2])).length + 2 ≤ demoCfg.fuel ∧ EndlessEnd .c x.1 x.2 ∧
      ∃ d' log, observe (run demoCfg (.ofBytes (unlines (x.1 ++ [x.2]))) (.init b!"UTF-8")) = .returned d' log ∧ ∀ m ∈ log, ¬ FormError m) ∧
    ∀ x ∈ demoShut, TextOk (x.1 ++ [x.2]) ∧ (unlines (x.1 ++ [x.2])).length + 2 ≤ demoCfg.fuel ∧ ¬ EndlessEnd .c x.1 x.2 ∧
      ∃ d' log, observe (run demoCfg (.ofBytes (unlines (x.1 ++ [x.2]))) (.init b!"UTF-8")) = .returned d' log ∧ ∀ m ∈ log, ¬ FormError m := by
  have hlog : ∀ {lv : Level} {m cur : Str} {n : Nat}, lv ≠ .error → ∀ x ∈ [Diag.po lv b!"f" n m cur], ¬ FormError x := by
    intro lv m cur n h x hx
    simp only [List.mem_singleton] at hx
    subst hx
    cases lv <;> first | exact absurd rfl h | exact fun h => h
  constructor
  · intro x hx
    simp only [demoOpen, List.mem_cons, List.not_mem_nil, or_false] at hx
    rcases hx with rfl | rfl | rfl
    · exact ⟨textOk_small _ (by decide) (by decide +kernel) (by decide), by decide +kernel, .inr (.inr ⟨_, rfl⟩), (addAll (.init b!"UTF-8") [.plural none b!"p" b!"ps" [b!"zero", b!"one"]]),
        [.po .warning b!"f" 5 b!"msgstr[N] seen, but no Plural-Forms given" b!""], by decide +kernel, hlog (by decide)⟩
    · exact ⟨textOk_small _ (by decide) (by decide +kernel) (by decide), by decide +kernel, .inr (.inl (by decide +kernel)), (addAll (.init b!"UTF-8") [.plural none b!"p" b!"ps" [b!"zeromore"]]),
        [.po .warning b!"f" 5 b!"msgstr[N] seen, but no Plural-Forms given" b!""], by decide +kernel, hlog (by decide)⟩
    · refine ⟨textOk_small _ (by decide) (by decide +kernel) (by decide), by decide +kernel, .inl ⟨rfl, ?_⟩, (addAll (.init b!"UTF-8") [.plural none b!"p" b!"ps" [b!"zero"]]),
        [.po .warning b!"f" 4 b!"msgstr[N] seen, but no Plural-Forms given" b!""], by decide +kernel, hlog (by decide)⟩
      intro l hl
      simp [demoEntry] at hl
      subst hl
      exact .inl (by simp [Blank])
  · intro x hx
    simp only [demoShut, List.mem_cons, List.not_mem_nil, or_false] at hx
    rcases hx with rfl | rfl | rfl
    · refine ⟨textOk_small _ (by decide) (by decide +kernel) (by decide), by decide +kernel, ?_, (addAll (.init b!"UTF-8") [.plural none b!"p" b!"ps" [b!"zero"]]),
        [.po .warning b!"f" 4 b!"msgstr[N] seen, but no Plural-Forms given" b!"# end"], by decide +kernel, hlog (by decide)⟩
      rintro (⟨_, h⟩ | h | h)
      · rcases h _ (by decide +kernel : _ = some b!"msgstr[0] \"zero\"") with h | h
        · exact absurd h (by decide +kernel)
        · simp [Comment] at h
      · exact absurd h (by decide +kernel)
      · exact absurd h (by decide +kernel)
    · refine ⟨textOk_small _ (by decide) (by decide +kernel) (by decide), by decide +kernel, ?_, (addAll (.init b!"UTF-8") [.plural none b!"p" b!"ps" [b!"zero"]]),
        [.po .warning b!"f" 4 b!"msgstr[N] seen, but no Plural-Forms given" b!"  "], by decide +kernel, hlog (by decide)⟩
      rintro (⟨h, _⟩ | h | h)
      · simp [Comment] at h
      · exact absurd h (by decide +kernel)
      · exact absurd h (by decide +kernel)
    · refine ⟨textOk_small _ (by decide) (by decide +kernel) (by decide), by decide +kernel, ?_, (addAll (.init b!"UTF-8") [.singular none b!"a" b!"b"]),
        [], by decide +kernel, fun m hm => by cases hm⟩
      rintro (⟨h, _⟩ | h | h)
      · simp [Comment] at h
      · exact absurd h (by decide +kernel)
      · exact absurd h (by decide +kernel)

end Tgt
