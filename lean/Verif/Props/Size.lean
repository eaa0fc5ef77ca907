import Verif.Proofs.BillRun
import Verif.Proofs.Sdl
import Verif.Props.Termination
import Verif.Props.ManagerLoad
/-
How much memory a parse takes and how much it logs: C96, C97.
-/
namespace Tgt
open Spec POParser

/-- Every converter yields at most four bytes for each byte: that is the room it is given. -/
theorem atMost_four (lib : IconvLib) : AtMost 4 lib := fun to fr hist text => lib.conv_cap to fr hist text _

theorem bytes_lines (s : Str) : ∀ p, bytesTo (startTape (.ofBytes s)) p + ((splitLines (withoutBom s)).1.drop p).flatten.length
    ≤ (splitLines (withoutBom s)).1.flatten.length + (p - (splitLines (withoutBom s)).1.length) * (splitLines (withoutBom s)).2.length := by
  intro p
  induction p with
  | zero => simp [bytesTo]
  | succ p ih =>
    rw [bytesTo_succ, (startTape_lines s p).1]
    unfold lineAt
    rcases Nat.lt_or_ge p (splitLines (withoutBom s)).1.length with h | h
    · rw [List.drop_eq_getElem_cons h, List.flatten_cons, List.length_append] at ih
      rw [List.getD_eq_getElem?_getD, List.getElem?_eq_getElem h, Option.getD_some]
      have : p - (splitLines (withoutBom s)).1.length = 0 := by omega
      rw [this, Nat.zero_mul] at ih
      omega
    · rw [List.drop_eq_nil_of_le (by omega)] at ih ⊢
      rw [List.getD_eq_getElem?_getD, List.getElem?_eq_none h, Option.getD_none]
      have : p + 1 - (splitLines (withoutBom s)).1.length = (p - (splitLines (withoutBom s)).1.length) + 1 := by omega
      rw [this, Nat.add_mul]
      omega

theorem flatten_unlines : ∀ ls : List Str, ls.flatten.length ≤ (unlines ls).length := by
  intro ls
  induction ls with
  | nil => exact Nat.le_refl _
  | cons l ls ih => simp only [List.flatten_cons, unlines, List.length_append, List.length_cons]; omega

theorem withoutBom_le (s : Str) : (withoutBom s).length ≤ s.length := by
  unfold withoutBom
  split
  · simp only [List.length_cons]; omega
  · exact Nat.le_refl _

/-- The lines up to `p` have no more bytes than the text, and the last line again for each line beyond. -/
theorem bytesTo_le (s : Str) (p k : Nat) (h : p ≤ (splitLines (withoutBom s)).1.length + k) :
    bytesTo (startTape (.ofBytes s)) p ≤ s.length + k * (splitLines (withoutBom s)).2.length := by
  have h1 := bytes_lines s p
  have h2 := flatten_unlines (splitLines (withoutBom s)).1
  have h3 := congrArg List.length (splitLines_join (withoutBom s))
  rw [List.length_append] at h3
  have h4 := withoutBom_le s
  have h5 := Nat.mul_le_mul_right (splitLines (withoutBom s)).2.length (show p - (splitLines (withoutBom s)).1.length ≤ k by omega)
  omega

theorem observed_within {K : Nat} (hK : 0 < K) (c : Cfg) (hl : AtMost K c.lib) (s : Str) (dict : Dictionary) (F n : Nat) (d : Dictionary)
    (hn : ∃ q, Paid (startTape (.ofBytes s)) q ((Bill.mk 0 0 0).adds (events c.ct F (.ofBytes s)).1) ∧ bytesTo (startTape (.ofBytes s)) q ≤ n)
    (hd : (obsE c (startTape (.ofBytes s)) (events c.ct F (.ofBytes s)) (initState (.ofBytes s) dict)).dict? = some d) :
    dictSize d ≤ dictSize dict + K * n ∧
    (obsE c (startTape (.ofBytes s)) (events c.ct F (.ofBytes s)) (initState (.ofBytes s) dict)).log.length ≤ n := by
  have hi := interp_within hK c hl (startTape (.ofBytes s)) dict (events c.ct F (.ofBytes s)).1 (oneDigit_mainLoop _ _ _ _ _ _) ⟨0, 0, 0⟩
    ([], initState (.ofBytes s) dict) ⟨Nat.zero_le _, Nat.zero_le _, by show dictSize dict ≤ _; omega, Nat.le_refl _⟩
  obtain ⟨q, hp, hq⟩ := hn
  have key : ∀ y : List Str × PState, dictSize y.2.dict ≤ dictSize dict + K * ((Bill.mk 0 0 0).adds (events c.ct F (.ofBytes s)).1).size ∧
      y.2.log.length ≤ ((Bill.mk 0 0 0).adds (events c.ct F (.ofBytes s)).1).msgs → dictSize y.2.dict ≤ dictSize dict + K * n ∧ y.2.log.length ≤ n :=
    fun y h => ⟨Nat.le_trans h.1 (Nat.add_le_add_left (Nat.mul_le_mul_left K (Nat.le_trans hp.1 hq)) _), Nat.le_trans h.2 (Nat.le_trans hp.2 hq)⟩
  unfold obsE at hd ⊢
  cases hx : interp c (startTape (.ofBytes s)) (events c.ct F (.ofBytes s)).1 ([], initState (.ofBytes s) dict) with
  | ok u y =>
    have := key y (hi y (.inl hx))
    rw [hx] at hd
    dsimp only at hd ⊢
    split at hd <;> first | (injection hd with hd; subst hd) | cases hd
    · rename_i h; exact this
    · exact this
  | poError y =>
    have := key y (hi y (.inr (.inl hx)))
    rw [hx] at hd
    injection hd with hd; subst hd
    exact this
  | exn m y =>
    have := key y (hi y (.inr (.inr ⟨m, hx⟩)))
    rw [hx] at hd
    injection hd with hd; subst hd
    exact this
  | fault f => rw [hx] at hd; cases hd
  | diverge => rw [hx] at hd; cases hd

theorem parse_within {K : Nat} (hK : 0 < K) (c : Cfg) (hl : AtMost K c.lib) (s : Str) (ht : Terminated s) (dict d : Dictionary)
    (h : (observe (run c (.ofBytes s) dict)).dict? = some d) :
    dictSize d ≤ dictSize dict + K * s.length ∧ (observe (run c (.ofBytes s) dict)).log.length ≤ s.length := by
  rcases run_obs_mono c (.ofBytes s) dict (c.fuel + s.length + 1) (by omega) (by show s.length < _; omega) with h' | h'
  · rw [h'] at h; cases h
  · rw [h'] at h ⊢
    refine observed_within hK c hl s dict _ s.length d ?_ h
    obtain ⟨q, hq⟩ := wc_any (wc_mainLoop (ct := c.ct) (fuel := c.fuel + s.length + 1) (T := startTape (.ofBytes s)) (c.fuel + s.length + 1) false 0 ⟨0, 0, 0⟩
      ⟨Nat.zero_le _, Nat.zero_le _⟩)
    refine ⟨q, hq, ?_⟩
    have := bytesTo_le s q q (by omega)
    rw [terminated_rest s ht] at this
    simpa using this

/-- C96.  Parsing a newline-terminated text of `n` bytes makes the dictionary grow by at most `4 n`, whatever the text, the dictionary,
the locale, the converter and the mode, and however the parse ends. -/
theorem C96_memory (c : Cfg) (s : Str) (ht : Terminated s) (dict d : Dictionary) (h : (observe (run c (.ofBytes s) dict)).dict? = some d) :
    dictSize d ≤ dictSize dict + 4 * s.length :=
  (parse_within (by decide) c (atMost_four c.lib) s ht dict d h).1

/-- A converter that turns every byte into four. -/
def wideLib : IconvLib where
  iconvOpen _ _ := .ok
  conv _ _ _ text cap := ⟨(text.flatMap (fun b => [0, 0, 0, b])).take cap, .ok⟩
  conv_cap := by intro to fr hist text cap; simp only [List.length_take]; exact Nat.min_le_left _ _

/-- A text of 122 bytes. -/
def wideText : Str := b!"msgid \"\"\nmsgstr \"Content-Type: text/plain; charset=LATIN1\\n\"\n\nmsgid \"a\"\nmsgstr \"bbbbbbbbbbbbbbbbbbbbbbbbbbbbbbbbbbbbbbbb\"\n"

-- the hypotheses are met, and the dictionary can hold more than the text
example : Terminated wideText ∧ wideText.length = 122 ∧
    (observe (run ⟨.c, wideLib, false, b!"f", true, 200⟩ (.ofBytes wideText) (.init b!"UTF-32"))).dict?.map dictSize = some 163 := by
  decide +kernel

/-- C96.  If conversions never make a text longer, it grows by at most `n`. -/
theorem C96_memory_same_charset (c : Cfg) (hl : ∀ to fr hist text, (c.lib.conv to fr hist text (4 * text.length)).out.length ≤ text.length)
    (s : Str) (ht : Terminated s) (dict d : Dictionary) (h : (observe (run c (.ofBytes s) dict)).dict? = some d) :
    dictSize d ≤ dictSize dict + s.length := by
  have := (parse_within (K := 1) (by decide) c (fun to fr hist text => by rw [Nat.one_mul]; exact hl to fr hist text) s ht dict d h).1
  rwa [Nat.one_mul] at this

/-- C96.  A text whose last line lacks the newline, but cannot send the parser into a loop, may use that line up to five more times. -/
theorem C96_memory_unterminated (c : Cfg) (s : Str) (dict d : Dictionary) (hN : lineCount s + 8 < 2147483647)
    (hr : HarmlessEnd c.ct (splitLines (withoutBom s)).2) (hF : s.length + 1 < c.fuel)
    (h : (observe (run c (.ofBytes s) dict)).dict? = some d) :
    dictSize d ≤ dictSize dict + 4 * (s.length + 5 * (splitLines (withoutBom s)).2.length) ∧
    (observe (run c (.ofBytes s) dict)).log.length ≤ s.length + 5 * (splitLines (withoutBom s)).2.length := by
  obtain ⟨w, q, h1, _, h2⟩ := run_ends c s hN (unlooped_of_harmless _ _ hr) hF
  rw [run_obs c _ dict (by show s.length < _; omega)] at h ⊢
  refine observed_within (by decide) c (atMost_four c.lib) s dict _ _ d ⟨q, ?_, bytesTo_le s q 5 ?_⟩ h
  · have := wc_mainLoop (ct := c.ct) (fuel := c.fuel) (T := startTape (.ofBytes s)) c.fuel false 0 ⟨0, 0, 0⟩ ⟨Nat.zero_le _, Nat.zero_le _⟩
    unfold Wc at this
    have h1' : mainLoopE c.ct c.fuel (startTape (.ofBytes s)) c.fuel false 0 = (w, .ok () q) := h1
    rw [h1'] at this
    rw [h1]
    exact this
  · rcases h2 with h2 | h2
    · omega
    · exact h2.2

theorem failed_dict (c : Cfg) (dict d : Dictionary) (h : (observe (run c .failed dict)).dict? = some d) : d = dict := by
  rcases run_obs_mono c .failed dict (c.fuel + 1) (by omega) (by show 0 < _; omega) with h' | h'
  · rw [h'] at h; cases h
  · rw [h'] at h
    injection h with h
    exact h.symm

theorem dirLoads_size {env : Env} {l : Language} {dir : Str} {d d' : Dictionary} (size : Nat) (h : DirLoads env l dir d d')
    (hs : ∀ f st, env.fs.openFile (dir ++ b!"/" ++ f) = .stream st → st = .failed ∨ ∃ t, st = .ofBytes t ∧ Terminated t ∧ t.length ≤ size) :
    dictSize d' ≤ dictSize d + 4 * size := by
  cases h with
  | nothing _ _ => omega
  | unopened _ _ _ => omega
  | parsed _ _ ho hp =>
    rcases hs _ _ ho with rfl | ⟨t, rfl, ht, hl⟩
    · have := failed_dict _ _ _ hp
      subst this; omega
    · have := C96_memory _ t ht _ _ hp
      omega

/-- C96.  A dictionary that a manager loads holds at most four times the bytes of the files it is loaded from, one in each directory of
the search path: `size dir` bounds the files in `dir`. -/
theorem C96_dictionary (cs : Str) (m m' : Manager) (hr : Reach cs m) (env : Env) (n : Nat) (l : Language) (p : DictId) (size : Str → Nat)
    (hs : ∀ dir ∈ m.searchPath, ∀ f st, env.fs.openFile (dir ++ b!"/" ++ f) = .stream st →
      st = .failed ∨ ∃ t, st = .ofBytes t ∧ Terminated t ∧ t.length ≤ size dir)
    (hg : Manager.getDictionaryFor env n l m = .ok p m') (hp : m.heap.get? p = none) :
    ∃ d, m'.heap.get? p = some d ∧ dictSize d ≤ 4 * (m.searchPath.map size).sum := by
  obtain ⟨d, h1, h2⟩ := C49_best_files cs m m' hr env n l p hg hp
  refine ⟨d, h1, ?_⟩
  have key : ∀ (path : List Str) (d d' : Dictionary), PathLoads env l path d d' → (∀ dir ∈ path, dir ∈ m.searchPath) →
      dictSize d' ≤ dictSize d + 4 * (path.map size).sum := by
    intro path d d' h
    induction h with
    | nil => intro _; simp
    | cons _ h2 ih =>
      intro hin
      have h3 := ih (fun x hx => hin x (List.mem_cons_of_mem _ hx))
      have h4 := dirLoads_size _ h2 (hs _ (hin _ List.mem_cons_self))
      simp only [List.map_cons, List.sum_cons]
      omega
  have := key _ _ _ h2 (fun _ h => h)
  have h0 : dictSize (Dictionary.init m.charset) = 0 := rfl
  have h3 : dictSize (unlinked d) = dictSize d := rfl
  omega

/-- C97.  Parsing a newline-terminated text of `n` bytes logs at most `n` messages. -/
theorem C97_messages (c : Cfg) (s : Str) (ht : Terminated s) (dict d : Dictionary) (h : (observe (run c (.ofBytes s) dict)).dict? = some d) :
    (observe (run c (.ofBytes s) dict)).log.length ≤ s.length :=
  (parse_within (by decide) c (atMost_four c.lib) s ht dict d h).2

-- fifteen bytes, five messages
example : (observe (run ⟨.c, demoLib, true, b!"f", true, 50⟩ (.ofBytes b!"msgid\"\\q\\r\\q\"x\n") (.init b!"UTF-8"))).log.length = 5 := by decide +kernel

/-! ### The messages themselves can be long -/

theorem starts_bind {α β : Type} {w : List Ev} {e : E α} {f : α → E β} {p : Nat} (h : w <+: (e p).1) : w <+: ((e >>= f) p).1 := by
  rw [e_bind]; unfold E.bind
  rcases hx : e p with ⟨v, r⟩
  rw [hx] at h
  cases r with
  | ok a q => exact List.IsPrefix.trans h (List.prefix_append _ _)
  | err q => exact h
  | overflow => exact h
  | diverge => exact h

theorem starts_after {α β : Type} {w : List Ev} {e : E α} {f : α → E β} {p q : Nat} {a : α} (he : e p = ([], .ok a q)) (h : w <+: (f a q).1) :
    w <+: ((e >>= f) p).1 := by
  rw [e_bind]; unfold E.bind
  rw [he]
  exact h

theorem starts_ite {α : Type} {w : List Ev} {c : Prop} [Decidable c] {e1 e2 : E α} {p : Nat} (hc : c) (h : w <+: (e1 p).1) :
    w <+: ((if c then e1 else e2) p).1 := by rw [if_pos hc]; exact h

theorem starts_else {α : Type} {w : List Ev} {c : Prop} [Decidable c] {e1 e2 : E α} {p : Nat} (hc : ¬ c) (h : w <+: (e2 p).1) :
    w <+: ((if c then e1 else e2) p).1 := by rw [if_neg hc]; exact h

/-- `\q` `k` times. -/
def bad : Nat → Str
  | 0 => []
  | k + 1 => 92 :: 113 :: bad k

theorem bad_length : ∀ k, (bad k).length = 2 * k := by
  intro k
  induction k with
  | zero => rfl
  | succ k ih => simp only [bad, List.length_cons, ih]; omega

theorem bad_bytes : ∀ k, ∀ x ∈ bad k, x = 92 ∨ x = 113 := by
  intro k
  induction k with
  | zero => intro x hx; cases hx
  | succ k ih =>
    intro x hx
    simp only [bad, List.mem_cons] at hx
    rcases hx with h | h | h
    · exact .inl h
    · exact .inr h
    · exact ih x h

theorem lex_bad (t : Str) : ∀ k, (lex false (bad k ++ 34 :: t)).unknown = List.replicate k 113 := by
  intro k
  induction k with
  | zero => rfl
  | succ k ih =>
    show (lex false (92 :: 113 :: (bad k ++ 34 :: t))).unknown = _
    rw [lex]
    · have h1 : unescape 113 = none := rfl
      simp only [Bool.false_and, Bool.false_eq_true, if_false, if_true, h1]
      rw [ih]; rfl
    · intro h; cases h

/-- A line with `k` unknown escapes. -/
def badLine (k : Nat) : Str := b!"msgid " ++ 34 :: (bad k ++ [34])

theorem badLine_length (k : Nat) : (badLine k).length = 2 * k + 8 := by
  unfold badLine
  simp only [List.length_append, List.length_cons, List.length_nil, bad_length]; omega

theorem badLine_no_nl (k : Nat) : (10 : Byte) ∉ badLine k := by
  unfold badLine
  intro h
  simp only [List.mem_append, List.mem_cons, List.not_mem_nil, or_false] at h
  rcases h with h | h | h | h
  · revert h; decide
  · revert h; decide
  · rcases bad_bytes k _ h with h | h <;> (revert h; decide)
  · revert h; decide

theorem events_bad (ct : CType) (k fuel : Nat) (hk : 2 * k + 8 < 4294967296) (hf : 1 < fuel) :
    List.replicate k (Ev.diag .warning 0 (unknownMsg 113) false) <+: (events ct fuel (.ofBytes (badLine k ++ [10]))).1 := by
  have hsl : splitLines (badLine k ++ [10]) = ([badLine k], []) := splitLines_append _ [] (badLine_no_nl k)
  have hw : withoutBom (badLine k ++ [10]) = badLine k ++ [10] := rfl
  have hl : (startTape (.ofBytes (badLine k ++ [10])) 0).line = badLine k := by
    rw [(startTape_lines _ 0).1, hw]; unfold lineAt; rw [hsl]; rfl
  have he : (startTape (.ofBytes (badLine k ++ [10])) 0).eof = false := by
    rw [(startTape_lines _ 0).2]; unfold lineCount; rw [hsl]; rfl
  unfold events
  generalize startTape (.ofBytes (badLine k ++ [10])) = T at hl he
  have hlen := badLine_length k
  have hu : u32 (badLine k).length = 2 * k + 8 := by rw [hlen]; exact Nat.mod_eq_of_lt hk
  obtain ⟨f, rfl⟩ : ∃ f, fuel = f + 1 := ⟨fuel - 1, by omega⟩
  have hentry : List.replicate k (Ev.diag .warning 0 (unknownMsg 113) false) <+: (entryE ct (f + 1) T false 0).1 := by
    unfold entryE
    refine starts_after (a := false) (q := 0) ?_ (starts_after (e := lineE T) (a := badLine k) (q := 0) (by unfold lineE; rw [hl]) (starts_bind (starts_ite ?_ ?_)))
    · unfold commentLoopE
      rw [e_bind]; unfold E.bind lineE
      rw [hl]
      rfl
    · show (!(List.all (109 :: _) ct.isspace)) = true
      rw [List.all_cons, ct.isspace_ascii 109 (by decide)]
      rfl
    · unfold entryBodyE
      refine starts_after (a := none) (q := 0) ?_ (starts_bind ?_)
      · unfold ctxtE
        rw [e_bind]; unfold E.bind lineE
        rw [hl]
        rfl
      · unfold msgidE
        refine starts_after (e := lineE T) (a := badLine k) (q := 0) (by unfold lineE; rw [hl]) (starts_ite rfl ?_)
        unfold getStringE
        refine starts_after (e := lineE T) (a := badLine k) (q := 0) (by unfold lineE; rw [hl]) (starts_else (by rw [hu]; omega) (starts_bind (starts_ite ⟨rfl, rfl⟩ ?_)))
        unfold getStringLineE
        refine starts_after (e := lineE T) (a := badLine k) (q := 0) (by unfold lineE; rw [hl]) (starts_else (by rw [hu]; omega) (starts_else (fun h => h rfl) ?_))
        have hd : (badLine k).drop (5 + 1 + 1) = bad k ++ [34] := rfl
        rw [hd]
        refine starts_bind ?_
        unfold E.emitAt
        dsimp only
        rw [lex_bad, List.map_replicate]
        exact List.prefix_refl _
  unfold mainLoopE
  rw [he]
  simp only [Bool.not_false, if_true]
  rcases hx : entryE ct (f + 1) T false 0 with ⟨w, r⟩
  rw [hx] at hentry
  cases r with
  | ok a q => exact List.IsPrefix.trans hentry (List.prefix_append _ _)
  | err q => exact List.IsPrefix.trans hentry (List.prefix_append _ _)
  | overflow => exact hentry
  | diverge => exact hentry

/-- The bytes that messages have. -/
def logBytes : List Diag → Nat
  | [] => 0
  | d :: l => d.text.length + logBytes l

theorem logBytes_append (l l' : List Diag) : logBytes (l ++ l') = logBytes l + logBytes l' := by
  induction l with
  | nil => simp [logBytes]
  | cons d l ih => simp only [List.cons_append, logBytes, ih]; omega

theorem interp_bad (c : Cfg) (T : Tape) : ∀ (k : Nat) (w : List Ev) (x : List Str × PState),
    interp c T (List.replicate k (Ev.diag .warning 0 (unknownMsg 113) false) ++ w) x
      = interp c T w (x.1, { x.2 with log := x.2.log ++ List.replicate k (.po .warning c.filename 1 (unknownMsg 113) (T 0).line) }) := by
  intro k
  induction k with
  | zero => intro w x; simp
  | succ k ih =>
    intro w x
    rw [List.replicate_succ, List.cons_append, interp, bind_apply]
    simp only [evStep, Bool.false_and, Bool.false_eq_true, if_false]
    rw [ih]
    simp only [List.append_assoc, List.replicate_succ, List.cons_append, List.nil_append]

theorem replicate_bytes (d : Diag) (n : Nat) (h : n ≤ d.text.length) : ∀ k, k * n ≤ logBytes (List.replicate k d) := by
  intro k
  induction k with
  | zero => simp
  | succ k ih =>
    rw [List.replicate_succ, logBytes, Nat.add_mul]
    omega

/-- C97.  The bytes of the messages are not bounded by any multiple of the bytes of the text: a line with `k` unknown escapes (`2 k + 9`
bytes) causes `k` messages that each quote it whole, `k (2 k + 8)` bytes at least. -/
theorem C97_flood (c : Cfg) (hl : TameLib c.lib) (k : Nat) (hk : 2 * k + 8 < 4294967296) (hF : 2 * k + 10 < c.fuel) (dict : Dictionary) :
    (badLine k ++ [10]).length = 2 * k + 9 ∧ (observe (run c (.ofBytes (badLine k ++ [10])) dict)).Ended ∧
    k * (2 * k + 8) ≤ logBytes (observe (run c (.ofBytes (badLine k ++ [10])) dict)).log := by
  have hlen : (badLine k ++ [10]).length = 2 * k + 9 := by rw [List.length_append, badLine_length]; rfl
  have hsl : splitLines (badLine k ++ [10]) = ([badLine k], []) := splitLines_append _ [] (badLine_no_nl k)
  have hline : (startTape (.ofBytes (badLine k ++ [10])) 0).line = badLine k := by
    rw [(startTape_lines _ 0).1]
    show lineAt (badLine k ++ [10]) 0 = _
    unfold lineAt; rw [hsl]; rfl
  have hend : (observe (run c (.ofBytes (badLine k ++ [10])) dict)).Ended := by
    rcases C25_terminates c (badLine k ++ [10]) dict (by unfold Terminated; rw [hsl]) (by unfold lineCount; rw [hsl]; simp) (by rw [hlen]; omega) with h | h
    · exact h
    · have := C24_no_abort c hl _ dict _ h
      cases this
  refine ⟨hlen, hend, ?_⟩
  rw [run_obs c _ dict (by show (badLine k ++ [10]).length < _; omega)] at hend ⊢
  obtain ⟨w, hw⟩ := events_bad c.ct k c.fuel hk (by omega)
  have hi := interp_bad c (startTape (.ofBytes (badLine k ++ [10]))) k w ([], initState (.ofBytes (badLine k ++ [10])) dict)
  rw [hw, hline] at hi
  have hg := Sdl.interp_grows c (startTape (.ofBytes (badLine k ++ [10]))) w ([], { initState (.ofBytes (badLine k ++ [10])) dict with
    log := (initState (.ofBytes (badLine k ++ [10])) dict).log ++ List.replicate k (.po .warning c.filename 1 (unknownMsg 113) (badLine k)) })
  rw [← hi] at hg
  have key : ∀ l : List Diag, ([] : List Diag) ++ List.replicate k (.po .warning c.filename 1 (unknownMsg 113) (badLine k)) <+: l →
      k * (2 * k + 8) ≤ logBytes l := by
    intro l hp
    obtain ⟨z, hz⟩ := hp
    rw [← hz, logBytes_append, List.nil_append]
    have := replicate_bytes (.po .warning c.filename 1 (unknownMsg 113) (badLine k)) (2 * k + 8) (by
      simp only [Diag.text, List.length_append, badLine_length]; omega) k
    omega
  unfold obsE at hend ⊢
  cases hx : interp c (startTape (.ofBytes (badLine k ++ [10]))) (events c.ct c.fuel (.ofBytes (badLine k ++ [10]))).1
      ([], initState (.ofBytes (badLine k ++ [10])) dict) with
  | ok u y =>
    rw [hx] at hg hend
    dsimp only at hend ⊢
    split at hend <;> first | exact key _ hg | exact hend.elim
  | poError y => rw [hx] at hg; exact key _ hg
  | exn m y => rw [hx] at hg; exact key _ hg
  | fault f => rw [hx] at hend; exact hend.elim
  | diverge => rw [hx] at hend; exact hend.elim

/-- C97.  No multiple of the bytes of a text bounds the bytes of its messages. -/
theorem C97_not_linear (c : Cfg) (hl : TameLib c.lib) (dict : Dictionary) (A : Nat) (hA : A < 1000000) (hF : 1000000000 < c.fuel) :
    ∃ s, Terminated s ∧ (observe (run c (.ofBytes s) dict)).Ended ∧ A * s.length < logBytes (observe (run c (.ofBytes s) dict)).log := by
  obtain ⟨h1, h2, h3⟩ := C97_flood c hl (2 * A + 1) (by omega) (by omega) dict
  refine ⟨badLine (2 * A + 1) ++ [10], ?_, h2, ?_⟩
  · unfold Terminated
    rw [splitLines_append _ [] (badLine_no_nl _)]
    rfl
  · rw [h1]
    refine Nat.lt_of_lt_of_le ?_ h3
    have e1 : A * (2 * (2 * A + 1) + 9) = 4 * (A * A) + 11 * A := by
      rw [show 2 * (2 * A + 1) + 9 = 4 * A + 11 by omega, Nat.mul_add, Nat.mul_left_comm, Nat.mul_comm A 11]
    have e2 : (2 * A + 1) * (2 * (2 * A + 1) + 8) = 8 * (A * A) + 24 * A + 10 := by
      rw [show 2 * (2 * A + 1) + 8 = 4 * A + 10 by omega, Nat.add_mul, Nat.one_mul, Nat.mul_add, Nat.mul_mul_mul_comm]
      omega
    omega
end Tgt
