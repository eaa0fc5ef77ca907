import Verif.Spec.Handles
/-
C21–C23: charset conversion.
-/
namespace Tgt
open Spec

/-! ### C21 -/

/-- C21: if the two names are equal up to letter case, `set_charsets` succeeds without opening a
converter, and `convert` then returns every text unchanged, silently. -/
theorem C21_same_charset_identity (ct : CType) (lib : IconvLib) (c : IConv) (fromC toC : Str)
    (h : fromC.map ct.toupper = toC.map ct.toupper) (text : Str) :
    (c.setCharsets ct lib fromC toC).2 = none ∧
    (∀ id, .opened id ∈ (c.setCharsets ct lib fromC toC).1.trace → .opened id ∈ c.trace) ∧
    (c.setCharsets ct lib fromC toC).1.convert lib text
      = .ok text (c.setCharsets ct lib fromC toC).1 [] := by
  have e : c.setCharsets ct lib fromC toC =
      ({ c.closeCd with fromCharset := fromC.map ct.toupper, toCharset := toC.map ct.toupper, cd := .null }, none) := by
    simp [IConv.setCharsets, h]
  rw [e]
  refine ⟨rfl, ?_, rfl⟩
  intro id hid
  simp only [IConv.closeCd] at hid
  split at hid <;> simpa using hid

example : b!"utf-8".map CType.c.toupper = b!"UTF-8".map CType.c.toupper := by decide

/-! ### C22 -/

theorem resizeResult_eq (cap : Nat) (w : Str) (h : w.length ≤ cap) : IConv.resizeResult cap w = w := by
  unfold IConv.resizeResult
  simp only
  have : cap - (cap - w.length) = w.length := by omega
  rw [this]
  simp

/-- C22: `convert` returns the text itself if no converter is open, else exactly the bytes the
converter wrote for this text, at most four per input byte; it logs an error exactly when the
converter met an invalid or incomplete sequence. -/
theorem C22_convert_output (lib : IconvLib) (c c' : IConv) (text r : Str) (log : List Diag)
    (h : c.convert lib text = .ok r c' log) :
    (c.cd = .null ∧ r = text ∧ log = []) ∨
    (∃ id to «from» hist, c.cd = .opened id to «from» hist ∧
      r = (lib.conv to «from» hist text (4 * text.length)).out ∧ r.length ≤ 4 * text.length ∧
      ((log = [] ∧ (lib.conv to «from» hist text (4 * text.length)).status = .ok ∧
          c'.cd = .opened id to «from» (hist ++ [text])) ∨
       (log = [.iconvInvalid text] ∧
          ((lib.conv to «from» hist text (4 * text.length)).status = .eilseq ∨
           (lib.conv to «from» hist text (4 * text.length)).status = .einval) ∧
          c'.cd = .opened id to «from» []))) := by
  unfold IConv.convert at h
  split at h
  · rename_i hc
    cases h
    exact .inl ⟨hc, rfl, rfl⟩
  · cases h
  · rename_i id to fr hist hc
    right
    have hcap := lib.conv_cap to fr hist text (4 * text.length)
    dsimp only at h
    rw [resizeResult_eq _ _ hcap] at h
    refine ⟨id, to, fr, hist, hc, ?_⟩
    split at h <;> cases h <;> simp_all

/-- C22: the only other outcomes are a failed assertion, when the converter was never opened
successfully, or reports a full output buffer or another error. -/
theorem C22_convert_fault (lib : IconvLib) (c : IConv) (text : Str) (f : Fault)
    (h : c.convert lib text = .fault f) :
    f = .assertFailed ∧ (c.cd = .invalid ∨
      ∃ id to «from» hist, c.cd = .opened id to «from» hist ∧
        ((lib.conv to «from» hist text (4 * text.length)).status = .e2big ∨
         (lib.conv to «from» hist text (4 * text.length)).status = .ebadf ∨
         (lib.conv to «from» hist text (4 * text.length)).status = .other)) := by
  unfold IConv.convert at h
  split at h
  · cases h
  · rename_i hc; cases h; exact ⟨rfl, .inl hc⟩
  · rename_i id to fr hist hc
    dsimp only at h
    split at h <;> cases h <;> refine ⟨rfl, .inr ⟨id, to, fr, hist, hc, ?_⟩⟩ <;> simp_all

/-- Latin-1 text in UTF-8. -/
def latin1 (text : Str) : Str :=
  text.flatMap (fun b : UInt8 => if b < 128 then [b] else [(0xc0 : UInt8) ||| (b >>> (6 : UInt8)), (0x80 : UInt8) ||| (b &&& (0x3f : UInt8))])

/-- A small converter: Latin-1 to UTF-8, and "ASCII" to anything which rejects bytes ≥ 0x80.  It reports a full output buffer. -/
def demoLib : IconvLib where
  iconvOpen _ fr := if fr = b!"ISO-8859-1" ∨ fr = b!"ASCII" then .ok else .einval
  conv _ fr _ text cap :=
    if fr = b!"ISO-8859-1" then
      ⟨(latin1 text).take cap, if cap < (latin1 text).length then .e2big else .ok⟩
    else ⟨(text.takeWhile (· < 128)).take cap,
      if cap < (text.takeWhile (· < 128)).length then .e2big else if text.all (· < 128) then .ok else .eilseq⟩
  conv_cap := by
    intro to fr hist text cap
    split <;> simp only [List.length_take] <;> exact Nat.min_le_left _ _

/-- "Grün" from Latin-1; "ab\xffcd" from ASCII stops at the invalid byte. -/
example :
    (((IConv.init.setCharsets .c demoLib b!"iso-8859-1" b!"utf-8").1).convert demoLib [71, 114, 0xfc, 110]
      = .ok b!"Grün" ⟨b!"UTF-8", b!"ISO-8859-1", .opened 0 b!"UTF-8" b!"ISO-8859-1" [[71, 114, 0xfc, 110]],
          [.used 0, .opened 0]⟩ []) ∧
    (((IConv.init.setCharsets .c demoLib b!"ASCII" b!"utf-8").1).convert demoLib [97, 98, 0xff, 99]
      = .ok b!"ab" ⟨b!"UTF-8", b!"ASCII", .opened 0 b!"UTF-8" b!"ASCII" [],
          [.used 0, .opened 0]⟩ [.iconvInvalid [97, 98, 0xff, 99]]) := by decide +kernel

/-! ### C23 -/

/-- The full property C23: any calls, then destruction, form a clean sequence of library calls. -/
def C23_Statement : Prop :=
  ∀ (ct : CType) (lib : IconvLib) (ops : List IOp) (c : IConv),
    runIOps ct lib .init ops = some c → Clean none [] c.destroy.trace.reverse

namespace Handles

/-- Reading a trace newest first: the legal traces, with the handle left open at the end and the
number of handles opened (handles are numbered by order of opening). -/
inductive Tr : List IconvEvent → Option Nat → Nat → Prop where
  | nil : Tr [] none 0
  | openH {t n} : Tr t none n → Tr (.opened n :: t) (some n) (n + 1)
  | openFailed {t n} : Tr t none n → Tr (.openFailed :: t) none n
  | useH {t id n} : Tr t (some id) n → Tr (.used id :: t) (some id) n
  | closeH {t id n} : Tr t (some id) n → Tr (.closed id :: t) none n
  | closeInv {t n} : Tr t none n → Tr (.closedInvalid :: t) none n

theorem Tr.count {t cur n} (h : Tr t cur n) : IConv.countOpened t = n := by
  induction h <;> simp_all [IConv.countOpened]

/-- From newest-first to oldest-first. -/
theorem Tr.toClean {t cur n} (h : Tr t cur n) : ∀ rest,
    (∀ seen, (∀ i ∈ seen, i < n) → Clean cur seen (dropInvalid rest)) →
    Clean none [] (dropInvalid (t.reverse ++ rest)) := by
  induction h with
  | nil => intro rest hr; exact hr [] (by simp)
  | @openH t n h ih =>
    intro rest hr
    rw [List.reverse_cons, List.append_assoc]
    apply ih
    intro seen hs
    simp only [dropInvalid, List.singleton_append]
    rw [List.filter_cons_of_pos (by simp)]
    refine .openH (fun hm => Nat.lt_irrefl _ (hs _ hm)) (hr _ ?_)
    intro i hi
    rcases List.mem_cons.1 hi with rfl | hi
    · omega
    · have := hs i hi; omega
  | openFailed h ih =>
    intro rest hr
    rw [List.reverse_cons, List.append_assoc]
    apply ih
    intro seen hs
    simp only [dropInvalid, List.singleton_append]
    rw [List.filter_cons_of_pos (by simp)]
    exact .openFailed (hr _ hs)
  | useH h ih =>
    intro rest hr
    rw [List.reverse_cons, List.append_assoc]
    apply ih
    intro seen hs
    simp only [dropInvalid, List.singleton_append]
    rw [List.filter_cons_of_pos (by simp)]
    exact .useH (hr _ hs)
  | closeH h ih =>
    intro rest hr
    rw [List.reverse_cons, List.append_assoc]
    apply ih
    intro seen hs
    simp only [dropInvalid, List.singleton_append]
    rw [List.filter_cons_of_pos (by simp)]
    exact .closeH (hr _ hs)
  | closeInv h ih =>
    intro rest hr
    rw [List.reverse_cons, List.append_assoc]
    apply ih
    intro seen hs
    simp only [dropInvalid, List.singleton_append]
    rw [List.filter_cons_of_neg (by simp)]
    exact hr _ hs

/-- The handle an `IConv` holds. -/
def cur : Cd → Option Nat
  | .opened id _ _ _ => some id
  | _ => none

/-- Invariant: the trace is legal and leaves exactly the held handle open; invalid closes lag failed
opens by one exactly while the invalid descriptor is held. -/
def Inv (c : IConv) : Prop :=
  (∃ n, Tr c.trace (cur c.cd) n) ∧
  c.trace.count .openFailed = c.trace.count .closedInvalid + (if c.cd = .invalid then 1 else 0)

theorem inv_init : Inv .init := ⟨⟨0, .nil⟩, rfl⟩

theorem inv_closeCd (c : IConv) (h : Inv c) : (∃ n, Tr c.closeCd.trace none n) ∧
    c.closeCd.trace.count .openFailed = c.closeCd.trace.count .closedInvalid := by
  obtain ⟨⟨n, h1⟩, h2⟩ := h
  unfold IConv.closeCd
  split
  · rename_i hc
    rw [hc] at h1 h2
    exact ⟨⟨n, h1⟩, by simpa using h2⟩
  · rename_i id to fr hist hc
    rw [hc] at h1 h2
    refine ⟨⟨n, .closeH h1⟩, ?_⟩
    simpa [List.count_cons] using h2
  · rename_i hc
    rw [hc] at h1 h2
    refine ⟨⟨n, .closeInv h1⟩, ?_⟩
    simpa [List.count_cons] using h2

theorem inv_setCharsets (ct : CType) (lib : IconvLib) (c : IConv) (f t : Str) (h : Inv c) :
    Inv (c.setCharsets ct lib f t).1 := by
  obtain ⟨⟨n, h1⟩, h2⟩ := inv_closeCd c h
  unfold IConv.setCharsets
  simp only
  split
  · exact ⟨⟨n, h1⟩, by simpa using h2⟩
  · split
    · refine ⟨⟨n + 1, ?_⟩, ?_⟩
      · simp only [cur]
        rw [h1.count]
        exact .openH h1
      · simp only [List.count_cons]
        simpa using h2
    · refine ⟨⟨n, .openFailed h1⟩, ?_⟩
      simp only [List.count_cons]
      simp; exact h2
    · refine ⟨⟨n, .openFailed h1⟩, ?_⟩
      simp only [List.count_cons]
      simp; exact h2

theorem inv_convert (lib : IconvLib) (c c' : IConv) (x r : Str) (l : List Diag) (h : Inv c)
    (hc : c.convert lib x = .ok r c' l) : Inv c' := by
  unfold IConv.convert at hc
  split at hc
  · cases hc; exact h
  · cases hc
  · rename_i id to fr hist hcd
    obtain ⟨⟨n, h1⟩, h2⟩ := h
    rw [hcd] at h1 h2
    have h1' : Tr (.used id :: c.trace) (some id) n := .useH h1
    have h2' : (IconvEvent.used id :: c.trace).count .openFailed
        = (IconvEvent.used id :: c.trace).count .closedInvalid + 0 := by
      simpa [List.count_cons] using h2
    dsimp only at hc
    split at hc <;> cases hc <;> exact ⟨⟨n, h1'⟩, by simpa using h2'⟩

theorem inv_run (ct : CType) (lib : IconvLib) (ops : List IOp) (c c' : IConv) (h : Inv c)
    (hr : runIOps ct lib c ops = some c') : Inv c' := by
  induction ops generalizing c with
  | nil => cases hr; exact h
  | cons o ops ih =>
    cases o with
    | setCharsets f t => exact ih _ (inv_setCharsets ct lib c f t h) hr
    | convert x =>
      simp only [runIOps] at hr
      split at hr
      · rename_i r c1 l hc
        exact ih _ (inv_convert lib c c1 x r l h hc) hr
      · cases hr

end Handles

/-- C23, as far as it holds: for every sequence of calls followed by destruction, apart from calls
`iconv_close((iconv_t)-1)` the library calls are clean — every handle opened is closed exactly once,
none is used when not open — and there is exactly one such bogus close per failed open.  Missing
from `C23_Statement`: the bogus closes (`C23_false`). -/
theorem C23_handles_partial (ct : CType) (lib : IconvLib) (ops : List IOp) (c : IConv)
    (h : runIOps ct lib .init ops = some c) :
    Clean none [] (dropInvalid c.destroy.trace.reverse) ∧
    c.destroy.trace.count .closedInvalid = c.destroy.trace.count .openFailed := by
  have hi := Handles.inv_run ct lib ops _ c Handles.inv_init h
  obtain ⟨⟨n, h1⟩, h2⟩ := Handles.inv_closeCd c hi
  refine ⟨?_, h2.symm⟩
  have := h1.toClean [] (fun seen _ => by simpa [dropInvalid] using Clean.done)
  simpa [IConv.destroy] using this

/-- C23 in full if every open succeeds. -/
theorem C23_handles_all_opens_succeed_partial (ct : CType) (lib : IconvLib)
    (hopen : ∀ to fr, lib.iconvOpen to fr = .ok) (ops : List IOp) (c : IConv)
    (h : runIOps ct lib .init ops = some c) : Clean none [] c.destroy.trace.reverse := by
  obtain ⟨h1, h2⟩ := C23_handles_partial ct lib ops c h
  have hno : ∀ (ops : List IOp) (c c' : IConv), .openFailed ∉ c.trace →
      runIOps ct lib c ops = some c' → .openFailed ∉ c'.trace := by
    intro ops
    induction ops with
    | nil => intro c c' hc hr; cases hr; exact hc
    | cons o ops ih =>
      intro c c' hc hr
      cases o with
      | setCharsets f t =>
        refine ih _ _ ?_ hr
        unfold IConv.setCharsets
        simp only
        have hcl : IconvEvent.openFailed ∉ c.closeCd.trace := by
          unfold IConv.closeCd
          split <;> simpa using hc
        split
        · exact hcl
        · rw [hopen]; simpa using hcl
      | convert x =>
        simp only [runIOps] at hr
        split at hr
        · rename_i r c1 l hcv
          refine ih _ _ ?_ hr
          unfold IConv.convert at hcv
          split at hcv
          · cases hcv; exact hc
          · cases hcv
          · dsimp only at hcv
            split at hcv <;> cases hcv <;> simpa using hc
        · cases hr
  have hf : IconvEvent.openFailed ∉ c.trace := hno ops _ c (by simp [IConv.init]) h
  have hf' : IconvEvent.openFailed ∉ c.destroy.trace := by
    unfold IConv.destroy IConv.closeCd
    split <;> simpa using hf
  rw [List.count_eq_zero.2 hf', List.count_eq_zero] at h2
  unfold dropInvalid at h1
  rw [List.filter_eq_self.2 (fun a ha => by
    simp only [ne_eq, decide_eq_true_eq]
    rintro rfl
    exact h2 (by simpa using ha))] at h1
  exact h1

/-- Two charsets, then an unknown one, then a known one again: all three library handles are
accounted for, with one bogus close after the failed open. -/
example : (runIOps .c demoLib .init [.setCharsets b!"ISO-8859-1" b!"UTF-8", .convert [0xe4],
      .setCharsets b!"KLINGON" b!"UTF-8", .setCharsets b!"ASCII" b!"UTF-8", .convert b!"x"]).map
        (fun c => c.destroy.trace.reverse)
    = some [.opened 0, .used 0, .closed 0, .openFailed, .closedInvalid, .opened 1,
      .used 1, .closed 1] := by decide +kernel

/-- C23 is false: after a failed open, `(iconv_t)-1` is passed to `iconv_close`. -/
theorem C23_false : ¬ C23_Statement := by
  intro h
  have := h .c demoLib [.setCharsets b!"KLINGON" b!"UTF-8"] _ rfl
  have e : ((IConv.init.setCharsets .c demoLib b!"KLINGON" b!"UTF-8").1).destroy.trace.reverse
      = [.openFailed, .closedInvalid] := by decide +kernel
  rw [e] at this
  cases this with
  | openFailed h => cases h

end Tgt
