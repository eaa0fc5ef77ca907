import Verif.Proofs.Read
/-
Entries and faults, read by tape code, with all messages.
-/
namespace Tgt.POParser
open Spec Spec.Po

/-! ### What is described with remarks is also described without -/

section
variable {ct : CType} {b : Bool}

theorem _root_.Tgt.Spec.Po.RQuoted.plain {n : Nat} {q t : Str} {ns : List Note} (h : RQuoted ct b n q t ns) : Quoted ct b false q t := by
  obtain ⟨h⟩ := h; exact .mk h (fun h => by cases h)

theorem _root_.Tgt.Spec.Po.RConts.plain {n : Nat} {ls : List Str} {t : Str} {ns : List Note} (h : RConts ct b n ls t ns) : Conts ct b false ls t := by
  induction h with
  | nil => exact .nil
  | cons h1 h2 _ ih => exact .cons h1 (fun h => by cases h) h2.plain ih

theorem _root_.Tgt.Spec.Po.RField.plain {kw : Str} {n : Nat} {ls : List Str} {t : Str} {ns : List Note} (h : RField ct b kw n ls t ns) :
    Field ct b false kw ls t := by
  obtain ⟨h1, h2, h3⟩ := h
  exact .mk h1 (fun h => by cases h) h2.plain h3.plain

theorem rstrs_plain {n : Nat} {ls : List Str} {strs : List NumberedStr} (h : RStrs ct b n ls strs) :
    strs ≠ [] → PluralLines ct b false ls (strs.map Prod.snd) := by
  induction h with
  | nil => intro h; exact absurd rfl h
  | @cons n k ls t ns ls' r h1 h2 h3 ih =>
    intro _
    cases r with
    | nil =>
      cases h3
      rw [List.append_nil]
      exact .one h1 h2.plain
    | cons x r => exact .more h1 h2.plain (ih (by simp))

theorem rstart_plain {n : Nat} {ls : List Str} {fz : Bool} {c : Option Str} {ns : List Note} (h : RStart ct b n ls fz c ns) :
    ∃ cs cls, ls = cs ++ cls ∧ (∀ l ∈ cs, Comment l) ∧ (fz = true ↔ ∃ l ∈ cs, FuzzyFlag l) ∧ CtxtLines ct b false cls c := by
  cases h with
  | none h1 h2 => exact ⟨ls, [], by simp, h1, h2, .none⟩
  | some h1 h2 h3 => exact ⟨_, _, rfl, h1, h2, .some h3.plain⟩

theorem rhead_plain {n : Nat} {ls : List Str} {fz : Bool} {c : Option Str} {id : Str} {ns : List Note} (h : RHead ct b n ls fz c id ns) :
    ∃ cs cls ils, ls = cs ++ cls ++ ils ∧ (∀ l ∈ cs, Comment l) ∧ (fz = true ↔ ∃ l ∈ cs, FuzzyFlag l) ∧ CtxtLines ct b false cls c ∧
      Field ct b false b!"msgid" ils id := by
  obtain ⟨h1, h2⟩ := h
  obtain ⟨cs, cls, rfl, h3, h4, h5⟩ := rstart_plain h1
  exact ⟨cs, cls, _, rfl, h3, h4, h5, h2.plain⟩

theorem rplural_plain {n : Nat} {ls : List Str} {fz : Bool} {c : Option Str} {id idp : Str} {strs : List NumberedStr} {ns : List Note}
    (h : RPlural ct b n ls fz c id idp strs ns) (hne : strs ≠ []) : EntryLines ct b false ls ⟨fz, c, id, .plural idp (strs.map Prod.snd)⟩ := by
  obtain ⟨h1, h2, h3⟩ := h
  obtain ⟨cs, cls, ils, rfl, h4, h5, h6, h7⟩ := rhead_plain h1
  exact .plural h4 h5 h6 h7 h2.plain (rstrs_plain h3 hne)

/-! ### First lines -/

theorem rfield_head {kw : Str} {n : Nat} {ls : List Str} {t : Str} {ns : List Note} (h : RField ct b kw n ls t ns) :
    ∃ r ls', ls = (kw ++ r) :: ls' := by
  obtain ⟨_, _, _⟩ := h
  exact ⟨_, _, by rw [List.append_assoc]⟩

theorem badField_head {kw : Str} {n : Nat} {ls : List Str} {l m : Str} {ns : List Note} (h : BadField ct b kw n ls l ns m) :
    ∃ r ls', ls ++ [l] = (kw ++ r) :: ls' := by
  cases h with
  | first h =>
    cases h with
    | short => exact ⟨_, _, rfl⟩
    | blank => exact ⟨_, _, rfl⟩
    | other => exact ⟨_, _, by rw [List.append_assoc]; rfl⟩
    | string => exact ⟨_, _, by rw [List.append_assoc]; rfl⟩
  | later h =>
    obtain ⟨r, ls', rfl⟩ := rfield_head h
    exact ⟨r, ls' ++ [_], rfl⟩

/-- A line that starts with a keyword. -/
theorem kw_line {l r : Str} (h : l = 109 :: r) : ¬ Continues ct l ∧ ¬ Separator ct l ∧ ¬ Comment l := by
  have := m_line (ct := ct) l r h
  refine ⟨?_, ?_, this.2.2⟩
  · rintro ⟨ws, t, hw, hl⟩
    rw [h] at hl
    cases ws with
    | nil => cases hl
    | cons x ws =>
      simp only [List.cons_append, List.cons.injEq] at hl
      have := hw x List.mem_cons_self
      rw [← hl.1, isspace_false ct 109 (by decide) (by decide)] at this
      cases this
  · rw [separator_iff, this.1]; simp

theorem not_prefix {w l : Str} (h : ¬ w <+: l) : ¬ (hasPrefix w l = true) := by
  simpa [hasPrefix, List.isPrefixOf_iff_prefix] using h

theorem sep_not_continues {l : Str} (h : Separator ct l) : ¬ Continues ct l :=
  continues_scan.1 (by
    rcases h with h | rfl | ⟨b, t, rfl, _⟩
    · exact blank_scan l h
    · exact comment_scan _ rfl
    · exact comment_scan _ rfl)

theorem not_sep_empty {l : Str} (h : ¬ Separator ct l) : emptyLine ct l = false := by
  cases hx : emptyLine ct l with
  | false => rfl
  | true => exact absurd ((separator_iff l).2 hx) h
end

section
variable {ct : CType} {fuel : Nat} {T : Tape} {L : Nat → Str} {N : Nat} {b : Bool}

theorem a_commentLoop (cs : List Str) (hc : ∀ l ∈ cs, Comment l) {fz : Bool} (hfz : fz = true ↔ ∃ l ∈ cs, FuzzyFlag l) (f p : Nat)
    (hat : At T p cs) (hf : cs.length < f) (hm : p + cs.length < intMax) (he : ¬ Comment (T (p + cs.length)).line) :
    Acts (commentLoopE T f false) p [] [] (.ok fz (p + cs.length)) := by
  obtain ⟨w, h1, h2, h3⟩ := y_commentLoop (T := T) (st := true) cs f p false hc hat hf hm he
  have h4 : (false || cs.any fuzzyFlag) = fz := by
    rw [Bool.false_or, Bool.eq_iff_iff, hfz, List.any_eq_true]
    constructor
    · rintro ⟨l, h1, h2⟩; exact ⟨l, h1, (fuzzyFlag_iff l (hc l h1)).1 h2⟩
    · rintro ⟨l, h1, h2⟩; exact ⟨l, h1, (fuzzyFlag_iff l (hc l h1)).2 h2⟩
  rw [h4] at h1
  have hnil : w = [] := by
    have : w.filter (fun x => !x.isDiag) = w := List.filter_eq_self.2 (fun x hx => by rw [(h3 x hx).2 rfl]; rfl)
    unfold essence at h2
    rw [this] at h2
    simpa using h2
  rw [hnil] at h1
  exact ⟨[], h1, rfl, rfl⟩

/-! ### Exact runs -/

/-- Remarks as events. -/
def evN (ns : List Note) : List Ev := ns.map Note.ev

theorem evN_append (a c : List Note) : evN (a ++ c) = evN a ++ evN c := List.map_append

/-- The code at `p` ends with `r`, its events are `v`. -/
def Does {α : Type} (e : E α) (p : Nat) (v : List Ev) (r : TRes α) : Prop := e p = (v, r)

section
variable {α β : Type} {p q : Nat} {v v' : List Ev} {a : α}

theorem Acts.does {e : E α} {ns : List Note} {r : TRes α} (h : Acts e p ns [] r) : Does e p (evN ns) r := by
  obtain ⟨v, h1, h2, h3⟩ := h
  unfold Does
  have : v.filter Ev.isDiag = v := by
    rw [List.filter_eq_self]
    intro x hx
    cases hd : x.isDiag with
    | true => rfl
    | false =>
      have : x ∈ v.filter (fun x => !x.isDiag) := List.mem_filter.2 ⟨hx, by simp [hd]⟩
      rw [h3] at this; cases this
  rw [h1, evN, ← h2, this]

theorem Does.bind {e : E α} {f : α → E β} {r : TRes β} (h1 : Does e p v (.ok a q)) (h2 : Does (f a) q v' r) :
    Does (e >>= f) p (v ++ v') r := by
  unfold Does at h1 h2 ⊢
  rw [e_bind]; unfold E.bind; rw [h1]; dsimp only; rw [h2]

/-- Sequencing when the first part does nothing. -/
theorem Does.bind0 {e : E α} {f : α → E β} {r : TRes β} (h1 : Acts e p [] [] (.ok a q)) (h2 : Does (f a) q v r) : Does (e >>= f) p v r :=
  Does.bind (v := []) h1.does h2

theorem Does.bindErr {e : E α} {f : α → E β} (h1 : Does e p v (.err q)) : Does (e >>= f) p v (.err q) := by
  unfold Does at h1 ⊢
  rw [e_bind]; unfold E.bind; rw [h1]

theorem Does.pure (a : α) : Does (E.pure a) p [] (.ok a p) := rfl
theorem Does.emit (w : List Ev) : Does (E.emit w) p w (.ok () p) := rfl
theorem Does.emitAt (g : Nat → List Ev) : Does (E.emitAt g) p (g p) (.ok () p) := rfl

theorem Does.line {T : Tape} {f : Str → E β} {r : TRes β} (h : Does (f (T p).line) p v r) : Does (lineE T >>= f) p v r :=
  Does.bind (v := []) (a := (T p).line) (q := p) rfl h

theorem Does.pos {e1 e2 : E α} {c : Prop} [Decidable c] {r : TRes α} (hc : c) (h : Does e1 p v r) : Does (if c then e1 else e2) p v r := by
  rw [if_pos hc]; exact h
theorem Does.neg {e1 e2 : E α} {c : Prop} [Decidable c] {r : TRes α} (hc : ¬ c) (h : Does e2 p v r) : Does (if c then e1 else e2) p v r := by
  rw [if_neg hc]; exact h
end

/-! ### Parts of an entry -/

/-- What follows the `msgid`. -/
def afterIdE (ct : CType) (fuel : Nat) (T : Tape) (big5 fuzzy : Bool) (ctxt : Option Str) (msgid : Str) : E Unit := do
  let l ← lineE T
  if hasPrefix b!"msgid_plural" l then pluralEntryE ct fuel T big5 fuzzy ctxt msgid
  else do
    let l ← lineE T
    if hasPrefix b!"msgstr" l then singularEntryE ct fuel T big5 fuzzy ctxt msgid
    else errorE ct fuel T b!"expected 'msgstr' or 'msgid_plural'"

theorem entryBody_eq (fz : Bool) : entryBodyE ct fuel T b fz = (ctxtE ct fuel T b >>= fun c => msgidE ct fuel T b >>= fun i => afterIdE ct fuel T b fz c i) := rfl

/-- A whole iteration that fails. -/
theorem a_entry_err {n p1 q : Nat} {fz : Bool} {v : List Ev} (h1 : Acts (commentLoopE T fuel false) n [] [] (.ok fz p1))
    (h2 : emptyLine ct (T p1).line = false) (h3 : Does (entryBodyE ct fuel T b fz) p1 v (.err q)) :
    Does (entryE ct fuel T b) n v (.err q) := by
  unfold entryE
  exact Does.bind0 h1 (Does.line (Does.bindErr (Does.pos (by rw [h2]; rfl) h3)))

/-- A whole iteration, up to its end. -/
theorem a_entry_ok {n p1 q : Nat} {fz : Bool} {v : List Ev} {ns : List Note} {r : TRes Unit} (h1 : Acts (commentLoopE T fuel false) n [] [] (.ok fz p1))
    (h2 : emptyLine ct (T p1).line = false) (h3 : Does (entryBodyE ct fuel T b fz) p1 v (.ok () q)) (h4 : Acts (finishE ct fuel T) q ns [] r) :
    Does (entryE ct fuel T b) n (v ++ evN ns) r := by
  unfold entryE
  have := Does.bind h3 (f := fun _ => finishE ct fuel T) h4.does
  refine Does.bind0 h1 (Does.line ?_)
  rw [if_pos (by rw [h2]; rfl)]
  exact this

theorem a_finish_ok (h : Calm ct fuel T L N) {p : Nat} (hp : p ≤ N + 3) (hs : Separator ct (L p)) : Acts (finishE ct fuel T) p [] [] (.ok () (p + 1)) := by
  unfold finishE
  have := h.few
  refine Acts.line (Acts.bind0 (a := ()) (q := p) (Acts.neg ?_ (Acts.pure _)) (Acts.next (by omega)))
  rw [h.line, (separator_iff _).1 hs]; simp

theorem a_finish_err (h : Calm ct fuel T L N) {p r : Nat} (hp : p ≤ N + 3) (hs : ¬ Separator ct (L p)) (hr : Resume ct L N p r) :
    Acts (finishE ct fuel T) p [⟨.error, p, b!"expected empty line", false⟩] [] (.err r) := by
  unfold finishE
  refine Acts.line (Acts.bindErr (Acts.pos ?_ (a_error h _ hp hr)))
  rw [h.line, not_sep_empty hs]; rfl

/-- Comments and `msgctxt`. -/
theorem a_start (h : Calm ct fuel T L N) {n : Nat} {ls : List Str} {fz : Bool} {c : Option Str} {ns : List Note} (hst : RStart ct b n ls fz c ns)
    (hat : At T n ls) (hN : n + ls.length ≤ N + 3)
    (h0 : c = none → ¬ Comment (T (n + ls.length)).line ∧ ¬ Separator ct (T (n + ls.length)).line ∧ ¬ b!"msgctxt" <+: (T (n + ls.length)).line)
    (h1 : c ≠ none → ¬ Continues ct (T (n + ls.length)).line) :
    ∃ p1, Acts (commentLoopE T fuel false) n [] [] (.ok fz p1) ∧ emptyLine ct (T p1).line = false ∧
      Acts (ctxtE ct fuel T b) p1 ns [] (.ok c (n + ls.length)) := by
  have hfew := h.few
  have hfu := h.fuel
  cases hst with
  | none hc hfz =>
    obtain ⟨g1, g2, g3⟩ := h0 rfl
    refine ⟨n + ls.length, a_commentLoop ls hc hfz fuel n hat (by omega) (by omega) g1, not_sep_empty g2, ?_⟩
    unfold ctxtE
    exact Acts.line (Acts.neg (not_prefix g3) (Acts.pure _))
  | @some cs fz cls t ns hc hfz hf =>
    rw [List.length_append] at hN h1 ⊢
    obtain ⟨hat1, hat2⟩ := At_append.1 hat
    obtain ⟨r, cls', hcl⟩ := rfield_head hf
    have hl : (T (n + cs.length)).line = b!"msgctxt" ++ r := by rw [hcl] at hat2; exact hat2.1
    have hk := kw_line (ct := ct) (l := (T (n + cs.length)).line) (by rw [hl]; rfl)
    refine ⟨n + cs.length, a_commentLoop cs hc hfz fuel n hat1 (by omega) (by omega) hk.2.2, not_sep_empty hk.2.1, ?_⟩
    unfold ctxtE
    refine Acts.line (Acts.pos (by rw [hl]; exact prefix_kw _ _) ?_)
    rw [← Nat.add_assoc] at h1 hN ⊢
    have := Acts.bindN (f := fun t => E.pure (some t)) (a_getString h hf 7 rfl hat2 hN (h1 (by simp))) (Acts.pure (some t))
    rwa [List.append_nil] at this

theorem rstart_next {n : Nat} {ls : List Str} {fz : Bool} {c : Option Str} {ns : List Note} (_ : RStart ct b n ls fz c ns)
    {p : Nat} {r : Str} (hl : (T p).line = b!"msgid" ++ r) :
    (c = none → ¬ Comment (T p).line ∧ ¬ Separator ct (T p).line ∧ ¬ b!"msgctxt" <+: (T p).line) ∧ (c ≠ none → ¬ Continues ct (T p).line) := by
  have hk := kw_line (ct := ct) (l := (T p).line) (by rw [hl]; rfl)
  refine ⟨fun _ => ⟨hk.2.2, hk.2.1, ?_⟩, fun _ => hk.1⟩
  rw [hl]
  rintro ⟨t, ht⟩
  simp at ht

/-- Everything up to the `msgid`. -/
theorem a_head (h : Calm ct fuel T L N) {n : Nat} {ls : List Str} {fz : Bool} {c : Option Str} {id : Str} {ns : List Note}
    (hh : RHead ct b n ls fz c id ns) (hat : At T n ls) (hN : n + ls.length ≤ N + 3) (h1 : ¬ Continues ct (T (n + ls.length)).line) :
    ∃ p1, Acts (commentLoopE T fuel false) n [] [] (.ok fz p1) ∧ emptyLine ct (T p1).line = false ∧
      ∀ {v r}, Does (afterIdE ct fuel T b fz c id) (n + ls.length) v r → Does (entryBodyE ct fuel T b fz) p1 (evN ns ++ v) r := by
  obtain ⟨hs, hf⟩ := hh
  rename_i ls ns1 ls' ns2
  rw [List.length_append] at hN h1 ⊢
  obtain ⟨hat1, hat2⟩ := At_append.1 hat
  obtain ⟨r, ils', hil⟩ := rfield_head hf
  have hl : (T (n + ls.length)).line = b!"msgid" ++ r := by rw [hil] at hat2; exact hat2.1
  obtain ⟨n1, n2⟩ := rstart_next hs hl
  obtain ⟨p1, g1, g2, g3⟩ := a_start h hs hat1 (by omega) n1 n2
  refine ⟨p1, g1, g2, fun {v r} ht => ?_⟩
  rw [entryBody_eq, evN_append, List.append_assoc]
  refine Does.bind g3.does ?_
  rw [← Nat.add_assoc] at hN h1 ht
  have hid : Acts (msgidE ct fuel T b) (n + ls.length) ns2 [] (.ok id (n + ls.length + ls'.length)) := by
    unfold msgidE
    exact Acts.line (Acts.pos (by rw [hl]; exact prefix_kw _ _) (a_getString h hf 5 rfl hat2 hN h1))
  exact Does.bind hid.does ht

/-! ### Plural strings -/

/-- Numbered strings as events. -/
def strEvs (strs : List NumberedStr) : List Ev := strs.flatMap (fun x => evN x.1 ++ [Ev.conv x.2.1 x.2.2])

theorem a_strs (h : Calm ct fuel T L N) {n : Nat} {ls : List Str} {strs : List NumberedStr} (hs : RStrs ct b n ls strs) :
    ∀ (f : Nat) (first saw : Bool), At T n ls → ls.length < f → n + ls.length ≤ N + 3 → ¬ Continues ct (T (n + ls.length)).line →
      ∀ {v r}, Does (pluralLoopE ct fuel T b (f - strs.length) (first && strs.isEmpty) (saw || strs.any (fun x => !x.2.2.isEmpty))) (n + ls.length) v r →
      Does (pluralLoopE ct fuel T b f first saw) n (strEvs strs ++ v) r := by
  induction hs with
  | nil =>
    intro f first saw hat hf hN hc v r ht
    simpa [strEvs] using ht
  | @cons n k ls t ns1 ls' rs hk hfl hrs ih =>
    intro f first saw hat hf hN hc v r ht
    rw [List.length_append] at hf hN hc ht
    obtain ⟨f, rfl⟩ : ∃ g, f = g + 1 := ⟨f - 1, by omega⟩
    obtain ⟨hat1, hat2⟩ := At_append.1 hat
    obtain ⟨r0, ls0, hl0⟩ := rfield_head hfl
    have hl : (T n).line = msgstrN k ++ r0 := by rw [hl0] at hat1; exact hat1.1
    have hkl := kw_line (ct := ct) (l := (T n).line) (by rw [hl]; rfl)
    have hcont : ¬ Continues ct (T (n + ls.length)).line := by
      cases hrs with
      | nil => simpa using hc
      | cons _ hf2 _ =>
        obtain ⟨r1, ls1, hl1⟩ := rfield_head hf2
        rw [hl1] at hat2
        exact (kw_line (ct := ct) (l := (T (n + ls.length)).line) (by rw [hat2.1]; rfl)).1
    unfold pluralLoopE
    have hpos : 0 < ls.length := by rw [hl0]; simp
    refine Does.line (Does.neg (by rw [not_sep_empty hkl.2.1]; simp) ?_)
    rw [show msgstrIndex (T n).line = some k by rw [hl]; exact msgstrIndex_kw k hk _]
    dsimp only
    have e2 : strEvs ((ns1, k, t) :: rs) ++ v = evN ns1 ++ ([Ev.conv k t] ++ (strEvs rs ++ v)) := by
      unfold strEvs; simp
    rw [e2]
    refine Does.bind (a_getString h hfl 9 (msgstrN_length k) hat1 (by omega) hcont).does ?_
    have e1 : (if (!t.isEmpty) = true then true else saw) = (saw || !t.isEmpty) := by
      cases t.isEmpty <;> simp
    rw [e1]
    refine Does.bind (Does.emit _) (ih f false _ hat2 (by omega) (by omega) (by rw [Nat.add_assoc]; exact hc) ?_)
    have e3 : f + 1 - ((ns1, k, t) :: rs).length = f - rs.length := by rw [List.length_cons]; omega
    rw [e3] at ht
    simpa [Bool.or_assoc, Nat.add_assoc] using ht

theorem rstrs_len {n : Nat} {ls : List Str} {strs : List NumberedStr} (hs : RStrs ct b n ls strs) : strs.length ≤ ls.length := by
  induction hs with
  | nil => simp
  | cons _ hf _ ih =>
    obtain ⟨r0, ls0, rfl⟩ := rfield_head hf
    simp only [List.length_cons, List.length_append] at ih ⊢
    omega

/-- The end of a plural entry. -/
def pluralEndE (ct : CType) (fuel : Nat) (T : Tape) (fuzzy : Bool) (ctxt : Option Str) (msgid idp : Str) (saw : Bool) : E Unit := do
  let l ← lineE T
  if !emptyLine ct l then errorE ct fuel T b!"expected 'msgstr[N]' or empty line"
  else if saw then E.emitAt (fun p => [.plural p fuzzy ctxt msgid idp])
  else E.pure ()

/-- Everything up to some plural strings. -/
theorem a_plural (h : Calm ct fuel T L N) {n : Nat} {ls : List Str} {fz : Bool} {c : Option Str} {id idp : Str} {strs : List NumberedStr} {ns : List Note}
    (hp : RPlural ct b n ls fz c id idp strs ns) (hat : At T n ls) (hN : n + ls.length ≤ N + 3) (h1 : ¬ Continues ct (T (n + ls.length)).line) :
    ∃ p1 f, 0 < f ∧ Acts (commentLoopE T fuel false) n [] [] (.ok fz p1) ∧ emptyLine ct (T p1).line = false ∧
      ∀ {v r}, Does (pluralLoopE ct fuel T b f strs.isEmpty (strs.any (fun x => !x.2.2.isEmpty)) >>= pluralEndE ct fuel T fz c id idp)
          (n + ls.length) v r →
        Does (entryBodyE ct fuel T b fz) p1 (evN ns ++ (.clear :: strEvs strs) ++ v) r := by
  obtain ⟨hh, hf, hs⟩ := hp
  rename_i ls ns1 ls' ns2 ls''
  have hfu := h.fuel
  obtain ⟨hat12, hat3⟩ := At_append.1 hat
  obtain ⟨hat1, hat2⟩ := At_append.1 hat12
  rw [List.length_append] at hN h1 ⊢
  obtain ⟨r0, ls0, hl0⟩ := rfield_head hf
  have hl : (T (n + ls.length)).line = b!"msgid_plural" ++ r0 := by rw [hl0] at hat2; exact hat2.1
  have hkl := kw_line (ct := ct) (l := (T (n + ls.length)).line) (by rw [hl]; rfl)
  have hN' : n + (ls ++ ls').length ≤ N + 3 := by omega
  obtain ⟨p1, g1, g2, g3⟩ := a_head h hh hat1 (by rw [List.length_append] at hN'; omega) hkl.1
  have hlen := rstrs_len hs
  refine ⟨p1, fuel - strs.length, by omega, g1, g2, fun {v r} ht => ?_⟩
  have hcont : ¬ Continues ct (T (n + (ls ++ ls').length)).line := by
    cases hs with
    | nil => simpa using h1
    | cons _ hf2 _ =>
      obtain ⟨r1, ls1, hl1⟩ := rfield_head hf2
      rw [hl1] at hat3
      exact (kw_line (ct := ct) (l := (T (n + (ls ++ ls').length)).line) (by rw [hat3.1]; rfl)).1
  rw [evN_append, List.append_assoc, List.append_assoc]
  refine g3 ?_
  unfold afterIdE
  refine Does.line (Does.pos (by rw [hl]; exact prefix_kw _ _) ?_)
  have hidp := a_getString h hf 12 rfl hat2 (by rw [List.length_append] at hN'; omega) (by rw [List.length_append] at hcont; rw [Nat.add_assoc]; exact hcont)
  rw [show n + ls.length + ls'.length = n + (ls ++ ls').length by rw [List.length_append, Nat.add_assoc]] at hidp
  -- the loop and what follows it
  have key : Does (pluralLoopE ct fuel T b fuel true false >>= pluralEndE ct fuel T fz c id idp) (n + (ls ++ ls').length) (strEvs strs ++ v) r := by
    unfold Does at ht ⊢
    rw [e_bind] at ht ⊢
    unfold E.bind at ht ⊢
    have hloop : ∀ {v4 r4}, Does (pluralLoopE ct fuel T b (fuel - strs.length) strs.isEmpty (strs.any (fun x => !x.2.2.isEmpty))) (n + ((ls ++ ls').length + ls''.length)) v4 r4 →
        Does (pluralLoopE ct fuel T b fuel true false) (n + (ls ++ ls').length) (strEvs strs ++ v4) r4 := by
      intro v4 r4 hy
      refine a_strs h hs fuel true false hat3 (by omega) (by omega) (by rw [Nat.add_assoc]; exact h1) ?_
      rw [Nat.add_assoc]
      simpa using hy
    rcases hy : pluralLoopE ct fuel T b (fuel - strs.length) strs.isEmpty (strs.any (fun x => !x.2.2.isEmpty)) (n + ((ls ++ ls').length + ls''.length)) with ⟨v1, r1⟩
    rw [hy] at ht
    have k1 := hloop hy
    unfold Does at k1
    rw [k1]
    cases r1 with
    | ok a q =>
      dsimp only at ht ⊢
      rw [Prod.mk.injEq] at ht
      rw [List.append_assoc, ht.1, ht.2]
    | err q =>
      dsimp only at ht ⊢
      rw [Prod.mk.injEq] at ht
      rw [ht.1, ← ht.2]
    | overflow =>
      dsimp only at ht ⊢
      rw [Prod.mk.injEq] at ht
      rw [ht.1, ← ht.2]
    | diverge =>
      dsimp only at ht ⊢
      rw [Prod.mk.injEq] at ht
      rw [ht.1, ← ht.2]
  unfold pluralEntryE
  refine Does.bind hidp.does ?_
  exact Does.bind (v := [.clear]) (Does.emit _) key
end
end Tgt.POParser
