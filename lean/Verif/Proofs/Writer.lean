import Verif.Proofs.Grammar3
import Verif.Spec.PoWriter
/-
Canonical files are well-formed.
-/
namespace Tgt.POParser
open Spec Spec.Po

theorem escapeByte_lit {body text : Str} {u : List Byte} (b : Byte) (h : Lit false body text u) :
    Lit false (escapeByte b ++ body) (b :: text) u := by
  unfold escapeByte
  cases hf : escapes.find? (fun x => x.2 == b) with
  | some x =>
    obtain ⟨e, r⟩ := x
    have h1 := List.find?_some hf
    have h2 := List.mem_of_find?_eq_some hf
    simp at h1
    subst h1
    exact Lit.esc h2 h
  | none =>
    have h1 := List.find?_eq_none.1 hf
    refine Lit.plain ?_ ?_ (by simp) h
    · rintro rfl; exact absurd (h1 (34, 34) (by simp [escapes])) (by simp)
    · rintro rfl; exact absurd (h1 (92, 92) (by simp [escapes])) (by simp)

/-- The escaped form of a text means the text. -/
theorem escape_lit (s : Str) : Lit false (escape s) s [] := by
  induction s with
  | nil => exact Lit.nil
  | cons b s ih => exact escapeByte_lit b ih

theorem escapeByte_no_nl (b : Byte) : (10 : Byte) ∉ escapeByte b := by
  unfold escapeByte
  cases hf : escapes.find? (fun x => x.2 == b) with
  | some x =>
    obtain ⟨e, r⟩ := x
    have h2 := List.mem_of_find?_eq_some hf
    simp only [escapes, List.mem_cons, Prod.mk.injEq, List.not_mem_nil, or_false] at h2
    rcases h2 with ⟨rfl, rfl⟩ | ⟨rfl, rfl⟩ | ⟨rfl, rfl⟩ | ⟨rfl, rfl⟩ | ⟨rfl, rfl⟩ | ⟨rfl, rfl⟩ | ⟨rfl, rfl⟩ | ⟨rfl, rfl⟩ <;> (dsimp only; decide)
  | none =>
    have h1 := List.find?_eq_none.1 hf
    intro h
    simp at h
    subst h
    exact absurd (h1 (110, 10) (by simp [escapes])) (by simp)

theorem escape_no_nl (s : Str) : (10 : Byte) ∉ escape s := by
  unfold escape
  simp only [List.mem_flatMap, not_exists, not_and]
  exact fun b _ => escapeByte_no_nl b

section
variable {ct : CType} {st : Bool}

theorem blank_nil : Blank ct [] := fun x hx => by cases hx

theorem writeField_field (kw text : Str) : Field ct false st kw [writeField kw text] text := by
  have h1 : Quoted ct false st (34 :: escape text ++ 34 :: []) text := .mk (escape_lit text) (fun _ => ⟨rfl, blank_nil⟩)
  have h2 : Blank ct [32] := by
    intro x hx
    simp at hx
    subst hx
    rw [ct.isspace_ascii 32 (by decide)]; decide
  have := Field.mk (kw := kw) h2 (fun _ => rfl) h1 (Conts.nil (ct := ct) (big5 := false) (strict := st))
  simpa [writeField] using this

theorem writeStrs_lines : ∀ (r : List Str) (n : Nat), r ≠ [] → n + r.length ≤ 10 →
    PluralLines ct false st (writeStrs n r) ((List.range' n r.length).zip r) := by
  intro r
  induction r with
  | nil => intro n h; exact absurd rfl h
  | cons s r ih =>
    intro n _ hn
    simp only [List.length_cons] at hn
    cases r with
    | nil =>
      simp only [writeStrs, List.length_cons, List.length_nil, List.range'_succ, List.range'_zero, List.zip_cons_cons, List.zip_nil_right]
      exact .one (by omega) (writeField_field _ _)
    | cons s2 r2 =>
      have := ih (n + 1) (by simp) (by simp at hn ⊢; omega)
      rw [List.length_cons, List.range'_succ, List.zip_cons_cons]
      exact .more (ls := [_]) (by omega) (writeField_field _ _) this

/-- The entry of a message. -/
def entryOf (m : Message) : Entry :=
  ⟨false, m.ctxt, m.msgid, match m.plural with
    | none => .single (m.strs.headD [])
    | some p => .plural p ((List.range' 0 m.strs.length).zip m.strs)⟩

theorem writeMessage_entry (m : Message) (h : m.plural ≠ none → m.strs ≠ [] ∧ m.strs.length ≤ 10) :
    EntryLines ct false st (writeMessage m) (entryOf m) := by
  have hc : CtxtLines ct false st (writeCtxt m.ctxt) m.ctxt := by
    cases m.ctxt with
    | none => exact .none
    | some c => exact .some (writeField_field _ _)
  unfold writeMessage entryOf
  cases hp : m.plural with
  | none =>
    have := EntryLines.single (ct := ct) (big5 := false) (strict := st) (cs := []) (fz := false) (by simp) (by simp) hc
      (writeField_field b!"msgid" m.msgid) (writeField_field b!"msgstr" (m.strs.headD []))
    simpa using this
  | some p =>
    obtain ⟨h1, h2⟩ := h (by rw [hp]; simp)
    have := EntryLines.plural (ct := ct) (big5 := false) (strict := st) (cs := []) (fz := false) (by simp) (by simp) hc
      (writeField_field b!"msgid" m.msgid) (writeField_field b!"msgid_plural" p) (writeStrs_lines m.strs 0 h1 (by omega))
    simpa using this

theorem ok_plural {m : Message} (h : m.Ok) : m.plural ≠ none → m.strs ≠ [] ∧ m.strs.length ≤ 10 := by
  intro hp
  unfold Message.Ok at h
  cases hm : m.plural with
  | none => exact absurd hm hp
  | some p =>
    rw [hm] at h
    obtain ⟨h1, s, hs, _⟩ := h
    exact ⟨List.ne_nil_of_mem hs, h1⟩

theorem ok_header {m : Message} (h : m.Ok) : (entryOf m).header? = none := by
  unfold Message.Ok at h
  unfold entryOf Entry.header?
  cases hm : m.plural with
  | none =>
    rw [hm] at h
    show (if m.msgid = [] then _ else _) = none
    rw [if_neg h.1]
  | some p => rfl

theorem writeMessages_file (ms : List Message) (h : ∀ m ∈ ms, m.Ok) :
    File ct st false (writeMessages ms) (ms.map entryOf) := by
  induction ms with
  | nil => exact .comments (fun l hl => by cases hl)
  | cons m ms ih =>
    have hm := h m List.mem_cons_self
    have := File.entry (ct := ct) (strict := st) (b := false) (writeMessage_entry m (ok_plural hm)) (sep := []) (.inl blank_nil)
      (ls' := writeMessages ms) (es := ms.map entryOf)
      (by rw [ok_header hm]; exact ih (fun x hx => h x (List.mem_cons_of_mem _ hx)))
    simpa [writeMessages] using this

theorem writeCatalog_file (cs : Str) (pl : Option Str) (ms : List Message) (h : ∀ m ∈ ms, m.Ok)
    (hb : declaredCharset ct (headerText cs pl) ≠ b!"BIG5") :
    File ct st false (writeCatalog cs pl ms) (⟨false, none, [], .single (headerText cs pl)⟩ :: ms.map entryOf) := by
  have he := writeMessage_entry (ct := ct) (st := st) ⟨none, [], none, [headerText cs pl]⟩ (by simp)
  have := File.entry (ct := ct) (strict := st) (b := false) he (sep := []) (.inl blank_nil)
      (ls' := writeMessages ms) (es := ms.map entryOf)
      (by
        have : (false || Option.any (fun t => declaredCharset ct t == b!"BIG5") (entryOf ⟨none, [], none, [headerText cs pl]⟩).header?) = false := by
          simpa [entryOf, Entry.header?] using hb
        rw [this]
        exact writeMessages_file ms h)
  simpa [writeCatalog, writeMessage, writeCtxt, entryOf] using this
end

/-! ### The text is fine -/

theorem writeField_no_nl (kw t : Str) (h : (10 : Byte) ∉ kw) : (10 : Byte) ∉ writeField kw t := by
  unfold writeField
  simp [h, escape_no_nl t]

theorem msgstrN_no_nl (n : Nat) (h : n ≤ 9) : (10 : Byte) ∉ msgstrN n := by
  have : n = 0 ∨ n = 1 ∨ n = 2 ∨ n = 3 ∨ n = 4 ∨ n = 5 ∨ n = 6 ∨ n = 7 ∨ n = 8 ∨ n = 9 := by omega
  rcases this with rfl | rfl | rfl | rfl | rfl | rfl | rfl | rfl | rfl | rfl <;> decide

theorem writeStrs_no_nl : ∀ (r : List Str) (n : Nat), n + r.length ≤ 10 → ∀ l ∈ writeStrs n r, (10 : Byte) ∉ l := by
  intro r
  induction r with
  | nil => intro n _ l hl; cases hl
  | cons s r ih =>
    intro n hn l hl
    simp only [List.length_cons] at hn
    simp only [writeStrs, List.mem_cons] at hl
    rcases hl with rfl | hl
    · exact writeField_no_nl _ _ (msgstrN_no_nl n (by omega))
    · exact ih (n + 1) (by omega) l hl

theorem writeMessage_no_nl (m : Message) (h : m.plural ≠ none → m.strs ≠ [] ∧ m.strs.length ≤ 10) :
    ∀ l ∈ writeMessage m, (10 : Byte) ∉ l := by
  intro l hl
  unfold writeMessage at hl
  simp only [List.mem_append, List.mem_singleton] at hl
  rcases hl with (hl | hl) | hl
  · cases hc : m.ctxt with
    | none => rw [hc] at hl; cases hl
    | some c =>
      rw [hc] at hl
      simp only [writeCtxt, List.mem_singleton] at hl
      subst hl
      exact writeField_no_nl _ _ (by decide)
  · subst hl; exact writeField_no_nl _ _ (by decide)
  · cases hp : m.plural with
    | none =>
      rw [hp] at hl
      simp only [List.mem_singleton] at hl
      subst hl
      exact writeField_no_nl _ _ (by decide)
    | some p =>
      rw [hp] at hl
      simp only [List.mem_cons] at hl
      rcases hl with rfl | hl
      · exact writeField_no_nl _ _ (by decide)
      · exact writeStrs_no_nl m.strs 0 (by have := (h (by rw [hp]; simp)).2; omega) l hl

theorem writeMessages_no_nl (ms : List Message) (h : ∀ m ∈ ms, m.Ok) : ∀ l ∈ writeMessages ms, (10 : Byte) ∉ l := by
  intro l hl
  unfold writeMessages at hl
  simp only [List.mem_flatMap, List.mem_append, List.mem_singleton] at hl
  obtain ⟨m, hm, hl | rfl⟩ := hl
  · exact writeMessage_no_nl m (ok_plural (h m hm)) l hl
  · simp

theorem writeCatalog_no_nl (cs : Str) (pl : Option Str) (ms : List Message) (h : ∀ m ∈ ms, m.Ok) :
    ∀ l ∈ writeCatalog cs pl ms, (10 : Byte) ∉ l := by
  intro l hl
  unfold writeCatalog at hl
  simp only [List.mem_append, List.mem_cons, List.not_mem_nil, or_false] at hl
  rcases hl with (rfl | rfl | rfl) | hl
  · exact writeField_no_nl _ _ (by decide)
  · exact writeField_no_nl _ _ (by decide)
  · simp
  · exact writeMessages_no_nl ms h l hl

end Tgt.POParser
