import Verif.Props.PoConv
import Verif.Props.PoItemsLog
/-
Fuzzy entries in arbitrary texts (C31).
-/
namespace Tgt
open Spec Po POParser

namespace Fuzz

/-- The entries that are not broken off. -/
def wholes : List Item → List Entry
  | [] => []
  | .whole e :: t => e :: wholes t
  | .broken _ :: t => wholes t

theorem header_plural {e : Entry} (h : e.isPlural) : e.header? = none := by
  obtain ⟨idp, strs, h⟩ := h
  unfold Entry.header?
  rw [h]

theorem broken_plural {ct : CType} {line : Nat → Str} {b : Bool} {n m : Nat} {is : List Item} (h : Found ct line b n is m) :
    ∀ e, Item.broken e ∈ is → e.isPlural := by
  induction h with
  | nil => intro e he; cases he
  | whole _ _ _ _ ih =>
    intro e he
    rcases List.mem_cons.1 he with he | he
    · cases he
    · exact ih e he
  | broken _ _ hp _ _ ih =>
    intro e he
    rcases List.mem_cons.1 he with he | he
    · cases he; exact hp
    · exact ih e he

theorem counted_true (is : List Item) (h : ∀ e, Item.broken e ∈ is → e.isPlural) :
    (is.map (Item.counted true)).filter (fun e => !e.fuzzy || e.header?.isSome) = (wholes is).map unflagged := by
  induction is with
  | nil => rfl
  | cons i t ih =>
    have ih := ih (fun e he => h e (List.mem_cons_of_mem _ he))
    cases i with
    | whole e =>
      have : Item.counted true (.whole e) = { e with fuzzy := false } := by simp [Item.counted]
      rw [List.map_cons, this, List.filter_cons_of_pos (by simp), ih]
      rfl
    | broken e =>
      rw [List.map_cons, List.filter_cons_of_neg, ih]
      · rfl
      · have hp : Entry.header? { e with fuzzy := true } = none := header_plural (h e List.mem_cons_self)
        simp [Item.counted, hp]

theorem counted_false (is : List Item) (h : ∀ e, Item.broken e ∈ is → e.isPlural) :
    (is.map (Item.counted false)).filter (fun e => !e.fuzzy || e.header?.isSome) = (wholes is).filter (fun e => !e.fuzzy || e.header?.isSome) := by
  induction is with
  | nil => rfl
  | cons i t ih =>
    have ih := ih (fun e he => h e (List.mem_cons_of_mem _ he))
    cases i with
    | whole e =>
      have : Item.counted false (.whole e) = e := by simp [Item.counted]
      rw [List.map_cons, this, wholes, List.filter_cons, List.filter_cons, ih]
    | broken e =>
      rw [List.map_cons, List.filter_cons_of_neg, ih]
      · rfl
      · have hp : Entry.header? { e with fuzzy := true } = none := header_plural (h e List.mem_cons_self)
        simp [Item.counted, hp]

end Fuzz

/-- C31, for arbitrary texts.  Every text, well-formed or not, contains certain entries (the same for all settings, converters and dictionaries): with
`use_fuzzy` all of them are loaded, whether flagged or not; without it, all but the flagged ones (headers count even if flagged). -/
theorem C31_any_text (ct : CType) (fuel : Nat) (s : Str) (hF : s.length < fuel) :
    ∃ (is : List Item) (m : Nat) (tail : Ending), Found ct (lineAt (withoutBom s)) false 0 is m ∧
      ∀ (c : Cfg) (d : Dictionary), c.ct = ct → c.fuel = fuel → Stateless c.lib →
        let loaded := load ct c.lib false d.charset (if c.useFuzzy then (Fuzz.wholes is).map unflagged
          else (Fuzz.wholes is).filter (fun e => !e.fuzzy || e.header?.isSome)) .init ⟨[], none⟩
        (observe (run c (.ofBytes s) d)).noLog = (loaded.1.andThen tail).at (loaded.2.applyTo d) := by
  obtain ⟨is, m, tail, hf, -, h⟩ := C59_text_is_entries ct fuel s hF
  refine ⟨is, m, tail, hf, ?_⟩
  intro c d hc hfu hl
  dsimp only
  have hb := Fuzz.broken_plural hf
  have e : loadItems ct c.lib c.useFuzzy d.charset is .init ⟨[], none⟩
      = load ct c.lib false d.charset (if c.useFuzzy then (Fuzz.wholes is).map unflagged
          else (Fuzz.wholes is).filter (fun e => !e.fuzzy || e.header?.isSome)) .init ⟨[], none⟩ := by
    unfold loadItems
    rw [load_same ct hl d.charset _ .init .init ⟨[], none⟩ trivial]
    cases c.useFuzzy with
    | true => rw [Fuzz.counted_true is hb]; rfl
    | false => rw [Fuzz.counted_false is hb]; rfl
  rw [h c d hc hfu, e]

/-- A text with a faulty line, a flagged and an unflagged entry. -/
def faultyFuzzy : Str := b!"oops\n\n\n#, fuzzy\nmsgid \"a\"\nmsgstr \"A\"\n\nmsgid \"b\"\nmsgstr \"B\"\n"

example : (observe (run ⟨.c, demoLib, true, b!"f", true, 400⟩ (.ofBytes faultyFuzzy) (.init b!"UTF-8"))).noLog
      = .returned (addAll (.init b!"UTF-8") [.singular none b!"a" b!"A", .singular none b!"b" b!"B"]) [] ∧
    (observe (run ⟨.c, demoLib, true, b!"f", false, 400⟩ (.ofBytes faultyFuzzy) (.init b!"UTF-8"))).noLog
      = .returned (addAll (.init b!"UTF-8") [.singular none b!"b" b!"B"]) [] ∧
    Stateless demoLib := by
  refine ⟨by decide +kernel, by decide +kernel, demoLib_tame, fun _ _ _ _ _ => rfl⟩

end Tgt
