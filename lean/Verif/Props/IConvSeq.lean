import Verif.Spec.Convert
import Verif.Props.IConv
/-
C22 and C21 over whole histories of an IConv object, in terms of what the caller sees.
-/
namespace Tgt
open Spec

theorem libName_eq (ct : CType) (s : Str) : cstr (s.map ct.toupper) = libName ct s := by
  unfold cstr libName
  congr 1
  funext b
  simp [bne, BEq.beq]

theorem convertEach_null (lib : IconvLib) (ts : List Str) :
    ∀ c : IConv, c.cd = .null → convertEach lib c ts = ts.map (.text · false) := by
  induction ts with
  | nil => intro c _; rfl
  | cons t ts ih =>
    intro c hc
    have e : c.convert lib t = .ok t c [] := by unfold IConv.convert; rw [hc]
    simp only [convertEach, e, List.map_cons]
    rw [ih c hc]
    rfl

theorem convertEach_opened (lib : IconvLib) (ts : List Str) :
    ∀ (c : IConv) (id : Nat) (to fr : Str) (fed : List Str), c.cd = .opened id to fr fed →
      convertEach lib c ts = expectEach lib to fr fed ts := by
  induction ts with
  | nil => intros; rfl
  | cons t ts ih =>
    intro c id to fr fed hc
    have hcap := lib.conv_cap to fr fed t (4 * t.length)
    cases hv : c.convert lib t with
    | ok r c' log =>
      simp only [convertEach, expectEach, hv]
      rcases C22_convert_output lib c c' t r log hv with ⟨h, _⟩ | ⟨id', to', fr', h', hcd, hr, _, hl⟩
      · rw [h] at hc; cases hc
      · rw [hcd] at hc; cases hc
        rcases hl with ⟨rfl, hs, hcd'⟩ | ⟨rfl, hs, hcd'⟩
        · rw [if_pos hs, ih c' _ _ _ _ hcd', hr]; rfl
        · have hn : (lib.conv to fr fed t (4 * t.length)).status ≠ .ok := by
            rcases hs with hs | hs <;> rw [hs] <;> simp
          rw [if_neg hn, if_pos hs, ih c' _ _ _ _ hcd', hr]; simp
    | fault f =>
      simp only [convertEach, expectEach, hv]
      obtain ⟨_, h | ⟨id', to', fr', h', hcd, hs⟩⟩ := C22_convert_fault lib c t f hv
      · rw [h] at hc; cases hc
      · rw [hcd] at hc; cases hc
        rw [if_neg (by rcases hs with hs | hs | hs <;> rw [hs] <;> simp),
          if_neg (by rcases hs with hs | hs | hs <;> rw [hs] <;> simp)]

/-- C22, over histories: take an object after any calls, and call `set_charsets(from, to)` on it,
with names that differ.  If it returns, the library could convert `from` to `to`, and every sequence
of `convert` calls that follows shows what the library, asked for that conversion and fed these
texts, wrote. -/
theorem C22_sequence (ct : CType) (lib : IconvLib) (ops : List IOp) (c : IConv) (fromC toC : Str)
    (_ : runIOps ct lib .init ops = some c)
    (hne : fromC.map ct.toupper ≠ toC.map ct.toupper)
    (hok : (c.setCharsets ct lib fromC toC).2 = none) (texts : List Str) :
    lib.iconvOpen (libName ct toC) (libName ct fromC) = .ok ∧
    convertEach lib (c.setCharsets ct lib fromC toC).1 texts
      = expectEach lib (libName ct toC) (libName ct fromC) [] texts := by
  have hn := libName_eq ct
  unfold IConv.setCharsets at hok ⊢
  dsimp only at hok ⊢
  rw [if_neg (Ne.symm hne)] at hok ⊢
  rw [hn, hn] at hok ⊢
  cases ho : lib.iconvOpen (libName ct toC) (libName ct fromC) with
  | ok => exact ⟨rfl, convertEach_opened lib texts _ _ _ _ _ rfl⟩
  | einval => rw [ho] at hok; simp at hok
  | other e => rw [ho] at hok; simp at hok

/-- C22: `set_charsets` throws exactly when the names differ and the library cannot open that
conversion, and the message then names both charsets in upper case, or gives the library's reason. -/
theorem C22_set_charsets (ct : CType) (lib : IconvLib) (c : IConv) (fromC toC w : Str) :
    (c.setCharsets ct lib fromC toC).2 = some w ↔
      fromC.map ct.toupper ≠ toC.map ct.toupper ∧
      ((lib.iconvOpen (libName ct toC) (libName ct fromC) = .einval ∧
          w = b!"IConv construction failed: conversion from '" ++ fromC.map ct.toupper ++ b!"' to '"
                ++ toC.map ct.toupper ++ b!"' not available") ∨
       ∃ e, lib.iconvOpen (libName ct toC) (libName ct fromC) = .other e ∧
          w = b!"IConv: construction failed: " ++ e) := by
  have hn := libName_eq ct
  unfold IConv.setCharsets IConv.notAvailable
  dsimp only
  rw [hn, hn]
  by_cases he : toC.map ct.toupper = fromC.map ct.toupper
  · rw [if_pos he]; simp [he.symm]
  · rw [if_neg he]
    have he' : fromC.map ct.toupper ≠ toC.map ct.toupper := Ne.symm he
    cases ho : lib.iconvOpen (libName ct toC) (libName ct fromC) with
    | ok => simp
    | einval =>
      simp only [Option.some.injEq, he', ne_eq, not_false_eq_true, true_and, reduceCtorEq, false_and,
        exists_false, or_false]
      exact eq_comm
    | other e =>
      simp only [Option.some.injEq, he', ne_eq, not_false_eq_true, true_and, reduceCtorEq, false_and,
        false_or, OpenResult.other.injEq]
      constructor
      · rintro rfl; exact ⟨e, rfl, rfl⟩
      · rintro ⟨_, rfl, rfl⟩; rfl

/-- C21, over histories: before any `set_charsets`, or after one with equal names, any sequence of
texts comes back unchanged and nothing is logged. -/
theorem C21_sequence (ct : CType) (lib : IconvLib) (c : IConv) (fromC toC : Str)
    (h : fromC.map ct.toupper = toC.map ct.toupper) (texts : List Str) :
    convertEach lib .init texts = texts.map (.text · false) ∧
    convertEach lib (c.setCharsets ct lib fromC toC).1 texts = texts.map (.text · false) := by
  refine ⟨convertEach_null lib texts _ rfl, convertEach_null lib texts _ ?_⟩
  simp [IConv.setCharsets, h]

/-- A Latin-1 object that is switched to ASCII, where the second text has an invalid byte: the
hypotheses of `C22_sequence` hold after two calls. -/
example :
    (runIOps .c demoLib .init [.setCharsets b!"iso-8859-1" b!"utf-8", .convert [0xfc]]).isSome = true ∧
    (∀ c, runIOps .c demoLib .init [.setCharsets b!"iso-8859-1" b!"utf-8", .convert [0xfc]] = some c →
      (c.setCharsets .c demoLib b!"ascii" b!"utf-8").2 = none ∧
      convertEach demoLib (c.setCharsets .c demoLib b!"ascii" b!"utf-8").1 [b!"ab", [97, 0xff, 98], b!"c"]
        = [.text b!"ab" false, .text b!"a" true, .text b!"c" false]) := by
  refine ⟨by decide +kernel, ?_⟩
  intro c hc
  have : c = (runIOps .c demoLib .init [.setCharsets b!"iso-8859-1" b!"utf-8", .convert [0xfc]]).getD .init := by
    rw [hc]; rfl
  subst this
  decide +kernel

/-- `set_charsets` to an unknown charset throws. -/
example : ((IConv.init.setCharsets .c demoLib b!"klingon" b!"utf-8").2).isSome = true := by decide +kernel

end Tgt
