import Verif.Spec.Convert
import Verif.Spec.PoWriter
/-
Messages in one charset and in another.
-/
namespace Tgt.Spec.Po

/-- A message with its translations (not its msgid, nor its context) replaced. -/
def Message.recode (f : Str → Str) (m : Message) : Message := { m with strs := m.strs.map f }

/-- `messages` are the messages of `file`, written in charset `src`, with their translations in charset `dst`: the charsets are the same
(up to case) and nothing changes, or the library has a converter, and it turns each translation into the new one, without errors and
whatever it has converted before. -/
def Recoded (ct : CType) (lib : IconvLib) (src dst : Str) (file messages : List Message) : Prop :=
  ∃ f : Str → Str, messages = file.map (Message.recode f) ∧
    (src.map ct.toupper = dst.map ct.toupper ∧ (∀ s, f s = s) ∨
     src.map ct.toupper ≠ dst.map ct.toupper ∧ lib.iconvOpen (libName ct dst) (libName ct src) = .ok ∧
       ∀ m ∈ file, ∀ s ∈ m.strs, ∀ hist, lib.conv (libName ct dst) (libName ct src) hist s (4 * s.length) = ⟨f s, .ok⟩)

theorem Message.Ok.shaped {m : Message} (h : m.Ok) : m.Shaped := by
  intro hp
  unfold Message.Ok at h
  rw [hp] at h
  exact ⟨_, h.2.choose_spec.1⟩

theorem Recoded.shaped {ct : CType} {lib : IconvLib} {src dst : Str} {file messages : List Message} (h : Recoded ct lib src dst file messages)
    (hf : ∀ m ∈ file, m.Ok) : ∀ m ∈ messages, m.Shaped := by
  obtain ⟨f, rfl, _⟩ := h
  intro m hm hp
  obtain ⟨m', hm', rfl⟩ := List.mem_map.1 hm
  obtain ⟨s, hs⟩ := (hf m' hm').shaped hp
  exact ⟨f s, by show m'.strs.map f = _; rw [hs]; rfl⟩

end Tgt.Spec.Po
