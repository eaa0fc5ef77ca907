import Verif.Spec.Reentrant
import Verif.Proofs.MgrCalls
/-
Lookups with callbacks that call the library: a lookup is the logging of its messages, one after the other, and then its answer.
-/
namespace Tgt.Reentrant
open Spec Manager Mgr
variable {σ κ : Type}

theorem bind_assoc {α β γ : Type} (p : Prog σ α) (f : α → Prog σ β) (g : β → Prog σ γ) :
    Prog.bind (Prog.bind p f) g = Prog.bind p (fun a => Prog.bind (f a) g) := by
  funext s
  simp only [Prog.bind]
  cases p s <;> rfl

theorem pure_bind {α β : Type} (a : α) (f : α → Prog σ β) : Prog.bind (Prog.pure a) f = f a := rfl

theorem each_append {α : Type} (f : α → Prog σ Unit) (l l' : List α) :
    each f (l ++ l') = Prog.bind (each f l) (fun _ => each f l') := by
  induction l with
  | nil => rfl
  | cons a l ih =>
    show Prog.bind (f a) (fun _ => each f (l ++ l')) = Prog.bind (Prog.bind (f a) (fun _ => each f l)) _
    rw [bind_assoc, ih]

theorem each_map {α β : Type} (f : β → Prog σ Unit) (g : α → β) (l : List α) : each f (l.map g) = each (fun a => f (g a)) l := by
  induction l with
  | nil => rfl
  | cons a l ih => show Prog.bind _ (fun _ => each f (l.map g)) = Prog.bind _ _; rw [ih]

/-- The messages, then the answer. -/
def saying (say : Diag → Prog σ Unit) (ds : List Diag) (r : Str) : Prog σ Str := Prog.bind (each say ds) (fun _ => Prog.pure r)

theorem saying_cons (say : Diag → Prog σ Unit) (d : Diag) (ds : List Diag) (r : Str) :
    saying say (d :: ds) r = Prog.bind (say d) (fun _ => saying say ds r) := bind_assoc _ _ _

theorem translateIn_eq (heap : DictId → Option Dictionary) (f : Nat) :
    ∀ (d : Dictionary) (e : Entries) (i : Str) (log : List Diag) (r : Str) (log' : List Diag),
      Dictionary.translateIn heap f d e i log = .ok r log' →
      ∃ ds, (∀ log, Dictionary.translateIn heap f d e i log = .ok r (log ++ ds)) ∧
        ∀ (σ : Type) (say : Diag → Prog σ Unit), translateIn say heap f d e i = saying say ds r := by
  induction f with
  | zero => intro d e i log r log' h; cases h
  | succ f ih =>
    intro d e i log r log' h
    have miss : ∀ (_ : (fun log => let log := log ++ [Diag.couldntTranslate i]
          if d.hasFallback then
            match d.fallback with
            | none => (.fault .nullDeref : Res (List Diag) Str)
            | some p =>
              match heap p with
              | none => .fault .useAfterFree
              | some d' => Dictionary.translateIn heap f d' d'.entries i log
          else .ok i log) log = .ok r log'),
        ∃ ds, (∀ log, (fun log => let log := log ++ [Diag.couldntTranslate i]
          if d.hasFallback then
            match d.fallback with
            | none => (.fault .nullDeref : Res (List Diag) Str)
            | some p =>
              match heap p with
              | none => .fault .useAfterFree
              | some d' => Dictionary.translateIn heap f d' d'.entries i log
          else .ok i log) log = .ok r (log ++ ds)) ∧ ∀ (σ : Type) (say : Diag → Prog σ Unit), (Prog.bind (say (.couldntTranslate i)) fun _ =>
          if d.hasFallback then
            match d.fallback with
            | none => Prog.fault .nullDeref
            | some p =>
              match heap p with
              | none => Prog.fault .useAfterFree
              | some d' => translateIn say heap f d' d'.entries i
          else Prog.pure i) = saying say ds r := by
      intro h
      dsimp only at h ⊢
      by_cases hf : d.hasFallback = true
      · rw [if_pos hf] at h
        cases hp : d.fallback with
        | none => rw [hp] at h; cases h
        | some p =>
          rw [hp] at h
          dsimp only at h
          cases hq : heap p with
          | none => rw [hq] at h; cases h
          | some d' =>
            rw [hq] at h
            obtain ⟨ds, h1, h2⟩ := ih d' d'.entries i _ r log' h
            refine ⟨.couldntTranslate i :: ds, ?_, ?_⟩
            · intro log
              rw [if_pos hf]
              dsimp only
              rw [hq]
              dsimp only
              rw [h1, List.append_assoc]; rfl
            · intro σ say
              rw [saying_cons, ← h2, if_pos hf]
              dsimp only
              rw [hq]
      · rw [if_neg hf] at h
        injection h with h1 h2
        refine ⟨[.couldntTranslate i], ?_, ?_⟩
        · intro log; rw [if_neg hf, h1]
        · intro σ say
          rw [if_neg hf, h1, saying_cons]; rfl
    rw [Dictionary.translateIn] at h
    cases he : e.get? i with
    | none =>
      rw [he] at h
      obtain ⟨ds, h1, h2⟩ := miss h
      exact ⟨ds, fun log => by rw [Dictionary.translateIn, he]; exact h1 log, fun σ say => by rw [translateIn, he]; exact h2 σ say⟩
    | some v =>
      rw [he] at h
      cases v with
      | nil =>
        obtain ⟨ds, h1, h2⟩ := miss h
        exact ⟨ds, fun log => by rw [Dictionary.translateIn, he]; exact h1 log, fun σ say => by rw [translateIn, he]; exact h2 σ say⟩
      | cons s t =>
        injection h with h1 h2
        exact ⟨[], fun log => by rw [Dictionary.translateIn, he, List.append_nil, ← h1]; rfl, fun σ say => by rw [translateIn, he, h1]; rfl⟩

theorem translatePluralIn_eq (say : Diag → Prog σ Unit) (d : Dictionary) (e : Entries) (i p : Str) (n : Int) :
    translatePluralIn say d e i p n = saying say (d.translatePluralIn e i p n).2 (d.translatePluralIn e i p n).1 := by
  unfold translatePluralIn Dictionary.translatePluralIn
  cases e.get? i with
  | none =>
    dsimp only
    show _ = saying say (_ :: _ :: (e.keys.map Diag.candidate)) _
    rw [saying_cons, saying_cons]
    unfold saying
    rw [each_map]
  | some v =>
    dsimp only
    cases v[d.pluralForms.getPlural n]? with
    | none => dsimp only; rw [saying_cons, saying_cons]; rfl
    | some s =>
      dsimp only
      by_cases hs : (!s.isEmpty) = true
      · rw [if_pos hs, if_pos hs]; rfl
      · rw [if_neg hs, if_neg hs]; rfl

theorem lookup_eq (heap : DictId → Option Dictionary) (f : Nat) (d : Dictionary) (q : Query) (log : List Diag) (r : Str)
    (log' : List Diag) (h : q.on heap f d log = .ok r log') :
    ∃ ds, (∀ log, q.on heap f d log = .ok r (log ++ ds)) ∧
      ∀ (σ : Type) (say : Diag → Prog σ Unit), lookup say heap f d q = saying say ds r := by
  cases q with
  | translate i => exact translateIn_eq heap f d d.entries i log r log' h
  | plural i p n =>
    injection h with h1 h2
    exact ⟨_, fun log => by rw [← h1]; rfl, fun σ say => by rw [← h1]; exact translatePluralIn_eq say d d.entries i p n⟩
  | ctxt c i =>
    unfold Query.on Dictionary.translateCtxt at h ⊢
    unfold lookup
    dsimp only at h ⊢
    cases hc : d.ctxtEntries.get? c with
    | none =>
      rw [hc] at h
      injection h with h1 h2
      exact ⟨[.couldntTranslate i], fun log => by rw [← h1], fun σ say => by rw [← h1, saying_cons]; rfl⟩
    | some e => rw [hc] at h; exact translateIn_eq heap f d e i log r log' h
  | ctxtPlural c i p n =>
    injection h with h1 h2
    refine ⟨_, fun log => by rw [← h1]; rfl, fun σ say => ?_⟩
    rw [← h1]
    unfold lookup Dictionary.translateCtxtPlural
    dsimp only
    cases hc : d.ctxtEntries.get? c with
    | none => dsimp only; rw [saying_cons]; rfl
    | some e => exact translatePluralIn_eq say d e i p n

/-- A lookup in a sound manager: its messages, then its answer. -/
theorem ask_eq {m : Manager} (h : Inv m) {f : Nat} (hf : 2 ≤ f) {id : DictId} (hl : m.heap.get? id ≠ none) (q : Query) :
    ∃ r, (∀ log, Manager.ask f id q { m with log := log } = .ok r { m with log := log ++ says f m id q }) ∧
      ∀ (σ : Type) (say : Diag → Prog σ Unit), askDict say m.heap.get? f id q = saying say (says f m id q) r := by
  cases hd : m.heap.get? id with
  | none => exact absurd hd hl
  | some d =>
    rcases query_ok h f hd q [] with ⟨r, l, hr, -⟩ | ⟨-, hx⟩
    · obtain ⟨ds, h1, h2⟩ := lookup_eq m.heap.get? f d q [] r l hr
      have hs : says f m id q = ds := by
        unfold says Manager.ask unlogged
        dsimp only
        rw [hd]
        dsimp only
        rw [h1]
        rfl
      rw [hs]
      refine ⟨r, fun log => ?_, fun σ say => ?_⟩
      · unfold Manager.ask
        dsimp only
        rw [hd]
        dsimp only
        rw [h1]
      · unfold askDict
        rw [hd]
        exact h2 σ say
    · omega

end Tgt.Reentrant
