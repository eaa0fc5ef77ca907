import Verif.Proofs.Memory
/-
Additions when memory runs out (C89).
-/
namespace Tgt
open Spec Memory Mem

namespace Mem

theorem done_eq {oom : Nat → Bool} {a : Add} {s s' : DictLog} {t t' : Nat} (h : Memory.add oom a s t = .done s' t') :
    s' = ((a.apply s.1).1, s.2 ++ (a.apply s.1).2) := by
  obtain ⟨d, log⟩ := s
  rcases add_cases oom a d log t with ⟨t1, h1, _⟩ | ⟨d1, l1, t1, h1, _⟩ | ⟨h1, _⟩
  · rw [h1] at h; cases h; rfl
  · rw [h1] at h; cases h
  · rw [h1] at h; cases h

theorem failed {oom : Nat → Bool} {a : Add} {s s' : DictLog} {t t' : Nat} (h : Memory.add oom a s t = .badAlloc s' t') :
    Same (target a).1 (target a).2 s.1 s'.1 ∧ Left a (stored s.1 (target a).1 (target a).2) (stored s'.1 (target a).1 (target a).2) ∧
      (s'.2 = s.2 ∨ s'.2 = s.2 ++ (a.apply s.1).2) ∧ ∃ k, k < t' ∧ oom k = true := by
  obtain ⟨d, log⟩ := s
  rcases add_cases oom a d log t with ⟨t1, h1, _⟩ | ⟨d1, l1, t1, h1, _, h2, h3, h4, h5⟩ | ⟨h1, _⟩
  · rw [h1] at h; cases h
  · rw [h1] at h; cases h; exact ⟨h2, h3, h4, h5⟩
  · rw [h1] at h; cases h

end Mem

/-- C89.  An addition that returns has done exactly what it does with unlimited memory, whatever failed before and whatever will fail. -/
theorem C89_returned (oom : Nat → Bool) (a : Add) (d d' : Dictionary) (log log' : List Diag) (t t' : Nat)
    (h : Memory.add oom a (d, log) t = .done (d', log') t') : (d', log') = ((a.apply d).1, log ++ (a.apply d).2) := done_eq h

/-- C89.  Without failures every addition returns. -/
theorem C89_enough (oom : Nat → Bool) (hm : ∀ k, oom k = false) (a : Add) (s : DictLog) (t : Nat) : ∃ s' t', Memory.add oom a s t = .done s' t' := by
  obtain ⟨d, log⟩ := s
  rcases add_cases oom a d log t with ⟨t1, h1, _⟩ | ⟨_, _, _, _, _, _, _, _, k, _, hk⟩ | ⟨_, _, k, hk⟩
  · exact ⟨_, t1, h1⟩
  · rw [hm] at hk; cases hk
  · rw [hm] at hk; cases hk

/-- C89.  An addition that throws `std::bad_alloc` has changed nothing but, perhaps, the strings of its own message, and those only in the ways
of `Left`; at most its own collision message has been delivered. -/
theorem C89_failed (oom : Nat → Bool) (a : Add) (d d' : Dictionary) (log log' : List Diag) (t t' : Nat)
    (h : Memory.add oom a (d, log) t = .badAlloc (d', log') t') :
    SameBut (target a).1 (target a).2 d d' ∧ Left a (stored d (target a).1 (target a).2) (stored d' (target a).1 (target a).2) ∧
      (log' = log ∨ log' = log ++ (a.apply d).2) := by
  obtain ⟨h1, h2, h3, _⟩ := failed h
  exact ⟨h1.but, h2, h3⟩

/-- C89.  The program is terminated only while a collision is reported. -/
theorem C89_terminated (oom : Nat → Bool) (a : Add) (d : Dictionary) (log : List Diag) (t : Nat)
    (h : Memory.add oom a (d, log) t = .terminated) : (a.apply d).2 ≠ [] := by
  rcases add_cases oom a d log t with ⟨t1, h1, _⟩ | ⟨d1, l1, t1, h1, _⟩ | ⟨_, h2, _⟩
  · rw [h1] at h; cases h
  · rw [h1] at h; cases h
  · exact h2

/-- C89.  A failed addition that is made again leaves the same dictionary as if it had not failed. -/
theorem C89_again (oom oom' : Nat → Bool) (a : Add) (d d1 d2 : Dictionary) (log log1 log2 : List Diag) (t t1 t' t2 : Nat)
    (h : Memory.add oom a (d, log) t = .badAlloc (d1, log1) t1) (h' : Memory.add oom' a (d1, log1) t' = .done (d2, log2) t2) :
    d2 = (a.apply d).1 := by
  obtain ⟨h1, h2, _⟩ := failed h
  have := done_eq h'
  rw [Prod.mk.injEq] at this
  rw [this.1]
  exact again_eq h1 h2

/-- C89.  Whatever fails, and how often: a program that repeats failed additions until they succeed ends up with exactly the dictionary of its history. -/
theorem C89_persistent (oom : Nat → Bool) (h : List Op) (s s' : DictLog) (t : Nat) (hp : Persistent oom h s t s') : s'.1 = h.foldl Op.run s.1 := by
  induction hp with
  | nil => rfl
  | added h1 _ ih => rw [ih, done_eq h1]; rfl
  | again h1 _ ih =>
    rw [ih]
    obtain ⟨h2, h3, _⟩ := failed h1
    show List.foldl Op.run (Add.apply _ _).1 _ = List.foldl Op.run (Add.apply _ _).1 _
    rw [again_eq h2 h3]
  | other _ _ ih => rw [ih]; rfl

/-- C89.  A program that gives up failed additions: every message none of whose additions failed has the strings it has without failures; and so
have the plural rule and the fallback. -/
theorem C89_careless (oom : Nat → Bool) (h : List Op) (s s' : DictLog) (t : Nat) (lost : List (Option Str × Str)) (hp : Careless oom h s t s' lost) :
    (∀ c i, (c, i) ∉ lost → stored s'.1 c i = stored (h.foldl Op.run s.1) c i) ∧
    s'.1.pluralForms = (h.foldl Op.run s.1).pluralForms ∧ s'.1.hasFallback = (h.foldl Op.run s.1).hasFallback ∧
    s'.1.fallback = (h.foldl Op.run s.1).fallback ∧ s'.1.charset = s.1.charset := by
  -- what the rest of the history does depends only on what is asked about
  have congr : ∀ (h : List Op) (c : Option Str) (i : Str) (d d' : Dictionary), stored d c i = stored d' c i →
      stored (h.foldl Op.run d) c i = stored (h.foldl Op.run d') c i := by
    intro h
    induction h with
    | nil => intro c i d d' e; exact e
    | cons o h ih =>
      intro c i d d' e
      apply ih
      cases o with
      | add a =>
        show stored (a.apply d).1 c i = stored (a.apply d').1 c i
        rw [stored_eq, stored_eq] at *
        rw [Dict.lookup_apply, Dict.lookup_apply, e]
        by_cases hk : target a = (c, i)
        · rw [if_pos hk, if_pos hk, hk, e]
        · rw [if_neg hk, if_neg hk]
      | setPluralForms p => cases c <;> exact e
      | addFallback p => cases c <;> exact e
  have rest : ∀ (h : List Op) (d d' : Dictionary), d.pluralForms = d'.pluralForms → d.hasFallback = d'.hasFallback → d.fallback = d'.fallback →
      (h.foldl Op.run d).pluralForms = (h.foldl Op.run d').pluralForms ∧ (h.foldl Op.run d).hasFallback = (h.foldl Op.run d').hasFallback ∧
      (h.foldl Op.run d).fallback = (h.foldl Op.run d').fallback := by
    intro h
    induction h with
    | nil => intro d d' h1 h2 h3; exact ⟨h1, h2, h3⟩
    | cons o h ih =>
      intro d d' h1 h2 h3
      cases o with
      | add a =>
        obtain ⟨-, a1, a2, a3⟩ := Dict.apply_other d a
        obtain ⟨-, b1, b2, b3⟩ := Dict.apply_other d' a
        exact ih _ _ (a1.trans (h1.trans b1.symm)) (a2.trans (h2.trans b2.symm)) (a3.trans (h3.trans b3.symm))
      | setPluralForms p => exact ih _ _ rfl h2 h3
      | addFallback p => exact ih _ _ h1 rfl rfl
  induction hp with
  | nil => exact ⟨fun _ _ _ => rfl, rfl, rfl, rfl, rfl⟩
  | added h1 _ ih =>
    obtain ⟨i1, i2, i3, i4, i5⟩ := ih
    rw [done_eq h1] at i1 i2 i3 i4 i5
    exact ⟨i1, i2, i3, i4, i5.trans (Dict.apply_other _ _).1⟩
  | @lost a h s s1 s' t t1 lost h1 _ ih =>
    obtain ⟨i1, i2, i3, i4, i5⟩ := ih
    have hb := (failed h1).1.but
    obtain ⟨-, a1, a2, a3⟩ := Dict.apply_other s.1 a
    obtain ⟨r1, r2, r3⟩ := rest h s1.1 (a.apply s.1).1 (hb.pluralForms.trans a1.symm) (hb.hasFallback.trans a2.symm) (hb.fallback.trans a3.symm)
    refine ⟨?_, i2.trans r1, i3.trans r2, i4.trans r3, i5.trans hb.charset⟩
    intro c i hn
    have hne : (c, i) ≠ target a := fun e => hn (by rw [e]; simp)
    rw [i1 c i (fun e => hn (List.mem_cons_of_mem _ e))]
    apply congr
    rw [hb.others c i hne]
    show _ = stored (a.apply s.1).1 c i
    rw [stored_eq, stored_eq, Dict.lookup_apply, if_neg (fun e => hne e.symm)]
  | @other o h s s' t lost hne _ ih =>
    refine ⟨ih.1, ih.2.1, ih.2.2.1, ih.2.2.2.1, ih.2.2.2.2.trans ?_⟩
    cases o with
    | add a => exact absurd rfl (hne a)
    | _ => rfl

/-- C89.  A failed addition of a single string leaves every answer of `translate` as it was; and if the message was known, the whole dictionary. -/
theorem C89_singular (oom : Nat → Bool) (c : Option Str) (i s : Str) (d d' : Dictionary) (log log' : List Diag) (t t' : Nat)
    (h : Memory.add oom (.singular c i s) (d, log) t = .badAlloc (d', log') t') :
    (∀ heap fuel msgid l, d'.translate heap fuel msgid l = d.translate heap fuel msgid l) ∧ (stored d c i ≠ none → d' = d) := by
  obtain ⟨h1, h2, h3, _⟩ := failed h
  simp only [target] at h1 h2
  have hb := h1.but
  constructor
  · intro heap fuel msgid l
    cases fuel with
    | zero => rfl
    | succ f =>
      have hx : d'.entries.get? msgid = d.entries.get? msgid ∨ (d'.entries.get? msgid = some [] ∧ d.entries.get? msgid = none) := by
        by_cases hk : (none, msgid) = (c, i)
        · obtain ⟨rfl, rfl⟩ := Prod.mk.inj hk
          simp only [stored] at h2
          clear hk h1 hb h
          generalize d.entries.get? msgid = x at *
          generalize d'.entries.get? msgid = y at *
          cases h2 with
          | same => exact .inl rfl
          | empty => exact .inr ⟨rfl, rfl⟩
        · exact .inl (hb.others none msgid hk)
      unfold Dictionary.translate Dictionary.translateIn
      rcases hx with hx | ⟨hx, hy⟩
      · rw [hx, hb.hasFallback, hb.fallback]
      · rw [hx, hy, hb.hasFallback, hb.fallback]
  · intro hk
    have he : stored d' c i = stored d c i := by
      generalize stored d c i = x at *
      generalize stored d' c i = y at *
      cases h2 with
      | same => rfl
      | empty => exact absurd rfl hk
    cases hv : stored d c i with
    | none => exact absurd hv hk
    | some v => rw [← setVec_self d' c i v (he.trans hv), h1 v, setVec_self d c i v hv]

/-- Memory runs out at the `k`-th operation that allocates, and only there. -/
def onceAt (k : Nat) : Nat → Bool := fun t => t == k

/-- C89.  Failed additions may leave traces: a message that is not there is answered with the English plural, but after a failed addition of it with the
singular; and strings may be left mixed. -/
theorem C89_traces :
    (∃ d', Memory.add (onceAt 1) (.singular none b!"dog" b!"Hund") (Dictionary.init b!"UTF-8", []) 0 = .badAlloc (d', []) 2 ∧
      ((Dictionary.init b!"UTF-8").translatePlural b!"dog" b!"dogs" 2).1 = b!"dogs" ∧ (d'.translatePlural b!"dog" b!"dogs" 2).1 = b!"dog") ∧
    (∃ d' log, Memory.add (onceAt 3) (.plural none b!"dog" b!"dogs" [b!"pies", b!"psy", b!"ps\xc3\xb3w"])
        (((Dictionary.init b!"UTF-8").addPlural b!"dog" b!"dogs" [b!"Hund", b!"Hunde"]).1, []) 0 = .badAlloc (d', log) 4 ∧
      stored d' none b!"dog" = some [b!"pies", b!"Hunde"]) := by
  refine ⟨⟨_, rfl, by decide +kernel, by decide +kernel⟩, ⟨_, _, rfl, by decide +kernel⟩⟩

-- the histories: `dog` fails at its first operation and is repeated; `cat` fails and is given up
example : ∃ s', Persistent (onceAt 0) [.add (.singular none b!"dog" b!"Hund"), .add (.singular (some b!"a") b!"cat" b!"Katze")]
    (Dictionary.init b!"UTF-8", []) 0 s' ∧ stored s'.1 none b!"dog" = some [b!"Hund"] ∧ stored s'.1 (some b!"a") b!"cat" = some [b!"Katze"] := by
  refine ⟨_, .again (t1 := 1) rfl (.added (t1 := 3) rfl (.added (t1 := 6) rfl .nil)), by decide +kernel, by decide +kernel⟩

example : ∃ s', Careless (onceAt 3) [.add (.singular none b!"dog" b!"Hund"), .add (.singular (some b!"a") b!"cat" b!"Katze"), .setPluralForms .undefined]
    (Dictionary.init b!"UTF-8", []) 0 s' [(some b!"a", b!"cat")] ∧ stored s'.1 none b!"dog" = some [b!"Hund"] ∧ stored s'.1 (some b!"a") b!"cat" = none ∧
    (s'.1.ctxtEntries.get? b!"a").isSome = true := by
  refine ⟨_, .added (t1 := 2) rfl (.lost (t1 := 4) rfl (.other (by simp) .nil)), by decide +kernel, by decide +kernel, by decide +kernel⟩

-- a collision is being reported: the program ends
example : Memory.add (onceAt 1) (.singular none b!"dog" b!"Dogge") (((Dictionary.init b!"UTF-8").addSingular b!"dog" b!"Hund").1, []) 0 = .terminated := rfl

end Tgt
