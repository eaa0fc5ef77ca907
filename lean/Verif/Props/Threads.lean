import Verif.Proofs.Threads
/-
Several threads (C85).
-/
namespace Tgt
open Spec Thr

/-- C85, in full: from the start of the program, whatever the threads call and however they are interleaved, a thread that has finished
got the right answers from all its calls. -/
def C85_Statement : Prop :=
  ∀ (ct : CType) (calls : List (List Asking)) (schedule : List Nat) (i : Nat) (cs : List Asking) (rs : List Told),
    calls[i]? = some cs → ((start ct noTables calls).run schedule).finished i rs → rs = cs.map (Asking.right ct)

namespace Thrs

/-- Two threads that both want to know the language of "de". -/
def two : List (List Asking) := [[.fromEnv b!"de"], [.fromEnv b!"de"]]

/-- The first has found the table empty and added its first row; then the second finds it not empty, but does not find German. -/
def early : List Nat := [0, 0, 1, 1]

def answerOf : Option (Thread (List Told)) → Option (List Told)
  | some (Thread.ret rs) => some rs
  | _ => none

theorem finished_of (w : Running) (i : Nat) (rs : List Told) (h : answerOf w.threads[i]? = some rs) : w.finished i rs := by
  unfold Running.finished
  revert h
  generalize w.threads[i]? = t
  intro h
  cases t with
  | none => cases h
  | some t => cases t <;> cases h; rfl

theorem okay_none : Okay noTables := ⟨.inl rfl, .inl rfl, .inl rfl⟩

/-- What one thread leaves behind. -/
theorem first_done {ct : CType} {g : Globals} {cs : List Asking} {n : Nat} {rs : List Told}
    (h : ((start ct g [cs]).run (List.replicate n 0)).finished 0 rs) :
    rs = (alone (making ct cs) g).1 ∧ ((start ct g [cs]).run (List.replicate n 0)).tables = (alone (making ct cs) g).2 := by
  obtain ⟨n0, hn⟩ := run_alone (making ct cs) g
  have e := hn (n + n0) (by omega)
  rw [← List.replicate_append_replicate, run_append] at e
  have hlen : ∀ (s : List Nat) (w : Running), (w.run s).threads.length = w.threads.length := by
    intro s
    induction s with
    | nil => intro w; rfl
    | cons j s ih =>
      intro w
      show ((w.step j).run s).threads.length = _
      rw [ih]
      unfold Running.step
      split <;> simp
  have hl := hlen (List.replicate n 0) (start ct g [cs])
  change ((start ct g [cs]).run (List.replicate n 0)).run (List.replicate n0 0) = _ at e
  generalize (start ct g [cs]).run (List.replicate n 0) = w at h e hl ⊢
  obtain ⟨tb, ths⟩ := w
  obtain ⟨t, rfl⟩ : ∃ t, ths = [t] := by
    cases ths with
    | nil => cases hl
    | cons a l => cases l with
      | nil => exact ⟨a, rfl⟩
      | cons b l => simp [start] at hl
  have : t = .ret rs := by simpa [Running.finished] using h
  subst this
  rw [run_ret] at e
  injection e with e1 e2
  injection e2 with e2
  injection e2 with e2
  exact ⟨e2, e1⟩

end Thrs
open Thrs

/-- C85 in full is false: `Language::from_env("de")` in two threads at the beginning of the program; the second is told that there is no such language. -/
theorem C85_false : ¬ C85_Statement := by
  intro h
  have e : answerOf (((start CType.c noTables two).run early).threads[1]?) = some [.language none] := by decide +kernel
  have := h CType.c two early 1 [.fromEnv b!"de"] [.language none] rfl (finished_of _ _ _ e)
  revert this
  decide +kernel

/-- The same call in two threads at the beginning of the program is a data race, whichever call it is and whatever comes after it. -/
theorem C85_race (ct : CType) (c : Asking) (cs cs' : List Asking) :
    ∃ schedule, ((start ct noTables [c :: cs, c :: cs']).run schedule).Races := by
  refine ⟨[0], ?_⟩
  cases c with
  | fromString s => exact ⟨0, 1, _, _, _, _, by decide, rfl, rfl, rfl, rfl⟩
  | fromSpec l c m => exact ⟨0, 1, _, _, _, _, by decide, rfl, rfl, rfl, rfl⟩
  | fromEnv s => exact ⟨0, 1, _, _, _, _, by decide, rfl, rfl, rfl, rfl⟩
  | fromName s => exact ⟨0, 1, _, _, _, _, by decide, rfl, rfl, rfl, rfl⟩

/-- Calls that are made one after the other (by one thread, or by several under a common lock) are answered right, and all are answered. -/
theorem C85_one_after_the_other (ct : CType) (cs : List Asking) :
    (∀ n rs, ((start ct noTables [cs]).run (List.replicate n 0)).finished 0 rs → rs = cs.map (Asking.right ct)) ∧
    ∃ n0, ∀ n, n0 ≤ n → ((start ct noTables [cs]).run (List.replicate n 0)).finished 0 (cs.map (Asking.right ct)) := by
  obtain ⟨g', e, -⟩ := alone_making ct cs noTables okay_none
  constructor
  · intro n rs h
    rw [(first_done h).1, e]
  · obtain ⟨n0, hn⟩ := run_alone (making ct cs) noTables
    refine ⟨n0, fun n h => ?_⟩
    have := hn n h
    show Running.finished ((Running.mk noTables [making ct cs]).run (List.replicate n 0)) 0 _
    rw [this, e]
    rfl

/-- C85, proved part: if one thread has made some calls to their end before the other threads begin, and these use no table that the
first calls did not use, then in every interleaving nothing is ever written again, there is no race, every thread that has finished got the right
answers, and a thread has finished after at most four accesses for each of its calls.  Missing: threads that begin before. -/
theorem C85_after_init_partial (ct : CType) (first : List Asking) (n : Nat) (rs : List Told)
    (hfirst : ((start ct noTables [first]).run (List.replicate n 0)).finished 0 rs)
    (calls : List (List Asking)) (huses : ∀ cs ∈ calls, ∀ c ∈ cs, ∀ t ∈ c.uses, ∃ c' ∈ first, t ∈ c'.uses) (schedule : List Nat) :
    let g := ((start ct noTables [first]).run (List.replicate n 0)).tables
    let w := (start ct g calls).run schedule
    w.tables = g ∧ ¬ w.Races ∧
    ∀ i cs, calls[i]? = some cs → (∀ rs, w.finished i rs → rs = cs.map (Asking.right ct)) ∧
      (4 * cs.length ≤ schedule.count i → w.finished i (cs.map (Asking.right ct))) := by
  intro g w
  obtain ⟨g', e, -, hu, -⟩ := alone_making ct first noTables okay_none
  have hg : g = g' := by rw [show g = _ from (first_done hfirst).2, e]
  have full : ∀ cs ∈ calls, ∀ c ∈ cs, ∀ t ∈ c.uses, Full g t := by
    intro cs hcs c hc t ht
    obtain ⟨c', hc', ht'⟩ := huses cs hcs c hc t ht
    rw [hg]; exact hu c' hc' t ht'
  clear_value g
  obtain ⟨h1, h2, h3⟩ := run_reads g (fun i => 4 * ((calls[i]?).getD []).length) (fun i => ((calls[i]?).getD []).map (Asking.right ct)) schedule
    (start ct g calls) rfl (by
      intro i t ht
      simp only [start, List.getElem?_map, Option.map_eq_some_iff] at ht
      obtain ⟨cs, hcs, rfl⟩ := ht
      rw [hcs]
      exact reads_making ct g cs (full cs (List.mem_of_getElem? hcs)))
  refine ⟨h1, ?_, ?_⟩
  · rintro ⟨i, j, a, b, k, l, -, ha, hb, -, hw⟩
    obtain ⟨_, _, hr⟩ := h3 i _ ha
    obtain ⟨_, _, hr'⟩ := h3 j _ hb
    cases hr with
    | step x _ => cases hr' with
      | step y _ => rw [x, y] at hw; cases hw
  · intro i cs hcs
    constructor
    · intro rs hrs
      obtain ⟨_, _, hr⟩ := h3 i _ hrs
      rw [hcs] at hr
      cases hr
      rfl
    · intro hc
      have hi : i < w.threads.length := by
        rw [show w.threads.length = _ from h2]
        simpa [start] using (List.getElem?_eq_some_iff.1 hcs).1
      have ht : w.threads[i]? = some w.threads[i] := List.getElem?_eq_getElem hi
      obtain ⟨m, hm, hr⟩ := h3 i _ ht
      rw [hcs] at hr hm
      have : m = 0 := by simp at hm; omega
      subst this
      unfold Running.finished
      rw [ht]
      revert hr
      generalize w.threads[i] = t
      intro hr
      cases hr
      rfl

/-- The hypotheses of `C85_after_init_partial` are met by a program that asks for "German" and for a plural rule (which uses all three tables) before it starts
two threads; a schedule in which they take turns lets both finish. -/
example : ∃ n rs, ((start CType.c noTables [[.fromName b!"German", .fromString b!"Plural-Forms: nplurals=2; plural=n != 1;"]]).run (List.replicate n 0)).finished 0 rs ∧
    (∀ cs ∈ [[Asking.fromEnv b!"de_AT"], [.fromName b!"french", .fromString b!"Plural-Forms: nplurals=1; plural=0;"]],
      ∀ c ∈ cs, ∀ t ∈ c.uses, ∃ c' ∈ [Asking.fromName b!"German", .fromString b!"Plural-Forms: nplurals=2; plural=n != 1;"], t ∈ c'.uses) := by
  obtain ⟨n0, h⟩ := (C85_one_after_the_other CType.c [.fromName b!"German", .fromString b!"Plural-Forms: nplurals=2; plural=n != 1;"]).2
  refine ⟨n0, _, h n0 (Nat.le_refl _), ?_⟩
  intro cs hcs c hc t ht
  have ex : ∀ t : Tbl, ∃ c' ∈ [Asking.fromName b!"German", .fromString b!"Plural-Forms: nplurals=2; plural=n != 1;"], t ∈ c'.uses := by
    intro t
    cases t
    · exact ⟨_, List.mem_cons_of_mem _ List.mem_cons_self, by decide⟩
    · exact ⟨_, List.mem_cons_self, by decide⟩
    · exact ⟨_, List.mem_cons_self, by decide⟩
  exact ex t

/-- The right answer for the second of these threads. -/
example : Asking.right CType.c (.fromName b!"french") = .language (Language.fromEnv b!"fr_FR.ISO-8859-1") ∧
    (Language.fromEnv b!"fr_FR.ISO-8859-1").isDefined = true ∧
    Asking.right CType.c (.fromString b!"Plural-Forms: nplurals=1; plural=0;") = .rule ⟨1, some .plural1⟩ := by decide +kernel

end Tgt
