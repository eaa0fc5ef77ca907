import Verif.Proofs.StarvedCalls
import Verif.Props.ManagerLoad
/-
Running out of memory while dictionaries are loaded (C91).
-/
namespace Tgt
open Spec Manager Mgr POParser

/-! ### The statement -/

/-- A call of `get_dictionary(l)` during which memory ran out leaves no trace: nothing is lost for good, and a later call, with
enough memory, gives the dictionary that the first would have given. -/
def C91_Statement : Prop :=
  ∀ (cs : Str) (s s' : Starved.Store) (sh : Starved.Shortage) (env : Env) (l : Language) (t : Nat), ReachStarved cs s →
    CameBack ((Call.getDictionaryFor l).starved sh env s t) s' →
    s'.leaked = s.leaked ∧
    ∀ p m' q m'', getDictionaryFor env env.fuel l s'.m = .ok p m' → getDictionaryFor env env.fuel l s.m = .ok q m'' → contents m' p = contents m'' q

namespace Starved
open Spec

/-- The `k`-th allocation fails, all others succeed. -/
def failsAt (k : Nat) : Shortage := ⟨fun t => t == k, fun _ => none⟩

/-- A manager with the directory `lo` of the small world. -/
def loStore : Store := ⟨{ Manager.init b!"UTF-8" with searchPath := [b!"lo"] }, 0⟩

theorem lo_reach : ReachStarved b!"UTF-8" loStore := by
  have h : (Call.addDirectory b!"lo" false).starved (failsAt 100) demoEnv ⟨.init b!"UTF-8", 0⟩ 0 = .ok .done loStore 1 := rfl
  exact .call .new (.inl ⟨_, _, h⟩)

/-- What came of a call: the number of lost dictionaries, and how many messages dictionary 1 has. -/
def shape : Out Store Answer → Option (Bool × Nat × Option Nat)
  | .ok _ s _ => some (true, s.leaked, (s.m.heap.get? 1).map (fun d => d.entries.length))
  | .thrown _ s _ => some (false, s.leaked, (s.m.heap.get? 1).map (fun d => d.entries.length))
  | _ => none

theorem shape_cases {r : Out Store Answer} {b : Bool} {n : Nat} {k : Option Nat} (h : shape r = some (b, n, k)) :
    ∃ s, CameBack r s ∧ s.leaked = n ∧ (s.m.heap.get? 1).map (fun d => d.entries.length) = k ∧
      (b = true → ∃ a t, r = .ok a s t) ∧ (b = false → ∃ w t, r = .thrown w s t) := by
  cases r with
  | ok a s t =>
    simp only [shape, Option.some.injEq, Prod.mk.injEq] at h
    exact ⟨s, .inl ⟨a, t, rfl⟩, h.2.1, h.2.2, fun _ => ⟨a, t, rfl⟩, fun hb => by rw [← h.1] at hb; cases hb⟩
  | thrown w s t =>
    simp only [shape, Option.some.injEq, Prod.mk.injEq] at h
    exact ⟨s, .inr ⟨w, t, rfl⟩, h.2.1, h.2.2, (fun hb => by rw [← h.1] at hb; cases hb), fun _ => ⟨w, t, rfl⟩⟩
  | _ => cases h

/-- The second call finds less than the first would have. -/
def lessFound : Out Store Answer → Bool
  | .ok _ s _ =>
    match Manager.getDictionaryFor demoEnv 300 deLang s.m, Manager.getDictionaryFor demoEnv 300 deLang loStore.m with
    | .ok p m', .ok q m'' => (contents m' p).map (fun v => v.1.entries.length) != (contents m'' q).map (fun v => v.1.entries.length)
    | _, _ => false
  | _ => false

end Starved
open Starved

/-- C91.  A call of `get_dictionary` during which memory runs out may return as if nothing had happened, with a part of the translations; and that is what
every later call gives, with as much memory as one likes: the `std::bad_alloc` is caught by `get_dictionary` itself, and what was loaded stays in the cache. -/
theorem C91_incomplete : ∃ (s s' : Store) (sh : Shortage) (a : Answer) (t' : Nat), ReachStarved b!"UTF-8" s ∧
    (Call.getDictionaryFor deLang).starved sh demoEnv s 0 = .ok a s' t' ∧
    ∃ p m' q m'', getDictionaryFor demoEnv demoEnv.fuel deLang s'.m = .ok p m' ∧ getDictionaryFor demoEnv demoEnv.fuel deLang s.m = .ok q m'' ∧
      contents m' p ≠ contents m'' q := by
  have h1 : lessFound ((Call.getDictionaryFor deLang).starved (failsAt 18) demoEnv loStore 0) = true := by decide +kernel
  cases hr : (Call.getDictionaryFor deLang).starved (failsAt 18) demoEnv loStore 0 with
  | ok a s' t' =>
    rw [hr] at h1
    unfold lessFound at h1
    dsimp only at h1
    cases hp : Manager.getDictionaryFor demoEnv 300 deLang s'.m with
    | ok p m' =>
      cases hq : Manager.getDictionaryFor demoEnv 300 deLang loStore.m with
      | ok q m'' =>
        rw [hp, hq] at h1
        dsimp only at h1
        refine ⟨loStore, s', failsAt 18, a, t', lo_reach, hr, p, m', q, m'', hp, hq, ?_⟩
        intro e
        rw [e] at h1
        simp at h1
      | _ => rw [hp, hq] at h1; cases h1
    | _ => rw [hp] at h1; cases h1
  | _ => rw [hr] at h1; cases h1

/-- C91.  The full statement is false. -/
theorem C91_false : ¬ C91_Statement := by
  intro hS
  obtain ⟨s, s', sh, a, t', h1, h2, p, m', q, m'', h3, h4, h5⟩ := C91_incomplete
  exact h5 ((hS b!"UTF-8" s s' sh demoEnv deLang 0 h1 (.inl ⟨a, t', h2⟩)).2 p m' q m'' h3 h4)

/-- C91.  Without a shortage the statement is true. -/
theorem C91_statement_without_shortage (cs : Str) (s s' : Store) (sh : Shortage) (hE : Shortage.Enough sh) (env : Env) (l : Language) (t : Nat) (hr : ReachStarved cs s)
    (hc : CameBack ((Call.getDictionaryFor l).starved sh env s t) s') :
    s'.leaked = s.leaked ∧
    ∀ p m' q m'', getDictionaryFor env env.fuel l s'.m = .ok p m' → getDictionaryFor env env.fuel l s.m = .ok q m'' → contents m' p = contents m'' q := by
  obtain ⟨m, n⟩ := s
  have hi := reachStarved_inv hr
  obtain ⟨h1, h2, h3, h4⟩ := came_back_after hi hc
  have hleak : s'.leaked = n := by
    by_cases hlt : n < s'.leaked
    · exact absurd (h4 hlt).1 (Enough.no_fails hE)
    · exact Nat.le_antisymm (Nat.le_of_not_lt hlt) h2
  refine ⟨hleak, ?_⟩
  intro p m' q m'' hp hq
  obtain ⟨c1, c2⟩ := came_back hc
  have hn := call_near sh env (.getDictionaryFor l) m n t hi c1 c2
  have hg := (run_getFor env l m).1 _ _ hq
  have hl : l.isDefined = true := by
    cases l with
    | none => exact absurd rfl c1
    | some i => rfl
  have hpost := Mgr.getFor_post env env.fuel l m hl hi
  rw [hq] at hpost
  obtain ⟨_, _, _, _, g5, _⟩ := hpost
  unfold NearCall at hn
  rcases hc with ⟨a, t', h⟩ | ⟨w, t', h⟩
  · rw [h] at hn
    cases hn with
    | ok k r e cl =>
      rcases cl (Enough.clean hE _) with h5 | h5
      · rw [hg] at h5
        cases h5
        cases hf : env.fuel with
        | zero => rw [hf] at hq; cases hq
        | succ f =>
          rw [hf] at hp
          rw [Mgr.getFor_hit env f l _ hl g5] at hp
          cases hp
          rfl
      · rw [hg] at h5; cases h5
  · rw [h] at hn
    cases hn with
    | thrown k e cl =>
      rcases cl with ⟨_, cl⟩ | ⟨_, hF, _⟩
      · rcases cl (Enough.clean hE _) with h5 | h5 <;> rw [hg] at h5 <;> cases h5
      · exact absurd hF (Enough.no_fails hE)

/-! ### What is true all the same -/

/-- C91.  After any history of calls, with memory running out at any moments: the current dictionary, every cached dictionary, the fallback of every
existing dictionary and the empty dictionary exist. -/
theorem C91_live (cs : Str) (s : Store) (hr : ReachStarved cs s) :
    s.m.heap.get? emptyDict ≠ none ∧
    (∀ p, s.m.currentDict = some p → s.m.heap.get? p ≠ none) ∧
    (∀ l p, s.m.dictionaries.get? l = some p → s.m.heap.get? p ≠ none) ∧
    (∀ p d, s.m.heap.get? p = some d → d.hasFallback = true → ∃ q, d.fallback = some q ∧ s.m.heap.get? q ≠ none) := by
  have h := reachStarved_inv hr
  refine ⟨?_, ?_, ?_, ?_⟩
  · obtain ⟨d, hd, _⟩ := h.empty
    show s.m.heap.get? 0 ≠ none
    rw [hd]; simp
  · intro p hp
    obtain ⟨_, _, d, hd, _⟩ := h.cached _ p (h.cur p hp).2
    rw [hd]; simp
  · intro l p hp
    obtain ⟨_, _, d, hd, _⟩ := h.cached l p hp
    rw [hd]; simp
  · intro p d hd hf
    obtain ⟨_, q, d', _, _, h1, _, h2, _⟩ := h.fallback hd hf
    exact ⟨q, h1, by rw [h2]; simp⟩

/-- C91.  Whether a call returned or threw: a dictionary that existed is unchanged (or gone, if the call configures the manager), unless the call was to change
it; and every new dictionary is the cached one of some language, and holds a part of what the files of that language give: for each directory, the first few of
the additions of its best file, perhaps with traces of the next one. -/
theorem C91_contents (cs : Str) (s s' : Store) (hr : ReachStarved cs s) (sh : Shortage) (env : Env) (c : Call) (t : Nat) (hc : CameBack (c.starved sh env s t) s') :
    (∀ q d, s.m.heap.get? q = some d → c.changes? ≠ some q → s'.m.heap.get? q = some d ∨ (c.configures = true ∧ s'.m.heap.get? q = none)) ∧
    (∀ q d, s.m.heap.get? q = none → s'.m.heap.get? q = some d →
      ∃ l, s'.m.dictionaries.get? l = some q ∧ PathPart env l s.m.searchPath (Dictionary.init s.m.charset) (unlinked d)) := by
  obtain ⟨m, n⟩ := s
  have hi := reachStarved_inv hr
  obtain ⟨h1, _⟩ := came_back_after hi hc
  refine ⟨?_, ?_⟩
  · intro q d hd hne
    have hq : q < m.nextId := (hi.live q d hd).1
    have hd : m.heap.get? q = some d := hd
    cases hcf : c.configures with
    | false => left; rw [(h1.quiet hcf).2 q hq hne, hd]
    | true =>
      rcases h1.old q hq hne with h | h
      · left; rw [h, hd]
      · exact .inr ⟨rfl, h⟩
  · intro q d h0 hd
    have h0 : m.heap.get? q = none := h0
    by_cases hq : q < m.nextId
    · have hne : c.changes? ≠ some q := by
        intro e
        refine (came_back hc).2 q ?_ h0
        cases c <;> first | exact e | cases e
      rcases h1.old q hq hne with h | h
      · rw [h, h0] at hd; cases hd
      · rw [h] at hd; cases hd
    · exact h1.news q d (Nat.le_of_not_lt hq) hd

/-- C91.  If a call came back otherwise than with `std::bad_alloc`, no file was cut short and no message tells of a `std::bad_alloc`, then the shortage, if there
was one, had no effect: the answer (or exception), the manager and its messages are those of unlimited memory. -/
theorem C91_noticed (cs : Str) (s s' : Store) (hr : ReachStarved cs s) (sh : Shortage) (env : Env) (c : Call) (t t' : Nat)
    (hcut : ∀ t, sh.cut t = none) (hlog : ∀ l, s'.m.log = s.m.log ++ l → Diag.parseFailureWhat badAlloc ∉ l) (hfuel : c.run env s.m ≠ .diverge) :
    (∀ a, c.starved sh env s t = .ok a s' t' → s'.leaked = s.leaked ∧ c.run env s.m = .ok a s'.m) ∧
    (∀ w, c.starved sh env s t = .thrown w s' t' → w ≠ badAlloc → s'.leaked = s.leaked ∧ c.run env s.m = .exn w s'.m) := by
  obtain ⟨m, n⟩ := s
  have hi := reachStarved_inv hr
  refine ⟨fun a h => ?_, fun w h hw => ?_⟩
  · obtain ⟨c1, c2⟩ := came_back (.inl ⟨a, t', h⟩)
    have hn := call_near sh env c m n t hi c1 c2
    unfold NearCall at hn
    rw [h] at hn
    cases hn with
    | ok k r e cl =>
      rcases cl ⟨hcut, fun _ => hlog _ e⟩ with h5 | h5
      · exact ⟨rfl, h5⟩
      · exact absurd h5 hfuel
  · obtain ⟨c1, c2⟩ := came_back (.inr ⟨w, t', h⟩)
    have hn := call_near sh env c m n t hi c1 c2
    unfold NearCall at hn
    rw [h] at hn
    cases hn with
    | thrown k e cl =>
      rcases cl with ⟨e1, cl⟩ | ⟨hb, _⟩
      · rcases cl ⟨hcut, fun _ => hlog _ e⟩ with h5 | h5
        · exact ⟨e1, h5⟩
        · exact absurd h5 hfuel
      · exact absurd hb hw

/-- C91.  With enough memory every call does what it does with unlimited memory. -/
theorem C91_enough (cs : Str) (s : Store) (hr : ReachStarved cs s) (sh : Shortage) (hE : Shortage.Enough sh) (env : Env) (c : Call) (t : Nat)
    (hfuel : c.run env s.m ≠ .diverge) : SameResult (c.starved sh env s t) s.leaked (c.run env s.m) := by
  obtain ⟨m, n⟩ := s
  have hi := reachStarved_inv hr
  by_cases hm : c = .getDictionaryFor none ∨ ∃ id, c.target? = some id ∧ m.heap.get? id = none
  · rcases call_misuse sh env c m n t hm with ⟨f, h1, h2⟩ | ⟨_, h2⟩
    · rw [h1]
      show SameResult _ _ (c.run env m)
      rw [h2]
      rfl
    · exact absurd h2 hfuel
  · have hn := call_near sh env c m n t hi (fun e => hm (.inl e)) (fun id h1 h2 => hm (.inr ⟨id, h1, h2⟩))
    unfold NearCall at hn
    generalize c.starved sh env ⟨m, n⟩ t = r at hn
    have hfuel : c.run env m ≠ .diverge := hfuel
    show SameResult r n (c.run env m)
    generalize c.run env m = r0 at hn hfuel
    cases hn with
    | ok k r e cl =>
      rcases cl (Enough.clean hE _) with h5 | h5
      · rw [h5]; exact ⟨rfl, rfl⟩
      · exact absurd h5 hfuel
    | thrown k e cl =>
      rcases cl with ⟨e1, cl⟩ | ⟨_, hF, _⟩
      · rcases cl (Enough.clean hE _) with h5 | h5
        · rw [h5, e1]; exact ⟨rfl, rfl⟩
        · exact absurd h5 hfuel
      · exact absurd hF (Enough.no_fails hE)
    | terminated hF => exact absurd hF (Enough.no_fails hE)
    | twice hF => exact absurd hF (Enough.no_fails hE)
    | crashed hf cl =>
      rcases cl hE with h5 | h5
      · rw [h5]; rfl
      · exact absurd h5 hfuel
    | unfinished cl => exact absurd (cl hE) hfuel

/-- C91.  What is called the additions of a file is what a parse of the file does to a dictionary. -/
theorem C91_additions (env : Env) (pofile : Str) (s : Stream) (d d' : Dictionary) (l : List Diag) :
    (parseFile env pofile s d = .returned d' l → d' = (additions env pofile s d.charset).applyTo d) ∧
    (∀ w, parseFile env pofile s d = .threw w d' l → d' = (additions env pofile s d.charset).applyTo d) := by
  have key : (parseFile env pofile s d = .returned d' l ∨ ∃ w, parseFile env pofile s d = .threw w d' l) → d' = (additions env pofile s d.charset).applyTo d := by
    intro hx
    generalize hc : (⟨env.ct, env.lib, env.pedantic, pofile, true, env.fuel⟩ : Cfg) = c
    have hpf : parseFile env pofile s d = observe (run c s d) := by rw [← hc]; rfl
    have had : additions env pofile s d.charset = gathered c d.charset (events c.ct (evFuel c s) s).1 core0 := by rw [← hc]; rfl
    rw [had]
    rw [hpf] at hx
    have ho := run_obs_mono c s d (evFuel c s) (by unfold evFuel; omega) (by unfold evFuel; omega)
    have hr := interp_rel c (startTape s) d (events c.ct (evFuel c s) s).1 core0 ([], initState s d) (rel0 s d)
    have ho : observe (run c s d) = obsE c (startTape s) (events c.ct (evFuel c s) s) (initState s d) := by
      rcases ho with ho | ho
      · rw [ho] at hx; rcases hx with hx | ⟨w, hx⟩ <;> cases hx
      · exact ho
    rw [ho] at hx
    unfold obsE at hx
    cases hk : coreInterp c.ct c.lib c.useFuzzy d.charset (events c.ct (evFuel c s) s).1 core0 with
    | ok a k =>
      rw [hk] at hr
      cases hi : interp c (startTape s) (events c.ct (evFuel c s) s).1 ([], initState s d) with
      | ok a y =>
        rw [hi] at hr hx
        rw [gathered_ok c d.charset _ _ k (.inl hk), ← Rel.dict hr]
        dsimp only at hx
        cases hres : (events c.ct (evFuel c s) s).2 with
        | ok a p => rw [hres] at hx; rcases hx with hx | ⟨w, hx⟩ <;> cases hx; rfl
        | _ => rw [hres] at hx; rcases hx with hx | ⟨w, hx⟩ <;> cases hx
      | _ => rw [hi] at hr; exact hr.elim
    | exn w k =>
      rw [hk] at hr
      cases hi : interp c (startTape s) (events c.ct (evFuel c s) s).1 ([], initState s d) with
      | exn w' y =>
        rw [hi] at hr hx
        rw [gathered_ok c d.charset _ _ k (.inr ⟨w, hk⟩), ← Rel.dict hr.2]
        rcases hx with hx | ⟨w, hx⟩ <;> cases hx
        rfl
      | _ => rw [hi] at hr; exact hr.elim
    | _ =>
      rw [hk] at hr
      cases hi : interp c (startTape s) (events c.ct (evFuel c s) s).1 ([], initState s d) with
      | ok a y => rw [hi] at hr; exact hr.elim
      | exn w y => rw [hi] at hr; exact hr.elim
      | _ => rw [hi] at hx; rcases hx with hx | ⟨w, hx⟩ <;> cases hx
  exact ⟨fun h => key (.inl h), fun w h => key (.inr ⟨w, h⟩)⟩

/-- C91.  After a call that changes the configuration, even one that throws `std::bad_alloc`, the manager has the old configuration or the new one, and nothing
of what was loaded before, complete or not, is in use any more: `get_dictionary(l)` does what it does on a brand-new manager. -/
theorem C91_fresh (cs : Str) (s s' : Store) (hr : ReachStarved cs s) (sh : Shortage) (env0 : Env) (c : Call) (t : Nat) (hch : c.Changes s.m)
    (hc : CameBack (c.starved sh env0 s t) s') :
    (config s'.m = config s.m ∨ config s'.m = c.configure (config s.m)) ∧
    ∀ (env : Env) (n : Nat) (l : Language), Alike l s'.m (getDictionaryFor env n l s'.m) (newManager (config s'.m)) (getDictionaryFor env n l (newManager (config s'.m))) := by
  obtain ⟨m, k⟩ := s
  obtain ⟨h1, _⟩ := came_back_after (reachStarved_inv hr) hc
  have hg := (h1.gone hch).1
  refine ⟨h1.conf, ?_⟩
  intro env n l
  cases hd : l.isDefined with
  | true =>
    refine shows_alike (c := cold env n l s'.m.searchPath s'.m.charset) ?_ ?_
    · exact cold_shows env n l hd s'.m (by rw [hg]; rfl) (by rw [hg]; rfl)
    · exact cold_shows env n l hd (newManager (config s'.m)) rfl rfl
  | false =>
    cases n with
    | zero => trivial
    | succ n =>
      rw [Manager.getDictionaryFor, if_pos (by simp [hd])]
      rfl

/-- C91.  A call loses at most one `Dictionary` for good, and only if it throws `std::bad_alloc`. -/
theorem C91_leak (cs : Str) (s s' : Store) (hr : ReachStarved cs s) (sh : Shortage) (env : Env) (c : Call) (t : Nat) (hc : CameBack (c.starved sh env s t) s') :
    s'.leaked = s.leaked ∨ (s'.leaked = s.leaked + 1 ∧ ∃ t', c.starved sh env s t = .thrown badAlloc s' t') := by
  obtain ⟨m, n⟩ := s
  obtain ⟨_, h2, h3, h4⟩ := came_back_after (reachStarved_inv hr) hc
  by_cases hlt : n < s'.leaked
  · exact .inr ⟨Nat.le_antisymm h3 hlt, (h4 hlt).2⟩
  · exact .inl (Nat.le_antisymm (Nat.le_of_not_lt hlt) h2)

/-- C91.  And it does happen: when `dictionaries[language]` has no memory for its node, the new `Dictionary` is lost. -/
theorem C91_loses_one : ∃ (s s' : Store) (sh : Shortage) (t' : Nat), ReachStarved b!"UTF-8" s ∧
    (Call.getDictionaryFor deLang).starved sh demoEnv s 0 = .thrown badAlloc s' t' ∧ s'.leaked = s.leaked + 1 := by
  have h1 : shape ((Call.getDictionaryFor deLang).starved (failsAt 1) demoEnv loStore 0) = some (false, 1, none) := by decide +kernel
  obtain ⟨s', hc, h2, _⟩ := shape_cases h1
  rcases C91_leak b!"UTF-8" loStore s' lo_reach _ _ _ _ hc with h | ⟨h, t', h3⟩
  · rw [h2] at h; cases h
  · exact ⟨loStore, s', _, t', lo_reach, h3, h⟩

/-- C91.  With a converter that behaves, a proper call crashes or ends the program only by the overflow of the line counter of a file, or because memory ran out:
then a log message that cannot be delivered terminates the program, and the descriptor of the converter may be closed twice. -/
theorem C91_no_crash (cs : Str) (s : Store) (hr : ReachStarved cs s) (sh : Shortage) (env : Env) (hl : TameLib env.lib) (c : Call) (t : Nat)
    (hd : c ≠ .getDictionaryFor none) (hc : ∀ id, c.target? = some id → s.m.heap.get? id ≠ none) :
    (∀ f, c.starved sh env s t = .crashed f → f = .signedOverflow ∨ (f = .useAfterFree ∧ Shortage.Fails sh)) ∧
    (c.starved sh env s t = .terminated → Shortage.Fails sh) := by
  obtain ⟨m, n⟩ := s
  have hn := call_near sh env c m n t (reachStarved_inv hr) hd hc
  unfold NearCall at hn
  refine ⟨fun f h => ?_, fun h => ?_⟩
  · rw [h] at hn
    cases hn with
    | twice hF => exact .inr ⟨rfl, hF⟩
    | crashed hf _ =>
      rcases hf with hf | ⟨_, hf⟩
      · exact .inl hf
      · exact absurd hl hf
  · rw [h] at hn
    cases hn with
    | terminated hF => exact hF

namespace Starved

/-- One directory with one file, which has two headers. -/
def twoOs : OS where
  listing p := if p = b!"lo" then some [b!"de.po"] else none
  content f := if f = b!"lo/de.po" then some (b!"msgid \"\"\nmsgstr \"Content-Type: text/plain; charset=ISO-8859-1\\n\"\n\n" ++
    b!"msgid \"\"\nmsgstr \"Content-Type: text/plain; charset=ISO_646.IRV:1991\\n\"\n") else none

/-- The world with this file. -/
def twoEnv : Env := ⟨.c, demoLib, false, unixFileSystem twoOs, 300⟩

/-- Did it crash on memory that was given back? -/
def crashes : Out Store Answer → Bool
  | .crashed .useAfterFree => true
  | _ => false

/-- Was the program terminated? -/
def ended : Out Store Answer → Bool
  | .terminated => true
  | _ => false

end Starved

/-- C91.  The second of these happens: a second header in one file, and no memory for the name of its charset, after `set_charsets` has closed the descriptor
of the first. -/
theorem C91_closes_twice : ∃ (s : Store) (sh : Shortage), ReachStarved b!"UTF-8" s ∧ TameLib twoEnv.lib ∧
    (Call.getDictionaryFor deLang).starved sh twoEnv s 0 = .crashed .useAfterFree := by
  have h1 : crashes ((Call.getDictionaryFor deLang).starved (failsAt 16) twoEnv loStore 0) = true := by decide +kernel
  refine ⟨loStore, failsAt 16, lo_reach, demoLib_tame, ?_⟩
  cases hr : (Call.getDictionaryFor deLang).starved (failsAt 16) twoEnv loStore 0 with
  | crashed f =>
    rw [hr] at h1
    cases f <;> first | rfl | cases h1
  | _ => rw [hr] at h1; cases h1

/-- C91.  And the first: the message about a header without charset cannot be delivered. -/
theorem C91_ends_the_program : ∃ (s : Store) (sh : Shortage), ReachStarved b!"UTF-8" s ∧
    (Call.getDictionaryFor deLang).starved sh demoEnv s 0 = .terminated := by
  have h1 : ended ((Call.getDictionaryFor deLang).starved (failsAt 10) demoEnv loStore 0) = true := by decide +kernel
  refine ⟨loStore, failsAt 10, lo_reach, ?_⟩
  cases hr : (Call.getDictionaryFor deLang).starved (failsAt 10) demoEnv loStore 0 with
  | terminated => rfl
  | _ => rw [hr] at h1; cases h1

/-! ### Nothing foreign -/

namespace Starved
open Spec

theorem texts_newVec {a : Add} {v : List Str} {x : Str} (h : x ∈ a.newVec v) : x ∈ Spec.Add.texts a ∨ x ∈ v := by
  cases a with
  | singular c i s =>
    simp only [Add.newVec, List.mem_cons] at h
    rcases h with h | h
    · exact .inl (by simp [Spec.Add.texts, h])
    · exact .inr (List.mem_of_mem_tail h)
  | plural c i p v => exact .inl h

theorem addAll_texts (adds : List Add) : ∀ (d : Dictionary) (key : Option Str × Str) (v : List Str) (x : Str), (addAll d adds).lookup key = some v → x ∈ v →
    (∃ a ∈ adds, target a = key ∧ x ∈ Spec.Add.texts a) ∨ ∃ v0, d.lookup key = some v0 ∧ x ∈ v0 := by
  induction adds with
  | nil => intro d key v x h hx; exact .inr ⟨v, h, hx⟩
  | cons a adds ih =>
    intro d key v x h hx
    rcases ih (a.apply d).1 key v x h hx with ⟨b, hb, h1⟩ | ⟨v0, h0, hx0⟩
    · exact .inl ⟨b, List.mem_cons_of_mem _ hb, h1⟩
    · rw [Dict.lookup_apply] at h0
      split at h0
      · rename_i e
        cases h0
        rcases texts_newVec hx0 with h1 | h1
        · exact .inl ⟨a, List.mem_cons_self, e, h1⟩
        · rw [e] at h1
          cases hk : d.lookup key with
          | none => rw [hk] at h1; cases h1
          | some w => rw [hk] at h1; exact .inr ⟨w, rfl, h1⟩
      · exact .inr ⟨v0, h0, hx0⟩

theorem partly_texts {e : Effect} {d d' : Dictionary} (h : Partly e d d') (c : Option Str) (i : Str) (v : List Str) (x : Str) (hv : stored d' c i = some v) (hx : x ∈ v) :
    (∃ a ∈ e.adds, target a = (c, i) ∧ x ∈ Spec.Add.texts a) ∨ ∃ v0, stored d c i = some v0 ∧ x ∈ v0 := by
  have hsome : ∀ (n : Nat) (r : Option PluralForms) (v : List Str), stored ((⟨e.adds.take n, r⟩ : Effect).applyTo d) c i = some v → x ∈ v →
      (∃ a ∈ e.adds, target a = (c, i) ∧ x ∈ Spec.Add.texts a) ∨ ∃ v0, stored d c i = some v0 ∧ x ∈ v0 := by
    intro n r v hv hx
    rw [Mem.stored_eq, lookup_applyTo] at hv
    rcases addAll_texts _ d (c, i) v x hv hx with ⟨a, ha, h1⟩ | h1
    · exact .inl ⟨a, List.mem_of_mem_take ha, h1⟩
    · rw [Mem.stored_eq]; exact .inr h1
  cases h with
  | some _ => exact hsome _ _ v hv hx
  | @failed n r a _ hr ha hs hL =>
    by_cases hk : (c, i) = target a
    · have h1 : c = (target a).1 := congrArg Prod.fst hk
      have h2 : i = (target a).2 := congrArg Prod.snd hk
      rw [← h1, ← h2] at hL
      rw [hv] at hL
      generalize ho : stored ((⟨e.adds.take n, r⟩ : Effect).applyTo d) c i = old at hL
      cases hL with
      | same => exact hsome n r v ho hx
      | empty => cases hx
      | @mixed c' i' p new old k hk1 hk2 =>
        rcases List.mem_append.1 hx with hx | hx
        · exact .inl ⟨_, List.mem_of_getElem? ha, hk.symm, List.mem_of_mem_take hx⟩
        · exact hsome n r _ ho (List.mem_of_mem_drop hx)
    · rw [hs.others c i hk] at hv
      exact hsome n r v hv hx

end Starved

/-- C91.  However little memory there is, every text in a new dictionary is one of those that the files of its language give for that message. -/
theorem C91_nothing_foreign (cs : Str) (s s' : Store) (hr : ReachStarved cs s) (sh : Shortage) (env : Env) (c : Call) (t : Nat) (hc : CameBack (c.starved sh env s t) s')
    (q : DictId) (d : Dictionary) (h0 : s.m.heap.get? q = none) (hd : s'.m.heap.get? q = some d) (ctx : Option Str) (i x : Str) (v : List Str)
    (hv : stored d ctx i = some v) (hx : x ∈ v) :
    ∃ l, s'.m.dictionaries.get? l = some q ∧ FileText env l s.m.searchPath s.m.charset ctx i x := by
  obtain ⟨l, hl, hp⟩ := (C91_contents cs s s' hr sh env c t hc).2 q d h0 hd
  refine ⟨l, hl, ?_⟩
  have hv' : stored (unlinked d) ctx i = some v := by
    rw [Mem.stored_eq] at hv ⊢
    exact hv
  clear hv
  rename _ => hv
  clear hl h0 hd hc hr
  generalize unlinked d = d1 at hv hp
  generalize s.m.searchPath = path at hp ⊢
  generalize s.m.charset = cs0 at hp ⊢
  generalize hd0 : Dictionary.init cs0 = d0 at hp
  induction hp generalizing v with
  | nil =>
    subst hd0
    rw [Mem.stored_eq] at hv
    cases ctx <;> cases hv
  | @cons dir rest d d1 d2 h1 h2 ih =>
    have hlike := Starved.like_pathPart h1
    have up : FileText env l rest cs0 ctx i x → FileText env l (dir :: rest) cs0 ctx i x := by
      rintro ⟨dir', hm, hh⟩
      exact ⟨dir', List.mem_cons_of_mem _ hm, hh⟩
    cases h2 with
    | nothing => exact up (ih v hx hv hd0)
    | @parsed files f st st' _ ho hb hf hra hpt =>
      rcases partly_texts hpt ctx i v x hv hx with ⟨a, ha, e1, e2⟩ | ⟨v0, h3, h4⟩
      · have hcs : d1.charset = cs0 := by rw [hlike.1, ← hd0]; rfl
        rw [hcs] at ha
        exact ⟨dir, List.mem_cons_self, files, f, st, st', ho, hb, hf, hra, a, ha, e1, e2⟩
      · exact up (ih v0 h4 h3 hd0)

/-! ### The hypotheses are met -/

-- the eighteenth allocation fails: the call returns, with one of two messages
example : shape ((Call.getDictionaryFor deLang).starved (failsAt 18) demoEnv loStore 0) = some (true, 0, some 1) ∧
    shape ((Call.getDictionaryFor deLang).starved (failsAt 100) demoEnv loStore 0) = some (true, 0, some 2) := by decide +kernel
-- the third fails: the call throws, and the empty dictionary stays in the cache
example : shape ((Call.getDictionaryFor deLang).starved (failsAt 3) demoEnv loStore 0) = some (false, 0, some 0) := by decide +kernel
-- `getline` runs out of memory after 100 bytes: no message tells
example : shape ((Call.getDictionaryFor deLang).starved ⟨fun _ => false, fun _ => some 100⟩ demoEnv loStore 0) = some (true, 0, some 1) := by decide +kernel
-- a `set_charset` that throws after a dictionary was loaded
example : (match (Call.getDictionaryFor deLang).starved (failsAt 100) demoEnv loStore 0 with
    | .ok _ s _ => match (Call.setCharset b!"ISO-8859-1").starved (failsAt 0) demoEnv s 0 with
      | .thrown w s' _ => decide (w = badAlloc ∧ s'.m.dictionaries.length = 0 ∧ s.m.dictionaries.length = 1 ∧ s'.m.charset = b!"UTF-8")
      | _ => false
    | _ => false) = true := by decide +kernel
-- an allocation that is never made: as with unlimited memory
example : Shortage.Fails (failsAt 100) ∧ (∀ t, (failsAt 100).cut t = none) := ⟨⟨100, rfl⟩, fun _ => rfl⟩

end Tgt
