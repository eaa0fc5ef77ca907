import Verif.Props.ProgramsDir
/-
C70: every run of the command line programs comes to its end.  C71: `list-msgstrs`.
-/
namespace Tgt
open Spec POParser Po Program Mgr Manager Progs

namespace Progs

/-- From states with `P` the code returns with `Q`, or throws an `std::exception` and leaves a sound manager. -/
def Fine {α : Type} (P : Proc → Prop) (m : Main α) (Q : α → Proc → Prop) : Prop :=
  ∀ p, P p → (∃ a p', m p = .ok a p' ∧ Q a p') ∨ ∃ w p', m p = .exn w p' ∧ Inv p'.manager

theorem fine_pure {α : Type} {P : Proc → Prop} {Q : α → Proc → Prop} {a : α} (h : ∀ p, P p → Q a p) : Fine P (Prog.pure a) Q :=
  fun p hp => .inl ⟨a, p, rfl, h p hp⟩

theorem fine_bind {α β : Type} {P : Proc → Prop} {Q : α → Proc → Prop} {R : β → Proc → Prop} {m : Main α} {f : α → Main β}
    (h : Fine P m Q) (h' : ∀ a, Fine (Q a) (f a) R) : Fine P (m >>= f) R := by
  intro p hp
  rw [prog_bind, bind_apply]
  rcases h p hp with ⟨a, p', h1, h2⟩ | ⟨w, p', h1, h2⟩
  · rw [h1]; exact h' a p' h2
  · rw [h1]; exact .inr ⟨w, p', rfl, h2⟩

/-- A sound manager. -/
def Sound (p : Proc) : Prop := Inv p.manager

theorem fine_print (t : Str) : Fine Sound (print t) (fun _ => Sound) := fun _ hp => .inl ⟨_, _, rfl, hp⟩
theorem fine_printLine (t : Str) : Fine Sound (printLine t) (fun _ => Sound) := fine_print _

theorem deliver_manager (p : Proc) (ds : List Diag) : (deliver p ds).manager = p.manager := rfl

theorem fine_mono {α : Type} {P P' : Proc → Prop} {Q Q' : α → Proc → Prop} {m : Main α} (h : Fine P m Q) (hp : ∀ p, P' p → P p)
    (hq : ∀ a p, Q a p → Q' a p) : Fine P' m Q' := by
  intro p h'
  rcases h p (hp p h') with ⟨a, p', h1, h2⟩ | h1
  · exact .inl ⟨a, p', h1, hq a p' h2⟩
  · exact .inr h1

theorem fine_call {α : Type} {P : Proc → Prop} {f : M α} {Q : α → Manager → Prop}
    (h : ∀ p, P p → (∃ a m', f p.manager = .ok a m' ∧ Q a m') ∨ ∃ w m', f p.manager = .exn w m' ∧ Inv m') :
    Fine P (call f) (fun a p => Q a p.manager) := by
  intro p hp
  unfold call
  rcases h p hp with ⟨a, m', h1, h2⟩ | ⟨w, m', h1, h2⟩
  · rw [h1]; exact .inl ⟨a, _, rfl, h2⟩
  · rw [h1]; exact .inr ⟨w, _, rfl, h2⟩

theorem fine_printAll : ∀ ts : List Str, Fine Sound (printAll ts) (fun _ => Sound)
  | [] => fine_pure (fun _ h => h)
  | t :: ts => fine_bind (fine_printLine t) (fun _ => fine_printAll ts)

theorem fine_printMsgs : ∀ l, Fine Sound (printMsgs l) (fun _ => Sound)
  | [] => fine_pure (fun _ h => h)
  | (_, ss) :: l => fine_bind (fine_printLine _) (fun _ => fine_bind (fine_printAll ss) (fun _ => fine_printMsgs l))

theorem fine_printMsgsCtxt : ∀ l, Fine Sound (printMsgsCtxt l) (fun _ => Sound)
  | [] => fine_pure (fun _ h => h)
  | (_, _, ss) :: l => fine_bind (fine_printLine _) (fun _ => fine_bind (fine_printLine _) (fun _ => fine_bind (fine_printAll ss) (fun _ => fine_printMsgsCtxt l)))

theorem fine_describe (l : Language) : Fine Sound (describe l) (fun _ => Sound) :=
  fine_bind (fine_printLine _) (fun _ => fine_bind (fine_printLine _) (fun _ => fine_bind (fine_printLine _) (fun _ =>
    fine_bind (fine_printLine _) (fun _ => fine_printLine _))))

theorem fine_describeAll : ∀ ls, Fine Sound (describeAll ls) (fun _ => Sound)
  | [] => fine_pure (fun _ h => h)
  | l :: ls => fine_bind (fine_describe l) (fun _ => fine_bind (fine_printLine _) (fun _ => fine_describeAll ls))

theorem fine_usage (name : Str) : Fine Sound (usage name) (fun _ => Sound) :=
  fine_bind (fine_printLine _) (fun _ => fine_bind (fine_printLine _) (fun _ => fine_bind (fine_printLine _) (fun _ =>
    fine_bind (fine_printLine _) (fun _ => fine_bind (fine_printLine _) (fun _ => fine_printLine _)))))

end Progs

/-- All files that can be opened are newline-terminated texts of less than 2^31 lines. -/
def Spec.PlainFiles (y : Sys) : Prop :=
  ∀ f text, y.os.content f = some text → Terminated text ∧ lineCount text + 8 < 2147483647 ∧ text.length + 1 < y.fuel

namespace Progs

theorem parse_plain {y : Sys} (hlib : TameLib y.lib) (hf : PlainFiles y) {file text : Str} (hc : y.os.content file = some text) (d : Dictionary) :
    (observe (POParser.run (progCfg y file) ⟨text, true, y.os.readFails file⟩ d)).Ended := by
  obtain ⟨h1, h2, h3⟩ := hf file text hc
  rw [run_fails _ _ _ _ h1 (by show _ < y.fuel; omega)]
  rcases C25_terminates (progCfg y file) text d h1 h2 h3 with h | h
  · exact h
  · have := C24_no_abort (progCfg y file) hlib _ _ _ h
    cases this

theorem fine_read {y : Sys} (hlib : TameLib y.lib) (hf : PlainFiles y) (file : Str) : Fine Sound (readDictionary y file) (fun d p => Sound p ∧ d.hasFallback = false) := by
  intro p hp
  unfold readDictionary
  cases hc : y.os.content file with
  | none => exact .inr ⟨_, p, rfl, hp⟩
  | some text =>
    dsimp only
    have he := parse_plain hlib hf hc (.init b!"UTF-8")
    unfold Program.parseFile POParser.parse
    have hcfg : ({ (⟨y.ct, y.lib, true, file, true, y.fuel⟩ : Cfg) with useFuzzy := true } : Cfg) = progCfg y file := rfl
    rw [hcfg]
    cases hr : POParser.run (progCfg y file) ⟨text, true, y.os.readFails file⟩ (.init b!"UTF-8") with
    | ok a s =>
      refine .inl ⟨_, _, rfl, hp, ?_⟩
      rcases run_cases (progCfg y file) ⟨text, true, y.os.readFails file⟩ (.init b!"UTF-8") with ⟨s', h1, h2⟩ | ⟨w, s', h1, _⟩ | ⟨f, h1, _⟩ | h1
      · rw [hr] at h1
        cases h1
        rw [h2]
        exact (like_applyTo _ _).2.1
      · rw [hr] at h1; cases h1
      · rw [hr] at h1; cases h1
      · rw [hr] at h1; cases h1
    | exn w s => exact .inr ⟨_, _, rfl, hp⟩
    | poError s => exact absurd hr (run_no_po _ _ _ _)
    | fault f => rw [hr] at he; exact he.elim
    | diverge => rw [hr] at he; exact he.elim

theorem translateIn_alone {heap : DictId → Option Dictionary} {n : Nat} (hn : 1 < n) {d : Dictionary} (hd : d.hasFallback = false) (e : Entries)
    (i : Str) (log : List Diag) : ∃ r l, Dictionary.translateIn heap n d e i log = .ok r l := by
  obtain ⟨k, rfl⟩ : ∃ k, n = k + 1 := ⟨n - 1, by omega⟩
  cases he : (e.get? i).bind List.head? with
  | none => exact ⟨_, _, by rw [Dict.translateIn_miss _ _ _ _ _ he hd]⟩
  | some s =>
    cases hg : e.get? i with
    | none => rw [hg] at he; cases he
    | some v =>
      cases v with
      | nil => rw [hg] at he; cases he
      | cons s t => exact ⟨_, _, Dict.translateIn_hit _ _ _ _ _ _ _ hg _⟩

theorem fine_lookup {y : Sys} (hfu : 1 < y.fuel) {d : Dictionary} (hd : d.hasFallback = false) (q : Query) : Fine Sound (lookup y d q) (fun _ => Sound) := by
  intro p hp
  have key : ∃ r log, q.on (fun _ => none) y.fuel d [] = .ok r log := by
    cases q with
    | translate i => exact translateIn_alone hfu hd d.entries i []
    | ctxt c i =>
      simp only [Query.on, Dictionary.translateCtxt]
      cases d.ctxtEntries.get? c with
      | some e => exact translateIn_alone hfu hd e i []
      | none => exact ⟨_, _, rfl⟩
    | plural i j n => exact ⟨_, _, rfl⟩
    | ctxtPlural c i j n => exact ⟨_, _, rfl⟩
  obtain ⟨r, l, h⟩ := key
  unfold lookup
  rw [h]
  exact .inl ⟨_, _, rfl, hp⟩

theorem fine_known {y : Sys} (hlib : TameLib y.lib) (hf : PlainFiles y) (hfu : 1 < y.fuel) (file : Str) {k : Str → Main Nat} (q : Query)
    {Q : Nat → Proc → Prop} (hk : ∀ t, Fine Sound (k t) Q) : Fine Sound (do let d ← readDictionary y file; let t ← lookup y d q; k t) Q := by
  refine fine_bind (fine_read hlib hf file) (fun d => ?_)
  intro p ⟨hp, hd⟩
  exact fine_bind (fine_lookup hfu hd q) hk p hp

/-- The failed stream of a file that cannot be opened. -/
theorem failed_ended (c : Cfg) (hfu : 0 < c.fuel) (d : Dictionary) : (observe (POParser.run c .failed d)).Ended := by
  obtain ⟨k, hk⟩ : ∃ k, c.fuel = k + 1 := ⟨c.fuel - 1, by omega⟩
  unfold POParser.run parseBody
  rw [hk]
  trivial

theorem loadable {y : Sys} (hlib : TameLib y.lib) (hf : PlainFiles y) (hfu : 1 < y.fuel) {dir : Str} {files : List Str}
    (hd : (Program.env y).fs.openDirectory dir = .ok files) (l : Language) : Loadable (Program.env y) l [dir] := by
  refine ⟨?_, ?_⟩
  · intro d hx
    simp only [List.mem_cons, List.not_mem_nil, or_false] at hx
    subst hx; exact ⟨files, hd⟩
  · intro d _ fs f s _ _ ho e
    have ho : (match y.os.content (d ++ b!"/" ++ f) with | some bytes => OpenFile.stream ⟨bytes, true, y.os.readFails (d ++ b!"/" ++ f)⟩ | none => .stream Stream.failed) = .stream s := ho
    show (observe (POParser.run (progCfg y (d ++ b!"/" ++ f)) s e)).Ended
    cases hc : y.os.content (d ++ b!"/" ++ f) with
    | none => rw [hc] at ho; cases ho; exact failed_ended _ (by show 0 < y.fuel; omega) _
    | some text => rw [hc] at ho; cases ho; exact parse_plain hlib hf hc e

/-- A manager with one directory. -/
def OneDir (p : Proc) : Prop := ∃ dir l, p.manager = { dirMgr dir with currentLanguage := l }

theorem OneDir.sound {p : Proc} (h : OneDir p) : Sound p := by
  obtain ⟨dir, l, h⟩ := h
  show Inv p.manager
  rw [h]; exact inv_langMgr dir l

theorem fine_getDictionary {y : Sys} (hlib : TameLib y.lib) (hf : PlainFiles y) (hfu : 1 < y.fuel) :
    Fine OneDir (call (Manager.getDictionary (Program.env y))) (fun d p => Inv p.manager ∧ p.manager.heap.get? d ≠ none) := by
  refine fine_call (Q := fun d m => Inv m ∧ m.heap.get? d ≠ none) ?_
  rintro p ⟨dir, l, hm⟩
  rw [hm]
  have hI := inv_langMgr dir l
  cases hl : l.isDefined with
  | false =>
    have : l = none := by cases l with | none => rfl | some i => cases hl
    subst this
    exact .inl ⟨0, _, rfl, hI, by intro h; cases h⟩
  | true =>
    cases hd : (Program.env y).fs.openDirectory dir with
    | error w =>
      obtain ⟨m', h1, _⟩ := getFor_unlisted hd hl (by omega)
      have h2 := getDictionary_exn (e := Program.env y) (m := { dirMgr dir with currentLanguage := l }) rfl hl h1
      have hP := getFor_post (Program.env y) (Program.env y).fuel l _ hl hI
      rw [h1] at hP
      exact .inr ⟨w, m', h2, hP.1⟩
    | ok files =>
      obtain ⟨k, hk⟩ : ∃ k, y.fuel = k + 2 := ⟨y.fuel - 2, by omega⟩
      obtain ⟨q, m', h1⟩ := getFor_returns (n := k) hI hl (loadable hlib hf hfu hd l) (loadable hlib hf hfu hd (baseOf l))
      rw [← hk] at h1
      have hP := getFor_post (Program.env y) y.fuel l _ hl hI
      rw [h1] at hP
      have h2 := getDictionary_cur (e := Program.env y) (m := { dirMgr dir with currentLanguage := l }) rfl hl h1
      refine .inl ⟨q, _, h2, ?_, ?_⟩
      · rcases getDictionary_post (Program.env y) hI with ⟨p', m1, hr, h, _⟩ | ⟨w, m1, hr, h, _⟩ | ⟨f, hr, _⟩ | hr
        · rw [h2] at hr; cases hr; exact h
        · rw [h2] at hr; cases hr
        · rw [h2] at hr; cases hr
        · rw [h2] at hr; cases hr
      · obtain ⟨_, _, d, hd, _⟩ := hP.1.cached l q hP.2.2.2.2.1
        show m'.heap.get? q ≠ none
        rw [hd]; simp

theorem fine_ask {y : Sys} (hfu : 1 < y.fuel) (d : DictId) (q : Query) :
    Fine (fun p => Inv p.manager ∧ p.manager.heap.get? d ≠ none) (call (Manager.ask y.fuel d q)) (fun _ p => Inv p.manager) := by
  refine fine_call (Q := fun _ m => Inv m) ?_
  rintro p ⟨hI, hd⟩
  cases hx : p.manager.heap.get? d with
  | none => exact absurd hx hd
  | some e =>
    rcases ask_ok hI y.fuel hx q with ⟨r, lg, h, _⟩ | ⟨_, h⟩
    · exact .inl ⟨r, _, h, hI.log lg⟩
    · omega

/-- The code returns with `Q`, or throws an `std::exception`. -/
def Ends (m : Main Nat) (Q : Nat → Prop) : Prop := ∀ p, Sound p → (∃ a p', m p = .ok a p' ∧ Q a) ∨ ∃ w p', m p = .exn w p'

theorem ends_fine {m : Main Nat} {Q : Nat → Prop} (h : Fine Sound m (fun a _ => Q a)) : Ends m Q := by
  intro p hp
  rcases h p hp with h | ⟨w, p', h, _⟩
  · exact .inl h
  · exact .inr ⟨w, p', h⟩

/-- Destroying the manager on the way out. -/
theorem ends_withManager {body : Main (Option Nat)} {Q : Nat → Prop}
    (h : Fine (fun p => p.manager = .init b!"UTF-8") body (fun r p => Sound p ∧ Q (r.getD 0))) : Ends (withManager body) Q := by
  have hdel : ∀ p, Sound p → ∃ p', call Manager.destroy p = .ok () p' := by
    intro p hp
    obtain ⟨m', fr, hd, _⟩ := deleteAll_inv hp
    unfold call Manager.destroy
    simp only [prog_bind, bind_apply, Prog.get, hd]
    exact ⟨_, rfl⟩
  intro p _
  unfold withManager
  rcases h { p with manager := .init b!"UTF-8" } rfl with ⟨a, p', h1, h2, h3⟩ | ⟨w, p', h1, h2⟩
  · rw [h1]
    cases a with
    | some c => exact .inl ⟨c, p', rfl, h3⟩
    | none =>
      obtain ⟨p2, hp2⟩ := hdel p' h2
      simp only [prog_bind, bind_apply, hp2]
      exact .inl ⟨0, p2, rfl, h3⟩
  · rw [h1]
    obtain ⟨p2, hp2⟩ := hdel p' h2
    simp only [prog_bind, bind_apply, hp2]
    exact .inr ⟨w, p2, rfl⟩

theorem fine_addDirectory (dir : Str) : Fine (fun p => p.manager = .init b!"UTF-8") (call (Manager.addDirectory dir false)) (fun _ p => p.manager = dirMgr dir) := by
  refine fine_call (Q := fun _ m => m = dirMgr dir) ?_
  intro p hp
  rw [hp]
  exact .inl ⟨(), _, rfl, rfl⟩

theorem ends_languageDir (y : Sys) (dir : Str) : Ends (languageDir y dir) (fun c => c = 0) := by
  refine ends_withManager (fine_bind (fine_addDirectory dir) (fun _ => fine_bind (Q := fun _ => Sound) ?_ (fun ls => ?_)))
  · refine fine_call (Q := fun _ m => Inv m) ?_
    intro p hp
    rw [hp]
    unfold getLanguages
    simp only [prog_bind, bind_apply, Prog.get]
    rcases collectDirs_spec (Program.env y) (dirMgr dir).searchPath [] (dirMgr dir) List.Pairwise.nil with ⟨l, h1, _⟩ | ⟨w, h1, _⟩
    · exact .inl ⟨l, _, h1, inv_dirMgr dir⟩
    · exact .inr ⟨w, _, h1, inv_dirMgr dir⟩
  · exact fine_bind (fine_printLine _) (fun _ => fine_bind (fine_describeAll ls) (fun _ => fine_pure (fun _ h => ⟨h, rfl⟩)))

theorem fine_keep {P : Proc → Prop} (hP : ∀ p os, P p → P { p with output := os }) (t : Str) : Fine P (printLine t) (fun _ => P) :=
  fun p hp => .inl ⟨_, _, rfl, hP p _ hp⟩

theorem oneDir_out (p : Proc) (os : List Out) (h : OneDir p) : OneDir { p with output := os } := h

theorem ends_directory {y : Sys} (hlib : TameLib y.lib) (hf : PlainFiles y) (hfu : 1 < y.fuel) (dir msg : Str) (lang : Option Str) :
    Ends (directory y dir msg lang) (fun c => c = 0 ∨ c = 1 ∧ ∃ s, lang = some s ∧ (Language.fromName y.ct s).isDefined = false) := by
  refine ends_withManager (fine_bind (fine_addDirectory dir)
    (fun _ => fine_bind (Q := fun k p => OneDir p ∧ (k = false → ∃ s, lang = some s ∧ (Language.fromName y.ct s).isDefined = false)) ?_ (fun k => ?_)))
  · intro p hp
    cases lang with
    | none => exact .inl ⟨true, p, rfl, ⟨dir, none, hp⟩, by intro h; cases h⟩
    | some s =>
      unfold chooseLanguage
      dsimp only
      cases hd : (Language.fromName y.ct s).isDefined with
      | false =>
        simp only [Bool.false_eq_true, if_false, prog_bind, bind_apply]
        exact .inl ⟨false, _, rfl, ⟨dir, none, hp⟩, fun _ => ⟨s, rfl, hd⟩⟩
      | true =>
        simp only [if_true]
        refine fine_bind (P := fun q => q = p) (Q := fun _ q => q.manager = { dirMgr dir with currentLanguage := Language.fromName y.ct s })
          (fine_call (Q := fun _ m => m = { dirMgr dir with currentLanguage := Language.fromName y.ct s }) ?_) (fun _ => fine_pure ?_) p rfl
        · rintro q rfl
          rw [hp]
          left
          unfold Manager.setLanguage
          split
          · exact ⟨(), _, rfl, rfl⟩
          · rename_i hn
            have : Language.fromName y.ct s = none := Classical.byContradiction (fun h => hn (fun e => h e.symm))
            rw [this] at hd; cases hd
        · intro q hq
          exact ⟨⟨dir, _, hq⟩, by intro h; cases h⟩
  · cases k with
    | false => exact fine_pure (fun p hp => ⟨hp.1.sound, .inr ⟨rfl, hp.2 rfl⟩⟩)
    | true =>
      refine fine_mono (P := OneDir) (Q := fun r p => Sound p ∧ r = none) ?_ (fun p hp => hp.1) (fun a p h => ⟨h.1, .inl (by rw [h.2]; rfl)⟩)
      refine fine_bind (fine_keep oneDir_out _) (fun _ => fine_bind (fine_keep oneDir_out _) (fun _ => fine_bind (Q := fun _ => OneDir) ?_ (fun l =>
        fine_bind (fine_keep oneDir_out _) (fun _ => fine_bind (Q := fun _ => OneDir) ?_ (fun _ => fine_bind (fine_getDictionary hlib hf hfu) (fun d =>
          fine_bind (fine_ask hfu d _) (fun t => fine_bind (fine_printLine _) (fun _ => fine_pure (fun _ h => ⟨h, rfl⟩)))))))))
      · intro p ⟨dir, l, h⟩
        refine fine_call (P := fun q => q = p) (f := Manager.getLanguage) (Q := fun _ m => ∃ dir l, m = { dirMgr dir with currentLanguage := l }) ?_ p rfl
        rintro q rfl
        exact .inl ⟨_, _, rfl, dir, l, h⟩
      · exact fun p hp => .inl ⟨_, _, rfl, hp⟩

theorem fine_atoi {y : Sys} {s : Str} (h : ∀ n, Numeral y.ct n s → IntRange n) : Fine Sound (atoi y s) (fun _ => Sound) := by
  obtain ⟨v, hv⟩ := atoi_total h
  rw [hv]
  exact fun p hp => .inl ⟨_, _, rfl, hp⟩

end Progs

/-- C70.  Every run of tinygettext_test comes to its end, whatever the command line, the directories and the (newline-terminated) files
are, if a number argument is an `int` and the converter behaves: no crash, no endless loop, no exception that is not caught.  The exit
status is 0, except that it is 1 if `directory` is called with an unknown language. -/
theorem C70_tinygettext_test_ends (y : Sys) (hlib : TameLib y.lib) (hf : PlainFiles y) (hfu : 1 < y.fuel) (name : Str) (args : List Str)
    (hnum : ∀ n num, 4 < args.length → args.getLast? = some num → Numeral y.ct n num → IntRange n) :
    ∃ status os, Exits (tinygettextTest y name args start) status os ∧
      (status = 0 ∨ status = 1 ∧ ∃ dir msg lang, args = [b!"directory", dir, msg, lang] ∧ (Language.fromName y.ct lang).isDefined = false) := by
  have key : Ends (branch y name args)
      (fun c => c = 0 ∨ c = 1 ∧ ∃ dir msg lang, args = [b!"directory", dir, msg, lang] ∧ (Language.fromName y.ct lang).isDefined = false) := by
    have hz : ∀ {m : Main Unit}, Fine Sound m (fun _ => Sound) → Ends (do m; Prog.pure 0)
        (fun c => c = 0 ∨ c = 1 ∧ ∃ dir msg lang, args = [b!"directory", dir, msg, lang] ∧ (Language.fromName y.ct lang).isDefined = false) :=
      fun h => ends_fine (fine_bind h (fun _ => fine_pure (fun _ _ => .inl rfl)))
    have hu : Ends (do usage name; Prog.pure 0)
        (fun c => c = 0 ∨ c = 1 ∧ ∃ dir msg lang, args = [b!"directory", dir, msg, lang] ∧ (Language.fromName y.ct lang).isDefined = false) := hz (fine_usage name)
    unfold branch
    split
    · rename_i cmd a
      split
      · intro p hp
        rcases ends_languageDir y a p hp with ⟨c, p', h1, h2⟩ | h
        · exact .inl ⟨c, p', h1, .inl h2⟩
        · exact .inr h
      split
      · dsimp only
        split
        · exact hz (fine_describe _)
        · exact hz (fine_printLine _)
      split
      · refine ends_fine (fine_bind (fine_read hlib hf a) (fun d => fine_bind (P := fun p => Sound p ∧ _) (Q := fun _ => Sound) ?_ (fun _ =>
          fine_bind (fine_printMsgsCtxt _) (fun _ => fine_pure (fun _ _ => .inl rfl)))))
        exact fun p hp => fine_printMsgs _ p hp.1
      · exact hu
    · rename_i cmd a b
      split
      · refine ends_fine (fine_bind (fine_read hlib hf a) (fun d => ?_))
        intro p ⟨hp, hd⟩
        exact fine_bind (fine_print _) (fun _ => fine_bind (fine_lookup hfu hd _) (fun t => fine_bind (fine_printLine _) (fun _ =>
          fine_pure (fun _ _ => .inl rfl)))) p hp
      split
      · intro p hp
        rcases ends_directory hlib hf hfu a b none p hp with ⟨c, p', h1, h2⟩ | h
        · rcases h2 with h2 | ⟨_, s, h2, _⟩
          · exact .inl ⟨c, p', h1, .inl h2⟩
          · cases h2
        · exact .inr h
      · exact hu
    · rename_i cmd a b c
      split
      · exact ends_fine (fine_known hlib hf hfu a _ (fun t => fine_bind (fine_printLine _) (fun _ => fine_pure (fun _ _ => .inl rfl))))
      split
      · rename_i hcmd
        intro p hp
        rcases ends_directory hlib hf hfu a b (some c) p hp with ⟨st, p', h1, h2⟩ | h
        · rcases h2 with h2 | ⟨h3, s, h2, h4⟩
          · exact .inl ⟨st, p', h1, .inl h2⟩
          · cases h2
            exact .inl ⟨st, p', h1, .inr ⟨h3, a, b, c, by rw [hcmd], h4⟩⟩
        · exact .inr h
      · exact hu
    · rename_i cmd a b c num
      have h2 : ∀ n, Numeral y.ct n num → IntRange n := fun n => hnum n num (by simp) rfl
      split
      · exact ends_fine (fine_bind (fine_atoi h2) (fun k => fine_known hlib hf hfu a _ (fun t => fine_bind (fine_printLine _) (fun _ => fine_pure (fun _ _ => .inl rfl)))))
      · exact hu
    · rename_i cmd a b c e num
      have h2 : ∀ n, Numeral y.ct n num → IntRange n := fun n => hnum n num (by simp) rfl
      split
      · exact ends_fine (fine_bind (fine_atoi h2) (fun k => fine_known hlib hf hfu a _ (fun t => fine_bind (fine_printLine _) (fun _ => fine_pure (fun _ _ => .inl rfl)))))
      · exact hu
    · exact hu
  unfold Exits tinygettextTest
  rcases key start (inv_init _) with ⟨c, p, h1, h2⟩ | ⟨w, p, h1⟩
  · rw [h1]; exact ⟨c, p.output, ⟨p, rfl, rfl⟩, h2⟩
  · rw [h1]; exact ⟨0, _, ⟨_, rfl, rfl⟩, .inl rfl⟩

/-- C70.  The condition on the number is needed: with a number argument that is not an `int` the behaviour is undefined, whatever the file
and the messages are. -/
theorem C70_number_overflow (y : Sys) (name file a b num : Str) (n : Int) (hnum : Numeral y.ct n num) (hn : ¬ IntRange n) :
    tinygettextTest y name [b!"translate", file, a, b, num] start = .fault .signedOverflow ∧
    ∀ x, tinygettextTest y name [b!"translate", file, x, a, b, num] start = .fault .signedOverflow := by
  have h := atoi_overflow hnum hn
  have stop : ∀ f : Int → Main Nat, (do let k ← atoi y num; f k : Main Nat) start = .fault .signedOverflow := by
    intro f
    rw [h]; rfl
  constructor
  · have : branch y name [b!"translate", file, a, b, num] start = .fault .signedOverflow := stop _
    unfold tinygettextTest
    rw [this]
  · intro x
    have : branch y name [b!"translate", file, x, a, b, num] start = .fault .signedOverflow := stop _
    unfold tinygettextTest
    rw [this]

-- numbers that are an `int`, and one that is not
example (ct : CType) : Numeral ct (-12) b!"-12 files" ∧ IntRange (-12) :=
  ⟨⟨[], b!"-", b!"12", b!" files", 12, by decide, by simp, ⟨by decide, by decide, by decide⟩, by intro b t h; cases h; decide, .inr ⟨rfl, rfl⟩⟩, by decide, by decide⟩
example (ct : CType) : Numeral ct 2147483648 b!"+2147483648" ∧ ¬ IntRange 2147483648 :=
  ⟨⟨[], b!"+", b!"2147483648", [], 2147483648, by decide, by simp, ⟨by decide, by decide, by decide⟩, by simp, .inl ⟨.inr rfl, rfl⟩⟩, fun h => absurd h.2 (by decide)⟩

/-- C70.  The same for po_parser_test and any list of files. -/
theorem C70_po_parser_test_ends (y : Sys) (hlib : TameLib y.lib) (hf : PlainFiles y) (name : Str) (files : List Str) :
    ∃ os, Exits (poParserTest y name files start) 0 os := by
  cases files with
  | nil => exact ⟨_, _, rfl, rfl⟩
  | cons f t => exact ⟨_, C66_reports y name (f :: t) (by simp) (fun g _ text hc => parse_plain hlib hf hc _)⟩

-- the hypotheses of both are met by `demoSys`
theorem demoSys_plain : TameLib demoSys.lib ∧ PlainFiles demoSys ∧ 1 < demoSys.fuel := by
  refine ⟨demoLib_tame, ?_, by decide⟩
  intro f text ht
  have hcases : text ∈ [b!"msgid \"a\" x\nmsgstr \"b\"\n\nmsgid \"c\"\nmsgstr \"d\"\n",
      b!"msgid \"\"\nmsgstr \"Content-Type: text/plain; charset=alien\\n\"\n", b!"msgid \"c\"\nmsgstr \"d\"\n", catHi.text, catLo.text, catAt.text] := by
    have ht : progOs.content f = some text := ht
    unfold progOs catOs at ht
    dsimp only at ht
    repeat' split at ht
    all_goals (cases ht <;> simp only [List.mem_cons, true_or, or_true])
  have hall : ∀ t ∈ [b!"msgid \"a\" x\nmsgstr \"b\"\n\nmsgid \"c\"\nmsgstr \"d\"\n",
      b!"msgid \"\"\nmsgstr \"Content-Type: text/plain; charset=alien\\n\"\n", b!"msgid \"c\"\nmsgstr \"d\"\n", catHi.text, catLo.text, catAt.text],
      (splitLines t).2 = [] ∧ lineCount t + 8 < 2147483647 ∧ t.length + 1 < 1000 := by decide +kernel
  exact hall text hcases

/-! ### C71: `list-msgstrs` -/

namespace Progs

theorem perm_map {α β : Type} {f : α → β} {l l' : List β} (h : l.Perm l') : ∀ L : List α, l' = L.map f → ∃ L' : List α, L'.Perm L ∧ l = L'.map f := by
  induction h with
  | nil =>
    intro L hL
    cases L with
    | nil => exact ⟨[], .refl _, rfl⟩
    | cons _ _ => cases hL
  | cons x _ ih =>
    intro L hL
    cases L with
    | nil => cases hL
    | cons a L =>
      injection hL with h1 h2
      obtain ⟨L', h3, h4⟩ := ih L h2
      exact ⟨a :: L', h3.cons a, by rw [h1, h4]; rfl⟩
  | swap x z l =>
    intro L hL
    cases L with
    | nil => cases hL
    | cons a L =>
      cases L with
      | nil => cases hL
      | cons b L =>
        injection hL with h1 h2
        injection h2 with h2 h3
        exact ⟨b :: a :: L, .swap a b L, by rw [h1, h2, h3]; rfl⟩
  | trans _ _ ih1 ih2 =>
    intro L hL
    obtain ⟨L1, h1, h2⟩ := ih2 L hL
    obtain ⟨L2, h3, h4⟩ := ih1 L1 h2
    exact ⟨L2, h3.trans h1, h4⟩

/-- The dictionary of a catalogue, as a history of calls. -/
theorem cat_after (ms : List Message) : addAll (.init b!"UTF-8") (ms.map Message.add) = after b!"UTF-8" (ms.map (fun m => .add m.add)) := by
  have : ∀ (ms : List Message) (d : Dictionary), addAll d (ms.map Message.add) = (ms.map (fun m => Op.add m.add)).foldl Op.run d := by
    intro ms
    induction ms with
    | nil => intro d; rfl
    | cons m t ih => intro d; exact ih _
  exact this ms _

theorem newVec_strs {m : Message} (h : m.Shaped) : m.add.newVec [] = m.strs := by
  unfold Message.add
  cases hp : m.plural with
  | none =>
    obtain ⟨s, hs⟩ := h hp
    rw [hs]; rfl
  | some p => rfl

theorem cat_touched {ms : List Message} {key : Option Str × Str} :
    Touched (ms.map (fun m => Op.add m.add)) key ↔ ∃ m ∈ ms, (m.ctxt, m.msgid) = key := by
  unfold Touched
  constructor
  · rintro ⟨o, ho, a, rfl, h⟩
    obtain ⟨m, hm, e⟩ := List.mem_map.1 ho
    cases e
    exact ⟨m, hm, by rw [← h, target_add]⟩
  · rintro ⟨m, hm, h⟩
    exact ⟨_, List.mem_map.2 ⟨m, hm, rfl⟩, m.add, rfl, by rw [target_add, h]⟩

theorem cat_strings {ms : List Message} (hok : ∀ m ∈ ms, m.Shaped) (hd : (ms.map (fun m => (m.ctxt, m.msgid))).Nodup) {m : Message} (hm : m ∈ ms) :
    strings (ms.map (fun m => Op.add m.add)) (m.ctxt, m.msgid) = m.strs := by
  have h1 := Dict.lookup_after b!"UTF-8" (m.ctxt, m.msgid) (ms.map (fun m => Op.add m.add))
  rw [if_pos (cat_touched.2 ⟨m, hm, rfl⟩)] at h1
  have h2 := lookup_addAll (ms.map Message.add) m.add (List.mem_map.2 ⟨m, hm, rfl⟩) (.init b!"UTF-8") (fun b _ => by
    have : ∀ key, (Dictionary.init b!"UTF-8").lookup key = none := by rintro ⟨_ | x, i⟩ <;> rfl
    exact this _) (by
    rw [List.map_map]
    have : (target ∘ Message.add) = fun m => (m.ctxt, m.msgid) := funext target_add
    rw [this]; exact hd)
  rw [target_add, newVec_strs (hok m hm)] at h2
  rw [cat_after, h1] at h2
  exact Option.some.inj h2

/-- The messages without context, as `foreach` shows them. -/
theorem cat_foreach {ms : List Message} (hok : ∀ m ∈ ms, m.Shaped) (hd : (ms.map (fun m => (m.ctxt, m.msgid))).Nodup) :
    (after b!"UTF-8" (ms.map (fun m => Op.add m.add))).foreach.Perm ((ms.filter (fun m => m.ctxt.isNone)).map (fun m => (m.msgid, m.strs))) := by
  obtain ⟨h1, h2⟩ := C20_foreach b!"UTF-8" (ms.map (fun m => Op.add m.add)) _ (.refl _)
  have n1 : (after b!"UTF-8" (ms.map (fun m => Op.add m.add))).foreach.Nodup := List.Pairwise.of_map Prod.fst (fun a b hab e => hab (by rw [e])) h1
  have n2 : ((ms.filter (fun m => m.ctxt.isNone)).map (fun m => (m.msgid, m.strs))).Nodup := by
    have hd' : ((ms.filter (fun m => m.ctxt.isNone)).map (fun m => (m.ctxt, m.msgid))).Nodup := hd.sublist (List.filter_sublist.map _)
    refine List.pairwise_map.2 ((List.pairwise_map.1 hd').imp_of_mem ?_)
    intro a b ha hb hab e
    have ha := (List.mem_filter.1 ha).2
    have hb := (List.mem_filter.1 hb).2
    simp only [Option.isNone_iff_eq_none] at ha hb
    apply hab
    rw [ha, hb, (Prod.mk.inj e).1]
  refine (List.perm_ext_iff_of_nodup n1 n2).2 ?_
  rintro ⟨i, v⟩
  rw [h2, cat_touched]
  constructor
  · rintro ⟨⟨m, hm, hk⟩, hv⟩
    rw [← hk, cat_strings hok hd hm] at hv
    injection hk with hk1 hk2
    exact List.mem_map.2 ⟨m, List.mem_filter.2 ⟨hm, by rw [hk1]; rfl⟩, by rw [hk2, hv]⟩
  · intro h
    obtain ⟨m, hm, e⟩ := List.mem_map.1 h
    obtain ⟨hm, hn⟩ := List.mem_filter.1 hm
    simp only [Option.isNone_iff_eq_none] at hn
    injection e with e1 e2
    have hk : (m.ctxt, m.msgid) = (none, i) := by rw [hn, e1]
    refine ⟨⟨m, hm, hk⟩, ?_⟩
    rw [← hk, cat_strings hok hd hm, e2]

/-- The messages with a context, as `foreach_ctxt` shows them. -/
theorem cat_foreach_ctxt {ms : List Message} (hok : ∀ m ∈ ms, m.Shaped) (hd : (ms.map (fun m => (m.ctxt, m.msgid))).Nodup) :
    (after b!"UTF-8" (ms.map (fun m => Op.add m.add))).foreachCtxt.Perm
      ((ms.filter (fun m => !m.ctxt.isNone)).map (fun m => (m.ctxt.getD [], m.msgid, m.strs))) := by
  obtain ⟨h1, h2⟩ := C20_foreach_ctxt b!"UTF-8" (ms.map (fun m => Op.add m.add)) _ (.refl _)
  have n1 : (after b!"UTF-8" (ms.map (fun m => Op.add m.add))).foreachCtxt.Nodup :=
    List.Pairwise.of_map (fun c => (c.1, c.2.1)) (fun a b hab e => hab (by rw [e])) h1
  have hsome : ∀ {m : Message}, m ∈ ms.filter (fun m => !m.ctxt.isNone) → m ∈ ms ∧ m.ctxt = some (m.ctxt.getD []) := by
    intro m hm
    obtain ⟨hm, hn⟩ := List.mem_filter.1 hm
    refine ⟨hm, ?_⟩
    cases hc : m.ctxt with
    | none => rw [hc] at hn; cases hn
    | some x => rfl
  have n2 : ((ms.filter (fun m => !m.ctxt.isNone)).map (fun m => (m.ctxt.getD [], m.msgid, m.strs))).Nodup := by
    have hd' : ((ms.filter (fun m => !m.ctxt.isNone)).map (fun m => (m.ctxt, m.msgid))).Nodup := hd.sublist (List.filter_sublist.map _)
    refine List.pairwise_map.2 ((List.pairwise_map.1 hd').imp_of_mem ?_)
    intro a b ha hb hab e
    have ha := (hsome ha).2
    have hb := (hsome hb).2
    injection e with e1 e2
    injection e2 with e2 e3
    apply hab
    rw [ha, hb, e1, e2]
  refine (List.perm_ext_iff_of_nodup n1 n2).2 ?_
  rintro ⟨x, i, v⟩
  rw [h2, cat_touched]
  constructor
  · rintro ⟨⟨m, hm, hk⟩, hv⟩
    rw [← hk, cat_strings hok hd hm] at hv
    injection hk with hk1 hk2
    exact List.mem_map.2 ⟨m, List.mem_filter.2 ⟨hm, by rw [hk1]; rfl⟩, by rw [hk2, hv, hk1]; rfl⟩
  · intro h
    obtain ⟨m, hm, e⟩ := List.mem_map.1 h
    obtain ⟨hm, hn⟩ := hsome hm
    injection e with e1 e2
    injection e2 with e2 e3
    have hk : (m.ctxt, m.msgid) = (some x, i) := by rw [hn, e1, e2]
    refine ⟨⟨m, hm, hk⟩, ?_⟩
    rw [← hk, cat_strings hok hd hm, e3]

theorem stdout_cons (t : Str) (os : List Out) : stdout (.out t :: os) = t ++ stdout os := rfl
theorem stderr_cons (t : Str) (os : List Out) : stderr (.out t :: os) = stderr os := rfl

theorem stdout_strs (ss : List Str) : stdout (ss.map (fun t => .out (t ++ [10]))) = ss.flatMap (fun t => t ++ [10]) ∧
    stderr (ss.map (fun t => .out (t ++ [10]))) = [] := by
  induction ss with
  | nil => exact ⟨rfl, rfl⟩
  | cons t ss ih =>
    rw [List.map_cons, stdout_cons, stderr_cons, ih.1, ih.2]
    exact ⟨rfl, rfl⟩

theorem stdout_msgOut (ms : List Message) (h : ∀ m ∈ ms, m.ctxt = none) :
    stdout ((ms.map (fun m => (m.msgid, m.strs))).flatMap msgOut) = ms.flatMap listed ∧ stderr ((ms.map (fun m => (m.msgid, m.strs))).flatMap msgOut) = [] := by
  induction ms with
  | nil => exact ⟨rfl, rfl⟩
  | cons m ms ih =>
    obtain ⟨i1, i2⟩ := ih (fun x hx => h x (List.mem_cons_of_mem _ hx))
    rw [List.map_cons, List.flatMap_cons, stdout_append, stderr_append, i1, i2, List.flatMap_cons]
    unfold msgOut listed
    rw [stdout_cons, stderr_cons, (stdout_strs _).1, (stdout_strs _).2, h m List.mem_cons_self]
    exact ⟨rfl, rfl⟩

theorem stdout_ctxtOut (ms : List Message) (h : ∀ m ∈ ms, m.ctxt ≠ none) :
    stdout ((ms.map (fun m => (m.ctxt.getD [], m.msgid, m.strs))).flatMap ctxtOut) = ms.flatMap listed ∧
    stderr ((ms.map (fun m => (m.ctxt.getD [], m.msgid, m.strs))).flatMap ctxtOut) = [] := by
  induction ms with
  | nil => exact ⟨rfl, rfl⟩
  | cons m ms ih =>
    obtain ⟨i1, i2⟩ := ih (fun x hx => h x (List.mem_cons_of_mem _ hx))
    rw [List.map_cons, List.flatMap_cons, stdout_append, stderr_append, i1, i2, List.flatMap_cons]
    unfold ctxtOut msgOut listed
    rw [stdout_cons, stderr_cons, stdout_cons, stderr_cons, (stdout_strs _).1, (stdout_strs _).2]
    cases hc : m.ctxt with
    | none => exact absurd hc (h m List.mem_cons_self)
    | some x => exact ⟨by simp only [Option.getD_some, List.append_assoc], rfl⟩

end Progs

/-- C71.  `tinygettext_test list-msgstrs FILE` for a file that holds a catalogue in UTF-8: every message of the catalogue is printed exactly once with
its strings, those without context first, in whatever order, and nothing else. -/
theorem C71_listed (y : Sys) (name file : Str) (c : Catalogue) (r : PluralForms) (hg : c.Good (Program.env y) b!"UTF-8" r)
    (hf : y.os.content file = some c.text) :
    ∃ ms ms' : List Message, (ms ++ ms').Perm c.messages ∧ (∀ m ∈ ms, m.ctxt = none) ∧ (∀ m ∈ ms', m.ctxt ≠ none) ∧
      Shows (tinygettextTest y name [b!"list-msgstrs", file] start) 0 ((ms ++ ms').flatMap listed) [] := by
  have hread := writes_read hf (parsed_cat hg)
  have hE : ((⟨c.messages.map Message.add, some r⟩ : Effect).applyTo (.init b!"UTF-8")).foreach =
      (after b!"UTF-8" (c.messages.map (fun m => Op.add m.add))).foreach := by
    show (addAll (.init b!"UTF-8") (c.messages.map Message.add)).entries = _
    rw [cat_after]; rfl
  have hC : ((⟨c.messages.map Message.add, some r⟩ : Effect).applyTo (.init b!"UTF-8")).foreachCtxt =
      (after b!"UTF-8" (c.messages.map (fun m => Op.add m.add))).foreachCtxt := by
    have : (addAll (.init b!"UTF-8") (c.messages.map Message.add)).foreachCtxt = _ := congrArg Dictionary.foreachCtxt (cat_after c.messages)
    exact this
  obtain ⟨ms, h1, h2⟩ := perm_map ((y.order_perm _).trans (cat_foreach (hg.charset.shaped hg.messages) hg.distinct)) _ rfl
  obtain ⟨ms', h3, h4⟩ := perm_map ((y.orderCtxt_perm _).trans (cat_foreach_ctxt (hg.charset.shaped hg.messages) hg.distinct)) _ rfl
  have k1 : ∀ m ∈ ms, m.ctxt = none := by
    intro m hm
    have := (List.mem_filter.1 (h1.mem_iff.1 hm)).2
    simpa using this
  have k2 : ∀ m ∈ ms', m.ctxt ≠ none := by
    intro m hm
    have := (List.mem_filter.1 (h3.mem_iff.1 hm)).2
    intro hn
    rw [hn] at this
    cases this
  refine ⟨ms, ms', ?_, k1, k2, ?_⟩
  · exact (h1.append h3).trans (List.filter_append_perm _ _)
  · have hp1 := writes_printMsgs (y.order ((⟨c.messages.map Message.add, some r⟩ : Effect).applyTo (.init b!"UTF-8")).foreach)
    have hp2 := writes_printMsgsCtxt (y.orderCtxt ((⟨c.messages.map Message.add, some r⟩ : Effect).applyTo (.init b!"UTF-8")).foreachCtxt)
    refine ⟨_, shows_of (writes_bind hread (writes_bind hp1 (writes_bind hp2 (writes_pure 0)))), ?_, ?_⟩
    · rw [hE, hC, h2, h4, stdout_append, stdout_append, stdout_append, (stdout_msgOut ms k1).1, (stdout_ctxtOut ms' k2).1, List.flatMap_append]
      exact congrArg (ms.flatMap listed ++ ·) (List.append_nil _)
    · rw [hE, hC, h2, h4, stderr_append, stderr_append, stderr_append, (stdout_msgOut ms k1).2, (stdout_ctxtOut ms' k2).2]
      rfl

-- the program with the files of `catOs`
example : ∃ ms ms' : List Message, (ms ++ ms').Perm catLo.messages ∧ (∀ m ∈ ms, m.ctxt = none) ∧ (∀ m ∈ ms', m.ctxt ≠ none) ∧
    Shows (tinygettextTest demoSys b!"tinygettext_test" [b!"list-msgstrs", b!"lo/de.po"] start) 0 ((ms ++ ms').flatMap listed) [] :=
  C71_listed demoSys _ _ catLo catRule (demoSys_good catLo (by simp)) rfl

-- by running it
example : (match tinygettextTest demoSys b!"tinygettext_test" [b!"list-msgstrs", b!"lo/de.po"] start with
    | .ok code p => some (code, p.output)
    | _ => none) = some (0, [.out b!"Msgid: potato\n", .out b!"Kartoffel\n", .out b!"Msgid: dog\n", .out b!"Koeter\n",
      .out b!"Msgctxt: menu\n", .out b!"Msgid: potato\n", .out b!"Kartoffel\n"]) := by decide +kernel

end Tgt
