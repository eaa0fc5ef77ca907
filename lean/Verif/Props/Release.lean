import Verif.Spec.Release
import Verif.Proofs.Release
import Verif.Props.Worlds
/-
The library compiled without assertions (C84).
-/
namespace Tgt
open Spec Manager Mgr POParser

namespace Rels
open POParser.Rel

theorem unasserted_tame (lib : IconvLib) : TameLib lib.unasserted := by
  intro to fr _ hist text
  simp only [IconvLib.unasserted]
  cases (lib.conv to fr hist text (4 * text.length)).status <;> simp

/-- The same world without assertions. -/
abbrev relaxed (env : Env) : Env := { env with lib := env.lib.unasserted }

theorem scan_le (env : Env) (l : Language) (files : List Str) : ∀ b, scanFiles env l files b = scanFiles (relaxed env) l files b :=
  Worlds.scanFiles_same (env := env) (env' := relaxed env) rfl l files

theorem parseInto_le (env : Env) (id : DictId) (pofile : Str) (s : Stream) : Un (parseInto env id pofile s) (parseInto (relaxed env) id pofile s) := by
  intro m
  unfold parseInto
  cases m.heap.get? id with
  | none => exact .inr rfl
  | some d =>
    dsimp only
    rcases run_le ⟨env.ct, env.lib, env.pedantic, pofile, true, env.fuel⟩ s d with h | h
    · have h' : POParser.parse ⟨env.ct, env.lib, env.pedantic, pofile, true, env.fuel⟩ s d = .fault .assertFailed := h
      rw [h']
      exact .inl rfl
    · refine .inr ?_
      have : POParser.parse ⟨env.ct, env.lib, env.pedantic, pofile, true, env.fuel⟩ s d
          = POParser.parse ⟨env.ct, (relaxed env).lib, env.pedantic, pofile, true, env.fuel⟩ s d := h
      rw [this]

theorem loadFile_le (env : Env) (id : DictId) (dir f : Str) : Un (loadFile env id dir f) (loadFile (relaxed env) id dir f) := by
  unfold loadFile
  refine Un.ite _ ?_ (Un.refl _)
  show Un (match env.fs.openFile (dir ++ b!"/" ++ f) with | _ => _) (match env.fs.openFile (dir ++ b!"/" ++ f) with | _ => _)
  cases env.fs.openFile (dir ++ b!"/" ++ f) with
  | throws w => exact Un.refl _
  | null => exact Un.refl _
  | stream s => exact parseInto_le _ _ _ _

theorem loadDirs_le (env : Env) (id : DictId) (l : Language) (dirs : List Str) : Un (loadDirs env id l dirs) (loadDirs (relaxed env) id l dirs) := by
  induction dirs with
  | nil => exact Un.refl _
  | cons dir t ih =>
    unfold loadDirs
    show Un (match env.fs.openDirectory dir with | _ => _) (match env.fs.openDirectory dir with | _ => _)
    cases env.fs.openDirectory dir with
    | error w => exact Un.refl _
    | ok files =>
      dsimp only
      rw [← scan_le]
      exact Un.bind (Un.refl _) (fun _ => Un.bind (loadFile_le _ _ _ _) (fun _ => ih))

theorem getFor_le (env : Env) (n : Nat) : ∀ l, Un (getDictionaryFor env n l) (getDictionaryForRelease env n l) := by
  induction n with
  | zero => intro l; exact Un.refl _
  | succ n ih =>
    intro l
    unfold getDictionaryFor getDictionaryForRelease
    split
    · exact fun _ => .inl rfl
    · refine Un.bind (Un.refl _) (fun m => ?_)
      cases m.dictionaries.get? l with
      | some id => exact Un.refl _
      | none =>
        exact Un.bind (Un.refl _) (fun id => Un.bind (loadDirs_le _ _ _ _) (fun _ =>
          Un.bind (Un.ite _ (Un.bind (ih _) (fun _ => Un.refl _)) (Un.refl _)) (fun _ => Un.refl _)))

theorem get_le (env : Env) : Un (Manager.getDictionary env) (getDictionaryRelease env) := by
  unfold Manager.getDictionary getDictionaryRelease
  refine Un.bind (Un.refl _) (fun m => ?_)
  cases m.currentDict with
  | some p => exact Un.refl _
  | none => exact Un.ite _ (Un.bind (getFor_le _ _ _) (fun _ => Un.refl _)) (Un.refl _)

theorem run_le (env : Env) (c : Call) : Un (c.run env) (c.runRelease env) := by
  cases c with
  | getDictionary => exact Un.bind (get_le env) (fun _ => Un.refl _)
  | getDictionaryFor l => exact Un.bind (getFor_le env _ l) (fun _ => Un.refl _)
  | _ => exact Un.refl _

/-- For a language, leaving out the assertions is like another converter. -/
theorem release_eq (env : Env) (n : Nat) : ∀ l, l.isDefined = true → getDictionaryForRelease env n l = getDictionaryFor (relaxed env) n l := by
  induction n with
  | zero => intro l _; rfl
  | succ n ih =>
    intro l hl
    unfold getDictionaryForRelease getDictionaryFor
    rw [if_neg (by simp [hl])]
    congr 1
    funext m
    rw [ih (Language.fromSpec l.getLanguage [] []) (base_defined hl).1]
    cases m.dictionaries.get? l <;> rfl

theorem undefined_match {l : Language} (h : l.isDefined = true) : Language.match none l = 0 := by
  refine (C05_match_range none l).1.2 ?_
  intro he
  exact (C12_defined l h).1 he.symm

/-- For the undefined language nothing is found. -/
theorem scan_undefined (env : Env) (files : List Str) : ∀ (b : Str × Nat) (m : Manager),
    scanFiles env none files b m = .ok b { m with log := m.log ++ scanLog env.ct files } := by
  induction files with
  | nil => intro b m; simp [scanFiles, scanLog, Prog.pure]
  | cons f t ih =>
    intro b m
    rw [scanFiles]
    by_cases hs : hasSuffix f b!".po" = true
    · rw [if_pos hs]
      have h3 : b!".po" <:+ f := (hasSuffix_iff f _).1 hs
      have hlen : ¬ f.length < 3 := by have := h3.length_le; simpa using this
      cases hc : convertFilename2Language env.ct f with
      | none => exact absurd ((C13_throws_iff env.ct f).1 hc) hlen
      | some name =>
        dsimp only
        by_cases hd : (Language.fromEnv name).isDefined = true
        · rw [if_neg (by simp [hd]), undefined_match hd, if_neg (by omega), ih]
          simp [scanLog, hc, hd]
        · have hd' : (Language.fromEnv name).isDefined = false := by simpa using hd
          rw [if_pos (by simp [hd'])]
          have hlog : scanLog env.ct (f :: t) = .unknownLanguage f :: scanLog env.ct t := by simp [scanLog, hc, hd', hs]
          show scanFiles env none t b { m with log := m.log ++ [Diag.unknownLanguage f] } = _
          rw [ih, hlog]
          simp
    · have hs' : hasSuffix f b!".po" = false := by simpa using hs
      rw [if_neg hs, ih]
      simp [scanLog, hs']

theorem load_undefined (env : Env) (id : DictId) (dirs : List Str) (h : ∀ dir ∈ dirs, ∃ files, env.fs.openDirectory dir = .ok files) : ∀ m : Manager,
    ∃ log, loadDirs env id none dirs m = .ok () { m with log := log } := by
  induction dirs with
  | nil => intro m; exact ⟨m.log, rfl⟩
  | cons dir t ih =>
    intro m
    obtain ⟨files, hf⟩ := h dir List.mem_cons_self
    have ih := ih (fun d hd => h d (List.mem_cons_of_mem _ hd))
    unfold loadDirs
    rw [hf]
    simp only [prog_bind, bind_apply, scan_undefined]
    exact ih _

theorem load_undefined_throws (env : Env) (id : DictId) (dirs : List Str) (dir w : Str) (hd : dir ∈ dirs) (h : env.fs.openDirectory dir = .error w) : ∀ m : Manager,
    ∃ w' log, loadDirs env id none dirs m = .exn w' { m with log := log } := by
  induction dirs with
  | nil => cases hd
  | cons x t ih =>
    intro m
    unfold loadDirs
    cases hf : env.fs.openDirectory x with
    | error w' => exact ⟨w', m.log, rfl⟩
    | ok files =>
      simp only [prog_bind, bind_apply, scan_undefined]
      rcases List.mem_cons.1 hd with rfl | hd
      · rw [h] at hf; cases hf
      · exact ih hd _

end Rels

/-- C84.  If no assertion fails in a parse, it ends in the same way, with the same dictionary and messages, if the library is compiled
without assertions. -/
theorem C84_parse_same (c : Cfg) (input : Stream) (d : Dictionary) (h : observe (run c input d) ≠ .crashed .assertFailed) :
    observe (runRelease c input d) = observe (run c input d) := by
  rcases Rel.run_le c input d with h' | h'
  · exact absurd (by rw [h']; rfl) h
  · rw [h']

/-- C84.  Without assertions no stream makes a parse abort, whatever `iconv` does (but for the overflow of the line counter). -/
theorem C84_parse_no_abort (c : Cfg) (input : Stream) (d : Dictionary) (f : Fault) (h : observe (runRelease c input d) = .crashed f) :
    f = .signedOverflow :=
  C24_no_abort { c with lib := c.lib.unasserted } (Rels.unasserted_tame _) input d f h

/-- C84.  What a converter that is open (or none) returns and logs in a parse without assertions. -/
theorem C84_convert (lib : IconvLib) (cv : IConv) (text : Str) (h : cv.cd ≠ .invalid) :
    ∃ cv', cv.convert lib.unasserted text = .ok (cv.convertRelease lib text).1 cv' (cv.convertRelease lib text).2 := by
  unfold IConv.convert IConv.convertRelease
  cases hc : cv.cd with
  | null => exact ⟨_, rfl⟩
  | invalid => exact absurd hc h
  | opened id to fr hist =>
    dsimp only [IconvLib.unasserted]
    cases (lib.conv to fr hist text (4 * text.length)).status <;> exact ⟨_, rfl⟩

/-- C84.  A session of calls that all come back has the same outcomes, messages included, and leaves the manager in the same state, if
the library is compiled without assertions. -/
theorem C84_sessions (m m' : Manager) (s : List (Env × Call)) (os : List Outcome) (h : session m s = some (os, m')) :
    sessionRelease m s = some (os, m') := by
  induction s generalizing m os with
  | nil => exact h
  | cons x t ih =>
    obtain ⟨env, c⟩ := x
    rw [session] at h
    rw [sessionRelease]
    have e : ∀ o m1, c.outcome env m = some (o, m1) → c.outcomeRelease env m = some (o, m1) := by
      intro o m1 ho
      unfold Call.outcome at ho
      unfold Call.outcomeRelease
      rcases Rels.run_le env c m with h' | h'
      · rw [h'] at ho; cases ho
      · rw [← h']; exact ho
    cases ho : c.outcome env m with
    | none => rw [ho] at h; cases h
    | some y =>
      obtain ⟨o, m1⟩ := y
      rw [ho] at h
      rw [e o m1 ho]
      dsimp only at h ⊢
      cases hs : session m1 t with
      | none => rw [hs] at h; cases h
      | some z =>
        rw [hs] at h
        obtain ⟨os', m2⟩ := z
        simp only [Option.map_some, Option.some.injEq, Prod.mk.injEq] at h
        obtain ⟨rfl, rfl⟩ := h
        rw [ih m1 os' hs]
        rfl

/-- C84.  Without assertions no call on a manager aborts, whatever `iconv` does, or uses a dictionary that was deleted. -/
theorem C84_no_crash (cs : Str) (m : Manager) (hr : Reach cs m) (env : Env) (c : Call) (hd : c ≠ .getDictionaryFor none)
    (hc : ∀ id, c.target? = some id → m.heap.get? id ≠ none) (f : Fault) (h : c.runRelease env m = .fault f) : f = .signedOverflow := by
  refine C47_no_crash cs m hr (Rels.relaxed env) (Rels.unasserted_tame _) c hd hc f ?_
  rw [← h]
  cases c with
  | getDictionary =>
    have : Manager.getDictionary (Rels.relaxed env) m = getDictionaryRelease env m := by
      unfold Manager.getDictionary getDictionaryRelease
      simp only [prog_bind, bind_apply, Prog.get]
      cases m.currentDict with
      | some p => rfl
      | none =>
        dsimp only
        split
        · rename_i hl
          rw [bind_apply, bind_apply, Rels.release_eq env _ _ hl]
        · rfl
    simp only [Call.run, Call.runRelease, prog_bind, bind_apply, this]
  | getDictionaryFor l =>
    have hl : l.isDefined = true := by
      cases l with
      | none => exact absurd rfl hd
      | some i => rfl
    simp only [Call.run, Call.runRelease, prog_bind, bind_apply, Rels.release_eq env _ _ hl]
  | getLanguages =>
    have : ∀ dirs acc, collectDirs (Rels.relaxed env) dirs acc = collectDirs env dirs acc := by
      intro dirs
      induction dirs with
      | nil => intro acc; rfl
      | cons dir t ih => intro acc; simp only [collectDirs, ih]
    simp only [Call.run, Call.runRelease, Manager.getLanguages, prog_bind, bind_apply, this]
  | _ => rfl

/-- C84.  `get_dictionary()` of an undefined language, which is an error with assertions: without them an empty dictionary is made the
first time, and returned from then on.  (If a directory cannot be listed, an exception is thrown the first time.) -/
theorem C84_undefined (env : Env) (n : Nat) (m : Manager) :
    (∀ p, m.dictionaries.get? none = some p → getDictionaryForRelease env (n + 1) none m = .ok p m) ∧
    (m.dictionaries.get? none = none → (∀ dir ∈ m.searchPath, ∃ files, env.fs.openDirectory dir = .ok files) →
      ∃ m', getDictionaryForRelease env (n + 1) none m = .ok m.nextId m' ∧ unlogged m' = unlogged { m with
        heap := m.heap.set m.nextId (Dictionary.init m.charset), nextId := m.nextId + 1, dictionaries := m.dictionaries.set none m.nextId }) ∧
    (m.dictionaries.get? none = none → ∀ dir ∈ m.searchPath, ∀ w, env.fs.openDirectory dir = .error w →
      ∃ w' m', getDictionaryForRelease env (n + 1) none m = .exn w' m' ∧ m'.dictionaries.get? none = some m.nextId) := by
  refine ⟨?_, ?_, ?_⟩
  · intro p hp
    unfold getDictionaryForRelease
    simp only [prog_bind, bind_apply, Prog.get, hp]
    rfl
  · intro hn hd
    unfold getDictionaryForRelease
    have h1 : newDict none m = .ok m.nextId (fresh none m) := rfl
    obtain ⟨log, hlog⟩ := Rels.load_undefined (Rels.relaxed env) m.nextId m.searchPath.reverse (fun dir h => hd dir (List.mem_reverse.1 h)) (fresh none m)
    simp only [prog_bind, bind_apply, Prog.get, hn, h1, hlog]
    exact ⟨_, rfl, rfl⟩
  · intro hn dir hdir w hw
    unfold getDictionaryForRelease
    have h1 : newDict none m = .ok m.nextId (fresh none m) := rfl
    obtain ⟨w', log, hlog⟩ := Rels.load_undefined_throws (Rels.relaxed env) m.nextId m.searchPath.reverse dir w (List.mem_reverse.2 hdir) hw (fresh none m)
    simp only [prog_bind, bind_apply, Prog.get, hn, h1, hlog]
    exact ⟨_, _, rfl, fresh_get m none⟩

/-! Concrete cases -/

/-- A converter that makes five bytes of each byte. -/
def fiveLib : IconvLib where
  iconvOpen _ _ := .ok
  conv _ _ _ text cap := ⟨(text.flatMap (fun b => [b, b, b, b, b])).take cap, if cap < 5 * text.length then .e2big else .ok⟩
  conv_cap := by intro to fr hist text cap; simp; omega

-- with assertions the parse aborts; without, as much of the string is kept as there was room for
example : observe (run ⟨.c, fiveLib, true, b!"f", true, 200⟩ (.ofBytes b!"msgid \"\"\nmsgstr \"Content-Type: text/plain; charset=x\\n\"\n\nmsgid \"a\"\nmsgstr \"bc\"\n") (.init b!"UTF-8"))
      = .crashed .assertFailed ∧
    (match (generalizing := false) observe (runRelease ⟨.c, fiveLib, true, b!"f", true, 200⟩ (.ofBytes b!"msgid \"\"\nmsgstr \"Content-Type: text/plain; charset=x\\n\"\n\nmsgid \"a\"\nmsgstr \"bc\"\n") (.init b!"UTF-8")) with
      | .returned d _ => d.entries.get? b!"a" == some [b!"bbbbbccc"]
      | _ => false) = true := by
  constructor <;> decide +kernel

-- a session whose calls all come back
example : (session (.init b!"UTF-8") [(demoEnv, .addDirectory b!"hi" false), (demoEnv, .getDictionaryFor atLang), (demoEnv, .ask 1 (.translate b!"potato"))]).map Prod.fst
    = some [.returned .done, .returned (.dict 1), .returned (.text b!"Erdapfel")] := by
  decide +kernel

-- an undefined language
example : (sessionRelease (.init b!"UTF-8") [(demoEnv, .addDirectory b!"hi" false), (demoEnv, .getDictionaryFor none), (demoEnv, .getDictionaryFor none),
      (demoEnv, .ask 1 (.translate b!"potato"))]).map Prod.fst
    = some [.returned .done, .returned (.dict 1), .returned (.dict 1), .returned (.text b!"potato")] ∧
    (session (.init b!"UTF-8") [(demoEnv, .getDictionaryFor none)]).isNone = true := by
  constructor <;> decide +kernel

end Tgt
