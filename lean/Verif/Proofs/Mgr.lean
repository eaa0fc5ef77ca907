import Verif.Props.Parse
import Verif.Props.Language
import Verif.Proofs.FirstMax
import Verif.Spec.Manager
/-
Loading files into a dictionary, without the heap.
-/
namespace Tgt

/-- Apply a function to the state of a result. -/
def Res.mapS {σ τ α : Type} (g : σ → τ) : Res σ α → Res τ α
  | .ok a s => .ok a (g s)
  | .poError s => .poError (g s)
  | .exn w s => .exn w (g s)
  | .fault f => .fault f
  | .diverge => .diverge

theorem Res.mapS_mapS {σ τ υ α : Type} (g : σ → τ) (h : τ → υ) (r : Res σ α) : (r.mapS g).mapS h = r.mapS (fun s => h (g s)) := by
  cases r <;> rfl

namespace Mgr
open Spec Manager POParser

/-- The effect of parsing an input, whatever the fuel (if it ends). -/
def peff (c : Cfg) (input : Stream) (cs : Str) : Effect :=
  effectOf (parseCore (Cfg.fuelled c (c.fuel + input.rest.length + 1)) input cs)

/-- The crashes of a parse: the line counter overflow, and the assertion on a misbehaving converter. -/
def FaultOk (lib : IconvLib) (f : Fault) : Prop := f = .signedOverflow ∨ (f = .assertFailed ∧ ¬ TameLib lib)

theorem run_cases (c : Cfg) (input : Stream) (d : Dictionary) :
    (∃ s, run c input d = .ok () s ∧ s.dict = (peff c input d.charset).applyTo d) ∨
    (∃ w s, run c input d = .exn w s ∧ s.dict = (peff c input d.charset).applyTo d) ∨
    (∃ f, run c input d = .fault f ∧ FaultOk c.lib f) ∨ run c input d = .diverge := by
  rcases run_mono c (c.fuel + input.rest.length + 1) (by omega) input d with h | h
  · exact .inr (.inr (.inr h))
  · have he := run_effect (Cfg.fuelled c (c.fuel + input.rest.length + 1)) input d (by show _ < c.fuel + input.rest.length + 1; omega)
    rw [← h] at he
    have hp : effectOf (parseCore (Cfg.fuelled c (c.fuel + input.rest.length + 1)) input d.charset) = peff c input d.charset := rfl
    rw [hp] at he
    cases hr : run c input d with
    | ok a s =>
      rw [hr] at he
      refine .inl ⟨s, rfl, ?_⟩
      cases hk : endingOf (events (Cfg.fuelled c (c.fuel + input.rest.length + 1)).ct (Cfg.fuelled c (c.fuel + input.rest.length + 1)).fuel input).2 (parseCore (Cfg.fuelled c (c.fuel + input.rest.length + 1)) input d.charset) <;>
        rw [hk] at he <;> simp [observe, Observed.noLog, Observed.mapLog, Ending.at] at he
      exact he
    | exn w s =>
      rw [hr] at he
      refine .inr (.inl ⟨w, s, rfl, ?_⟩)
      cases hk : endingOf (events (Cfg.fuelled c (c.fuel + input.rest.length + 1)).ct (Cfg.fuelled c (c.fuel + input.rest.length + 1)).fuel input).2 (parseCore (Cfg.fuelled c (c.fuel + input.rest.length + 1)) input d.charset) <;>
        rw [hk] at he <;> simp [observe, Observed.noLog, Observed.mapLog, Ending.at] at he
      exact he.2
    | poError s =>
      rw [hr] at he
      cases hk : endingOf (events (Cfg.fuelled c (c.fuel + input.rest.length + 1)).ct (Cfg.fuelled c (c.fuel + input.rest.length + 1)).fuel input).2 (parseCore (Cfg.fuelled c (c.fuel + input.rest.length + 1)) input d.charset) <;>
        rw [hk] at he <;> simp [observe, Observed.noLog, Observed.mapLog, Ending.at] at he
    | fault f =>
      refine .inr (.inr (.inl ⟨f, rfl, ?_⟩))
      rcases C24_memory_safe c input d f (by rw [hr]; rfl) with h | h
      · exact .inl h
      · exact .inr ⟨h, fun ht => by have := C24_no_abort c ht input d f (by rw [hr]; rfl); rw [h] at this; cases this⟩
    | diverge => exact .inr (.inr (.inr rfl))

/-- The parser settings the manager uses. -/
def cfgOf (env : Env) (pofile : Str) : Cfg := ⟨env.ct, env.lib, env.pedantic, pofile, true, env.fuel⟩

/-! ### Scanning a directory -/

theorem hasSuffix_iff (f : Str) (s : Str) : hasSuffix f s = true ↔ s <:+ f := by
  unfold hasSuffix
  split
  · rename_i h
    simp only [Bool.false_eq_true, false_iff]
    intro h'
    have := h'.length_le
    omega
  · rename_i h
    simp only [beq_iff_eq]
    constructor
    · intro h'
      refine ⟨f.take (f.length - s.length), ?_⟩
      have h2 : (f.drop (f.length - s.length)).take s.length = f.drop (f.length - s.length) := by
        apply List.take_of_length_le
        rw [List.length_drop]; omega
      rw [h2] at h'
      have h3 := List.take_append_drop (f.length - s.length) f
      rw [h'] at h3
      exact h3
    · rintro ⟨t, rfl⟩
      simp

/-- One file. -/
def scanStep (ct : CType) (l : Language) (b : Str × Nat) (f : Str) : Str × Nat :=
  if fileScore ct l f > b.2 then (f, fileScore ct l f) else b

/-- The messages of a scan. -/
def scanLog (ct : CType) : List Str → List Diag
  | [] => []
  | f :: t =>
    if hasSuffix f b!".po" && !(Language.fromEnv ((convertFilename2Language ct f).getD [])).isDefined then
      .unknownLanguage f :: scanLog ct t
    else scanLog ct t

theorem match_undefined {l : Language} (h : l.isDefined = true) : Language.match l none = 0 := by
  refine (C05_match_range l none).1.2 ?_
  cases l with
  | none => cases h
  | some i =>
    have := (Lang.table_parts _ (Lang.derefLang_mem i)).2.2.1
    exact this

theorem scanFiles_eq (env : Env) {l : Language} (hl : l.isDefined = true) (files : List Str) : ∀ (b : Str × Nat) (m : Manager),
    scanFiles env l files b m = .ok (files.foldl (scanStep env.ct l) b) { m with log := m.log ++ scanLog env.ct files } := by
  induction files with
  | nil => intro b m; simp [scanFiles, scanLog, Prog.pure]
  | cons f t ih =>
    intro b m
    rw [scanFiles]
    by_cases hs : hasSuffix f b!".po" = true
    · rw [if_pos hs]
      have h3 : b!".po" <:+ f := (hasSuffix_iff f _).1 hs
      have hlen : ¬ f.length < 3 := by have := h3.length_le; simpa using this
      cases hc : convertFilename2Language env.ct f with
      | none => exact absurd ((C13_throws_iff env.ct f).1 hc) hlen
      | some name =>
        have hsc : fileScore env.ct l f = Language.match l (Language.fromEnv name) := by
          unfold fileScore
          rw [if_pos h3, hc]
        dsimp only
        by_cases hd : (Language.fromEnv name).isDefined = true
        · rw [if_neg (by simp [hd])]
          have hlog : scanLog env.ct (f :: t) = scanLog env.ct t := by simp [scanLog, hc, hd]
          rw [hlog, List.foldl_cons, scanStep, hsc]
          split
          · exact ih _ _
          · exact ih _ _
        · have hd' : (Language.fromEnv name).isDefined = false := by simpa using hd
          rw [if_pos (by simp [hd'])]
          have hlog : scanLog env.ct (f :: t) = .unknownLanguage f :: scanLog env.ct t := by simp [scanLog, hc, hd', hs]
          have hn : Language.fromEnv name = none := by simpa [Language.isDefined] using hd'
          rw [hlog, List.foldl_cons, scanStep, hsc, hn, match_undefined hl, if_neg (by omega)]
          show scanFiles env l t b { m with log := m.log ++ [Diag.unknownLanguage f] } = _
          rw [ih]
          simp
    · have hs' : hasSuffix f b!".po" = false := by simpa using hs
      rw [if_neg hs]
      have hsc : fileScore env.ct l f = 0 := by
        unfold fileScore
        rw [if_neg (fun h => hs ((hasSuffix_iff f _).2 h))]
      rw [List.foldl_cons, scanStep, hsc, if_neg (by omega), ih]
      simp [scanLog, hs']

theorem fileScore_ne_nil {ct : CType} {l : Language} {f : Str} (h : 0 < fileScore ct l f) : f ≠ [] := by
  rintro rfl
  unfold fileScore at h
  rw [if_neg (by decide)] at h
  omega

/-- What the scan finds. -/
theorem scan_best (ct : CType) (l : Language) (files : List Str) :
    (NoFile ct l files ∧ files.foldl (scanStep ct l) ([], 0) = ([], 0)) ∨
    ∃ f, BestFile ct l files f ∧ files.foldl (scanStep ct l) ([], 0) = (f, fileScore ct l f) := by
  rcases foldl_firstMax (fileScore ct l) id (scanStep ct l) (fun b x => rfl) files ([], 0) with ⟨h1, h2⟩ | ⟨l1, x, l2, h1, h2, h3, h4, h5⟩
  · refine .inl ⟨fun f hf => by have := h2 f hf; simp at this; exact this, h1⟩
  · exact .inr ⟨x, ⟨l1, l2, h1, h3, h4, h5⟩, h2⟩

/-! ### Loading -/

/-- Contents of a dictionary, and messages. -/
abbrev DL := Dictionary × List Diag

/-- Parse a stream into a dictionary, catching exceptions. -/
def parse1 (env : Env) (pofile : Str) (s : Stream) : Prog DL Unit := fun x =>
  match run (cfgOf env pofile) s x.1 with
  | .ok _ s => .ok () (s.dict, x.2 ++ s.log)
  | .exn w s => .ok () (s.dict, x.2 ++ s.log ++ [.parseFailure pofile, .parseFailureWhat w])
  | .poError s => .poError (s.dict, x.2 ++ s.log)
  | .fault f => .fault f
  | .diverge => .diverge

/-- Load a file. -/
def file1 (env : Env) (dir f : Str) : Prog DL Unit := fun x =>
  match env.fs.openFile (dir ++ b!"/" ++ f) with
  | .throws w => .ok () (x.1, x.2 ++ [.parseFailure (dir ++ b!"/" ++ f), .parseFailureWhat w])
  | .null => .ok () (x.1, x.2 ++ [.openFailure (dir ++ b!"/" ++ f)])
  | .stream s => parse1 env (dir ++ b!"/" ++ f) s x

/-- Load the best of some files. -/
def files1 (env : Env) (l : Language) (dir : Str) (files : List Str) : Prog DL Unit := fun x =>
  if (files.foldl (scanStep env.ct l) ([], 0)).1.isEmpty then .ok () (x.1, x.2 ++ scanLog env.ct files)
  else file1 env dir (files.foldl (scanStep env.ct l) ([], 0)).1 (x.1, x.2 ++ scanLog env.ct files)

/-- Load directories. -/
def dirs1 (env : Env) (l : Language) : List Str → Prog DL Unit
  | [] => Prog.pure ()
  | dir :: t =>
    match env.fs.openDirectory dir with
    | .error w => Prog.throwExn w
    | .ok files => Prog.bind (files1 env l dir files) (fun _ => dirs1 env l t)

/-- A manager with new contents for a dictionary, and messages. -/
def put (m : Manager) (id : DictId) (x : DL) : Manager := { m with heap := m.heap.set id x.1, log := x.2 }

theorem put_put (m : Manager) (id : DictId) (x y : DL) : put (put m id x) id y = put m id y := by
  simp [put, AMap.set_set]

theorem put_self (m : Manager) (id : DictId) (d : Dictionary) (h : m.heap.get? id = some d) (l : List Diag) :
    put m id (d, l) = { m with log := l } := by
  simp [put, AMap.set_same h]

theorem parseInto_eq (env : Env) (id : DictId) (pofile : Str) (s : Stream) (m : Manager) (d : Dictionary)
    (h : m.heap.get? id = some d) :
    parseInto env id pofile s m = (parse1 env pofile s (d, m.log)).mapS (put m id) := by
  unfold parseInto parse1
  rw [h]
  dsimp only
  have : POParser.parse ⟨env.ct, env.lib, env.pedantic, pofile, true, env.fuel⟩ s d = run (cfgOf env pofile) s d := rfl
  rw [this]
  cases run (cfgOf env pofile) s d <;> rfl

theorem loadFile_eq (env : Env) (id : DictId) (dir f : Str) (m : Manager) (d : Dictionary)
    (h : m.heap.get? id = some d) (hf : f.isEmpty = false) :
    loadFile env id dir f m = (file1 env dir f (d, m.log)).mapS (put m id) := by
  unfold loadFile file1
  rw [hf]
  simp only [Bool.not_false, if_true]
  cases env.fs.openFile (dir ++ b!"/" ++ f) with
  | null => simp [Manager.emit, Res.mapS, put_self m id d h]
  | throws w => simp [Manager.emit, Res.mapS, put_self m id d h]
  | stream s => exact parseInto_eq env id _ s m d h

theorem files_eq (env : Env) (id : DictId) {l : Language} (hl : l.isDefined = true) (dir : Str) (files : List Str) (m : Manager) (d : Dictionary)
    (h : m.heap.get? id = some d) :
    Prog.bind (scanFiles env l files ([], 0)) (fun best => loadFile env id dir best.1) m
      = (files1 env l dir files (d, m.log)).mapS (put m id) := by
  rw [bind_apply, scanFiles_eq env hl]
  dsimp only
  unfold files1
  cases he : (files.foldl (scanStep env.ct l) ([], 0)).1.isEmpty with
  | true =>
    simp only [if_true]
    unfold loadFile
    rw [he]
    simp [Res.mapS, Prog.pure, put_self m id d h]
  | false =>
    simp only [Bool.false_eq_true, if_false]
    have h' : ({ m with log := m.log ++ scanLog env.ct files } : Manager).heap.get? id = some d := h
    rw [loadFile_eq env id dir _ _ d h' he]
    rfl

theorem loadDirs_eq (env : Env) (id : DictId) {l : Language} (hl : l.isDefined = true) (dirs : List Str) : ∀ (m : Manager) (d : Dictionary),
    m.heap.get? id = some d → loadDirs env id l dirs m = (dirs1 env l dirs (d, m.log)).mapS (put m id) := by
  induction dirs with
  | nil => intro m d h; simp [loadDirs, dirs1, Prog.pure, Res.mapS, put_self m id d h]
  | cons dir t ih =>
    intro m d h
    unfold loadDirs dirs1
    cases env.fs.openDirectory dir with
    | error w => simp [Prog.throwExn, Res.mapS, put_self m id d h]
    | ok files =>
      dsimp only
      have e1 : (do
          let best ← scanFiles env l files ([], 0)
          loadFile env id dir best.1
          loadDirs env id l t) m
        = Prog.bind (Prog.bind (scanFiles env l files ([], 0)) (fun best => loadFile env id dir best.1)) (fun _ => loadDirs env id l t) m := by
        show Prog.bind _ _ m = _
        simp only [bind_apply]
        cases scanFiles env l files ([], 0) m with
        | ok a s => rfl
        | _ => rfl
      rw [e1, bind_apply, files_eq env id hl dir files m d h, bind_apply]
      cases hx : files1 env l dir files (d, m.log) with
      | ok a x =>
        simp only [Res.mapS]
        have hg : (put m id x).heap.get? id = some x.1 := AMap.get?_set_self _ _ _
        rw [ih (put m id x) x.1 hg]
        have : (put m id x).log = x.2 := rfl
        rw [this]
        congr 1
        funext y
        exact put_put m id x y
      | _ => rfl

/-! ### What loading can do -/

/-- Nothing but entries and the plural rule differ. -/
def Like (d d' : Dictionary) : Prop := d'.charset = d.charset ∧ d'.hasFallback = d.hasFallback ∧ d'.fallback = d.fallback

theorem Like.refl (d : Dictionary) : Like d d := ⟨rfl, rfl, rfl⟩
theorem Like.trans {a b c : Dictionary} (h : Like a b) (h' : Like b c) : Like a c :=
  ⟨h'.1.trans h.1, h'.2.1.trans h.2.1, h'.2.2.trans h.2.2⟩

theorem like_apply (a : Add) (d : Dictionary) : Like d (a.apply d).1 := by
  cases a with
  | singular c i s => cases c <;> exact ⟨rfl, rfl, rfl⟩
  | plural c i p v => cases c <;> exact ⟨rfl, rfl, rfl⟩

theorem like_addAll (l : List Add) : ∀ d : Dictionary, Like d (addAll d l) := by
  induction l with
  | nil => intro d; exact .refl d
  | cons a l ih => intro d; exact (like_apply a d).trans (ih _)

theorem like_applyTo (e : Effect) (d : Dictionary) : Like d (e.applyTo d) := like_addAll e.adds d

/-- A result on dictionary contents: keeps charset and fallback, logs only additions, no POParserError, no crash other
than those of the parser. -/
def Sane (lib : IconvLib) (x : DL) : Res DL Unit → Prop
  | .ok _ y => Like x.1 y.1 ∧ x.2 <+: y.2
  | .exn _ y => Like x.1 y.1 ∧ x.2 <+: y.2
  | .poError _ => False
  | .fault f => FaultOk lib f
  | .diverge => True

theorem sane_parse1 (env : Env) (pofile : Str) (s : Stream) (x : DL) : Sane env.lib x (parse1 env pofile s x) := by
  unfold parse1
  rcases run_cases (cfgOf env pofile) s x.1 with ⟨st, h, hd⟩ | ⟨w, st, h, hd⟩ | ⟨f, h, hf⟩ | h
  · rw [h]; exact ⟨by rw [hd]; exact like_applyTo _ _, ⟨_, rfl⟩⟩
  · rw [h]; exact ⟨by rw [hd]; exact like_applyTo _ _, ⟨st.log ++ [.parseFailure pofile, .parseFailureWhat w], by simp⟩⟩
  · rw [h]; exact hf
  · rw [h]; trivial

theorem sane_file1 (env : Env) (dir f : Str) (x : DL) : Sane env.lib x (file1 env dir f x) := by
  unfold file1
  split
  · exact ⟨.refl _, ⟨_, rfl⟩⟩
  · exact ⟨.refl _, ⟨_, rfl⟩⟩
  · exact sane_parse1 env _ _ x

theorem Sane.weaken {lib : IconvLib} {x y : DL} (h1 : Like x.1 y.1) (h2 : x.2 <+: y.2) {r : Res DL Unit} (h : Sane lib y r) : Sane lib x r := by
  cases r with
  | ok a z => exact ⟨h1.trans h.1, h2.trans h.2⟩
  | exn w z => exact ⟨h1.trans h.1, h2.trans h.2⟩
  | poError z => exact h
  | fault f => exact h
  | diverge => trivial

theorem sane_files1 (env : Env) (l : Language) (dir : Str) (files : List Str) (x : DL) : Sane env.lib x (files1 env l dir files x) := by
  unfold files1
  split
  · exact ⟨.refl _, ⟨_, rfl⟩⟩
  · exact Sane.weaken (x := x) (y := (x.1, x.2 ++ scanLog env.ct files)) (.refl _) (List.prefix_append _ _) (sane_file1 env dir _ _)

theorem sane_dirs1 (env : Env) (l : Language) (dirs : List Str) : ∀ x : DL, Sane env.lib x (dirs1 env l dirs x) := by
  induction dirs with
  | nil => intro x; exact ⟨.refl _, List.prefix_refl _⟩
  | cons dir t ih =>
    intro x
    unfold dirs1
    cases env.fs.openDirectory dir with
    | error w => exact ⟨.refl _, List.prefix_refl _⟩
    | ok files =>
      dsimp only
      rw [bind_apply]
      have h := sane_files1 env l dir files x
      split
      · rename_i hx; rw [hx] at h; exact (ih _).weaken h.1 h.2
      · rename_i hx; rw [hx] at h; exact h
      · rename_i hx; rw [hx] at h; exact h
      · rename_i hx; rw [hx] at h; exact h
      · trivial

/-- Messages logged before have no influence. -/
theorem parse1_log (env : Env) (pofile : Str) (s : Stream) (d : Dictionary) (log : List Diag) :
    parse1 env pofile s (d, log) = (parse1 env pofile s (d, [])).mapS (fun y => (y.1, log ++ y.2)) := by
  unfold parse1
  dsimp only
  cases run (cfgOf env pofile) s d <;> simp [Res.mapS]

theorem file1_log (env : Env) (dir f : Str) (d : Dictionary) (log : List Diag) :
    file1 env dir f (d, log) = (file1 env dir f (d, [])).mapS (fun y => (y.1, log ++ y.2)) := by
  unfold file1
  cases env.fs.openFile (dir ++ b!"/" ++ f) with
  | null => simp [Res.mapS]
  | throws w => simp [Res.mapS]
  | stream s => exact parse1_log env _ s d log

theorem files1_log (env : Env) (l : Language) (dir : Str) (files : List Str) (d : Dictionary) (log : List Diag) :
    files1 env l dir files (d, log) = (files1 env l dir files (d, [])).mapS (fun y => (y.1, log ++ y.2)) := by
  unfold files1
  split
  · simp [Res.mapS]
  · dsimp only
    rw [file1_log, file1_log env dir _ d ([] ++ _), Res.mapS_mapS]
    simp

theorem dirs1_log (env : Env) (l : Language) (dirs : List Str) : ∀ (d : Dictionary) (log : List Diag),
    dirs1 env l dirs (d, log) = (dirs1 env l dirs (d, [])).mapS (fun y => (y.1, log ++ y.2)) := by
  induction dirs with
  | nil => intro d log; simp [dirs1, Prog.pure, Res.mapS]
  | cons dir t ih =>
    intro d log
    unfold dirs1
    cases env.fs.openDirectory dir with
    | error w => simp [Prog.throwExn, Res.mapS]
    | ok files =>
      dsimp only
      rw [bind_apply, bind_apply, files1_log]
      cases files1 env l dir files (d, []) with
      | ok a y =>
        obtain ⟨d1, l1⟩ := y
        show dirs1 env l t (d1, log ++ l1) = Res.mapS _ (dirs1 env l t (d1, l1))
        rw [ih d1 (log ++ l1), ih d1 l1, Res.mapS_mapS]
        simp
      | _ => rfl

end Mgr
end Tgt
