import Verif.Spec.Changing
import Verif.Proofs.MgrCalls
import Verif.Props.Worlds
/-
Loading from a file system that changes.
-/
namespace Tgt.Chg
open Spec Manager Mgr POParser

/-- The accesses made for one directory: the listing, and the best file if there is one. -/
def cost (ct : CType) (l : Language) (files : List Str) : Nat :=
  if (files.foldl (scanStep ct l) ([], 0)).1.isEmpty then 1 else 2

/-- Load directories. -/
def dirsC (env : Env) (fs : Nat → FileSys) (l : Language) : List Str → Prog (DL × Nat) Unit
  | [] => Prog.pure ()
  | dir :: rest => fun x =>
    match (fs x.2).openDirectory dir with
    | .error w => .exn w (x.1, x.2 + 1)
    | .ok files =>
      match (files1 (Spec.Env.still env (fs (x.2 + 1))) l dir files x.1).mapS (fun y => (y, x.2 + cost env.ct l files)) with
      | .ok _ y => dirsC env fs l rest y
      | .poError y => .poError y
      | .exn w y => .exn w y
      | .fault f => .fault f
      | .diverge => .diverge

theorem lift_eq {α : Type} (p : M α) (m : Manager) (t : Nat) : Changing.lift p (m, t) = (p m).mapS (fun m => (m, t)) := by
  unfold Changing.lift
  cases p m <;> rfl

theorem opening_eq (fs : Nat → FileSys) (p : Str) (m : Manager) (t : Nat) : Changing.opening fs p (m, t) = .ok ((fs t).openFile p) (m, t + 1) := rfl
theorem listing_eq (fs : Nat → FileSys) (p : Str) (m : Manager) (t : Nat) : Changing.listing fs p (m, t) = .ok ((fs t).openDirectory p) (m, t + 1) := rfl
theorem parseInto_still (env : Env) (g : FileSys) (id : DictId) (f : Str) (s : Stream) : parseInto env id f s = parseInto (Spec.Env.still env g) id f s := rfl
theorem scanFiles_still (env : Env) (g : FileSys) (l : Language) (files : List Str) : ∀ b, scanFiles env l files b = scanFiles (Spec.Env.still env g) l files b := by
  induction files with
  | nil => intro b; rfl
  | cons f t ih => intro b; simp only [scanFiles, ih]; rfl

theorem loadFile_still (env : Env) (fs : Nat → FileSys) (id : DictId) (dir f : Str) (m : Manager) (t : Nat) :
    Changing.loadFile env fs id dir f (m, t)
      = (Manager.loadFile (Spec.Env.still env (fs t)) id dir f m).mapS (fun m => (m, t + if f.isEmpty then 0 else 1)) := by
  unfold Changing.loadFile Manager.loadFile
  cases hf : f.isEmpty with
  | true => rfl
  | false =>
    simp only [Bool.not_false, if_true, Bool.false_eq_true, if_false]
    rw [bind_apply]
    rw [opening_eq]
    dsimp only
    show _ = Res.mapS _ ((match (fs t).openFile (dir ++ b!"/" ++ f) with
      | .throws w => Manager.emit [.parseFailure (dir ++ b!"/" ++ f), .parseFailureWhat w]
      | .null => Manager.emit [.openFailure (dir ++ b!"/" ++ f)]
      | .stream s => parseInto (Spec.Env.still env (fs t)) id (dir ++ b!"/" ++ f) s) m)
    cases (fs t).openFile (dir ++ b!"/" ++ f) with
    | null => rfl
    | throws w => rfl
    | stream s => dsimp only; rw [lift_eq]; rfl

theorem loadDirs_eq (env : Env) (fs : Nat → FileSys) (id : DictId) {l : Language} (hl : l.isDefined = true) (dirs : List Str) :
    ∀ (m : Manager) (d : Dictionary) (t : Nat), m.heap.get? id = some d →
      Changing.loadDirs env fs id l dirs (m, t) = (dirsC env fs l dirs ((d, m.log), t)).mapS (fun y => (put m id y.1, y.2)) := by
  induction dirs with
  | nil => intro m d t h; simp [Changing.loadDirs, dirsC, Prog.pure, Res.mapS, put_self m id d h]
  | cons dir rest ih =>
    intro m d t h
    unfold Changing.loadDirs dirsC
    rw [bind_apply]
    rw [listing_eq]
    dsimp only
    cases (fs t).openDirectory dir with
    | error w => simp [Prog.throwExn, Res.mapS, put_self m id d h]
    | ok files =>
      dsimp only
      have hb := files_eq (Spec.Env.still env (fs (t + 1))) id hl dir files m d h
      rw [bind_apply, lift_eq, scanFiles_still env (fs (t + 1)), scanFiles_eq _ hl] 
      rw [bind_apply, scanFiles_eq _ hl] at hb
      have hm : ∀ (a : Str × Nat) (m : Manager), (Res.ok a m : Res Manager (Str × Nat)).mapS (fun m => (m, t + 1)) = .ok a (m, t + 1) := fun _ _ => rfl
      rw [hm]
      dsimp only at hb ⊢
      rw [bind_apply, loadFile_still, hb]
      have hc : t + 1 + (if ((files.foldl (scanStep (Spec.Env.still env (fs (t + 1))).ct l) ([], 0)).1).isEmpty = true then 0 else 1)
          = t + cost env.ct l files := by
        unfold cost
        show t + 1 + (if ((files.foldl (scanStep env.ct l) ([], 0)).1).isEmpty = true then 0 else 1) = _
        split <;> rfl
      rw [hc]
      cases hx : files1 (Spec.Env.still env (fs (t + 1))) l dir files (d, m.log) with
      | ok a x =>
        simp only [Res.mapS]
        have hg : (put m id x).heap.get? id = some x.1 := AMap.get?_set_self _ _ _
        rw [ih (put m id x) x.1 _ hg]
        have : (put m id x).log = x.2 := rfl
        rw [this]
        show Res.mapS _ (dirsC env fs l rest (x, _)) = _
        congr 1
        funext y
        simp only [put_put]
      | _ => rfl

theorem sane_dirsC (env : Env) (fs : Nat → FileSys) (l : Language) (dirs : List Str) : ∀ (x : DL) (t : Nat),
    Sane env.lib x ((dirsC env fs l dirs (x, t)).mapS Prod.fst) := by
  induction dirs with
  | nil => intro x t; exact ⟨.refl _, List.prefix_refl _⟩
  | cons dir rest ih =>
    intro x t
    unfold dirsC
    cases (fs t).openDirectory dir with
    | error w => exact ⟨.refl _, List.prefix_refl _⟩
    | ok files =>
      dsimp only
      have h : Sane env.lib x (files1 (Spec.Env.still env (fs (t + 1))) l dir files x) := sane_files1 _ l dir files x
      cases hx : files1 (Spec.Env.still env (fs (t + 1))) l dir files x with
      | ok a y => rw [hx] at h; exact (ih _ _).weaken h.1 h.2
      | exn w y => rw [hx] at h; exact h
      | poError y => rw [hx] at h; exact h
      | fault f => rw [hx] at h; exact h
      | diverge => trivial

/-! ### A still world -/

/-- Two ways to split a path at a slash after which there is none. -/
theorem split_unique {d d' f f' : Str} (h : d ++ b!"/" ++ f = d' ++ b!"/" ++ f') (hf : (47 : Byte) ∉ f) (hf' : (47 : Byte) ∉ f') : d = d' ∧ f = f' := by
  have e : ∀ (a : Str) (b : Str), a ++ b!"/" ++ b = a ++ 47 :: b := by intro a b; simp
  rw [e, e] at h
  rcases List.append_eq_append_iff.1 h with ⟨t, h1, h2⟩ | ⟨t, h1, h2⟩
  · cases t with
    | nil => simp at h2; exact ⟨by simpa using h1.symm, h2⟩
    | cons a t =>
      simp only [List.cons_append, List.cons.injEq] at h2
      exact absurd (by rw [h2.2]; simp) hf
  · cases t with
    | nil => simp at h2; exact ⟨by simpa using h1, h2.symm⟩
    | cons a t =>
      simp only [List.cons_append, List.cons.injEq] at h2
      exact absurd (by rw [h2.2]; simp) hf'

/-- The directory `dir` of `a` and its files in `b`, everything else as in `c`. -/
noncomputable def mix (dir : Str) (a b c : FileSys) : FileSys where
  openDirectory p := if p = dir then a.openDirectory p else c.openDirectory p
  openFile p := open Classical in if ∃ f, p = dir ++ b!"/" ++ f ∧ (47 : Byte) ∉ f then b.openFile p else c.openFile p

theorem _root_.Tgt.Spec.MadeOf.le {fs : Nat → FileSys} {t t' : Nat} {g : FileSys} (h : MadeOf fs t t' g) : t ≤ t' := by
  obtain ⟨s, h1, h2, _⟩ := h.1 []
  omega

theorem _root_.Tgt.Spec.MadeOf.mix {fs : Nat → FileSys} {t t' u v s : Nat} {g : FileSys} (h : MadeOf fs s t' g) (hs : t ≤ s) (hu : t ≤ u ∧ u ≤ t') (hv : t ≤ v ∧ v ≤ t')
    (dir : Str) : MadeOf fs t t' (mix dir (fs u) (fs v) g) := by
  constructor
  · intro p
    by_cases e : p = dir
    · exact ⟨u, hu.1, hu.2, if_pos e⟩
    · obtain ⟨w, h1, h2, h3⟩ := h.1 p
      exact ⟨w, by omega, h2, (if_neg e).trans h3⟩
  · intro p
    by_cases e : ∃ f, p = dir ++ b!"/" ++ f ∧ (47 : Byte) ∉ f
    · exact ⟨v, hv.1, hv.2, if_pos e⟩
    · obtain ⟨w, h1, h2, h3⟩ := h.2 p
      exact ⟨w, by omega, h2, (if_neg e).trans h3⟩

theorem _root_.Tgt.Spec.MadeOf.self (fs : Nat → FileSys) (t t' : Nat) (h : t ≤ t') : MadeOf fs t t' (fs t) :=
  ⟨fun _ => ⟨t, Nat.le_refl _, h, rfl⟩, fun _ => ⟨t, Nat.le_refl _, h, rfl⟩⟩

/-- The best file is one of the files. -/
theorem best_mem (ct : CType) (l : Language) (files : List Str) (h : (files.foldl (scanStep ct l) ([], 0)).1.isEmpty = false) :
    (files.foldl (scanStep ct l) ([], 0)).1 ∈ files := by
  rcases scan_best ct l files with ⟨_, h2⟩ | ⟨f, ⟨b, a, h1, _⟩, h2⟩
  · rw [h2] at h; cases h
  · rw [h2, h1]; simp

theorem files1_mix (env : Env) (l : Language) (dir dir' : Str) (files : List Str) (hp : ∀ f ∈ files, (47 : Byte) ∉ f) (a b c : FileSys) :
    files1 (Spec.Env.still env (mix dir a b c)) l dir' files = files1 (Spec.Env.still env (if dir' = dir then b else c)) l dir' files := by
  funext x
  unfold files1
  show (if (files.foldl (scanStep env.ct l) ([], 0)).1.isEmpty = true then _ else _) = (if (files.foldl (scanStep env.ct l) ([], 0)).1.isEmpty = true then _ else _)
  cases he : (files.foldl (scanStep env.ct l) ([], 0)).1.isEmpty with
  | true => rfl
  | false =>
    simp only [Bool.false_eq_true, if_false]
    have hm := hp _ (best_mem env.ct l files he)
    show file1 _ dir' (files.foldl (scanStep env.ct l) ([], 0)).1 _ = file1 _ dir' (files.foldl (scanStep env.ct l) ([], 0)).1 _
    rw [Worlds.file1_same (env := Spec.Env.still env (mix dir a b c)) (env' := Spec.Env.still env (if dir' = dir then b else c)) ⟨rfl, rfl, rfl, rfl⟩]
    · rfl
    · show (mix dir a b c).openFile _ = (if dir' = dir then b else c).openFile _
      unfold mix
      by_cases e : dir' = dir
      · subst e
        dsimp only
        rw [if_pos ⟨_, rfl, hm⟩, if_pos rfl]
      · dsimp only
        rw [if_neg, if_neg e]
        rintro ⟨f, h1, h2⟩
        exact e (split_unique h1 hm h2).1

theorem dirs1_mix (env : Env) (l : Language) (dir : Str) (a b c : FileSys) (hp : ∀ d files, c.openDirectory d = .ok files → ∀ f ∈ files, (47 : Byte) ∉ f)
    (dirs : List Str) (hd : dir ∉ dirs) : dirs1 (Spec.Env.still env (mix dir a b c)) l dirs = dirs1 (Spec.Env.still env c) l dirs := by
  induction dirs with
  | nil => rfl
  | cons d rest ih =>
    have hne : d ≠ dir := fun e => hd (by rw [e]; simp)
    have ho : (Spec.Env.still env (mix dir a b c)).fs.openDirectory d = c.openDirectory d := if_neg hne
    unfold dirs1
    rw [ho, ih (fun h => hd (List.mem_cons_of_mem _ h))]
    show _ = (match c.openDirectory d with
      | .error w => Prog.throwExn w
      | .ok files => Prog.bind (files1 (Spec.Env.still env c) l d files) (fun _ => dirs1 (Spec.Env.still env c) l rest))
    cases hx : c.openDirectory d with
    | error w => rfl
    | ok files =>
      dsimp only
      rw [files1_mix env l dir d files (hp d files hx), if_neg hne]

theorem _root_.Tgt.Spec.MadeOf.plain {fs : Nat → FileSys} (hp : PlainNames fs) {t t' : Nat} {g : FileSys} (h : MadeOf fs t t' g) :
    ∀ d files, g.openDirectory d = .ok files → ∀ f ∈ files, (47 : Byte) ∉ f := by
  intro d files hg
  obtain ⟨s, _, _, h3⟩ := h.1 d
  exact hp s d files (h3.symm.trans hg)

/-- Loading in a changing world is loading in some still one. -/
theorem dirsC_still (env : Env) (fs : Nat → FileSys) (hp : PlainNames fs) (l : Language) (dirs : List Str) (hn : dirs.Nodup) : ∀ (x : DL) (t : Nat),
    ∃ g t', MadeOf fs t t' g ∧ dirsC env fs l dirs (x, t) = (dirs1 (Spec.Env.still env g) l dirs x).mapS (fun y => (y, t')) := by
  induction dirs with
  | nil => intro x t; exact ⟨fs t, t, .self fs t t (Nat.le_refl _), rfl⟩
  | cons dir rest ih =>
    intro x t
    have hn' := List.nodup_cons.1 hn
    cases ho : (fs t).openDirectory dir with
    | error w =>
      refine ⟨fs t, t + 1, .self fs t _ (Nat.le_succ _), ?_⟩
      unfold dirsC dirs1
      show _ = Res.mapS _ ((match (fs t).openDirectory dir with
        | .error w => Prog.throwExn w
        | .ok files => Prog.bind (files1 (Spec.Env.still env (fs t)) l dir files) (fun _ => dirs1 (Spec.Env.still env (fs t)) l rest)) x)
      dsimp only
      rw [ho]
      rfl
    | ok files =>
      have hpf := hp t dir files ho
      have hc : 1 ≤ cost env.ct l files := by unfold cost; split <;> omega
      have hmix : ∀ (g : FileSys), (∀ d files, g.openDirectory d = .ok files → ∀ f ∈ files, (47 : Byte) ∉ f) →
          dirs1 (Spec.Env.still env (mix dir (fs t) (fs (t + 1)) g)) l (dir :: rest)
          = Prog.bind (files1 (Spec.Env.still env (fs (t + 1))) l dir files) (fun _ => dirs1 (Spec.Env.still env g) l rest) := by
        intro g hg
        have ho' : (Spec.Env.still env (mix dir (fs t) (fs (t + 1)) g)).fs.openDirectory dir = .ok files := (if_pos rfl).trans ho
        rw [dirs1, ho']
        dsimp only
        rw [files1_mix env l dir dir files hpf, if_pos rfl, dirs1_mix env l dir _ _ g hg rest hn'.1]
      have hstop : ∀ r : Res DL Unit, files1 (Spec.Env.still env (fs (t + 1))) l dir files x = r → (∀ a y, r ≠ .ok a y) →
          ∃ g t', MadeOf fs t t' g ∧ dirsC env fs l (dir :: rest) (x, t) = (dirs1 (Spec.Env.still env g) l (dir :: rest) x).mapS (fun y => (y, t')) := by
        intro r hr hne
        have hm := MadeOf.self fs t (t + cost env.ct l files) (by omega)
        refine ⟨mix dir (fs t) (fs (t + 1)) (fs t), t + cost env.ct l files, hm.mix (Nat.le_refl _) ⟨Nat.le_refl _, by omega⟩ ⟨by omega, by omega⟩ dir, ?_⟩
        rw [hmix _ (hm.plain hp), bind_apply, hr]
        unfold dirsC
        dsimp only
        rw [ho]
        dsimp only
        rw [hr]
        cases r with
        | ok a y => exact absurd rfl (hne a y)
        | _ => rfl
      cases hr : files1 (Spec.Env.still env (fs (t + 1))) l dir files x with
      | ok a y =>
        obtain ⟨g, t', hm, he⟩ := ih hn'.2 y (t + cost env.ct l files)
        have hle := hm.le
        refine ⟨mix dir (fs t) (fs (t + 1)) g, t', hm.mix (by omega) ⟨Nat.le_refl _, by omega⟩ ⟨by omega, by omega⟩ dir, ?_⟩
        rw [hmix _ (hm.plain hp), bind_apply, hr]
        unfold dirsC
        dsimp only
        rw [ho]
        dsimp only
        rw [hr]
        exact he
      | exn w y => exact hstop _ hr (by simp)
      | poError y => exact hstop _ hr (by simp)
      | fault f => exact hstop _ hr (by simp)
      | diverge => exact hstop _ hr (by simp)

/-! ### `get_dictionary(language)` -/

/-- `get_dictionary(l)` if `l` is not cached. -/
theorem getFor_miss (env : Env) (fs : Nat → FileSys) (f : Nat) (l : Language) (m : Manager) (t : Nat) (hl : l.isDefined = true)
    (hn : m.dictionaries.get? l = none) :
    Changing.getDictionaryFor env fs (f + 1) l (m, t)
      = match (dirsC env fs l m.searchPath.reverse ((Dictionary.init m.charset, m.log), t)).mapS (fun y => (put (fresh l m) m.nextId y.1, y.2)) with
        | .ok _ m1 =>
          if l.getCountry = [] then .ok m.nextId m1
          else match Changing.getDictionaryFor env fs f (baseOf l) m1 with
            | .ok fb m2 => ((Manager.addFallback m.nextId fb >>= fun _ => Prog.pure m.nextId) m2.1).mapS (fun m => (m, m2.2))
            | .poError m2 => .poError m2
            | .exn w m2 => .exn w m2
            | .fault e => .fault e
            | .diverge => .diverge
        | .poError m1 => .poError m1
        | .exn w m1 => .exn w m1
        | .fault e => .fault e
        | .diverge => .diverge := by
  rw [Changing.getDictionaryFor, if_neg (by simp [hl])]
  simp only [bind_apply, Prog.get, hn]
  have h1 : Changing.lift (newDict l) (m, t) = .ok m.nextId (fresh l m, t) := rfl
  rw [h1]
  dsimp only
  have h2 := loadDirs_eq env fs m.nextId hl m.searchPath.reverse (fresh l m) _ t (fresh_heap m l)
  have h3 : (fresh l m).log = m.log := rfl
  rw [h3] at h2
  rw [h2]
  cases (dirsC env fs l m.searchPath.reverse ((Dictionary.init m.charset, m.log), t)).mapS (fun y => (put (fresh l m) m.nextId y.1, y.2)) with
  | ok a m1 =>
    dsimp only
    by_cases hc : l.getCountry = []
    · rw [if_pos hc]
      simp [hc, Prog.pure]
    · rw [if_neg hc]
      have hc' : (!l.getCountry.isEmpty) = true := by simpa using hc
      rw [hc']
      simp only [if_true]
      rw [bind_apply]
      have hb : Language.fromSpec l.getLanguage [] [] = baseOf l := rfl
      rw [hb]
      cases Changing.getDictionaryFor env fs f (baseOf l) m1 with
      | ok fb m2 =>
        obtain ⟨m2, t2⟩ := m2
        dsimp only
        rw [lift_eq]
        simp only [prog_bind, bind_apply]
        cases Manager.addFallback m.nextId fb m2 <;> rfl
      | _ => rfl
  | _ => rfl

theorem getFor_hit (env : Env) (fs : Nat → FileSys) (f : Nat) (l : Language) (m : Manager) (t : Nat) (hl : l.isDefined = true) {p : DictId}
    (hn : m.dictionaries.get? l = some p) : Changing.getDictionaryFor env fs (f + 1) l (m, t) = .ok p (m, t) := by
  rw [Changing.getDictionaryFor, if_neg (by simp [hl])]
  simp only [bind_apply, Prog.get, hn]
  rfl

theorem getFor_post (env : Env) (fs : Nat → FileSys) (f : Nat) : ∀ (l : Language) (m : Manager) (t : Nat), l.isDefined = true → Inv m →
    Post env l m ((Changing.getDictionaryFor env fs f l (m, t)).mapS Prod.fst) := by
  induction f with
  | zero => intro l m t _ _; trivial
  | succ f ih =>
    intro l m t hl h
    cases hn : m.dictionaries.get? l with
    | some p => rw [getFor_hit env fs f l m t hl hn]; exact ⟨h, .refl m, rfl, rfl, hn, fun _ _ => rfl⟩
    | none =>
      rw [getFor_miss env fs f l m t hl hn]
      have hs := sane_dirsC env fs l m.searchPath.reverse (Dictionary.init m.charset, m.log) t
      cases hx : dirsC env fs l m.searchPath.reverse ((Dictionary.init m.charset, m.log), t) with
      | ok a xt =>
        obtain ⟨x, t1⟩ := xt
        rw [hx] at hs
        simp only [Res.mapS] at hs ⊢
        have hI := (h.fresh hl hn).put (fresh_heap m l) hs.1
        have hG : Grow m (put (fresh l m) m.nextId x) := (fresh_grow hn).trans (put_grow _ _ _ hs.2)
        have hget : (put (fresh l m) m.nextId x).dictionaries.get? l = some m.nextId := fresh_get m l
        have hF : Frame m (put (fresh l m) m.nextId x) := put_fresh_frame l m x
        by_cases hc : l.getCountry = []
        · rw [if_pos hc]; exact ⟨hI, hG, rfl, rfl, hget, hF⟩
        · rw [if_neg hc]
          have hb := ih (baseOf l) _ t1 (base_defined hl).1 hI
          cases hr : Changing.getDictionaryFor env fs f (baseOf l) (put (fresh l m) m.nextId x, t1) with
          | ok fb mt =>
            obtain ⟨m2, t2⟩ := mt
            rw [hr] at hb
            obtain ⟨i2, g2, c2, l2, b2, f2⟩ := hb
            have hget2 := g2.keeps _ _ hget
            obtain ⟨_, _, d2, hd2, _⟩ := i2.cached _ _ hget2
            dsimp only
            rw [prog_bind, bind_apply]
            unfold Manager.addFallback
            rw [hd2]
            dsimp only
            refine ⟨i2.addFallback hget2 b2 hc hd2, ?_, c2, l2, hget2, ?_⟩
            · have hG2 := hG.trans g2
              exact ⟨hG2.path, hG2.charset, hG2.fuzzy, hG2.freed, hG2.next, hG2.keeps, hG2.log⟩
            · intro q hq
              show (m2.heap.set m.nextId _).get? q = _
              rw [AMap.get?_set_ne _ _ (by omega), f2 q (Nat.lt_succ_of_lt hq), hF q hq]
          | exn w mt => rw [hr] at hb; exact ⟨hb.1, hG.trans hb.2.1, hb.2.2.1, hb.2.2.2.1, ⟨_, hb.2.1.keeps _ _ hget⟩, fun q hq => by rw [hb.2.2.2.2.2 q (Nat.lt_succ_of_lt hq), hF q hq]⟩
          | poError mt => rw [hr] at hb; exact hb.elim
          | fault e => rw [hr] at hb; exact hb
          | diverge => trivial
      | exn w x =>
        rw [hx] at hs
        exact ⟨(h.fresh hl hn).put (fresh_heap m l) hs.1, (fresh_grow hn).trans (put_grow _ _ _ hs.2), rfl, rfl, ⟨_, fresh_get m l⟩, put_fresh_frame l m x.1⟩
      | poError x => rw [hx] at hs; exact hs.elim
      | fault e => rw [hx] at hs; exact hs
      | diverge => trivial

theorem getDictionary_post (env : Env) (fs : Nat → FileSys) {m : Manager} (t : Nat) (h : Inv m) :
    (∃ p m' t', Changing.getDictionary env fs (m, t) = .ok p (m', t') ∧ Inv m' ∧ Grow m m' ∧ Frame m m') ∨
    (∃ w m' t', Changing.getDictionary env fs (m, t) = .exn w (m', t') ∧ Inv m' ∧ Grow m m' ∧ Frame m m') ∨
    (∃ f, Changing.getDictionary env fs (m, t) = .fault f ∧ FaultOk env.lib f) ∨ Changing.getDictionary env fs (m, t) = .diverge := by
  unfold Changing.getDictionary
  simp only [bind_apply, Prog.get]
  cases hc : m.currentDict with
  | some p => exact .inl ⟨p, m, t, rfl, h, .refl m, fun _ _ => rfl⟩
  | none =>
    dsimp only
    by_cases hl : m.currentLanguage.isDefined = true
    · rw [if_pos hl]
      have hp := getFor_post env fs env.fuel m.currentLanguage m t hl h
      rw [bind_apply]
      cases hr : Changing.getDictionaryFor env fs env.fuel m.currentLanguage (m, t) with
      | ok p mt =>
        obtain ⟨m', t'⟩ := mt
        rw [hr] at hp
        obtain ⟨h1, h2, h3, h4, h5, h6⟩ := hp
        refine .inl ⟨p, { m' with currentDict := some p }, t', rfl, ?_, ?_, h6⟩
        · refine ⟨h1.path, h1.keysD, h1.inj, h1.cached, h1.empty, h1.heapK, h1.live, h1.freedN, h1.freedIff, ?_⟩
          intro q hq
          have hq : some p = some q := hq
          cases hq
          show m'.currentLanguage.isDefined = true ∧ m'.dictionaries.get? m'.currentLanguage = some p
          rw [h4]
          exact ⟨hl, h5⟩
        · exact ⟨h2.path, h2.charset, h2.fuzzy, h2.freed, h2.next, h2.keeps, h2.log⟩
      | exn w mt => rw [hr] at hp; exact .inr (.inl ⟨w, mt.1, mt.2, rfl, hp.1, hp.2.1, hp.2.2.2.2.2⟩)
      | poError mt => rw [hr] at hp; exact hp.elim
      | fault f => rw [hr] at hp; exact .inr (.inr (.inl ⟨f, rfl, hp⟩))
      | diverge => exact .inr (.inr (.inr rfl))
    · rw [if_neg hl]
      exact .inl ⟨_, m, t, rfl, h, .refl m, fun _ _ => rfl⟩

theorem collect_state (fs : Nat → FileSys) (dirs : List Str) : ∀ (acc : List Language) (m : Manager) (t : Nat),
    (∃ l t', Changing.collectDirs fs dirs acc (m, t) = .ok l (m, t')) ∨ ∃ w t', Changing.collectDirs fs dirs acc (m, t) = .exn w (m, t') := by
  induction dirs with
  | nil => intro acc m t; exact .inl ⟨acc, t, rfl⟩
  | cons d rest ih =>
    intro acc m t
    unfold Changing.collectDirs
    rw [bind_apply, listing_eq]
    dsimp only
    cases (fs t).openDirectory d with
    | error w => exact .inr ⟨w, t + 1, rfl⟩
    | ok files => exact ih _ m (t + 1)

/-- Every call keeps the invariant, however the file system changes. -/
theorem call_post (env : Env) (fs : Nat → FileSys) (c : Call) {m : Manager} (t : Nat) (h : Inv m) :
    CallPost env c m ((c.runIn env fs (m, t)).mapS Prod.fst) := by
  have key : ∀ c : Call, CallPost env c m ((Changing.lift (c.run env) (m, t)).mapS Prod.fst) := by
    intro c
    rw [lift_eq, Res.mapS_mapS]
    have hp := Mgr.call_post env c h
    have : (c.run env m).mapS (fun s => (s, t).fst) = c.run env m := by cases c.run env m <;> rfl
    rw [this]
    exact hp
  cases c with
  | getDictionary =>
    unfold Call.runIn
    simp only [bind_apply]
    rcases getDictionary_post env fs t h with ⟨p, m', t', hr, h1, h2, h3⟩ | ⟨w, m', t', hr, h1, h2, h3⟩ | ⟨f, hr, hf⟩ | hr
    · rw [hr]; exact after_quiet h h1 h2 h3 (fun _ => rfl)
    · rw [hr]; exact after_quiet h h1 h2 h3 (fun _ => rfl)
    · rw [hr]; exact .inl hf
    · rw [hr]; trivial
  | getDictionaryFor l =>
    unfold Call.runIn
    simp only [bind_apply]
    cases l with
    | none =>
      cases hf : env.fuel with
      | zero => trivial
      | succ n => exact .inr (.inl ⟨rfl, rfl⟩)
    | some i =>
      have hp := getFor_post env fs env.fuel (some i) m t rfl h
      cases hr : Changing.getDictionaryFor env fs env.fuel (some i) (m, t) with
      | ok p m' => rw [hr] at hp; exact after_quiet h hp.1 hp.2.1 hp.2.2.2.2.2 (fun _ => rfl)
      | exn w m' => rw [hr] at hp; exact after_quiet h hp.1 hp.2.1 hp.2.2.2.2.2 (fun _ => rfl)
      | poError m' => rw [hr] at hp; exact hp.elim
      | fault f => rw [hr] at hp; exact .inl hp
      | diverge => trivial
  | getLanguages =>
    unfold Call.runIn Changing.getLanguages
    simp only [bind_apply, Prog.get]
    rcases collect_state fs m.searchPath [] m t with ⟨l, t', hr⟩ | ⟨w, t', hr⟩
    · rw [hr]; exact after_same h rfl
    · rw [hr]; exact after_same h rfl
  | _ => exact key _

theorem reachIn_inv {cs : Str} {m : Manager} (h : ReachIn cs m) : Inv m := by
  induction h with
  | new => exact inv_init cs
  | @ok m m' env fs c t t' a _ hr ih =>
    have := call_post env fs c t ih
    rw [hr] at this
    exact this.1
  | @exn m m' env fs c t t' w _ hr ih =>
    have := call_post env fs c t ih
    rw [hr] at this
    exact this.1
  | @poError m m' env fs c t t' _ hr ih =>
    have := call_post env fs c t ih
    rw [hr] at this
    exact this.elim

/-! ### One load, two loads -/

/-- `get_dictionary(l)` if `l` is not cached: the own files are those of a still world. -/
theorem getFor_still (env : Env) (fs : Nat → FileSys) (hp : PlainNames fs) (f : Nat) (l : Language) (m : Manager) (t : Nat) (h : Inv m) (hl : l.isDefined = true)
    (hn : m.dictionaries.get? l = none) : ∃ g t1, MadeOf fs t t1 g ∧
    Changing.getDictionaryFor env fs (f + 1) l (m, t)
      = match (dirs1 (Spec.Env.still env g) l m.searchPath.reverse (Dictionary.init m.charset, m.log)).mapS (put (fresh l m) m.nextId) with
        | .ok _ m1 =>
          if l.getCountry = [] then .ok m.nextId (m1, t1)
          else match Changing.getDictionaryFor env fs f (baseOf l) (m1, t1) with
            | .ok fb m2 => ((Manager.addFallback m.nextId fb >>= fun _ => Prog.pure m.nextId) m2.1).mapS (fun m => (m, m2.2))
            | .poError m2 => .poError m2
            | .exn w m2 => .exn w m2
            | .fault e => .fault e
            | .diverge => .diverge
        | .poError m1 => .poError (m1, t1)
        | .exn w m1 => .exn w (m1, t1)
        | .fault e => .fault e
        | .diverge => .diverge := by
  obtain ⟨g, t1, hm, he⟩ := dirsC_still env fs hp l m.searchPath.reverse (List.pairwise_reverse.2 (h.path.imp (fun h => Ne.symm h))) (Dictionary.init m.charset, m.log) t
  refine ⟨g, t1, hm, ?_⟩
  rw [getFor_miss env fs f l m t hl hn, he]
  cases dirs1 (Spec.Env.still env g) l m.searchPath.reverse (Dictionary.init m.charset, m.log) <;> rfl

end Tgt.Chg
