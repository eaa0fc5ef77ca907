import Verif.Proofs.MgrCalls
import Verif.Spec.Loading
import Verif.Proofs.Dict
/-
What `get_dictionary(language)` loads.
-/
namespace Tgt.Mgr
open Spec Manager POParser

/-! ### Cold loads -/

/-- Contents, fallback contents, messages. -/
abbrev View := (Dictionary × Option Dictionary) × List Diag

/-- Loading a language that is not cached and whose bare language is not cached. -/
def cold (env : Env) (n : Nat) (l : Language) (path : List Str) (cs : Str) : Res View Unit :=
  match n with
  | 0 => .diverge
  | f + 1 =>
    match dirs1 env l path.reverse (Dictionary.init cs, []) with
    | .ok _ x =>
      if l.getCountry = [] then .ok () ((x.1, none), x.2)
      else match f with
        | 0 => .diverge
        | _ + 1 =>
          match dirs1 env (baseOf l) path.reverse (Dictionary.init cs, x.2) with
          | .ok _ y => .ok () ((x.1, some y.1), y.2)
          | .exn w y => .exn w ((x.1, none), y.2)
          | .poError y => .poError ((x.1, none), y.2)
          | .fault e => .fault e
          | .diverge => .diverge
    | .exn w x => .exn w ((x.1, none), x.2)
    | .poError x => .poError ((x.1, none), x.2)
    | .fault e => .fault e
    | .diverge => .diverge

/-- A result is as described. -/
def Shows (l : Language) (m : Manager) : Res Manager DictId → Res View Unit → Prop
  | .ok p m', .ok _ v => contents m' p = some v.1 ∧ m'.log = m.log ++ v.2 ∧ p = m.nextId
  | .exn w m', .exn w' v => w = w' ∧ (∃ p, m'.dictionaries.get? l = some p ∧ contents m' p = some v.1) ∧ m'.log = m.log ++ v.2
  | .fault f, .fault f' => f = f'
  | .diverge, .diverge => True
  | _, _ => False

theorem unlinked_like {cs : Str} {d : Dictionary} (h : Like (Dictionary.init cs) d) : unlinked d = d := by
  obtain ⟨_, h2, h3⟩ := h
  cases d
  simp only [Dictionary.init] at h2 h3
  subst h2; subst h3
  rfl

theorem fallback_like {cs : Str} {d : Dictionary} (h : Like (Dictionary.init cs) d) : d.fallback = none := h.2.2

theorem base_ne {l : Language} (hl : l.isDefined = true) (hc : l.getCountry ≠ []) : l ≠ baseOf l := by
  intro e
  rw [e] at hc
  exact hc (base_defined hl).2

theorem cold_shows (env : Env) (n : Nat) (l : Language) (hl : l.isDefined = true) (m : Manager)
    (h1 : m.dictionaries.get? l = none) (h2 : m.dictionaries.get? (baseOf l) = none) :
    Shows l m (getDictionaryFor env n l m) (cold env n l m.searchPath m.charset) := by
  cases n with
  | zero => trivial
  | succ f =>
    rw [getFor_miss env f l m hl h1]
    unfold cold
    dsimp only
    have hs := sane_dirs1 env l m.searchPath.reverse (Dictionary.init m.charset, [])
    rw [dirs1_log]
    cases hx : dirs1 env l m.searchPath.reverse (Dictionary.init m.charset, []) with
    | ok a x =>
      obtain ⟨dx, lx⟩ := x
      rw [hx] at hs
      have hl1 : Like (Dictionary.init m.charset) dx := hs.1
      dsimp only [Res.mapS]
      have hh : (put (fresh l m) m.nextId (dx, m.log ++ lx)).heap.get? m.nextId = some dx := AMap.get?_set_self _ _ _
      by_cases hc : l.getCountry = []
      · rw [if_pos hc, if_pos hc]
        refine ⟨?_, rfl, rfl⟩
        unfold contents
        rw [hh]
        simp [unlinked_like hl1, fallback_like hl1]
      · rw [if_neg hc, if_neg hc]
        cases f with
        | zero => trivial
        | succ f =>
          have hb := base_defined hl
          have hn : (put (fresh l m) m.nextId (dx, m.log ++ lx)).dictionaries.get? (baseOf l) = none := by
            show (m.dictionaries.set l m.nextId).get? (baseOf l) = none
            rw [AMap.get?_set, if_neg (base_ne hl hc)]
            exact h2
          rw [getFor_miss env f (baseOf l) _ hb.1 hn]
          have hp1 : (put (fresh l m) m.nextId (dx, m.log ++ lx)).searchPath = m.searchPath := rfl
          have hp2 : (put (fresh l m) m.nextId (dx, m.log ++ lx)).charset = m.charset := rfl
          have hp3 : (put (fresh l m) m.nextId (dx, m.log ++ lx)).log = m.log ++ lx := rfl
          have hp4 : (put (fresh l m) m.nextId (dx, m.log ++ lx)).nextId = m.nextId + 1 := rfl
          rw [hp1, hp2, hp3, hp4]
          have hs2 := sane_dirs1 env (baseOf l) m.searchPath.reverse (Dictionary.init m.charset, lx)
          dsimp only
          have e1 := dirs1_log env (baseOf l) m.searchPath.reverse (Dictionary.init m.charset) (m.log ++ lx)
          have e2 := dirs1_log env (baseOf l) m.searchPath.reverse (Dictionary.init m.charset) lx
          rw [e1, e2]
          rw [e2] at hs2
          cases hy : dirs1 env (baseOf l) m.searchPath.reverse (Dictionary.init m.charset, []) with
          | ok b y =>
            obtain ⟨dy, ly⟩ := y
            rw [hy] at hs2
            have hl2 : Like (Dictionary.init m.charset) dy := hs2.1
            dsimp only [Res.mapS]
            rw [if_pos hb.2]
            dsimp only
            rw [prog_bind, bind_apply]
            have hg : (put (fresh (baseOf l) (put (fresh l m) m.nextId (dx, m.log ++ lx))) (m.nextId + 1) (dy, m.log ++ lx ++ ly)).heap.get? m.nextId = some dx := by
              show (((put (fresh l m) m.nextId (dx, m.log ++ lx)).heap.set (m.nextId + 1) _).set (m.nextId + 1) dy).get? m.nextId = _
              rw [AMap.get?_set_ne _ _ (by omega), AMap.get?_set_ne _ _ (by omega)]
              exact hh
            unfold Manager.addFallback
            rw [hg]
            dsimp only [Prog.pure]
            refine ⟨?_, ?_, rfl⟩
            · unfold contents
              dsimp only
              have a1 : ((put (fresh (baseOf l) (put (fresh l m) m.nextId (dx, m.log ++ lx))) (m.nextId + 1) (dy, m.log ++ lx ++ ly)).heap.set m.nextId (dx.addFallback (some (m.nextId + 1)))).get? m.nextId = some (dx.addFallback (some (m.nextId + 1))) := AMap.get?_set_self _ _ _
              have a2 : ((put (fresh (baseOf l) (put (fresh l m) m.nextId (dx, m.log ++ lx))) (m.nextId + 1) (dy, m.log ++ lx ++ ly)).heap.set m.nextId (dx.addFallback (some (m.nextId + 1)))).get? (m.nextId + 1) = some dy := by
                rw [AMap.get?_set_ne _ _ (by omega)]
                exact AMap.get?_set_self _ _ _
              rw [a1]
              have b1 : unlinked (dx.addFallback (some (m.nextId + 1))) = dx := by
                show unlinked dx = dx
                exact unlinked_like hl1
              have b2 : (dx.addFallback (some (m.nextId + 1))).fallback = some (m.nextId + 1) := rfl
              simp only [Option.map_some, b1, b2, Option.bind_some, a2, unlinked_like hl2]
            · show m.log ++ lx ++ ly = m.log ++ (lx ++ ly)
              simp
          | exn w y =>
            obtain ⟨dy, ly⟩ := y
            dsimp only [Res.mapS]
            refine ⟨rfl, ⟨m.nextId, ?_, ?_⟩, ?_⟩
            · show ((m.dictionaries.set l m.nextId).set (baseOf l) (m.nextId + 1)).get? l = _
              rw [AMap.get?_set, if_neg (Ne.symm (base_ne hl hc))]
              exact AMap.get?_set_self _ _ _
            · unfold contents
              have hg : (put (fresh (baseOf l) (put (fresh l m) m.nextId (dx, m.log ++ lx))) (m.nextId + 1) (dy, m.log ++ lx ++ ly)).heap.get? m.nextId = some dx := by
                show (((put (fresh l m) m.nextId (dx, m.log ++ lx)).heap.set (m.nextId + 1) _).set (m.nextId + 1) dy).get? m.nextId = _
                rw [AMap.get?_set_ne _ _ (by omega), AMap.get?_set_ne _ _ (by omega)]
                exact hh
              rw [hg]
              simp [unlinked_like hl1, fallback_like hl1]
            · show m.log ++ lx ++ ly = m.log ++ (lx ++ ly)
              simp
          | poError y => rw [hy] at hs2; exact hs2.elim
          | fault e => rfl
          | diverge => trivial
    | exn w x =>
      obtain ⟨dx, lx⟩ := x
      rw [hx] at hs
      have hl1 : Like (Dictionary.init m.charset) dx := hs.1
      refine ⟨rfl, ⟨m.nextId, fresh_get m l, ?_⟩, rfl⟩
      unfold contents
      have hh : (put (fresh l m) m.nextId (dx, m.log ++ lx)).heap.get? m.nextId = some dx := AMap.get?_set_self _ _ _
      dsimp only
      rw [hh]
      simp [unlinked_like hl1, fallback_like hl1]
    | poError x => rw [hx] at hs; exact hs.elim
    | fault e => rfl
    | diverge => trivial

theorem shows_alike {l : Language} {m1 m2 : Manager} {r1 r2 : Res Manager DictId} {c : Res View Unit}
    (h1 : Shows l m1 r1 c) (h2 : Shows l m2 r2 c) : Alike l m1 r1 m2 r2 := by
  cases c with
  | ok a v =>
    cases r1 <;> first | exact h1.elim | skip
    cases r2 <;> first | exact h2.elim | skip
    exact ⟨⟨_, h1.1, h2.1⟩, _, h1.2.1, h2.2.1⟩
  | exn w v =>
    cases r1 <;> first | exact h1.elim | skip
    cases r2 <;> first | exact h2.elim | skip
    obtain ⟨a1, ⟨p, a2, a3⟩, a4⟩ := h1
    obtain ⟨b1, ⟨q, b2, b3⟩, b4⟩ := h2
    exact ⟨a1.trans b1.symm, ⟨p, q, v.1, a2, b2, a3, b3⟩, _, a4, b4⟩
  | poError v => cases r1 <;> exact h1.elim
  | fault f =>
    cases r1 <;> first | exact h1.elim | skip
    cases r2 <;> first | exact h2.elim | skip
    exact Eq.trans h1 (Eq.symm h2)
  | diverge =>
    cases r1 <;> first | exact h1.elim | skip
    cases r2 <;> first | exact h2.elim | skip
    trivial

/-! ### Effects of directories -/

/-- What a directory does. -/
def dirEff (env : Env) (l : Language) (cs : Str) (dir : Str) : Effect :=
  match env.fs.openDirectory dir with
  | .error _ => ⟨[], none⟩
  | .ok files =>
    if (files.foldl (scanStep env.ct l) ([], 0)).1.isEmpty then ⟨[], none⟩
    else match env.fs.openFile (dir ++ b!"/" ++ (files.foldl (scanStep env.ct l) ([], 0)).1) with
      | .stream s => peff (cfgOf env (dir ++ b!"/" ++ (files.foldl (scanStep env.ct l) ([], 0)).1)) s cs
      | _ => ⟨[], none⟩

theorem applyTo_none (d : Dictionary) : (⟨[], none⟩ : Effect).applyTo d = d := by
  unfold Effect.applyTo
  simp [addAll]

theorem parseFile_dict (env : Env) (pofile : Str) (s : Stream) (d : Dictionary) :
    parseFile env pofile s d = observe (run (cfgOf env pofile) s d) := rfl

theorem parse1_ok {env : Env} {pofile : Str} {s : Stream} {x y : DL} {a : Unit} (h : parse1 env pofile s x = .ok a y) :
    (parseFile env pofile s x.1).dict? = some y.1 ∧ y.1 = (peff (cfgOf env pofile) s x.1.charset).applyTo x.1 := by
  unfold parse1 at h
  rw [parseFile_dict]
  rcases run_cases (cfgOf env pofile) s x.1 with ⟨st, hr, hd⟩ | ⟨w, st, hr, hd⟩ | ⟨f, hr, _⟩ | hr
  · rw [hr] at h ⊢; cases h; exact ⟨rfl, hd⟩
  · rw [hr] at h ⊢; cases h; exact ⟨rfl, hd⟩
  · rw [hr] at h; cases h
  · rw [hr] at h; cases h

theorem best_cases (ct : CType) (l : Language) (files : List Str) :
    (NoFile ct l files ∧ (files.foldl (scanStep ct l) ([], 0)).1.isEmpty = true) ∨
    (BestFile ct l files (files.foldl (scanStep ct l) ([], 0)).1 ∧ (files.foldl (scanStep ct l) ([], 0)).1.isEmpty = false) := by
  rcases scan_best ct l files with ⟨h1, h2⟩ | ⟨f, h1, h2⟩
  · exact .inl ⟨h1, by rw [h2]; rfl⟩
  · refine .inr ⟨by rw [h2]; exact h1, ?_⟩
    rw [h2]
    obtain ⟨_, _, _, h3, _⟩ := h1
    have := fileScore_ne_nil h3
    cases f with
    | nil => exact absurd rfl this
    | cons a t => rfl

theorem files1_ok {env : Env} {l : Language} {dir : Str} {files : List Str} {x y : DL} {a : Unit}
    (ho : env.fs.openDirectory dir = .ok files) (h : files1 env l dir files x = .ok a y) :
    DirLoads env l dir x.1 y.1 ∧ y.1 = (dirEff env l x.1.charset dir).applyTo x.1 := by
  unfold files1 at h
  unfold dirEff
  rw [ho]
  dsimp only
  rcases best_cases env.ct l files with ⟨h1, h2⟩ | ⟨h1, h2⟩
  · rw [if_pos h2] at h ⊢
    cases h
    exact ⟨.nothing ho h1, (applyTo_none _).symm⟩
  · rw [if_neg (by rw [h2]; simp)] at h ⊢
    unfold file1 at h
    cases hf : env.fs.openFile (dir ++ b!"/" ++ (files.foldl (scanStep env.ct l) ([], 0)).1) with
    | null =>
      rw [hf] at h
      cases h
      exact ⟨.unopened ho h1 (by rw [hf]; simp), (applyTo_none _).symm⟩
    | throws w =>
      rw [hf] at h
      cases h
      exact ⟨.unopened ho h1 (by rw [hf]; simp), (applyTo_none _).symm⟩
    | stream s =>
      rw [hf] at h
      have := parse1_ok h
      exact ⟨.parsed ho h1 hf this.1, this.2⟩

/-- The directories can be listed. -/
theorem dirs1_ok {env : Env} {l : Language} (dirs : List Str) : ∀ {x y : DL} {a : Unit}, dirs1 env l dirs x = .ok a y →
    y.1 = dirs.foldl (fun d dir => (dirEff env l x.1.charset dir).applyTo d) x.1 ∧ ∀ acc d0, PathLoads env l acc d0 x.1 →
      PathLoads env l (dirs.reverse ++ acc) d0 y.1 := by
  induction dirs with
  | nil => intro x y a h; cases h; exact ⟨rfl, fun acc d0 h => by simpa using h⟩
  | cons dir t ih =>
    intro x y a h
    unfold dirs1 at h
    cases ho : env.fs.openDirectory dir with
    | error w => rw [ho] at h; cases h
    | ok files =>
      rw [ho] at h
      dsimp only at h
      rw [bind_apply] at h
      cases hx : files1 env l dir files x with
      | ok b z =>
        rw [hx] at h
        obtain ⟨h1, h2⟩ := files1_ok ho hx
        obtain ⟨h3, h4⟩ := ih h
        have hcs : z.1.charset = x.1.charset := by rw [h2]; exact (like_applyTo _ _).1
        refine ⟨?_, ?_⟩
        · rw [h3, hcs, h2]; rfl
        · intro acc d0 hp
          have := h4 (dir :: acc) d0 (.cons hp h1)
          simpa using this
      | _ => rw [hx] at h; cases h

/-- Effects in order of loading. -/
def pathEff (env : Env) (l : Language) (cs : Str) (path : List Str) (d : Dictionary) : Dictionary :=
  path.foldr (fun dir d => (dirEff env l cs dir).applyTo d) d

theorem path1_ok {env : Env} {l : Language} {path : List Str} {x y : DL} {a : Unit} (h : dirs1 env l path.reverse x = .ok a y) :
    y.1 = pathEff env l x.1.charset path x.1 ∧ PathLoads env l path x.1 y.1 := by
  obtain ⟨h1, h2⟩ := dirs1_ok _ h
  refine ⟨?_, ?_⟩
  · rw [h1, List.foldl_reverse]; rfl
  · have := h2 [] x.1 .nil
    simpa using this

/-! ### A language that is not cached -/

theorem miss_ok {env : Env} {n : Nat} {l : Language} {m m' : Manager} {p : DictId} (h : Inv m)
    (hg : getDictionaryFor env n l m = .ok p m') (hn : m.dictionaries.get? l = none) :
    l.isDefined = true ∧ p = m.nextId ∧ ∃ x d, dirs1 env l m.searchPath.reverse (Dictionary.init m.charset, []) = .ok () x ∧
      m'.heap.get? p = some d ∧ unlinked d = x.1 ∧
      (l.getCountry ≠ [] → d.hasFallback = true ∧ ∃ q, d.fallback = some q ∧ m'.dictionaries.get? (baseOf l) = some q) := by
  cases n with
  | zero => cases hg
  | succ f =>
    have hl : l.isDefined = true := by
      cases hd : l.isDefined with
      | true => rfl
      | false => rw [getDictionaryFor, if_pos (by simp [hd])] at hg; cases hg
    rw [getFor_miss env f l m hl hn, dirs1_log] at hg
    have hs := sane_dirs1 env l m.searchPath.reverse (Dictionary.init m.charset, [])
    cases hx : dirs1 env l m.searchPath.reverse (Dictionary.init m.charset, []) with
    | ok a x =>
      obtain ⟨dx, lx⟩ := x
      rw [hx] at hs hg
      have hl1 : Like (Dictionary.init m.charset) dx := hs.1
      dsimp only [Res.mapS] at hg
      have hh : (put (fresh l m) m.nextId (dx, m.log ++ lx)).heap.get? m.nextId = some dx := AMap.get?_set_self _ _ _
      by_cases hc : l.getCountry = []
      · rw [if_pos hc] at hg
        cases hg
        exact ⟨hl, rfl, (dx, lx), dx, rfl, hh, unlinked_like hl1, fun h => absurd hc h⟩
      · rw [if_neg hc] at hg
        have hI : Inv (put (fresh l m) m.nextId (dx, m.log ++ lx)) := (h.fresh hl hn).put (fresh_heap m l) hl1
        have hb := getFor_post env f (baseOf l) _ (base_defined hl).1 hI
        cases hr : getDictionaryFor env f (baseOf l) (put (fresh l m) m.nextId (dx, m.log ++ lx)) with
        | ok fb m2 =>
          rw [hr] at hb hg
          obtain ⟨i2, g2, c2, l2, b2, f2⟩ := hb
          have hd2 : m2.heap.get? m.nextId = some dx := by
            rw [f2 m.nextId (Nat.lt_succ_self _)]; exact hh
          dsimp only at hg
          rw [prog_bind, bind_apply] at hg
          unfold Manager.addFallback at hg
          rw [hd2] at hg
          dsimp only [Prog.pure] at hg
          cases hg
          refine ⟨hl, rfl, (dx, lx), dx.addFallback (some fb), rfl, AMap.get?_set_self _ _ _, ?_, fun _ => ⟨rfl, fb, rfl, b2⟩⟩
          show unlinked dx = dx
          exact unlinked_like hl1
        | _ => rw [hr] at hg; cases hg
    | _ => rw [hx] at hg; cases hg

theorem new_miss {env : Env} {n : Nat} {l : Language} {m m' : Manager} {p : DictId} (h : Inv m)
    (hg : getDictionaryFor env n l m = .ok p m') (hp : m.heap.get? p = none) : m.dictionaries.get? l = none := by
  cases hc : m.dictionaries.get? l with
  | none => rfl
  | some q =>
    obtain ⟨hl, _, d, hd, _⟩ := h.cached l q hc
    cases n with
    | zero => cases hg
    | succ n =>
      rw [getFor_hit env n l m hl hc] at hg
      cases hg
      rw [hd] at hp; cases hp

/-- What a new dictionary holds. -/
theorem new_ok {env : Env} {n : Nat} {l : Language} {m m' : Manager} {p : DictId} (h : Inv m)
    (hg : getDictionaryFor env n l m = .ok p m') (hp : m.heap.get? p = none) :
    ∃ d, m'.heap.get? p = some d ∧ unlinked d = pathEff env l m.charset m.searchPath (Dictionary.init m.charset) ∧
      PathLoads env l m.searchPath (Dictionary.init m.charset) (unlinked d) := by
  obtain ⟨_, _, x, d, hx, hd, hu, _⟩ := miss_ok h hg (new_miss h hg hp)
  obtain ⟨h1, h2⟩ := path1_ok hx
  exact ⟨d, hd, hu.trans h1, by rw [hu]; exact h2⟩

theorem inv_new (k : Config) (hk : k.path.Nodup) : Inv (newManager k) := by
  have h := inv_init k.charset
  exact ⟨hk, h.keysD, h.inj, h.cached, h.empty, h.heapK, h.live, h.freedN, h.freedIff, h.cur⟩

theorem alone_eff {env : Env} {l : Language} {cs dir : Str} {e : Dictionary} (h : AloneGives env l cs dir e) :
    unlinked e = (dirEff env l cs dir).applyTo (Dictionary.init cs) := by
  obtain ⟨p, m', hg, he⟩ := h
  have hI : Inv (newManager ⟨[dir], cs, true⟩) := inv_new _ (by simp)
  obtain ⟨_, _, x, d, hx, hd, hu, _⟩ := miss_ok hI hg rfl
  rw [he] at hd
  cases hd
  have h1 := (path1_ok hx).1
  exact hu.trans h1

/-! ### Lookups after effects -/

theorem stored_lookup (d : Dictionary) (c : Option Str) (i : Str) : stored d c i = d.lookup (c, i) := by
  cases c with
  | none => rfl
  | some c =>
    unfold stored Dictionary.lookup
    dsimp only
    cases d.ctxtEntries.get? c <;> rfl

theorem lookup_applyTo (e : Effect) (d : Dictionary) (key : Option Str × Str) : (e.applyTo d).lookup key = (addAll d e.adds).lookup key := by
  obtain ⟨c, i⟩ := key
  cases c <;> rfl

theorem lookup_addAll_none (l : List Add) (key : Option Str × Str) : ∀ d : Dictionary, (∀ a ∈ l, target a ≠ key) →
    (addAll d l).lookup key = d.lookup key := by
  induction l with
  | nil => intro d _; rfl
  | cons a l ih =>
    intro d h
    show (addAll (a.apply d).1 l).lookup key = _
    rw [ih _ (fun x hx => h x (List.mem_cons_of_mem _ hx)), Dict.lookup_apply, if_neg (h a List.mem_cons_self)]

theorem lookup_addAll_some (l : List Add) (key : Option Str × Str) : ∀ d : Dictionary, d.lookup key ≠ none → (addAll d l).lookup key ≠ none := by
  induction l with
  | nil => intro d h; exact h
  | cons a l ih =>
    intro d h
    refine ih _ ?_
    rw [Dict.lookup_apply]
    split
    · simp
    · exact h

/-- Starting from dictionaries in which the message has the same first string. -/
theorem lookup_addAll_head (l : List Add) (key : Option Str × Str) : ∀ d d' : Dictionary,
    (d.lookup key).bind List.head? = (d'.lookup key).bind List.head? →
    ((addAll d l).lookup key).bind List.head? = ((addAll d' l).lookup key).bind List.head? := by
  induction l with
  | nil => intro d d' h; exact h
  | cons a l ih =>
    intro d d' h
    refine ih _ _ ?_
    rw [Dict.lookup_apply, Dict.lookup_apply]
    split
    · cases a <;> rfl
    · exact h

/-- Equal vectors stay equal. -/
theorem lookup_addAll_congr (l : List Add) (key : Option Str × Str) : ∀ d d' : Dictionary,
    d.lookup key = d'.lookup key → (addAll d l).lookup key = (addAll d' l).lookup key := by
  induction l with
  | nil => intro d d' h; exact h
  | cons a l ih =>
    intro d d' h
    refine ih _ _ ?_
    rw [Dict.lookup_apply, Dict.lookup_apply]
    split
    · rename_i e; rw [e, h]
    · exact h

theorem lookup_addAll_touched (l : List Add) (key : Option Str × Str) : ∀ d d' : Dictionary, (∃ a ∈ l, target a = key) →
    ((addAll d l).lookup key).bind List.head? = ((addAll d' l).lookup key).bind List.head? := by
  induction l with
  | nil => intro d d' h; obtain ⟨_, h, _⟩ := h; cases h
  | cons a l ih =>
    intro d d' h
    by_cases ha : target a = key
    · refine lookup_addAll_head l key _ _ ?_
      rw [Dict.lookup_apply, Dict.lookup_apply, if_pos ha, if_pos ha]
      cases a <;> rfl
    · refine ih _ _ ?_
      obtain ⟨b, hb, hk⟩ := h
      rcases List.mem_cons.1 hb with e | e
      · subst e; exact absurd hk ha
      · exact ⟨b, e, hk⟩

theorem init_lookup (cs : Str) (key : Option Str × Str) : (Dictionary.init cs).lookup key = none := by
  obtain ⟨c, i⟩ := key
  cases c <;> rfl

/-- An effect that stores nothing for a message in an empty dictionary leaves it alone in every dictionary. -/
theorem eff_none {e : Effect} {cs : Str} {key : Option Str × Str} (h : (e.applyTo (Dictionary.init cs)).lookup key = none) (d : Dictionary) :
    (e.applyTo d).lookup key = d.lookup key := by
  rw [lookup_applyTo] at h ⊢
  refine lookup_addAll_none _ _ _ ?_
  intro a ha hk
  obtain ⟨l1, l2, hl⟩ := List.append_of_mem ha
  rw [hl] at h
  have : addAll (Dictionary.init cs) (l1 ++ a :: l2) = addAll ((a.apply (addAll (Dictionary.init cs) l1)).1) l2 := by
    simp [addAll]
  rw [this] at h
  refine lookup_addAll_some l2 key _ ?_ h
  rw [Dict.lookup_apply, if_pos hk]
  simp

/-- An effect that stores something for a message gives it the same first string in every dictionary. -/
theorem eff_some {e : Effect} {cs : Str} {key : Option Str × Str} (h : (e.applyTo (Dictionary.init cs)).lookup key ≠ none) (d : Dictionary) :
    ((e.applyTo d).lookup key).bind List.head? = ((e.applyTo (Dictionary.init cs)).lookup key).bind List.head? := by
  rw [lookup_applyTo] at h
  rw [lookup_applyTo, lookup_applyTo]
  refine lookup_addAll_touched _ _ _ _ ?_
  apply Classical.byContradiction
  intro hc
  apply h
  rw [lookup_addAll_none, init_lookup]
  intro a ha hk
  exact hc ⟨a, ha, hk⟩

theorem lookup_unlinked (d : Dictionary) (key : Option Str × Str) : (unlinked d).lookup key = d.lookup key := by
  obtain ⟨c, i⟩ := key
  cases c <;> rfl

theorem pathEff_append (env : Env) (l : Language) (cs : Str) (a b : List Str) (d : Dictionary) :
    pathEff env l cs (a ++ b) d = pathEff env l cs a (pathEff env l cs b d) := by
  simp [pathEff]

/-- Directories that have nothing for a message leave it alone. -/
theorem pathEff_none {env : Env} {l : Language} {cs : Str} {key : Option Str × Str} (path : List Str)
    (h : ∀ b ∈ path, ((dirEff env l cs b).applyTo (Dictionary.init cs)).lookup key = none) (d : Dictionary) :
    (pathEff env l cs path d).lookup key = d.lookup key := by
  induction path with
  | nil => rfl
  | cons b t ih =>
    show ((dirEff env l cs b).applyTo (pathEff env l cs t d)).lookup key = _
    rw [eff_none (h b List.mem_cons_self), ih (fun x hx => h x (List.mem_cons_of_mem _ hx))]

/-- A rule stays. -/
theorem pathEff_rule_keeps {env : Env} {l : Language} {cs : Str} (path : List Str) (d : Dictionary) (hd : d.pluralForms.isDefined = true) :
    (pathEff env l cs path d).pluralForms = d.pluralForms := by
  induction path with
  | nil => rfl
  | cons b t ih =>
    show ((dirEff env l cs b).applyTo (pathEff env l cs t d)).pluralForms = _
    unfold Effect.applyTo
    dsimp only
    rw [ih, if_pos hd]

theorem init_rule (e : Effect) (cs : Str) : (e.applyTo (Dictionary.init cs)).pluralForms = e.rule.getD .undefined := by
  unfold Effect.applyTo
  dsimp only
  rw [if_neg (by simp [Dictionary.init, PluralForms.isDefined, PluralForms.undefined])]
  rfl

/-- Directories without a rule leave the rule alone. -/
theorem pathEff_rule_none {env : Env} {l : Language} {cs : Str} (path : List Str)
    (h : ∀ b ∈ path, ((dirEff env l cs b).applyTo (Dictionary.init cs)).pluralForms = .undefined) (d : Dictionary)
    (hd : d.pluralForms = .undefined) : (pathEff env l cs path d).pluralForms = .undefined := by
  induction path with
  | nil => exact hd
  | cons b t ih =>
    have h1 := ih (fun x hx => h x (List.mem_cons_of_mem _ hx))
    have h2 := h b List.mem_cons_self
    rw [init_rule] at h2
    show ((dirEff env l cs b).applyTo (pathEff env l cs t d)).pluralForms = _
    unfold Effect.applyTo
    dsimp only
    rw [h1, if_neg (by simp [PluralForms.isDefined, PluralForms.undefined]), h2]

end Tgt.Mgr
