import Verif.Proofs.MgrFull
/-
When `get_dictionary(language)` returns, what a failing file does, and what `get_languages` collects.
-/
namespace Tgt.Mgr
open Spec Manager POParser

/-! ### Returning -/

/-- Everything the load of a language meets can be listed and parsed to an end. -/
structure Loadable (env : Env) (l : Language) (path : List Str) : Prop where
  dirs : ∀ dir ∈ path, ∃ files, env.fs.openDirectory dir = .ok files
  files : ∀ dir ∈ path, ∀ files f s, env.fs.openDirectory dir = .ok files → BestFile env.ct l files f →
    env.fs.openFile (dir ++ b!"/" ++ f) = .stream s → ∀ d, (parseFile env (dir ++ b!"/" ++ f) s d).Ended

theorem parse1_returns {env : Env} {pofile : Str} {s : Stream} {x : DL} (h : (parseFile env pofile s x.1).Ended) :
    ∃ y, parse1 env pofile s x = .ok () y := by
  unfold parse1
  rw [parseFile_dict] at h
  rcases run_cases (cfgOf env pofile) s x.1 with ⟨st, hr, hd⟩ | ⟨w, st, hr, hd⟩ | ⟨f, hr, _⟩ | hr
  · rw [hr]; exact ⟨_, rfl⟩
  · rw [hr]; exact ⟨_, rfl⟩
  · rw [hr] at h; exact h.elim
  · rw [hr] at h; exact h.elim

theorem files1_returns {env : Env} {l : Language} {dir : Str} {files : List Str}
    (h : ∀ f s, BestFile env.ct l files f → env.fs.openFile (dir ++ b!"/" ++ f) = .stream s → ∀ d, (parseFile env (dir ++ b!"/" ++ f) s d).Ended)
    (x : DL) : ∃ y, files1 env l dir files x = .ok () y := by
  unfold files1
  rcases best_cases env.ct l files with ⟨h1, h2⟩ | ⟨h1, h2⟩
  · rw [if_pos h2]; exact ⟨_, rfl⟩
  · rw [if_neg (by rw [h2]; simp)]
    unfold file1
    cases hf : env.fs.openFile (dir ++ b!"/" ++ (files.foldl (scanStep env.ct l) ([], 0)).1) with
    | null => exact ⟨_, rfl⟩
    | throws w => exact ⟨_, rfl⟩
    | stream s => exact parse1_returns (h _ s h1 hf _)

theorem dirs1_returns {env : Env} {l : Language} (dirs : List Str) (h : Loadable env l dirs) : ∀ x : DL, ∃ y, dirs1 env l dirs x = .ok () y := by
  induction dirs with
  | nil => intro x; exact ⟨x, rfl⟩
  | cons dir t ih =>
    intro x
    obtain ⟨files, ho⟩ := h.dirs dir List.mem_cons_self
    unfold dirs1
    rw [ho]
    dsimp only
    rw [bind_apply]
    obtain ⟨y, hy⟩ := files1_returns (l := l) (dir := dir) (files := files) (fun f s hb hf d => h.files dir List.mem_cons_self files f s ho hb hf d) x
    rw [hy]
    exact ih ⟨fun d hd => h.dirs d (List.mem_cons_of_mem _ hd), fun d hd => h.files d (List.mem_cons_of_mem _ hd)⟩ y

theorem Loadable.reverse {env : Env} {l : Language} {path : List Str} (h : Loadable env l path) : Loadable env l path.reverse :=
  ⟨fun d hd => h.dirs d (List.mem_reverse.1 hd), fun d hd => h.files d (List.mem_reverse.1 hd)⟩

theorem getFor_returns_base {env : Env} {n : Nat} {l : Language} {m : Manager} (hl : l.isDefined = true) (hc : l.getCountry = [])
    (h : Loadable env l m.searchPath) : ∃ p m', getDictionaryFor env (n + 1) l m = .ok p m' := by
  cases hn : m.dictionaries.get? l with
  | some q => exact ⟨q, m, getFor_hit env n l m hl hn⟩
  | none =>
    rw [getFor_miss env n l m hl hn]
    obtain ⟨y, hy⟩ := dirs1_returns _ h.reverse (Dictionary.init m.charset, m.log)
    rw [hy]
    dsimp only [Res.mapS]
    rw [if_pos hc]
    exact ⟨_, _, rfl⟩

theorem getFor_returns {env : Env} {n : Nat} {l : Language} {m : Manager} (hI : Inv m) (hl : l.isDefined = true)
    (h : Loadable env l m.searchPath) (hb : Loadable env (baseOf l) m.searchPath) : ∃ p m', getDictionaryFor env (n + 2) l m = .ok p m' := by
  by_cases hc : l.getCountry = []
  · exact getFor_returns_base hl hc h
  · cases hn : m.dictionaries.get? l with
    | some q => exact ⟨q, m, getFor_hit env (n + 1) l m hl hn⟩
    | none =>
      rw [getFor_miss env (n + 1) l m hl hn]
      have hs := sane_dirs1 env l m.searchPath.reverse (Dictionary.init m.charset, m.log)
      obtain ⟨y, hy⟩ := dirs1_returns _ h.reverse (Dictionary.init m.charset, m.log)
      rw [hy] at hs ⊢
      dsimp only [Res.mapS]
      rw [if_neg hc]
      have hI1 : Inv (put (fresh l m) m.nextId y) := (hI.fresh hl hn).put (fresh_heap m l) hs.1
      obtain ⟨q, m2, hr⟩ := getFor_returns_base (n := n) (m := put (fresh l m) m.nextId y) (base_defined hl).1 (base_defined hl).2 hb
      have hP := getFor_post env (n + 1) (baseOf l) _ (base_defined hl).1 hI1
      rw [hr] at hP ⊢
      dsimp only
      rw [prog_bind, bind_apply]
      unfold Manager.addFallback
      have hd : m2.heap.get? m.nextId = some y.1 := by
        rw [hP.2.2.2.2.2 m.nextId (Nat.lt_succ_self _)]
        exact AMap.get?_set_self _ _ _
      rw [hd]
      exact ⟨_, _, rfl⟩

theorem dirs1_exn {env : Env} {l : Language} {w : Str} (dirs : List Str) : ∀ {x y : DL}, dirs1 env l dirs x = .exn w y →
    ∃ dir ∈ dirs, env.fs.openDirectory dir = .error w := by
  induction dirs with
  | nil => intro x y h; cases h
  | cons dir t ih =>
    intro x y h
    unfold dirs1 at h
    cases ho : env.fs.openDirectory dir with
    | error w' => rw [ho] at h; cases h; exact ⟨dir, List.mem_cons_self, ho⟩
    | ok files =>
      rw [ho] at h
      dsimp only at h
      rw [bind_apply] at h
      cases hx : files1 env l dir files x with
      | ok a z =>
        rw [hx] at h
        obtain ⟨d, hd, he⟩ := ih h
        exact ⟨d, List.mem_cons_of_mem _ hd, he⟩
      | exn w' z =>
        exfalso
        unfold files1 at hx
        split at hx
        · cases hx
        · unfold file1 at hx
          split at hx
          · cases hx
          · cases hx
          · unfold parse1 at hx
            split at hx <;> cases hx
      | _ => rw [hx] at h; cases h

theorem getFor_exn {env : Env} {w : Str} (n : Nat) : ∀ {l : Language} {m m' : Manager}, l.isDefined = true →
    getDictionaryFor env n l m = .exn w m' → ∃ dir ∈ m.searchPath, env.fs.openDirectory dir = .error w := by
  induction n with
  | zero => intro l m m' _ h; cases h
  | succ n ih =>
    intro l m m' hl h
    cases hn : m.dictionaries.get? l with
    | some q => rw [getFor_hit env n l m hl hn] at h; cases h
    | none =>
      rw [getFor_miss env n l m hl hn] at h
      cases hx : dirs1 env l m.searchPath.reverse (Dictionary.init m.charset, m.log) with
      | ok a x =>
        rw [hx] at h
        dsimp only [Res.mapS] at h
        split at h
        · cases h
        · cases hr : getDictionaryFor env n (baseOf l) (put (fresh l m) m.nextId x) with
          | ok fb m2 =>
            rw [hr] at h
            dsimp only at h
            rw [prog_bind, bind_apply] at h
            unfold Manager.addFallback at h
            split at h
            · cases h
            · cases h
            · rename_i h'; split at h' <;> cases h'
            · cases h
            · cases h
          | exn w' m2 =>
            rw [hr] at h
            cases h
            have := ih (base_defined hl).1 hr
            exact this
          | _ => rw [hr] at h; cases h
      | exn w' x =>
        rw [hx] at h
        cases h
        obtain ⟨d, hd, he⟩ := dirs1_exn _ hx
        exact ⟨d, List.mem_reverse.1 hd, he⟩
      | _ => rw [hx] at h; cases h

/-! ### A stream that cannot be read -/

theorem peff_failed (c : Cfg) (cs : Str) : peff c .failed cs = ⟨[], none⟩ := by
  unfold peff parseCore
  have e1 : ∀ n, events c.ct (n + 2) .failed = ([], .ok () 0) := by
    intro n; unfold events; rfl
  show effectOf (coreInterp c.ct c.lib c.useFuzzy cs (events c.ct (c.fuel + 0 + 1) .failed).1 core0) = _
  cases c.fuel with
  | zero => rfl
  | succ k =>
    have := e1 k
    have h2 : k + 1 + 0 + 1 = k + 2 := by omega
    rw [h2, this]
    rfl

/-- The best file of a directory cannot be read. -/
def Unreadable (env : Env) (l : Language) (dir : Str) : Prop :=
  ∃ files f, env.fs.openDirectory dir = .ok files ∧ BestFile env.ct l files f ∧
    (env.fs.openFile (dir ++ b!"/" ++ f) = .null ∨ (∃ w, env.fs.openFile (dir ++ b!"/" ++ f) = .throws w) ∨
      env.fs.openFile (dir ++ b!"/" ++ f) = .stream .failed)

/-! ### `get_languages` -/

/-- The order of `std::set<Language>`. -/
def before (a b : Language) : Bool :=
  match a, b with
  | none, none => false
  | none, some _ => true
  | some _, none => false
  | some a, some b => decide (a < b)

theorem setInsert_eq (l x : Language) (t : List Language) : setInsert l (x :: t) = if l = x then x :: t else if before l x then l :: x :: t else x :: setInsert l t := by
  have e : setInsert l (x :: t) = if l = x then x :: t else if (match l, x with
      | none, _ => true
      | some _, none => false
      | some a, some b => decide (a < b)) then l :: x :: t else x :: setInsert l t := rfl
  rw [e]
  by_cases h : l = x
  · rw [if_pos h, if_pos h]
  · rw [if_neg h, if_neg h]
    cases l with
    | none =>
      cases x with
      | none => exact absurd rfl h
      | some b => rfl
    | some a => cases x <;> rfl

theorem before_trans {a b c : Language} (h1 : before a b = true) (h2 : before b c = true) : before a c = true := by
  cases a <;> cases b <;> cases c <;> simp_all [before]
  omega

theorem before_irrefl (a : Language) : before a a = false := by
  cases a <;> simp [before]

theorem before_total {a b : Language} (h : a ≠ b) (h2 : before a b = false) : before b a = true := by
  cases a <;> cases b <;> simp_all [before]
  omega

/-- Strictly sorted. -/
def Sorted (l : List Language) : Prop := l.Pairwise (fun a b => before a b = true)

theorem setInsert_spec (l : Language) : ∀ t : List Language, Sorted t → Sorted (setInsert l t) ∧ ∀ x, x ∈ setInsert l t ↔ x = l ∨ x ∈ t := by
  intro t
  induction t with
  | nil => intro _; exact ⟨by simp [setInsert, Sorted], by simp [setInsert]⟩
  | cons a t ih =>
    intro h
    have h1 : ∀ y ∈ t, before a y = true := (List.pairwise_cons.1 h).1
    have h2 : Sorted t := (List.pairwise_cons.1 h).2
    rw [setInsert_eq]
    split
    · rename_i e
      subst e
      exact ⟨h, fun x => by simp⟩
    · rename_i hne
      split
      · rename_i hb
        refine ⟨?_, fun x => by simp⟩
        refine List.pairwise_cons.2 ⟨?_, h⟩
        intro y hy
        rcases List.mem_cons.1 hy with e | e
        · subst e; exact hb
        · exact before_trans hb (h1 y e)
      · rename_i hb
        obtain ⟨i1, i2⟩ := ih h2
        have hb' : before a l = true := before_total hne (by simpa using hb)
        refine ⟨?_, ?_⟩
        · refine List.pairwise_cons.2 ⟨?_, i1⟩
          intro y hy
          rcases (i2 y).1 hy with e | e
          · subst e; exact hb'
          · exact h1 y e
        · intro x
          simp only [List.mem_cons, i2 x]
          constructor
          · rintro (h | h | h)
            · exact .inr (.inl h)
            · exact .inl h
            · exact .inr (.inr h)
          · rintro (h | h | h)
            · exact .inr (.inl h)
            · exact .inl h
            · exact .inr (.inr h)

/-- Sorted lists with the same members are equal. -/
theorem sorted_ext : ∀ (a b : List Language), Sorted a → Sorted b → (∀ x, x ∈ a ↔ x ∈ b) → a = b := by
  intro a
  induction a with
  | nil =>
    intro b _ _ h
    cases b with
    | nil => rfl
    | cons y t => have := (h y).2 (by simp); cases this
  | cons x s ih =>
    intro b ha hb h
    cases b with
    | nil => have := (h x).1 (by simp); cases this
    | cons y t =>
      have hx1 : ∀ z ∈ s, before x z = true := (List.pairwise_cons.1 ha).1
      have hy1 : ∀ z ∈ t, before y z = true := (List.pairwise_cons.1 hb).1
      have hxy : x = y := by
        rcases List.mem_cons.1 ((h x).1 List.mem_cons_self) with e | e
        · exact e
        · rcases List.mem_cons.1 ((h y).2 List.mem_cons_self) with e' | e'
          · exact e'.symm
          · have := before_trans (hx1 y e') (hy1 x e)
            rw [before_irrefl] at this; cases this
      subst hxy
      congr 1
      refine ih t (List.pairwise_cons.1 ha).2 (List.pairwise_cons.1 hb).2 ?_
      intro z
      constructor
      · intro hz
        rcases List.mem_cons.1 ((h z).1 (List.mem_cons_of_mem _ hz)) with e | e
        · subst e; have := hx1 z hz; rw [before_irrefl] at this; cases this
        · exact e
      · intro hz
        rcases List.mem_cons.1 ((h z).2 (List.mem_cons_of_mem _ hz)) with e | e
        · subst e; have := hy1 z hz; rw [before_irrefl] at this; cases this
        · exact e

theorem collectFiles_spec (files : List Str) : ∀ acc, Sorted acc → Sorted (collectFiles files acc) ∧
    ∀ x, x ∈ collectFiles files acc ↔ x ∈ acc ∨ ∃ f ∈ files, b!".po" <:+ f ∧ x = Language.fromEnv (f.take (f.length - 3)) := by
  induction files with
  | nil => intro acc h; exact ⟨h, fun x => by simp [collectFiles]⟩
  | cons f t ih =>
    intro acc h
    unfold collectFiles
    by_cases hs : hasSuffix f b!".po" = true
    · rw [if_pos hs]
      have hsub : substr f 0 (f.length - 3) = f.take (f.length - 3) := by simp [substr]
      rw [hsub]
      obtain ⟨s1, s2⟩ := setInsert_spec (Language.fromEnv (f.take (f.length - 3))) acc h
      obtain ⟨i1, i2⟩ := ih _ s1
      refine ⟨i1, ?_⟩
      intro x
      rw [i2, s2]
      constructor
      · rintro ((h | h) | ⟨g, h1, h2⟩)
        · exact .inr ⟨f, by simp, (hasSuffix_iff f _).1 hs, h⟩
        · exact .inl h
        · exact .inr ⟨g, List.mem_cons_of_mem _ h1, h2⟩
      · rintro (h | ⟨g, h1, h2, h3⟩)
        · exact .inl (.inr h)
        · rcases List.mem_cons.1 h1 with e | e
          · subst e; exact .inl (.inl h3)
          · exact .inr ⟨g, e, h2, h3⟩
    · rw [if_neg hs]
      obtain ⟨i1, i2⟩ := ih acc h
      refine ⟨i1, ?_⟩
      intro x
      rw [i2]
      constructor
      · rintro (h | ⟨g, h1, h2⟩)
        · exact .inl h
        · exact .inr ⟨g, List.mem_cons_of_mem _ h1, h2⟩
      · rintro (h | ⟨g, h1, h2, h3⟩)
        · exact .inl h
        · rcases List.mem_cons.1 h1 with e | e
          · subst e; exact absurd ((hasSuffix_iff g _).2 h2) hs
          · exact .inr ⟨g, e, h2, h3⟩

theorem collectDirs_spec (env : Env) (dirs : List Str) : ∀ acc m, Sorted acc →
    (∃ l, collectDirs env dirs acc m = .ok l m ∧ Sorted l ∧ (∀ dir ∈ dirs, ∃ files, env.fs.openDirectory dir = .ok files) ∧
      ∀ x, x ∈ l ↔ x ∈ acc ∨ ∃ dir ∈ dirs, ∃ files, env.fs.openDirectory dir = .ok files ∧
        ∃ f ∈ files, b!".po" <:+ f ∧ x = Language.fromEnv (f.take (f.length - 3))) ∨
    (∃ w, collectDirs env dirs acc m = .exn w m ∧ ∃ dir ∈ dirs, env.fs.openDirectory dir = .error w) := by
  induction dirs with
  | nil => intro acc m h; exact .inl ⟨acc, rfl, h, by simp, by simp⟩
  | cons dir t ih =>
    intro acc m h
    unfold collectDirs
    cases ho : env.fs.openDirectory dir with
    | error w => exact .inr ⟨w, rfl, dir, by simp, ho⟩
    | ok files =>
      obtain ⟨c1, c2⟩ := collectFiles_spec files acc h
      rcases ih (collectFiles files acc) m c1 with ⟨l, h1, h2, h3, h4⟩ | ⟨w, h1, d, h2, h3⟩
      · refine .inl ⟨l, h1, h2, ?_, ?_⟩
        · intro d hd
          rcases List.mem_cons.1 hd with e | e
          · subst e; exact ⟨files, ho⟩
          · exact h3 d e
        · intro x
          rw [h4, c2]
          constructor
          · rintro ((h | ⟨f, a, b⟩) | ⟨d, a, b⟩)
            · exact .inl h
            · exact .inr ⟨dir, by simp, files, ho, f, a, b⟩
            · exact .inr ⟨d, List.mem_cons_of_mem _ a, b⟩
          · rintro (h | ⟨d, a, fs, b, f, c⟩)
            · exact .inl (.inl h)
            · rcases List.mem_cons.1 a with e | e
              · subst e
                rw [ho] at b
                cases b
                exact .inl (.inr ⟨f, c⟩)
              · exact .inr ⟨d, e, fs, b, f, c⟩
      · exact .inr ⟨w, h1, d, List.mem_cons_of_mem _ h2, h3⟩

end Tgt.Mgr
