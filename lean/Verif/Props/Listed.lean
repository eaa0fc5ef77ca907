import Verif.Props.ManagerMore
import Verif.Spec.Listed
/-
C101: what get_languages lists and what get_dictionary finds.
-/
namespace Tgt
open Spec Manager Mgr

namespace Mgr

/-- The part of a locale name that `from_env` looks up. -/
def codeOf (s : Str) : Str := substr s 0 (min (min (find s 95) (find s 46)) (find s 64))

theorem fromEnv_code (s : Str) :
    ((Language.fromEnv s).isDefined = true ↔ codeOf s ∈ languages.map (·.language)) ∧
    ((Language.fromEnv s).isDefined = true → (Language.fromEnv s).getLanguage = codeOf s) := by
  have h : ∀ c m, ((Language.fromSpec (codeOf s) c m).isDefined = true ↔ codeOf s ∈ languages.map (·.language)) ∧
      ((Language.fromSpec (codeOf s) c m).isDefined = true → (Language.fromSpec (codeOf s) c m).getLanguage = codeOf s) := by
    intro c m
    refine ⟨?_, (C07_from_spec_language _ c m).2⟩
    have := (C07_from_spec_language (codeOf s) c m).1
    constructor
    · intro h1
      apply Classical.byContradiction
      intro h2
      rw [this.2 h2] at h1; cases h1
    · intro h1
      cases h2 : (Language.fromSpec (codeOf s) c m).isDefined with
      | true => rfl
      | false => exact absurd h1 (this.1 h2)
  exact h _ _

/-- What `find` gives when the first part does not have the byte. -/
theorem find_split (a r : Str) (ch : Byte) (h : (a ++ r).length ≤ npos) :
    (ch ∈ a → ∀ r', find (a ++ r') ch = find (a ++ r) ch) ∧ (ch ∉ a → a.length ≤ find (a ++ r) ch) := by
  constructor
  · intro hm r'
    obtain ⟨x, y, rfl, hx⟩ : ∃ x y, a = x ++ ch :: y ∧ ch ∉ x := by
      induction a with
      | nil => cases hm
      | cons b t ih =>
        by_cases e : b = ch
        · exact ⟨[], t, by rw [e]; rfl, by simp⟩
        · have : ch ∈ t := by
            rcases List.mem_cons.1 hm with e' | e'
            · exact absurd e'.symm e
            · exact e'
          obtain ⟨x, y, h1, h2⟩ := ih (by simp at h ⊢; omega) this
          refine ⟨b :: x, y, by rw [h1]; rfl, ?_⟩
          simp only [List.mem_cons, not_or]
          exact ⟨fun e' => e e'.symm, h2⟩
    rw [List.append_assoc, List.append_assoc, List.cons_append, List.cons_append, Lang.find_append hx, Lang.find_append hx]
  · intro hn
    by_cases hr : ch ∈ r
    · obtain ⟨x, y, rfl, hx⟩ : ∃ x y, r = x ++ ch :: y ∧ ch ∉ x := by
        clear h
        induction r with
        | nil => cases hr
        | cons b t ih =>
          by_cases e : b = ch
          · exact ⟨[], t, by rw [e]; rfl, by simp⟩
          · have : ch ∈ t := by
              rcases List.mem_cons.1 hr with e' | e'
              · exact absurd e'.symm e
              · exact e'
            obtain ⟨x, y, h1, h2⟩ := ih this
            refine ⟨b :: x, y, by rw [h1]; rfl, ?_⟩
            simp only [List.mem_cons, not_or]
            exact ⟨fun e' => e e'.symm, h2⟩
      rw [← List.append_assoc, Lang.find_append (by simp [hn, hx])]
      simp
    · rw [Lang.find_not_mem (by simp [hn, hr])]
      simp at h; omega

theorem upcase_cases (ct : CType) (s : Str) :
    upcaseCountry ct false s = s ∨ ∃ a r r', (95 : UInt8) ∉ a ∧ s = a ++ 95 :: r ∧ upcaseCountry ct false s = a ++ 95 :: r' ∧ r'.length = r.length := by
  have hlen : ∀ (b : Bool) (t : Str), (upcaseCountry ct b t).length = t.length := by
    intro b t
    induction t generalizing b with
    | nil => cases b <;> rfl
    | cons c t ih =>
      cases b with
      | false => simp [upcaseCountry, ih]
      | true =>
        unfold upcaseCountry
        split
        · rfl
        · simp [ih]
  induction s with
  | nil => exact .inl rfl
  | cons c t ih =>
    by_cases h : c = 95
    · subst h
      exact .inr ⟨[], t, upcaseCountry ct true t, by simp, rfl, by simp [upcaseCountry], hlen _ _⟩
    · have hc : (c == 95) = false := by simpa using h
      rcases ih with e | ⟨a, r, r', h1, h2, h3, h4⟩
      · left; simp [upcaseCountry, hc, e]
      · refine .inr ⟨c :: a, r, r', ?_, by rw [h2]; rfl, by simp [upcaseCountry, hc, h3], h4⟩
        simp only [List.mem_cons, not_or]
        exact ⟨fun e => h e.symm, h1⟩

/-- Upper-casing the country leaves the language. -/
theorem codeOf_upcase (ct : CType) (s : Str) (hf : Fits s) : codeOf (upcaseCountry ct false s) = codeOf s := by
  rcases upcase_cases ct s with e | ⟨a, r, r', h1, h2, h3, h4⟩
  · rw [e]
  · rw [h3, h2]
    have hl : (a ++ 95 :: r).length ≤ npos := by
      unfold Fits at hf; rw [← h2]; unfold npos; omega
    have hl' : (a ++ 95 :: r').length ≤ npos := by simp at hl ⊢; omega
    have e95 := Lang.find_append (b := r) h1
    have e95' := Lang.find_append (b := r') h1
    unfold codeOf
    rw [e95, e95']
    have key : min (min a.length (find (a ++ 95 :: r') 46)) (find (a ++ 95 :: r') 64) = min (min a.length (find (a ++ 95 :: r) 46)) (find (a ++ 95 :: r) 64) := by
      have k : ∀ ch, min a.length (find (a ++ 95 :: r') ch) = min a.length (find (a ++ 95 :: r) ch) := by
        intro ch
        by_cases h : ch ∈ a
        · rw [(find_split a (95 :: r) ch hl).1 h (95 :: r')]
        · have u := (find_split a (95 :: r) ch hl).2 h
          have v := (find_split a (95 :: r') ch hl').2 h
          omega
      have k1 := k 46
      have k2 := k 64
      omega
    rw [key]
    have hle : min (min a.length (find (a ++ 95 :: r) 46)) (find (a ++ 95 :: r) 64) ≤ a.length := by omega
    generalize min (min a.length (find (a ++ 95 :: r) 46)) (find (a ++ 95 :: r) 64) = k at hle
    unfold substr
    simp only [List.drop_zero]
    rw [List.take_append_of_le_length hle, List.take_append_of_le_length hle]

theorem language_ne_nil (i : Fin 241) : Language.getLanguage (some i) ≠ [] := by
  have h : ∀ s ∈ languages, s.language ≠ [] := by decide +kernel
  exact h _ (Lang.derefLang_mem i)

/-- For `get_dictionary`, a file serves a language exactly if `get_languages` lists it as the same language. -/
theorem score_pos_iff (ct : CType) (l : Language) (hl : l.isDefined = true) (f : Str) (hf : Fits f) :
    0 < fileScore ct l f ↔ b!".po" <:+ f ∧ (Language.fromEnv (f.take (f.length - 3))).isDefined = true ∧
      (Language.fromEnv (f.take (f.length - 3))).getLanguage = l.getLanguage := by
  unfold fileScore
  by_cases hs : b!".po" <:+ f
  · rw [if_pos hs]
    obtain ⟨stem, rfl⟩ := hs
    have e1 : (stem ++ b!".po").take ((stem ++ b!".po").length - 3) = stem := by simp
    have e2 : convertFilename2Language ct (stem ++ b!".po") = some (upcaseCountry ct false stem) := by
      unfold convertFilename2Language
      have : ¬ (stem ++ b!".po").length < 3 := by simp
      rw [if_neg this]
      have e3 : substr (stem ++ b!".po") ((stem ++ b!".po").length - 3) 3 = b!".po" := by simp [substr]
      simp only [e3, if_true]
      have e4 : substr (stem ++ b!".po") 0 ((stem ++ b!".po").length - 3) = stem := by simp [substr]
      rw [e4]
    rw [e1, e2]
    have hst : Fits stem := by unfold Fits at hf ⊢; simp at hf; omega
    have hc := codeOf_upcase ct stem hst
    have hr := (C05_match_range l (Language.fromEnv (upcaseCountry ct false stem))).1
    have ha := fromEnv_code stem
    have hb := fromEnv_code (upcaseCountry ct false stem)
    rw [hc] at hb
    have hpos : 0 < Language.match l (Language.fromEnv (upcaseCountry ct false stem)) ↔ l.getLanguage = (Language.fromEnv (upcaseCountry ct false stem)).getLanguage := by
      constructor
      · intro h
        apply Classical.byContradiction
        intro hne
        have := hr.2 hne
        omega
      · intro h
        apply Nat.pos_of_ne_zero
        intro h0
        exact hr.1 h0 h
    have hne : l.getLanguage ≠ [] := by
      cases l with
      | none => cases hl
      | some i => exact language_ne_nil i
    refine ⟨fun h => ?_, fun ⟨_, h1, h2⟩ => ?_⟩
    · have h1 := hpos.1 h
      have hd : (Language.fromEnv (upcaseCountry ct false stem)).isDefined = true := by
        cases hx : Language.fromEnv (upcaseCountry ct false stem) with
        | none => rw [hx] at h1; exact absurd h1 hne
        | some i => rfl
      have hd' := ha.1.2 (hb.1.1 hd)
      exact ⟨⟨stem, rfl⟩, hd', by rw [ha.2 hd', h1, hb.2 hd]⟩
    · apply hpos.2
      rw [hb.2 (hb.1.2 (ha.1.1 h1)), ← h2, ha.2 h1]
  · rw [if_neg hs]
    exact ⟨fun h => absurd h (by omega), fun h => absurd h.1 hs⟩

end Mgr

/-- C101.  What `get_languages` lists and what `get_dictionary` finds agree: a language is listed (with whatever country and modifier) exactly if
some directory has a file that `get_dictionary` loads for it. -/
theorem C101_listed_iff_served (cs : Str) (m m' : Manager) (hr : Reach cs m) (env : Env) (hL : Listable env m) (ls : List Language)
    (h : getLanguages env m = .ok ls m') (l : Language) (hl : l.isDefined = true) : Names ls l ↔ Served env m l := by
  obtain ⟨ls', h1, _, h3⟩ := C55_languages_partial cs m hr env (fun dir hd => (hL dir hd).imp (fun _ h => h.1))
  rw [h] at h1
  cases h1
  have hfit : ∀ dir ∈ m.searchPath, ∀ files, env.fs.openDirectory dir = .ok files → ∀ f ∈ files, Fits f := by
    intro dir hd files ho
    obtain ⟨fs', h1, h2⟩ := hL dir hd
    rw [ho] at h1
    cases h1
    exact h2
  constructor
  · rintro ⟨x, hx, hd, hg⟩
    obtain ⟨dir, a, files, b, f, c, e, rfl⟩ := (h3 x).1 hx
    refine ⟨dir, a, files, b, (C49_best_unique env.ct l files).2.2 ?_⟩
    intro hno
    have := (score_pos_iff env.ct l hl f (hfit dir a files b f c)).2 ⟨e, hd, hg⟩
    rw [hno f c] at this
    cases this
  · rintro ⟨dir, a, files, b, f, bef, aft, e, hp, _⟩
    have c : f ∈ files := by rw [e]; simp
    obtain ⟨e1, e2, e3⟩ := (score_pos_iff env.ct l hl f (hfit dir a files b f c)).1 hp
    exact ⟨_, (h3 _).2 ⟨dir, a, files, b, f, c, e1, rfl⟩, e2, e3⟩

/-- C101.  Every language listed is served (the undefined one aside). -/
theorem C101_every_listed_served (cs : Str) (m m' : Manager) (hr : Reach cs m) (env : Env) (hL : Listable env m) (ls : List Language)
    (h : getLanguages env m = .ok ls m') (l : Language) (hm : l ∈ ls) (hl : l.isDefined = true) : Served env m l :=
  (C101_listed_iff_served cs m m' hr env hL ls h l hl).1 ⟨l, hm, hl, rfl⟩

/-- C101.  A dictionary made for a language that is not listed has no messages. -/
theorem C101_unlisted_empty (cs : Str) (m m1 m2 : Manager) (hr : Reach cs m) (env : Env) (hL : Listable env m) (ls : List Language)
    (h : getLanguages env m = .ok ls m1) (l : Language) (hl : l.isDefined = true) (hn : ¬ Names ls l) (n : Nat) (p : DictId)
    (hg : getDictionaryFor env n l m = .ok p m2) (hp : m.heap.get? p = none) :
    ∃ d, m2.heap.get? p = some d ∧ ∀ c i, stored d c i = none := by
  obtain ⟨d, h1, h2⟩ := C49_best_files cs m m2 hr env n l p hg hp
  have hs : ¬ Served env m l := fun e => hn ((C101_listed_iff_served cs m m1 hr env hL ls h l hl).2 e)
  have key : ∀ (path : List Str) (x y : Dictionary), PathLoads env l path x y → (∀ dir ∈ path, dir ∈ m.searchPath) → y = x := by
    intro path x y hx hsub
    induction hx with
    | nil => rfl
    | cons _ hd ih =>
      have e := ih (fun dir h => hsub dir (List.mem_cons_of_mem _ h))
      have hdir := hsub _ (List.mem_cons_self ..)
      cases hd with
      | nothing => exact e
      | unopened ho hb _ => exact absurd ⟨_, hdir, _, ho, _, hb⟩ hs
      | parsed ho hb _ _ => exact absurd ⟨_, hdir, _, ho, _, hb⟩ hs
  have e := key _ _ _ h2 (fun _ h => h)
  refine ⟨d, h1, fun c i => ?_⟩
  have : stored d c i = stored (unlinked d) c i := by cases c <;> rfl
  rw [this, e]
  cases c <;> rfl

/-- C101.  If a file of a directory denotes the very language asked for, the file loaded from this directory denotes it. -/
theorem C101_exact (ct : CType) (l : Language) (files : List Str) (f g : Str) (hf : f ∈ files) (hd : denoted ct f = some l) (hb : BestFile ct l files g) :
    denoted ct g = some l := by
  have h9 : ∀ x, fileScore ct l x = 9 ↔ denoted ct x = some l := by
    intro x
    unfold fileScore denoted
    by_cases hs : b!".po" <:+ x
    · rw [if_pos hs, if_pos hs]
      cases hc : convertFilename2Language ct x with
      | none => simp
      | some name =>
        simp only [Option.map_some, Option.some.injEq]
        rw [(C05_match_nine l (Language.fromEnv name)).2]
        exact eq_comm
    · rw [if_neg hs, if_neg hs]; simp
  have hle : fileScore ct l g ≤ 9 := by
    unfold fileScore
    split
    · split
      · exact (C05_match_range _ _).2
      · omega
    · omega
  obtain ⟨bef, aft, e, hp, h1, h2⟩ := hb
  have : fileScore ct l f ≤ fileScore ct l g := by
    rw [e] at hf
    rcases List.mem_append.1 hf with hf | hf
    · exact Nat.le_of_lt (h1 f hf)
    · rcases List.mem_cons.1 hf with hf | hf
      · rw [hf]; exact Nat.le_refl _
      · exact h2 f hf
  rw [(h9 f).2 hd] at this
  exact (h9 g).1 (by omega)

-- the German files are listed and serve de_AT; nothing is listed for fr
example : ∃ m ls, script (.init b!"UTF-8") [.addDirectory b!"lo" false, .addDirectory b!"hi" false] = some m ∧ Listable demoEnv m ∧
    getLanguages demoEnv m = .ok ls m ∧ Names ls deLang ∧ Names ls atLang ∧ ¬ Names ls (Language.fromEnv b!"fr") := by
  obtain ⟨m, h, hx⟩ : ∃ m, script (.init b!"UTF-8") [.addDirectory b!"lo" false, .addDirectory b!"hi" false] = some m ∧
      (m.searchPath.all (fun dir => match demoEnv.fs.openDirectory dir with | .ok fs => fs.all (fun f => f.length < 100) | .error _ => false) &&
       (getLanguages demoEnv m).test (fun ls _ => ls.any (fun x => x.isDefined && x.getLanguage == deLang.getLanguage) &&
          ls.any (fun x => x.isDefined && x.getLanguage == atLang.getLanguage) &&
          ls.all (fun x => x.getLanguage != (Language.fromEnv b!"fr").getLanguage))) = true := of_any (by decide +kernel)
  simp only [Bool.and_eq_true, List.all_eq_true] at hx
  have hL : Listable demoEnv m := by
    intro dir hd
    have := hx.1 dir hd
    cases ho : demoEnv.fs.openDirectory dir with
    | error w => rw [ho] at this; cases this
    | ok fs =>
      rw [ho] at this
      simp only [List.all_eq_true, decide_eq_true_eq] at this
      exact ⟨fs, rfl, fun f hf => by have := this f hf; unfold Fits; omega⟩
  obtain ⟨ls, h1, _, _⟩ := C55_languages_partial _ m (script_reach h) demoEnv (fun dir hd => (hL dir hd).imp (fun _ h => h.1))
  obtain ⟨ls', m', hg, hy⟩ := ok_of_test hx.2
  rw [h1] at hg
  cases hg
  simp only [Bool.and_eq_true, List.any_eq_true, List.all_eq_true, beq_iff_eq, bne_iff_ne] at hy
  obtain ⟨⟨⟨x, a1, a2, a3⟩, y, b1, b2, b3⟩, c⟩ := hy
  exact ⟨m, ls, h, hL, h1, ⟨x, a1, a2, a3⟩, ⟨y, b1, b2, b3⟩, fun ⟨x, h1, _, h2⟩ => c x h1 h2⟩

end Tgt
