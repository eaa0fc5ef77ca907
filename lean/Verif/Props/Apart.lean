import Verif.Spec.Apart
import Verif.Spec.Nested
import Verif.Props.Settled
/-
The order of directories that have nothing in common: C110.
-/
namespace Tgt
open Spec Manager Mgr POParser Twice Bare

namespace Apart

theorem step_none {key : Option Str × Str} {l : List Add} : l.foldl (step key) none = none → ∀ a ∈ l, target a ≠ key := by
  have grow : ∀ (l : List Add) v, l.foldl (step key) (some v) ≠ none := by
    intro l
    induction l with
    | nil => intro v h; cases h
    | cons a l ih =>
      intro v
      rw [List.foldl_cons]
      unfold step
      split
      · exact ih _
      · exact ih _
  induction l with
  | nil => intro _ a ha; cases ha
  | cons a l ih =>
    intro h b hb
    rw [List.foldl_cons] at h
    by_cases ht : target a = key
    · rw [show step key none a = some (a.newVec []) by unfold step; rw [if_pos ht]; rfl] at h
      exact absurd h (grow l _)
    · rw [show step key none a = none by unfold step; rw [if_neg ht]] at h
      rcases List.mem_cons.1 hb with e | e
      · rw [e]; exact ht
      · exact ih h b e

theorem step_other {key : Option Str × Str} {l : List Add} (h : ∀ a ∈ l, target a ≠ key) (o : Option (List Str)) : l.foldl (step key) o = o := by
  induction l with
  | nil => rfl
  | cons a l ih =>
    rw [List.foldl_cons, show step key o a = o by unfold step; rw [if_neg (h a List.mem_cons_self)]]
    exact ih (fun b hb => h b (List.mem_cons_of_mem _ hb))

/-- No message in common, and at most one rule. -/
def Free (x y : Effect) : Prop :=
  (∀ key, (∀ a ∈ x.adds, target a ≠ key) ∨ ∀ a ∈ y.adds, target a ≠ key) ∧
  ((x.rule.getD .undefined).plural = none ∨ (y.rule.getD .undefined).plural = none ∨ (x.rule.getD .undefined).plural = (y.rule.getD .undefined).plural)

theorem Free.symm {x y : Effect} (h : Free x y) : Free y x :=
  ⟨fun key => (h.1 key).symm, by
    rcases h.2 with h | h | h
    · exact .inr (.inl h)
    · exact .inl h
    · exact .inr (.inr h.symm)⟩

/-- What matters of a dictionary. -/
def Alike (d e : Dictionary) : Prop := SameText d e ∧ d.pluralForms.plural = e.pluralForms.plural

theorem Alike.trans {a b c : Dictionary} (h : Alike a b) (h' : Alike b c) : Alike a c := ⟨h.1.trans h'.1, h.2.trans h'.2⟩

theorem applyTo_plural (x : Effect) (d : Dictionary) : (x.applyTo d).pluralForms.plural = d.pluralForms.plural.or (x.rule.getD .undefined).plural := by
  show (if d.pluralForms.isDefined then d.pluralForms else x.rule.getD d.pluralForms).plural = _
  unfold PluralForms.isDefined
  cases h : d.pluralForms.plural with
  | some f => simp [h]
  | none =>
    simp only [Option.isSome_none, Bool.false_eq_true, if_false, Option.none_or]
    cases x.rule with
    | none => exact h
    | some r => rfl

theorem applyTo_alike (x : Effect) {d e : Dictionary} (h : Alike d e) : Alike (x.applyTo d) (x.applyTo e) :=
  ⟨(applyTo_text x d).trans ((addAll_text _ h.1).trans (applyTo_text x e).symm), by rw [applyTo_plural, applyTo_plural, h.2]⟩

theorem swap {x y : Effect} (h : Free x y) (d : Dictionary) : Alike (x.applyTo (y.applyTo d)) (y.applyTo (x.applyTo d)) := by
  have two : ∀ (x y : Effect), SameText (x.applyTo (y.applyTo d)) (addAll (addAll d y.adds) x.adds) := fun x y =>
    (applyTo_text x _).trans (addAll_text _ (applyTo_text y d))
  refine ⟨(two x y).trans (SameText.trans ⟨fun key => ?_, fun c => ?_⟩ (two y x).symm), ?_⟩
  · rw [lookup_steps, lookup_steps, lookup_steps, lookup_steps]
    rcases h.1 key with hx | hy
    · rw [step_other hx, step_other hx]
    · rw [step_other hy, step_other hy]
  · rw [knows_addAll, knows_addAll, knows_addAll, knows_addAll]
    cases (d.ctxtEntries.get? c).isSome <;> cases x.adds.any (fun a => decide ((target a).1 = some c)) <;>
      cases y.adds.any (fun a => decide ((target a).1 = some c)) <;> rfl
  · rw [applyTo_plural, applyTo_plural, applyTo_plural, applyTo_plural]
    cases d.pluralForms.plural with
    | some f => rfl
    | none =>
      rcases h.2 with h | h | h
      · rw [h]; cases (y.rule.getD .undefined).plural <;> rfl
      · rw [h]; cases (x.rule.getD .undefined).plural <;> rfl
      · rw [h]

theorem free_of {env : Env} {l : Language} {cs x y : Str} (h : ApartFor env l cs x y) : Free (dirEff env l cs x) (dirEff env l cs y) := by
  obtain ⟨e, e', h1, h2, h3, h4⟩ := h
  have a1 := alone_eff h1
  have a2 := alone_eff h2
  have look : ∀ {e : Dictionary} {F : Effect}, unlinked e = F.applyTo (Dictionary.init cs) → ∀ c i, stored e c i = none → ∀ a ∈ F.adds, target a ≠ (c, i) := by
    intro e F ha c i hs
    rw [stored_lookup, ← lookup_unlinked e, ha, lookup_applyTo, lookup_steps, init_lookup] at hs
    exact step_none hs
  have rule : ∀ {e : Dictionary} {F : Effect}, unlinked e = F.applyTo (Dictionary.init cs) → e.pluralForms = F.rule.getD .undefined := by
    intro e F ha
    rw [← init_rule F cs, ← ha]; rfl
  refine ⟨fun key => ?_, ?_⟩
  · rcases h3 key.1 key.2 with h | h
    · exact .inl (look a1 _ _ h)
    · exact .inr (look a2 _ _ h)
  · rw [← rule a1, ← rule a2]
    rcases h4 with h | h | h
    · exact .inl (by unfold PluralForms.isDefined at h; simpa using h)
    · exact .inr (.inl (by unfold PluralForms.isDefined at h; simpa using h))
    · exact .inr (.inr (by rw [h]))

theorem path_alike (env : Env) (l : Language) (cs : Str) (a : List Str) {d e : Dictionary} (h : Alike d e) : Alike (pathEff env l cs a d) (pathEff env l cs a e) := by
  induction a with
  | nil => exact h
  | cons x t ih => exact applyTo_alike _ ih

theorem perm {env : Env} {l : Language} {cs : Str} {p p' : List Str} (hp : p.Perm p') :
    p.Pairwise (fun x y => Free (dirEff env l cs x) (dirEff env l cs y)) → ∀ d, Alike (pathEff env l cs p d) (pathEff env l cs p' d) := by
  induction hp with
  | nil => intro _ d; exact ⟨⟨fun _ => rfl, fun _ => rfl⟩, rfl⟩
  | cons x _ ih => intro h d; exact applyTo_alike _ (ih (List.pairwise_cons.1 h).2 d)
  | swap x y t =>
    intro h d
    exact swap ((List.pairwise_cons.1 h).1 x List.mem_cons_self) (pathEff env l cs t d)
  | trans h1 _ ih1 ih2 =>
    intro h d
    exact (ih1 h d).trans (ih2 (h1.pairwise h (fun h => h.symm)) d)

theorem order {env : Env} {l : Language} {cs : Str} {p p' : List Str} (a b : List Str) (hp : p.Perm p') (h : p.Pairwise (fun x y => ApartFor env l cs x y)) (d : Dictionary) :
    Alike (pathEff env l cs (a ++ p ++ b) d) (pathEff env l cs (a ++ p' ++ b) d) := by
  rw [pathEff_append, pathEff_append, pathEff_append env l cs (a ++ p'), pathEff_append env l cs a p']
  exact path_alike env l cs a (perm hp (h.imp free_of) _)

theorem toldN_plural {r r' : PluralForms} (h : r.plural = r'.plural) (v : Option (List Str)) (i pl : Str) (n : Int) : toldN v r i pl n = toldN v r' i pl n := by
  have : r.getPlural n = r'.getPlural n := by unfold PluralForms.getPlural; rw [h]
  unfold toldN
  rw [this]

theorem replies {m k : Manager} (hm : Inv m) (hk : Inv k) {p q : DictId} {d e : Dictionary} (hd : m.heap.get? p = some d) (he : k.heap.get? q = some e)
    (ha : Alike d e) (hf : (d.fallback = none ∧ e.fallback = none) ∨ ∃ fb fb' d' e', d.fallback = some fb ∧ e.fallback = some fb' ∧
      m.heap.get? fb = some d' ∧ k.heap.get? fb' = some e' ∧ ∀ key, d'.lookup key = e'.lookup key) (f : Nat) (x : Query) :
    (Query.counts x = false → reply (f + 2) m p x = reply (f + 2) k q x) ∧ (reply (f + 2) m p x).map Prod.fst = (reply (f + 2) k q x).map Prod.fst := by
  have sing := (same_replies hm hk hd he ha.1 hf f x).1
  refine ⟨sing, ?_⟩
  cases hx : Query.counts x with
  | false => rw [sing hx]
  | true =>
    have e1 := reply_plural hd (f + 2) x
    have e2 := reply_plural he (f + 2) x
    cases x with
    | translate i => cases hx
    | ctxt c i => cases hx
    | plural i pl n => dsimp only at e1 e2; rw [e1, e2, ha.1.1, toldN_plural ha.2]
    | ctxtPlural c i pl n => dsimp only at e1 e2; rw [e1, e2, ha.1.1, toldN_plural ha.2]

end Apart
open Apart

/-- C110.  If directories next to each other in the search path have, each two of them, no message in common and not two different plural rules, their order does not
matter: all lookups have the same answers, and those without a number the same messages. -/
theorem C110_order (env : Env) (m m1 k k1 : Manager) (n n' : Nat) (l : Language) (p q : DictId) (a b dirs dirs' : List Str) (hm : Settled env m)
    (hk : Settled env k) (hcs : k.charset = m.charset) (hmp : m.searchPath = a ++ dirs ++ b) (hkp : k.searchPath = a ++ dirs' ++ b) (hperm : dirs.Perm dirs')
    (hap : dirs.Pairwise (Apart env l m.charset)) (hg : getDictionaryFor env n l m = .ok p m1) (hg' : getDictionaryFor env n' l k = .ok q k1) (f : Nat) (x : Query) :
    (Query.counts x = false → reply (f + 2) m1 p x = reply (f + 2) k1 q x) ∧ (reply (f + 2) m1 p x).map Prod.fst = (reply (f + 2) k1 q x).map Prod.fst := by
  obtain ⟨_, hI, d, hd, hu, hf0, hf1⟩ := Settled.held hm hg
  obtain ⟨_, hI', e, he, hu', hf0', hf1'⟩ := Settled.held hk hg'
  rw [hmp] at hu hf1
  rw [hcs, hkp] at hu' hf1'
  have al : ∀ (l : Language) {d e : Dictionary}, dirs.Pairwise (fun x y => ApartFor env l m.charset x y) →
      unlinked d = pathEff env l m.charset (a ++ dirs ++ b) (Dictionary.init m.charset) →
      unlinked e = pathEff env l m.charset (a ++ dirs' ++ b) (Dictionary.init m.charset) → Alike d e := by
    intro l d e h h1 h2
    have := Apart.order a b hperm h (Dictionary.init m.charset)
    rw [← h1, ← h2] at this
    exact this
  refine Apart.replies hI hI' hd he (al l (hap.imp (fun h => h.1)) hu hu') ?_ f x
  by_cases hc : l.getCountry = []
  · exact .inl ⟨hf0 hc, hf0' hc⟩
  · obtain ⟨fb, d', h1, h2, h3⟩ := hf1 hc
    obtain ⟨fb', e', h4, h5, h6⟩ := hf1' hc
    exact .inr ⟨fb, fb', d', e', h1, h4, h2, h5, (al (bare l) (hap.imp (fun h => h.2 hc)) h3 h6).1.1⟩

/-! ### Whether it returns -/

namespace Apart

theorem ended_noLog (o : Observed) : o.noLog.Ended ↔ o.Ended := by
  cases o <;> exact Iff.rfl

theorem ended_any {c : Cfg} {s : Stream} (hs : s.rest.length < c.fuel) {d d' : Dictionary} (hcs : d'.charset = d.charset) :
    (observe (run c s d)).Ended → (observe (run c s d')).Ended := by
  intro h
  rw [← ended_noLog, run_core c s _ hs] at h ⊢
  rw [hcs]
  revert h
  cases coreInterp c.ct c.lib c.useFuzzy d.charset (events c.ct c.fuel s).1 core0 with
  | ok a k => cases (events c.ct c.fuel s).2 <;> exact fun h => h
  | _ => exact fun h => h

theorem parse_any {env : Env} {pofile : Str} {s : Stream} (hs : s.rest.length < env.fuel) {x y : DL} {a : Unit} (h : parse1 env pofile s x = .ok a y) {d : Dictionary}
    (hcs : d.charset = x.1.charset) (log : List Diag) : ∃ z, parse1 env pofile s (d, log) = .ok () z := by
  have he : (observe (run (cfgOf env pofile) s x.1)).Ended := by
    unfold parse1 at h
    cases hr : run (cfgOf env pofile) s x.1 with
    | fault f => rw [hr] at h; cases h
    | diverge => rw [hr] at h; cases h
    | _ => trivial
  have he' := ended_any (c := cfgOf env pofile) hs hcs he
  unfold parse1
  rcases run_cases (cfgOf env pofile) s d with ⟨st, hr, _⟩ | ⟨w, st, hr, _⟩ | ⟨f, hr, _⟩ | hr
  · rw [hr]; exact ⟨_, rfl⟩
  · rw [hr]; exact ⟨_, rfl⟩
  · rw [hr] at he'; exact he'.elim
  · rw [hr] at he'; exact he'.elim

theorem files_any {env : Env} (hs : ShortFiles env) {l : Language} {dir : Str} {files : List Str} {x y : DL} {a : Unit} (h : files1 env l dir files x = .ok a y) {d : Dictionary}
    (hcs : d.charset = x.1.charset) (log : List Diag) : ∃ z, files1 env l dir files (d, log) = .ok () z := by
  unfold files1 at h ⊢
  split
  · exact ⟨_, rfl⟩
  · rename_i hb
    rw [if_neg hb] at h
    unfold file1 at h ⊢
    cases ho : env.fs.openFile (dir ++ b!"/" ++ (files.foldl (scanStep env.ct l) ([], 0)).1) with
    | null => exact ⟨_, rfl⟩
    | throws w => exact ⟨_, rfl⟩
    | stream s =>
      rw [ho] at h
      exact parse_any (hs _ s ho) h hcs _

/-- The directory can be loaded. -/
def Good (env : Env) (l : Language) (cs : Str) (dir : Str) : Prop :=
  ∃ files, env.fs.openDirectory dir = .ok files ∧ ∃ x y : DL, x.1.charset = cs ∧ files1 env l dir files x = .ok () y

theorem dirs_good {env : Env} (hs : ShortFiles env) {l : Language} (dirs : List Str) : ∀ x : DL,
    (∃ y, dirs1 env l dirs x = .ok () y) ↔ ∀ dir ∈ dirs, Good env l x.1.charset dir := by
  induction dirs with
  | nil => intro x; exact ⟨fun _ dir hd => (by cases hd), fun _ => ⟨x, rfl⟩⟩
  | cons dir t ih =>
    intro x
    have cs : ∀ {files} {y : DL}, env.fs.openDirectory dir = .ok files → files1 env l dir files x = .ok () y → y.1.charset = x.1.charset := by
      intro files y ho hy
      rw [(files1_ok ho hy).2]
      exact (like_applyTo _ _).1
    constructor
    · rintro ⟨y, h⟩
      unfold dirs1 at h
      cases ho : env.fs.openDirectory dir with
      | error w => rw [ho] at h; cases h
      | ok files =>
        rw [ho] at h
        dsimp only at h
        rw [bind_apply] at h
        cases hx : files1 env l dir files x with
        | ok b z =>
          rw [hx] at h
          have ht := (ih z).1 ⟨y, h⟩
          rw [cs ho hx] at ht
          intro g hg
          rcases List.mem_cons.1 hg with e | e
          · rw [e]; exact ⟨files, ho, x, z, rfl, hx⟩
          · exact ht g e
        | _ => rw [hx] at h; cases h
    · intro h
      obtain ⟨files, ho, x', y', h1, h2⟩ := h dir List.mem_cons_self
      obtain ⟨z, hz⟩ := files_any hs h2 (d := x.1) h1.symm x.2
      have hz : files1 env l dir files x = .ok () z := hz
      have ht := (ih z).2 (by rw [cs ho hz]; exact fun g hg => h g (List.mem_cons_of_mem _ hg))
      obtain ⟨y, hy⟩ := ht
      refine ⟨y, ?_⟩
      unfold dirs1
      rw [ho]
      dsimp only
      rw [bind_apply, hz]
      exact hy

end Apart

/-- C110.  Whether a dictionary for a language is returned at all does not depend on the order of the search path, whatever is in the directories. -/
theorem C110_returns (env : Env) (hs : ShortFiles env) (m m1 k : Manager) (n : Nat) (l : Language) (p : DictId) (hm : Settled env m) (hk : Settled env k)
    (hcs : k.charset = m.charset) (hperm : m.searchPath.Perm k.searchPath) (hg : getDictionaryFor env (n + 2) l m = .ok p m1) :
    ∃ q k1, getDictionaryFor env (n + 2) l k = .ok q k1 := by
  refine Settled.returns env m m1 k n l p hm hk (fun l' _ h => ?_) hg
  rw [Apart.dirs_good hs] at h ⊢
  intro dir hd
  have := h dir (List.mem_reverse.2 ((hperm.mem_iff).2 (List.mem_reverse.1 hd)))
  rw [hcs]
  exact this

/-! ### A case -/

/-- Two directories with different messages. -/
def Apart.petOs : OS where
  listing p := if p = b!"x" then some [b!"de.po"] else if p = b!"y" then some [b!"fr.po", b!"de.po"] else none
  content f :=
    if f = b!"x/de.po" then some (b!"msgid \"\"\nmsgstr \"Plural-Forms: nplurals=2; plural=(n != 1);\\n\"\n\n" ++ b!"msgid \"cat\"\nmsgstr \"Katze\"\n")
    else if f = b!"y/de.po" then some b!"msgid \"dog\"\nmsgid_plural \"dogs\"\nmsgstr[0] \"Hund\"\nmsgstr[1] \"Hunde\"\n"
    else none

/-- The world with these files. -/
def Apart.petEnv : Env := ⟨.c, demoLib, false, unixFileSystem petOs, 300⟩

theorem Apart.pet_alone {dir : Str} {es : Entries} (h : (getDictionaryFor petEnv petEnv.fuel deLang (newManager ⟨[dir], b!"UTF-8", true⟩)).test
    (fun p m1 => decide ((m1.heap.get? p).map (fun d => d.entries) = some es) && decide ((m1.heap.get? p).map (fun d => d.ctxtEntries) = some [])) = true) :
    ∃ e, AloneGives petEnv deLang b!"UTF-8" dir e ∧ e.entries = es ∧ e.ctxtEntries = [] := by
  obtain ⟨p, m1, hg, h1⟩ := ok_of_test h
  rw [Bool.and_eq_true, decide_eq_true_eq, decide_eq_true_eq] at h1
  obtain ⟨h1, h2⟩ := h1
  cases he : m1.heap.get? p with
  | none => rw [he] at h1; cases h1
  | some e =>
    rw [he] at h1 h2
    injection h1 with h1
    injection h2 with h2
    exact ⟨e, ⟨p, m1, hg, he⟩, h1, h2⟩

/-- They have nothing in common. -/
theorem Apart.pet_apart : Apart petEnv deLang b!"UTF-8" b!"x" b!"y" := by
  obtain ⟨e, h1, h2, h3⟩ := pet_alone (dir := b!"x") (es := [(b!"cat", [b!"Katze"])]) (by decide +kernel)
  obtain ⟨e', h1', h2', h3'⟩ := pet_alone (dir := b!"y") (es := [(b!"dog", [b!"Hund", b!"Hunde"])]) (by decide +kernel)
  have hr : e'.pluralForms.isDefined = false := by
    have h0 : (getDictionaryFor petEnv petEnv.fuel deLang (newManager ⟨[b!"y"], b!"UTF-8", true⟩)).test
      (fun p m1 => decide ((m1.heap.get? p).map (·.pluralForms.isDefined) = some false)) = true := by decide +kernel
    obtain ⟨p, m1, hg, hx⟩ := ok_of_test h0
    obtain ⟨p', m1', hg', he'⟩ := h1'
    rw [hg] at hg'; cases hg'
    rw [decide_eq_true_eq, he'] at hx
    injection hx
  refine ⟨⟨e, e', h1, h1', ?_, .inr (.inl hr)⟩, fun hc => absurd (by decide +kernel) hc⟩
  intro c i
  cases c with
  | some c => left; show (e.ctxtEntries.get? c).bind _ = none; rw [h3]; rfl
  | none =>
    show e.entries.get? i = none ∨ e'.entries.get? i = none
    rw [h2, h2']
    by_cases hi : b!"cat" = i
    · right; subst hi; decide
    · left; simp [AMap.get?, hi]

/-- Managers with the two directories in different order. -/
def Apart.xy : List Call := [.addDirectory b!"x" false, .addDirectory b!"y" false, .getLanguages]

/-- The other. -/
def Apart.yx : List Call := [.addDirectory b!"x" false, .addDirectory b!"y" true, .getDictionaryFor deLang]

-- for C110_order: the plural of the one comes out by the rule of the other
example : ∃ m k m1 k1 p q, Settled Apart.petEnv m ∧ Settled Apart.petEnv k ∧ k.charset = m.charset ∧ m.searchPath = [] ++ [b!"x", b!"y"] ++ [] ∧ k.searchPath = [] ++ [b!"y", b!"x"] ++ [] ∧
    [b!"x", b!"y"].Perm [b!"y", b!"x"] ∧ [b!"x", b!"y"].Pairwise (Apart Apart.petEnv deLang m.charset) ∧
    getDictionaryFor Apart.petEnv 300 deLang m = .ok p m1 ∧ getDictionaryFor Apart.petEnv 300 deLang k = .ok q k1 ∧
    (reply 2 m1 p (.plural b!"dog" b!"dogs" 2)).map Prod.fst = some b!"Hunde" := by
  have h : (match Settled.calls Apart.petEnv (.init b!"UTF-8") Apart.xy, Settled.calls Apart.petEnv (.init b!"UTF-8") Apart.yx with
      | some m, some k => decide (k.charset = m.charset) && decide (m.charset = b!"UTF-8") && decide (m.searchPath = [b!"x", b!"y"]) && decide (k.searchPath = [b!"y", b!"x"]) &&
        (match getDictionaryFor Apart.petEnv 300 deLang m, getDictionaryFor Apart.petEnv 300 deLang k with
        | .ok p m1, .ok _ _ => decide ((reply 2 m1 p (.plural b!"dog" b!"dogs" 2)).map Prod.fst = some b!"Hunde")
        | _, _ => false)
      | _, _ => false) = true := by decide +kernel
  cases hm : Settled.calls Apart.petEnv (.init b!"UTF-8") Apart.xy with
  | none => rw [hm] at h; cases h
  | some m =>
    cases hk : Settled.calls Apart.petEnv (.init b!"UTF-8") Apart.yx with
    | none => rw [hm, hk] at h; cases h
    | some k =>
      rw [hm, hk] at h
      dsimp only at h
      cases hg : getDictionaryFor Apart.petEnv 300 deLang m with
      | ok p m1 =>
        cases hg' : getDictionaryFor Apart.petEnv 300 deLang k with
        | ok q k1 =>
          rw [hg, hg'] at h
          simp only [Bool.and_eq_true, decide_eq_true_eq] at h
          obtain ⟨⟨⟨⟨h1, h2⟩, h3⟩, h4⟩, h5⟩ := h
          refine ⟨m, k, m1, k1, p, q, Settled.of_calls _ (by decide) (.new _) hm, Settled.of_calls _ (by decide) (.new _) hk, h1, h3, h4, List.Perm.swap _ _ _, ?_, hg, hg', h5⟩
          rw [h2]
          exact List.pairwise_pair.2 Apart.pet_apart
        | _ => rw [hg, hg'] at h; simp at h
      | _ => rw [hg] at h; simp at h

-- for C110_returns: the files are short
example : ShortFiles Apart.petEnv := by
  intro path s h
  have h : (match Apart.petOs.content path with
    | some bytes => OpenFile.stream ⟨bytes, true, false⟩
    | none => .stream Stream.failed) = .stream s := h
  unfold Apart.petOs at h
  dsimp only at h
  split at h
  · rename_i bytes hb
    injection h with h
    rw [← h]
    show bytes.length < 300
    split at hb
    · injection hb with hb; rw [← hb]; decide
    · split at hb
      · injection hb with hb; rw [← hb]; decide
      · cases hb
  · injection h with h
    rw [← h]
    decide

end Tgt
