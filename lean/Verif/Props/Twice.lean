import Verif.Spec.Twice
import Verif.Props.Bare
import Verif.Props.Additions
/-
Directories that count for nothing, and directories that are there twice: C106, C107.
-/
namespace Tgt
open Spec Manager Mgr POParser

namespace Twice
open Bare

/-- The dictionary holds what loading the language from the search path gives, and falls back, if the language has a country, to one with what the bare language gives. -/
def Held (env : Env) (l : Language) (cs : Str) (path : List Str) (m : Manager) (p : DictId) : Prop :=
  ∃ d, m.heap.get? p = some d ∧ unlinked d = pathEff env l cs path (Dictionary.init cs) ∧
    (l.getCountry = [] → d.fallback = none) ∧
    (l.getCountry ≠ [] → ∃ fb e, d.fallback = some fb ∧ m.heap.get? fb = some e ∧ unlinked e = pathEff env (bare l) cs path (Dictionary.init cs))

/-- What a manager has after loading a language and what that falls back to. -/
theorem new_contents {env : Env} {n : Nat} {l : Language} {m m' : Manager} {p : DictId} (h : Inv m) (hg : getDictionaryFor env n l m = .ok p m')
    (hn : AllNew m m' p) : l.isDefined = true ∧ Inv m' ∧ Held env l m.charset m.searchPath m' p := by
  have hl : l.isDefined = true := (miss_ok h hg (new_miss h hg hn.1)).1
  have hpost := getFor_post env n l m hl h
  rw [hg] at hpost
  obtain ⟨d, hd, he, _⟩ := new_ok h hg hn.1
  refine ⟨hl, hpost.1, d, hd, he, ?_, ?_⟩
  · intro hc
    obtain ⟨_, _, d', hd', _, hfb⟩ := hpost.1.cached l p hpost.2.2.2.2.1
    rw [hd] at hd'; cases hd'
    rcases hfb with ⟨_, hfb⟩ | ⟨_, hfb, _⟩
    · exact hfb
    · exact absurd hc hfb
  · intro hc
    have hfall : ∃ q', d.fallback = some q' ∧ m'.dictionaries.get? (baseOf l) = some q' := by
      obtain ⟨_, _, x, d0, _, hd0, _, hfb⟩ := miss_ok h hg (new_miss h hg hn.1)
      rw [hd] at hd0; cases hd0
      exact (hfb hc).2
    obtain ⟨q', hq', hfd⟩ := hfall
    obtain ⟨d1, fb, e', hd1, _, h2, h3, _, _, h5⟩ := miss_base h hg (new_miss h hg hn.1) hc (not_there h hg hl hfd (hn.2 d q' hd hq'))
    rw [hd] at hd1; cases hd1
    exact ⟨fb, e', h2, h3, h5⟩

/-- Two dictionaries that answer lookups without a number alike. -/
def SameText (d e : Dictionary) : Prop :=
  (∀ key, d.lookup key = e.lookup key) ∧ ∀ c, (d.ctxtEntries.get? c).isSome = (e.ctxtEntries.get? c).isSome

theorem passed_text {m k : Manager} {d e : Dictionary}
    (h : (d.fallback = none ∧ e.fallback = none) ∨ ∃ fb fb' d' e', d.fallback = some fb ∧ e.fallback = some fb' ∧ m.heap.get? fb = some d' ∧
      k.heap.get? fb' = some e' ∧ ∀ key, d'.lookup key = e'.lookup key) (i : Str) : passed m d i = passed k e i := by
  unfold passed
  rcases h with ⟨h1, h2⟩ | ⟨fb, fb', d', e', h1, h2, h3, h4, h5⟩
  · rw [h1, h2]
  · rw [h1, h2]
    dsimp only
    rw [h3, h4]
    dsimp only [Option.bind_some]
    rw [h5]

/-- Managers whose dictionaries have the same strings, and whose fallbacks have, answer alike. -/
theorem same_replies {m k : Manager} (hm : Inv m) (hk : Inv k) {p q : DictId} {d e : Dictionary} (hd : m.heap.get? p = some d) (he : k.heap.get? q = some e)
    (ht : SameText d e) (hf : (d.fallback = none ∧ e.fallback = none) ∨ ∃ fb fb' d' e', d.fallback = some fb ∧ e.fallback = some fb' ∧
      m.heap.get? fb = some d' ∧ k.heap.get? fb' = some e' ∧ ∀ key, d'.lookup key = e'.lookup key) (f : Nat) (x : Query) :
    (Query.counts x = false → reply (f + 2) m p x = reply (f + 2) k q x) ∧
    (d.pluralForms = e.pluralForms → (reply (f + 2) m p x).map Prod.fst = (reply (f + 2) k q x).map Prod.fst) := by
  have sing : Query.counts x = false → reply (f + 2) m p x = reply (f + 2) k q x := by
    intro hx
    rw [reply_singular hm hd f x hx, reply_singular hk he f x hx]
    congr 1
    unfold told
    rw [ht.1]
    cases ((e.lookup ((Query.key x).1, (Query.key x).2)).bind List.head?) with
    | some s => rfl
    | none =>
      dsimp only
      cases (Query.key x).1 with
      | none => exact passed_text hf _
      | some c => dsimp only; rw [ht.2 c, passed_text hf]
  refine ⟨sing, ?_⟩
  intro hr
  cases hx : Query.counts x with
  | false => rw [sing hx]
  | true =>
    have e1 := reply_plural hd (f + 2) x
    have e2 := reply_plural he (f + 2) x
    cases x with
    | translate i => cases hx
    | ctxt c i => cases hx
    | plural i pl n => dsimp only at e1 e2; rw [e1, e2, hr, ht.1]
    | ctxtPlural c i pl n => dsimp only at e1 e2; rw [e1, e2, hr, ht.1]

/-- Dictionaries with the same contents answer alike, messages included. -/
theorem same_all {m k : Manager} (hm : Inv m) (hk : Inv k) {p q : DictId} {d e : Dictionary} (hd : m.heap.get? p = some d) (he : k.heap.get? q = some e)
    (hu : unlinked d = unlinked e) (hf : (d.fallback = none ∧ e.fallback = none) ∨ ∃ fb fb' d' e', d.fallback = some fb ∧ e.fallback = some fb' ∧
      m.heap.get? fb = some d' ∧ k.heap.get? fb' = some e' ∧ unlinked d' = unlinked e') (f : Nat) (x : Query) :
    reply (f + 2) m p x = reply (f + 2) k q x := by
  have text : ∀ {d e : Dictionary}, unlinked d = unlinked e → SameText d e := by
    intro d e hu
    refine ⟨fun key => by rw [← lookup_unl d, ← lookup_unl e, hu], fun c => ?_⟩
    rw [show d.ctxtEntries = e.ctxtEntries from congrArg (fun d => d.ctxtEntries) hu]
  have hs := same_replies hm hk hd he (text hu) (by
    rcases hf with hf | ⟨fb, fb', d', e', h1, h2, h3, h4, h5⟩
    · exact .inl hf
    · exact .inr ⟨fb, fb', d', e', h1, h2, h3, h4, (text h5).1⟩) f x
  cases hx : Query.counts x with
  | false => exact hs.1 hx
  | true =>
    have he1 : d.entries = e.entries := congrArg (fun d => d.entries) hu
    have he2 : d.ctxtEntries = e.ctxtEntries := congrArg (fun d => d.ctxtEntries) hu
    have he3 : d.pluralForms = e.pluralForms := congrArg (fun d => d.pluralForms) hu
    have key : ∀ (es : Entries) i pl n, d.translatePluralIn es i pl n = e.translatePluralIn es i pl n := by
      intro es i pl n
      unfold Dictionary.translatePluralIn
      rw [he3]
    cases x with
    | translate i => cases hx
    | ctxt c i => cases hx
    | plural i pl n =>
      unfold reply ask
      rw [show ({ m with log := [] } : Manager).heap.get? p = some d from hd, show ({ k with log := [] } : Manager).heap.get? q = some e from he]
      have : d.translatePlural i pl n = e.translatePlural i pl n := by
        unfold Dictionary.translatePlural
        rw [key, he1]
      show some ((d.translatePlural i pl n).1, [] ++ (d.translatePlural i pl n).2) = some ((e.translatePlural i pl n).1, [] ++ (e.translatePlural i pl n).2)
      rw [this]
    | ctxtPlural c i pl n =>
      unfold reply ask
      rw [show ({ m with log := [] } : Manager).heap.get? p = some d from hd, show ({ k with log := [] } : Manager).heap.get? q = some e from he]
      have : d.translateCtxtPlural c i pl n = e.translateCtxtPlural c i pl n := by
        unfold Dictionary.translateCtxtPlural
        rw [he2]
        cases e.ctxtEntries.get? c with
        | none => rfl
        | some es => exact key es i pl n
      show some ((d.translateCtxtPlural c i pl n).1, [] ++ (d.translateCtxtPlural c i pl n).2)
        = some ((e.translateCtxtPlural c i pl n).1, [] ++ (e.translateCtxtPlural c i pl n).2)
      rw [this]

/-! ### Directories without files for the language -/

theorem dirEff_unserved {env : Env} {l : Language} {cs dir : Str} (h : Unserved env l dir) : dirEff env l cs dir = ⟨[], none⟩ := by
  obtain ⟨files, ho, hf⟩ := h
  unfold dirEff
  rw [ho]
  dsimp only
  have hn : NoFile env.ct l files := by
    intro f hm
    rw [fileScore_denoted]
    cases hd : denoted env.ct f with
    | none => rfl
    | some L => exact score_zero (hf f hm L hd)
  rcases best_cases env.ct l files with ⟨_, h2⟩ | ⟨h1, _⟩
  · rw [if_pos h2]
  · exact absurd hn ((C49_best_unique env.ct l files).2.1 ⟨_, h1⟩)

theorem pathEff_filter {env : Env} {l : Language} {cs : Str} {S : Str → Bool} (h : ∀ dir, S dir = false → Unserved env l dir) (path : List Str) (d : Dictionary) :
    pathEff env l cs path d = pathEff env l cs (path.filter S) d := by
  induction path with
  | nil => rfl
  | cons dir t ih =>
    show (dirEff env l cs dir).applyTo (pathEff env l cs t d) = _
    cases hs : S dir with
    | true =>
      rw [List.filter_cons_of_pos hs]
      show _ = (dirEff env l cs dir).applyTo (pathEff env l cs (t.filter S) d)
      rw [ih]
    | false =>
      rw [List.filter_cons_of_neg (by simp [hs]), dirEff_unserved (h dir hs), applyTo_none, ih]

end Twice
open Bare Twice

theorem Twice.held_unserved {env : Env} {l : Language} {cs : Str} {path path' : List Str} {m k : Manager} {p q : DictId} (hl : l.isDefined = true) (hI : Inv m) (hI' : Inv k)
    (hm : Held env l cs path m p) (hk : Held env l cs path' k q) (S : Str → Bool) (hS : ∀ dir, S dir = false → Unserved env l dir) (hpath : path'.filter S = path.filter S)
    (f : Nat) (x : Query) : reply (f + 2) m p x = reply (f + 2) k q x := by
  obtain ⟨d, hd, hu, hf0, hf1⟩ := hm
  obtain ⟨e, he, hu', hf0', hf1'⟩ := hk
  have hSb : ∀ dir, S dir = false → Unserved env (bare l) dir := by
    intro dir hs
    obtain ⟨files, ho, h⟩ := hS dir hs
    exact ⟨files, ho, fun f hf L hL => by rw [(bare_def hl).2.2.2]; exact h f hf L hL⟩
  refine same_all hI hI' hd he ?_ ?_ f x
  · rw [hu, hu', pathEff_filter hS path, pathEff_filter hS path', hpath]
  · by_cases hc : l.getCountry = []
    · exact .inl ⟨hf0 hc, hf0' hc⟩
    · obtain ⟨fb, d', h1, h2, h3⟩ := hf1 hc
      obtain ⟨fb', e', h4, h5, h6⟩ := hf1' hc
      refine .inr ⟨fb, fb', d', e', h1, h4, h2, h5, ?_⟩
      rw [h3, h6, pathEff_filter hSb path, pathEff_filter hSb path', hpath]

/-- C106.  Directories that have no file for a language - of any country - do not matter for it: whether they are in the search path, and where, any lookup on a new
dictionary is answered in the same way, with the same messages. -/
theorem C106_unserved (cs cs' : Str) (m m1 k k1 : Manager) (env : Env) (n n' : Nat) (l : Language) (p q : DictId) (hr : Reach cs m) (hr' : Reach cs' k)
    (hg : getDictionaryFor env n l m = .ok p m1) (hg' : getDictionaryFor env n' l k = .ok q k1) (hp : AllNew m m1 p) (hq : AllNew k k1 q)
    (hcs : k.charset = m.charset) (S : Str → Bool) (hS : ∀ dir, S dir = false → Unserved env l dir) (hpath : k.searchPath.filter S = m.searchPath.filter S)
    (f : Nat) (x : Query) : reply (f + 2) m1 p x = reply (f + 2) k1 q x := by
  obtain ⟨hl, hI, h1⟩ := new_contents (reach_inv hr) hg hp
  obtain ⟨_, hI', h2⟩ := new_contents (reach_inv hr') hg' hq
  rw [hcs] at h2
  exact held_unserved hl hI hI' h1 h2 S hS hpath f x

/-! ### Directories that are there twice -/

namespace Twice

theorem dirEff_same {env : Env} {l : Language} {cs dir dir' : Str} (h : SameDir env dir dir') : dirEff env l cs dir = dirEff env l cs dir' := by
  unfold dirEff
  rw [← h.1]
  cases ho : env.fs.openDirectory dir with
  | error w => rfl
  | ok files =>
    dsimp only
    rcases best_cases env.ct l files with ⟨_, h2⟩ | ⟨h1, h2⟩
    · rw [if_pos h2, if_pos h2]
    · rw [if_neg (by simp [h2]), if_neg (by simp [h2])]
      have hm : (files.foldl (scanStep env.ct l) ([], 0)).1 ∈ files := by
        obtain ⟨b, a, e, _⟩ := h1
        have : ∀ g, files = b ++ g :: a → g ∈ files := fun g hg => by rw [hg]; simp
        exact this _ e
      rw [h.2 files _ ho hm]
      cases env.fs.openFile (dir' ++ b!"/" ++ (files.foldl (scanStep env.ct l) ([], 0)).1) <;> rfl

/-- What additions do to the strings of one message. -/
def step (key : Option Str × Str) (o : Option (List Str)) (a : Add) : Option (List Str) := if target a = key then some (a.newVec (o.getD [])) else o

theorem lookup_steps (key : Option Str × Str) (l : List Add) : ∀ d : Dictionary, (addAll d l).lookup key = l.foldl (step key) (d.lookup key) := by
  induction l with
  | nil => intro d; rfl
  | cons a l ih =>
    intro d
    show (addAll (a.apply d).1 l).lookup key = l.foldl (step key) (step key (d.lookup key) a)
    rw [ih, Dict.lookup_apply]
    unfold step
    split
    · rename_i e; rw [e]
    · rfl

/-- Additions keep the strings of a message, or give it new ones, or a new first one. -/
theorem steps_kind (key : Option Str × Str) (l : List Add) : (∀ o, l.foldl (step key) o = o) ∨ (∃ w, ∀ o, l.foldl (step key) o = some w) ∨
    ∃ s, ∀ o, l.foldl (step key) o = some (s :: (o.getD []).tail) := by
  induction l with
  | nil => exact .inl fun _ => rfl
  | cons a l ih =>
    by_cases ht : target a = key
    · have e : ∀ o, step key o a = some (a.newVec (o.getD [])) := fun o => by unfold step; rw [if_pos ht]
      rcases ih with h | ⟨w, h⟩ | ⟨s, h⟩
      · cases a with
        | singular c i s => exact .inr (.inr ⟨s, fun o => by rw [List.foldl_cons, h, e]; rfl⟩)
        | plural c i pl v => exact .inr (.inl ⟨v, fun o => by rw [List.foldl_cons, h, e]; rfl⟩)
      · exact .inr (.inl ⟨w, fun o => by rw [List.foldl_cons, h]⟩)
      · cases a with
        | singular c i s' => exact .inr (.inr ⟨s, fun o => by rw [List.foldl_cons, h, e]; rfl⟩)
        | plural c i pl v => exact .inr (.inl ⟨s :: v.tail, fun o => by rw [List.foldl_cons, h, e]; rfl⟩)
    · have e : ∀ o, step key o a = o := fun o => by unfold step; rw [if_neg ht]
      rcases ih with h | ⟨w, h⟩ | ⟨s, h⟩
      · exact .inl fun o => by rw [List.foldl_cons, h, e]
      · exact .inr (.inl ⟨w, fun o => by rw [List.foldl_cons, h]⟩)
      · exact .inr (.inr ⟨s, fun o => by rw [List.foldl_cons, h, e]⟩)

/-- Additions that come again later need not be made before. -/
theorem steps_again (key : Option Str × Str) (F X : List Add) (o : Option (List Str)) :
    F.foldl (step key) (X.foldl (step key) (F.foldl (step key) o)) = F.foldl (step key) (X.foldl (step key) o) := by
  rcases steps_kind key F with hF | ⟨w, hF⟩ | ⟨s, hF⟩
  · rw [hF o]
  · rw [hF, hF]
  · rcases steps_kind key X with hX | ⟨v, hX⟩ | ⟨t, hX⟩
    · rw [hX, hX, hF, hF]; rfl
    · rw [hX, hX]
    · rw [hX, hX, hF, hF, hF]; rfl

/-- All additions of a search path. -/
def pathAdds (env : Env) (l : Language) (cs : Str) : List Str → List Add
  | [] => []
  | dir :: t => pathAdds env l cs t ++ (dirEff env l cs dir).adds

theorem addAll_append (d : Dictionary) (a b : List Add) : addAll d (a ++ b) = addAll (addAll d a) b := by simp [addAll]

theorem addAll_text (l : List Add) : ∀ {d e : Dictionary}, SameText d e → SameText (addAll d l) (addAll e l) := by
  induction l with
  | nil => exact fun h => h
  | cons a l ih =>
    intro d e h
    refine ih ⟨fun key => ?_, fun c => ?_⟩
    · rw [Dict.lookup_apply, Dict.lookup_apply, h.1, h.1]
    · rw [apply_knows, apply_knows, h.2]

theorem applyTo_text (e : Effect) (d : Dictionary) : SameText (e.applyTo d) (addAll d e.adds) := ⟨lookup_applyTo e d, fun _ => rfl⟩

theorem SameText.trans {a b c : Dictionary} (h : SameText a b) (h' : SameText b c) : SameText a c :=
  ⟨fun k => (h.1 k).trans (h'.1 k), fun k => (h.2 k).trans (h'.2 k)⟩

theorem SameText.symm {a b : Dictionary} (h : SameText a b) : SameText b a := ⟨fun k => (h.1 k).symm, fun k => (h.2 k).symm⟩

theorem path_text (env : Env) (l : Language) (cs : Str) (path : List Str) (d : Dictionary) :
    SameText (pathEff env l cs path d) (addAll d (pathAdds env l cs path)) := by
  induction path with
  | nil => exact ⟨fun _ => rfl, fun _ => rfl⟩
  | cons dir t ih =>
    show SameText ((dirEff env l cs dir).applyTo (pathEff env l cs t d)) (addAll d (pathAdds env l cs t ++ (dirEff env l cs dir).adds))
    rw [addAll_append]
    exact (applyTo_text _ _).trans (addAll_text _ ih)

theorem path_text_congr (env : Env) (l : Language) (cs : Str) (path : List Str) {d e : Dictionary} (h : SameText d e) :
    SameText (pathEff env l cs path d) (pathEff env l cs path e) :=
  (path_text env l cs path d).trans ((addAll_text _ h).trans (path_text env l cs path e).symm)

theorem knows_addAll (l : List Add) (c : Str) : ∀ d : Dictionary,
    ((addAll d l).ctxtEntries.get? c).isSome = ((d.ctxtEntries.get? c).isSome || l.any (fun a => decide ((target a).1 = some c))) := by
  induction l with
  | nil => intro d; simp [addAll]
  | cons a l ih =>
    intro d
    show ((addAll (a.apply d).1 l).ctxtEntries.get? c).isSome = _
    rw [ih, apply_knows, List.any_cons, Bool.or_assoc]

/-- A directory that is there twice has the effect of its first place. -/
theorem twice_text {env : Env} {l : Language} {cs dir dir' : Str} (h : SameDir env dir dir') (a b c : List Str) (d : Dictionary) :
    SameText (pathEff env l cs (a ++ dir :: b ++ dir' :: c) d) (pathEff env l cs (a ++ dir :: b ++ c) d) := by
  rw [List.append_assoc, pathEff_append, List.append_assoc, pathEff_append env l cs a]
  refine path_text_congr env l cs a ?_
  show SameText ((dirEff env l cs dir).applyTo (pathEff env l cs (b ++ dir' :: c) d)) ((dirEff env l cs dir).applyTo (pathEff env l cs (b ++ c) d))
  rw [pathEff_append, pathEff_append]
  have e : pathEff env l cs (dir' :: c) d = (dirEff env l cs dir').applyTo (pathEff env l cs c d) := rfl
  rw [e, ← dirEff_same h]
  generalize pathEff env l cs c d = d0
  generalize dirEff env l cs dir = F
  have h1 : SameText (F.applyTo (pathEff env l cs b (F.applyTo d0))) (addAll (addAll (addAll d0 F.adds) (pathAdds env l cs b)) F.adds) :=
    (applyTo_text _ _).trans (addAll_text _ ((path_text env l cs b _).trans (addAll_text _ (applyTo_text _ _))))
  have h2 : SameText (F.applyTo (pathEff env l cs b d0)) (addAll (addAll d0 (pathAdds env l cs b)) F.adds) :=
    (applyTo_text _ _).trans (addAll_text _ (path_text env l cs b _))
  refine h1.trans (SameText.trans ⟨fun key => ?_, fun c => ?_⟩ h2.symm)
  · rw [lookup_steps, lookup_steps, lookup_steps, lookup_steps, lookup_steps, steps_again]
  · rw [knows_addAll, knows_addAll, knows_addAll, knows_addAll, knows_addAll]
    cases (d0.ctxtEntries.get? c).isSome <;> cases F.adds.any (fun a => decide ((target a).1 = some c)) <;>
      cases (pathAdds env l cs b).any (fun a => decide ((target a).1 = some c)) <;> rfl

/-- Directories that declare no rule give none. -/
theorem rule_none {env : Env} {l : Language} {cs : Str} (path : List Str)
    (h : ∀ b ∈ path, ((dirEff env l cs b).applyTo (Dictionary.init cs)).pluralForms = .undefined) (d : Dictionary) (hd : d.pluralForms.isDefined = false) :
    (pathEff env l cs path d).pluralForms.isDefined = false := by
  induction path with
  | nil => exact hd
  | cons b t ih =>
    show ((dirEff env l cs b).applyTo (pathEff env l cs t d)).pluralForms.isDefined = _
    have hb : (if (Dictionary.init cs).pluralForms.isDefined then (Dictionary.init cs).pluralForms
      else (dirEff env l cs b).rule.getD (Dictionary.init cs).pluralForms) = .undefined := h b List.mem_cons_self
    rw [if_neg (by simp [Dictionary.init, PluralForms.undefined, PluralForms.isDefined])] at hb
    have ih := ih (fun x hx => h x (List.mem_cons_of_mem _ hx))
    show (if (pathEff env l cs t d).pluralForms.isDefined then (pathEff env l cs t d).pluralForms
      else (dirEff env l cs b).rule.getD (pathEff env l cs t d).pluralForms).isDefined = false
    rw [if_neg (by simp [ih])]
    cases hr : (dirEff env l cs b).rule with
    | none => exact ih
    | some r =>
      rw [hr] at hb
      have : r = .undefined := hb
      subst this
      rfl

theorem twice_rule {env : Env} {l : Language} {cs dir dir' : Str} (h : SameDir env dir dir') (a b c : List Str)
    (hb : ∀ x ∈ b, ((dirEff env l cs x).applyTo (Dictionary.init cs)).pluralForms = .undefined) (d : Dictionary) :
    (pathEff env l cs (a ++ dir :: b ++ dir' :: c) d).pluralForms = (pathEff env l cs (a ++ dir :: b ++ c) d).pluralForms := by
  rw [List.append_assoc, pathEff_append, List.append_assoc, pathEff_append env l cs a]
  refine rule_path env l cs a ?_
  show ((dirEff env l cs dir).applyTo (pathEff env l cs (b ++ dir' :: c) d)).pluralForms = ((dirEff env l cs dir).applyTo (pathEff env l cs (b ++ c) d)).pluralForms
  rw [pathEff_append, pathEff_append]
  have e : pathEff env l cs (dir' :: c) d = (dirEff env l cs dir').applyTo (pathEff env l cs c d) := rfl
  rw [e, ← dirEff_same h]
  generalize pathEff env l cs c d = d0
  have e1 : ∀ x : Dictionary, ((dirEff env l cs dir).applyTo x).pluralForms =
    if x.pluralForms.isDefined then x.pluralForms else (dirEff env l cs dir).rule.getD x.pluralForms := fun _ => rfl
  cases hd : d0.pluralForms.isDefined with
  | true =>
    have hF : ((dirEff env l cs dir).applyTo d0).pluralForms = d0.pluralForms := by rw [e1, if_pos hd]
    rw [e1, e1 (pathEff env l cs b d0), pathEff_rule_keeps b d0 hd, pathEff_rule_keeps b _ (by rw [hF]; exact hd), hF]
  | false =>
    have r2 := rule_none b hb d0 hd
    cases hr : (dirEff env l cs dir).rule with
    | none =>
      have hF : ((dirEff env l cs dir).applyTo d0).pluralForms = d0.pluralForms := by rw [e1, if_neg (by simp [hd]), hr]; rfl
      rw [e1, e1 (pathEff env l cs b d0), rule_path env l cs b hF]
    | some x =>
      have hF : ((dirEff env l cs dir).applyTo d0).pluralForms = x := by rw [e1, if_neg (by simp [hd]), hr]; rfl
      rw [e1 (pathEff env l cs b d0), if_neg (by simp [r2]), hr]
      cases hx : x.isDefined with
      | true =>
        rw [e1, pathEff_rule_keeps b _ (by rw [hF]; exact hx), hF, if_pos hx]
        rfl
      | false =>
        rw [e1, if_neg (by simp [rule_none b hb _ (by rw [hF]; exact hx)]), hr]
        rfl

end Twice

/-- C107, in full: this is false. -/
def C107_Statement : Prop :=
  ∀ (cs cs' : Str) (m m1 k k1 : Manager) (env : Env) (n n' : Nat) (l : Language) (p q : DictId) (dir dir' : Str) (a b c : List Str) (f : Nat) (x : Query),
    Reach cs m → Reach cs' k → getDictionaryFor env n l m = .ok p m1 → getDictionaryFor env n' l k = .ok q k1 → AllNew m m1 p → AllNew k k1 q →
    k.charset = m.charset → SameDir env dir dir' → m.searchPath = a ++ dir :: b ++ dir' :: c → k.searchPath = a ++ dir :: b ++ c →
    (reply (f + 2) m1 p x).map Prod.fst = (reply (f + 2) k1 q x).map Prod.fst

theorem Twice.held_twice {env : Env} {l : Language} {cs : Str} {dir dir' : Str} {a b c : List Str} {m k : Manager} {p q : DictId} (hI : Inv m) (hI' : Inv k)
    (hd : SameDir env dir dir') (hm : Held env l cs (a ++ dir :: b ++ dir' :: c) m p) (hk : Held env l cs (a ++ dir :: b ++ c) k q) (f : Nat) (x : Query) :
    (Query.counts x = false → reply (f + 2) m p x = reply (f + 2) k q x) ∧
    ((∀ y ∈ b, ∃ e, AloneGives env l cs y e ∧ e.pluralForms = .undefined) → (reply (f + 2) m p x).map Prod.fst = (reply (f + 2) k q x).map Prod.fst) := by
  obtain ⟨d, hd1, hu, hf0, hf1⟩ := hm
  obtain ⟨e, he, hu', hf0', hf1'⟩ := hk
  have text : ∀ (l : Language) {d e : Dictionary}, unlinked d = pathEff env l cs (a ++ dir :: b ++ dir' :: c) (Dictionary.init cs) →
      unlinked e = pathEff env l cs (a ++ dir :: b ++ c) (Dictionary.init cs) → SameText d e := by
    intro l d e h1 h2
    have := twice_text (l := l) (cs := cs) hd a b c (Dictionary.init cs)
    rw [← h1, ← h2] at this
    exact this
  have hs := same_replies hI hI' hd1 he (text l hu hu') (by
    by_cases hc : l.getCountry = []
    · exact .inl ⟨hf0 hc, hf0' hc⟩
    · obtain ⟨fb, d', h1, h2, h3⟩ := hf1 hc
      obtain ⟨fb', e', h4, h5, h6⟩ := hf1' hc
      exact .inr ⟨fb, fb', d', e', h1, h4, h2, h5, (text (bare l) h3 h6).1⟩) f x
  refine ⟨hs.1, fun hb => hs.2 ?_⟩
  have := twice_rule (l := l) (cs := cs) hd a b c (fun y hy => by
    obtain ⟨e, h1, h2⟩ := hb y hy
    rw [← alone_eff h1]
    exact h2) (Dictionary.init cs)
  rw [← hu, ← hu'] at this
  exact this

/-- C107.  If a directory is in the search path under two names, the second one does not matter: all lookups without a number are answered as without it, with
the same messages; lookups with a number are, too, if the directories between the two places declare no plural rule. -/
theorem C107_twice_partial (cs cs' : Str) (m m1 k k1 : Manager) (env : Env) (n n' : Nat) (l : Language) (p q : DictId) (dir dir' : Str) (a b c : List Str)
    (hr : Reach cs m) (hr' : Reach cs' k) (hg : getDictionaryFor env n l m = .ok p m1) (hg' : getDictionaryFor env n' l k = .ok q k1) (hp : AllNew m m1 p)
    (hq : AllNew k k1 q) (hcs : k.charset = m.charset) (hd : SameDir env dir dir') (hm : m.searchPath = a ++ dir :: b ++ dir' :: c)
    (hk : k.searchPath = a ++ dir :: b ++ c) (f : Nat) (x : Query) :
    (Query.counts x = false → reply (f + 2) m1 p x = reply (f + 2) k1 q x) ∧
    ((∀ y ∈ b, ∃ e, AloneGives env l m.charset y e ∧ e.pluralForms = .undefined) →
      (reply (f + 2) m1 p x).map Prod.fst = (reply (f + 2) k1 q x).map Prod.fst) := by
  obtain ⟨_, hI, h1⟩ := new_contents (reach_inv hr) hg hp
  obtain ⟨_, hI', h2⟩ := new_contents (reach_inv hr') hg' hq
  rw [hm] at h1
  rw [hk, hcs] at h2
  exact held_twice hI hI' hd h1 h2 f x

/-! ### Cases -/

/-- The directories of `addOs`, `hi` also under the name `link`, and one with French files only. -/
def Twice.linkOs : OS where
  listing p := if p = b!"link" then addOs.listing b!"hi" else if p = b!"fr" then some [b!"fr.po", b!"README"] else addOs.listing p
  content f := if f = b!"link/de.po" then addOs.content b!"hi/de.po" else if f = b!"link/de_AT.po" then addOs.content b!"hi/de_AT.po" else addOs.content f

/-- The world with these files. -/
def Twice.linkEnv : Env := ⟨.c, demoLib, false, unixFileSystem linkOs, 300⟩

theorem Twice.link_same : SameDir linkEnv b!"hi" b!"link" := by
  have e : linkEnv.fs.openDirectory b!"hi" = .ok [b!"de_AT.po", b!"de.po"] := by rfl
  refine ⟨by rfl, ?_⟩
  intro files f ho hf
  rw [e] at ho
  cases ho
  rcases List.mem_cons.1 hf with h | h
  · subst h; rfl
  · rw [List.mem_singleton] at h
    subst h; rfl

theorem Twice.fr_unserved : Unserved linkEnv atLang b!"fr" := by
  refine ⟨[b!"fr.po", b!"README"], by rfl, ?_⟩
  intro f hf L hL
  have : [b!"fr.po", b!"README"].all (fun f => match denoted linkEnv.ct f with | some L => L.getLanguage != atLang.getLanguage | none => true) = true := by
    decide +kernel
  have := List.all_eq_true.1 this f hf
  rw [hL] at this
  simpa using this

/-- A language loaded from a search path, and the answer to a lookup. -/
def Twice.linkAnswer (path : List Str) (l : Language) (x : Query) (s : Str) (p : DictId) (m1 : Manager) : Bool :=
  decide (p = 1) && decide ((reply 2 m1 1 x).map Prod.fst = some s) &&
    (match m1.heap.get? 1 with
    | some d => (match d.fallback with | none => true | some fb => fb == 2)
    | none => false) &&
    (path.length != 0) && l.isDefined

theorem Twice.link_run {path : List Str} {l : Language} {x : Query} {s : Str}
    (h : (getDictionaryFor linkEnv 300 l (newManager ⟨path, b!"UTF-8", true⟩)).test (linkAnswer path l x s) = true) :
    ∃ m1, getDictionaryFor linkEnv 300 l (newManager ⟨path, b!"UTF-8", true⟩) = .ok 1 m1 ∧ AllNew (newManager ⟨path, b!"UTF-8", true⟩) m1 1 ∧
      (reply 2 m1 1 x).map Prod.fst = some s := by
  obtain ⟨p, m1, hg, h1⟩ := ok_of_test h
  unfold linkAnswer at h1
  simp only [Bool.and_eq_true, decide_eq_true_eq] at h1
  obtain ⟨⟨⟨⟨rfl, h2⟩, h3⟩, _⟩, _⟩ := h1
  refine ⟨m1, hg, ⟨rfl, ?_⟩, h2⟩
  intro d fb hd hf
  rw [hd] at h3
  dsimp only at h3
  rw [hf] at h3
  have : fb = 2 := by simpa using h3
  subst this
  rfl

theorem Twice.link_reach (dirs : List Str) (path : List Str)
    (h : script (.init b!"UTF-8") (dirs.map (fun d => Call.addDirectory d false)) = some (newManager ⟨path, b!"UTF-8", true⟩)) :
    Reach b!"UTF-8" (newManager ⟨path, b!"UTF-8", true⟩) := script_reach h

/-- C107 is false of this code: the plural rule is that of the lowest directory, so a second name of the first directory, put last, gives it the rule. -/
theorem C107_false : ¬ C107_Statement := by
  intro h
  obtain ⟨m1, hg, hn, hs⟩ := link_run (path := [b!"hi", b!"lo", b!"link"]) (l := deLang) (x := .plural b!"file" b!"files" 0) (s := b!"Dateien") (by decide +kernel)
  obtain ⟨k1, hg', hn', ht⟩ := link_run (path := [b!"hi", b!"lo"]) (l := deLang) (x := .plural b!"file" b!"files" 0) (s := b!"Datei") (by decide +kernel)
  have := h _ _ _ m1 _ k1 linkEnv 300 300 deLang 1 1 b!"hi" b!"link" [] [b!"lo"] [] 0 (.plural b!"file" b!"files" 0)
    (link_reach [b!"hi", b!"lo", b!"link"] _ (by decide +kernel)) (link_reach [b!"hi", b!"lo"] _ (by decide +kernel)) hg hg' hn hn' rfl link_same rfl rfl
  rw [hs, ht] at this
  revert this; decide

/-- The hypotheses of `C107_twice_partial` are met, and of `C106_unserved`: with a directory in between, or of French files first. -/
example : ∃ m1 k1 j1,
    getDictionaryFor linkEnv 300 atLang (newManager ⟨[b!"hi", b!"lo", b!"link"], b!"UTF-8", true⟩) = .ok 1 m1 ∧
    getDictionaryFor linkEnv 300 atLang (newManager ⟨[b!"hi", b!"lo"], b!"UTF-8", true⟩) = .ok 1 k1 ∧
    getDictionaryFor linkEnv 300 atLang (newManager ⟨[b!"fr", b!"hi", b!"lo"], b!"UTF-8", true⟩) = .ok 1 j1 ∧
    AllNew (newManager ⟨[b!"hi", b!"lo", b!"link"], b!"UTF-8", true⟩) m1 1 ∧ AllNew (newManager ⟨[b!"hi", b!"lo"], b!"UTF-8", true⟩) k1 1 ∧
    AllNew (newManager ⟨[b!"fr", b!"hi", b!"lo"], b!"UTF-8", true⟩) j1 1 ∧
    ([b!"fr", b!"hi", b!"lo"].filter (· != b!"fr")) = [b!"hi", b!"lo"].filter (· != b!"fr") ∧
    (reply 2 m1 1 (.translate b!"cat")).map Prod.fst = some b!"Katze" ∧ (reply 2 k1 1 (.translate b!"cat")).map Prod.fst = some b!"Katze" ∧
    (reply 2 j1 1 (.translate b!"cat")).map Prod.fst = some b!"Katze" := by
  obtain ⟨m1, h1, h2, h3⟩ := link_run (path := [b!"hi", b!"lo", b!"link"]) (l := atLang) (x := .translate b!"cat") (s := b!"Katze") (by decide +kernel)
  obtain ⟨k1, h4, h5, h6⟩ := link_run (path := [b!"hi", b!"lo"]) (l := atLang) (x := .translate b!"cat") (s := b!"Katze") (by decide +kernel)
  obtain ⟨j1, h7, h8, h9⟩ := link_run (path := [b!"fr", b!"hi", b!"lo"]) (l := atLang) (x := .translate b!"cat") (s := b!"Katze") (by decide +kernel)
  exact ⟨m1, k1, j1, h1, h4, h7, h2, h5, h8, by decide, h3, h6, h9⟩

end Tgt
