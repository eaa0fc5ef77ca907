import Verif.Props.Apart
/-
A directory that has nothing of its own: C111.
-/
namespace Tgt
open Spec Manager Mgr POParser Twice Bare

namespace Covered

/-- The same first strings, and the same contexts known. -/
def SameHeads (d e : Dictionary) : Prop :=
  (∀ key, (d.lookup key).bind List.head? = (e.lookup key).bind List.head?) ∧ ∀ c, (d.ctxtEntries.get? c).isSome = (e.ctxtEntries.get? c).isSome

theorem replies {m k : Manager} (hm : Inv m) (hk : Inv k) {p q : DictId} {d e : Dictionary} (hd : m.heap.get? p = some d) (he : k.heap.get? q = some e)
    (ht : SameHeads d e) (hf : (d.fallback = none ∧ e.fallback = none) ∨ ∃ fb fb' d' e', d.fallback = some fb ∧ e.fallback = some fb' ∧
      m.heap.get? fb = some d' ∧ k.heap.get? fb' = some e' ∧ SameHeads d' e') (f : Nat) (x : Query) (hx : Query.counts x = false) :
    reply (f + 2) m p x = reply (f + 2) k q x := by
  rw [reply_singular hm hd f x hx, reply_singular hk he f x hx]
  have pas : ∀ i, passed m d i = passed k e i := by
    intro i
    unfold passed
    rcases hf with ⟨h1, h2⟩ | ⟨fb, fb', d', e', h1, h2, h3, h4, h5⟩
    · rw [h1, h2]
    · rw [h1, h2]
      dsimp only
      rw [h3, h4]
      dsimp only [Option.bind_some]
      rw [h5.1]
  congr 1
  unfold told
  rw [ht.1]
  cases ((e.lookup ((Query.key x).1, (Query.key x).2)).bind List.head?) with
  | some s => rfl
  | none =>
    dsimp only
    cases (Query.key x).1 with
    | none => exact pas _
    | some c => dsimp only; rw [ht.2 c, pas]

/-- Additions to a message decide its first string. -/
theorem head_decided {key : Option Str × Str} {F : List Add} (h : ∃ a ∈ F, target a = key) (o o' : Option (List Str)) :
    (F.foldl (step key) o).bind List.head? = (F.foldl (step key) o').bind List.head? := by
  rcases steps_kind key F with hF | ⟨w, hF⟩ | ⟨s, hF⟩
  · obtain ⟨a, ha, ht⟩ := h
    exact absurd ht (Apart.step_none (hF none) a ha)
  · rw [hF, hF]
  · rw [hF, hF]; rfl

theorem given {env : Env} {l : Language} {cs dir : Str} {e : Dictionary} (h : AloneGives env l cs dir e) (c : Option Str) (i : Str) :
    stored e c i ≠ none ↔ ∃ a ∈ (dirEff env l cs dir).adds, target a = (c, i) := by
  have hs : stored e c i = (dirEff env l cs dir).adds.foldl (step (c, i)) none := by
    rw [stored_lookup, ← lookup_unlinked e, alone_eff h, lookup_applyTo, lookup_steps, init_lookup]
  rw [hs]
  constructor
  · intro hn
    refine Classical.byContradiction fun hc => hn (Apart.step_other (fun a ha ht => hc ⟨a, ha, ht⟩) none)
  · rintro ⟨a, ha, ht⟩ hn
    exact Apart.step_none hn a ha ht

theorem mem_pathAdds {env : Env} {l : Language} {cs : Str} {a : List Str} {y : Str} (hy : y ∈ a) {x : Add} (hx : x ∈ (dirEff env l cs y).adds) : x ∈ pathAdds env l cs a := by
  induction a with
  | nil => cases hy
  | cons z t ih =>
    show x ∈ pathAdds env l cs t ++ (dirEff env l cs z).adds
    rcases List.mem_cons.1 hy with e | e
    · rw [← e]; exact List.mem_append_right _ hx
    · exact List.mem_append_left _ (ih e)

theorem heads {env : Env} {l : Language} {cs : Str} {a b : List Str} {x : Str} (h : CoveredFor env l cs a x) (d0 : Dictionary) :
    SameHeads (pathEff env l cs (a ++ x :: b) d0) (pathEff env l cs (a ++ b) d0) := by
  obtain ⟨e, he, hc⟩ := h
  have cov : ∀ s ∈ (dirEff env l cs x).adds, ∃ t ∈ pathAdds env l cs a, target t = target s := by
    intro s hs
    obtain ⟨y, hy, e', h1, h2⟩ := hc (target s).1 (target s).2 ((given he _ _).2 ⟨s, hs, rfl⟩)
    obtain ⟨t, ht, htt⟩ := (given h1 _ _).1 h2
    exact ⟨t, mem_pathAdds hy ht, htt⟩
  rw [pathEff_append, pathEff_append]
  have e1 : pathEff env l cs (x :: b) d0 = (dirEff env l cs x).applyTo (pathEff env l cs b d0) := rfl
  rw [e1]
  generalize pathEff env l cs b d0 = d
  have ht1 := path_text env l cs a ((dirEff env l cs x).applyTo d)
  have ht2 := path_text env l cs a d
  refine ⟨fun key => ?_, fun c => ?_⟩
  · rw [ht1.1, ht2.1, lookup_steps, lookup_steps, lookup_applyTo, lookup_steps]
    by_cases hk : ∃ s ∈ (dirEff env l cs x).adds, target s = key
    · obtain ⟨s, hs, rfl⟩ := hk
      exact head_decided (cov s hs) _ _
    · rw [Apart.step_other (fun s hs ht => hk ⟨s, hs, ht⟩)]
  · rw [ht1.2, ht2.2, knows_addAll, knows_addAll]
    have : (((dirEff env l cs x).applyTo d).ctxtEntries.get? c).isSome = ((d.ctxtEntries.get? c).isSome || (dirEff env l cs x).adds.any (fun s => decide ((target s).1 = some c))) :=
      knows_addAll _ c d
    rw [this]
    by_cases hk : (dirEff env l cs x).adds.any (fun s => decide ((target s).1 = some c)) = true
    · obtain ⟨s, hs, hsc⟩ := List.any_eq_true.1 hk
      obtain ⟨t, ht, htt⟩ := cov s hs
      have : (pathAdds env l cs a).any (fun s => decide ((target s).1 = some c)) = true :=
        List.any_eq_true.2 ⟨t, ht, by rw [htt]; exact hsc⟩
      rw [this, Bool.or_true, Bool.or_true]
    · rw [Bool.eq_false_iff.2 hk, Bool.or_false]

end Covered

/-- C111.  A directory that gives no message that the directories before it in the search path do not give, too, counts for nothing in lookups without a number: they are
answered as without it, with the same messages. -/
theorem C111_covered (env : Env) (m m1 k k1 : Manager) (n n' : Nat) (l : Language) (p q : DictId) (a b : List Str) (dir : Str) (hm : Settled env m) (hk : Settled env k)
    (hcs : k.charset = m.charset) (hmp : m.searchPath = a ++ dir :: b) (hkp : k.searchPath = a ++ b) (hc : Covered env l m.charset a dir)
    (hg : getDictionaryFor env n l m = .ok p m1) (hg' : getDictionaryFor env n' l k = .ok q k1) (f : Nat) (x : Query) (hx : Query.counts x = false) :
    reply (f + 2) m1 p x = reply (f + 2) k1 q x := by
  obtain ⟨_, hI, d, hd, hu, hf0, hf1⟩ := Settled.held hm hg
  obtain ⟨_, hI', e, he, hu', hf0', hf1'⟩ := Settled.held hk hg'
  rw [hmp] at hu hf1
  rw [hcs, hkp] at hu' hf1'
  have al : ∀ (l : Language) {d e : Dictionary}, CoveredFor env l m.charset a dir →
      unlinked d = pathEff env l m.charset (a ++ dir :: b) (Dictionary.init m.charset) →
      unlinked e = pathEff env l m.charset (a ++ b) (Dictionary.init m.charset) → Covered.SameHeads d e := by
    intro l d e h h1 h2
    have := Covered.heads (b := b) h (Dictionary.init m.charset)
    rw [← h1, ← h2] at this
    exact this
  refine Covered.replies hI hI' hd he (al l hc.1 hu hu') ?_ f x hx
  by_cases hcy : l.getCountry = []
  · exact .inl ⟨hf0 hcy, hf0' hcy⟩
  · obtain ⟨fb, d', h1, h2, h3⟩ := hf1 hcy
    obtain ⟨fb', e', h4, h5, h6⟩ := hf1' hcy
    exact .inr ⟨fb, fb', d', e', h1, h4, h2, h5, al (bare l) (hc.2 hcy) h3 h6⟩

/-! ### A case -/

/-- The third directory gives only messages of the first. -/
def Covered.litterOs : OS where
  listing p := if p = b!"x" then some [b!"de.po"] else if p = b!"y" then some [b!"fr.po", b!"de.po"] else if p = b!"z" then some [b!"de.po"] else none
  content f :=
    if f = b!"x/de.po" then some (b!"msgid \"\"\nmsgstr \"Plural-Forms: nplurals=2; plural=(n != 1);\\n\"\n\n" ++ b!"msgid \"cat\"\nmsgstr \"Katze\"\n")
    else if f = b!"y/de.po" then some b!"msgid \"dog\"\nmsgstr \"Hund\"\n"
    else if f = b!"z/de.po" then some b!"msgid \"cat\"\nmsgstr \"Kater\"\n"
    else none

/-- The world with these files. -/
def Covered.litterEnv : Env := ⟨.c, demoLib, false, unixFileSystem litterOs, 300⟩

theorem Covered.litter_alone {dir : Str} {es : Entries} (h : (getDictionaryFor litterEnv litterEnv.fuel deLang (newManager ⟨[dir], b!"UTF-8", true⟩)).test
    (fun p m1 => decide ((m1.heap.get? p).map (fun d => d.entries) = some es) && decide ((m1.heap.get? p).map (fun d => d.ctxtEntries) = some [])) = true) :
    ∃ e, AloneGives litterEnv deLang b!"UTF-8" dir e ∧ e.entries = es ∧ e.ctxtEntries = [] := by
  obtain ⟨p, m1, hg, h1⟩ := ok_of_test h
  rw [Bool.and_eq_true, decide_eq_true_eq, decide_eq_true_eq] at h1
  obtain ⟨h1, h2⟩ := h1
  cases he : m1.heap.get? p with
  | none => rw [he] at h1; cases h1
  | some e =>
    rw [he] at h1 h2
    injection h1 with h1
    injection h2 with h2
    exact ⟨e, ⟨p, m1, hg, he⟩, h1, h2⟩

/-- The third is covered by the first. -/
theorem Covered.litter_covered : Covered litterEnv deLang b!"UTF-8" [b!"x", b!"y"] b!"z" := by
  obtain ⟨e, h1, h2, h3⟩ := litter_alone (dir := b!"z") (es := [(b!"cat", [b!"Kater"])]) (by decide +kernel)
  obtain ⟨e', h1', h2', h3'⟩ := litter_alone (dir := b!"x") (es := [(b!"cat", [b!"Katze"])]) (by decide +kernel)
  refine ⟨⟨e, h1, ?_⟩, fun hc => absurd (by decide +kernel) hc⟩
  intro c i hn
  refine ⟨b!"x", List.mem_cons_self, e', h1', ?_⟩
  cases c with
  | some c => exact absurd (show (e.ctxtEntries.get? c).bind _ = none by rw [h3]; rfl) hn
  | none =>
    have hn : e.entries.get? i ≠ none := hn
    show e'.entries.get? i ≠ none
    rw [h2] at hn
    rw [h2']
    by_cases hi : b!"cat" = i
    · subst hi; decide
    · exact absurd (by simp [AMap.get?, hi]) hn

/-- Managers with and without the third. -/
def Covered.xyz : List Call := [.addDirectory b!"x" false, .addDirectory b!"y" false, .addDirectory b!"z" false, .getLanguages]

/-- The other. -/
def Covered.xy : List Call := [.addDirectory b!"x" false, .addDirectory b!"y" false, .getDictionaryFor deLang]

-- for C111: the cat keeps her translation
example : ∃ m k m1 k1 p q, Settled Covered.litterEnv m ∧ Settled Covered.litterEnv k ∧ k.charset = m.charset ∧ m.searchPath = [b!"x", b!"y"] ++ b!"z" :: [] ∧
    k.searchPath = [b!"x", b!"y"] ++ [] ∧ Covered Covered.litterEnv deLang m.charset [b!"x", b!"y"] b!"z" ∧
    getDictionaryFor Covered.litterEnv 300 deLang m = .ok p m1 ∧ getDictionaryFor Covered.litterEnv 300 deLang k = .ok q k1 ∧
    (reply 2 m1 p (.translate b!"cat")).map Prod.fst = some b!"Katze" := by
  have h : (match Settled.calls Covered.litterEnv (.init b!"UTF-8") Covered.xyz, Settled.calls Covered.litterEnv (.init b!"UTF-8") Covered.xy with
      | some m, some k => decide (k.charset = m.charset) && decide (m.charset = b!"UTF-8") && decide (m.searchPath = [b!"x", b!"y", b!"z"]) && decide (k.searchPath = [b!"x", b!"y"]) &&
        (match getDictionaryFor Covered.litterEnv 300 deLang m, getDictionaryFor Covered.litterEnv 300 deLang k with
        | .ok p m1, .ok _ _ => decide ((reply 2 m1 p (.translate b!"cat")).map Prod.fst = some b!"Katze")
        | _, _ => false)
      | _, _ => false) = true := by decide +kernel
  cases hm : Settled.calls Covered.litterEnv (.init b!"UTF-8") Covered.xyz with
  | none => rw [hm] at h; cases h
  | some m =>
    cases hk : Settled.calls Covered.litterEnv (.init b!"UTF-8") Covered.xy with
    | none => rw [hm, hk] at h; cases h
    | some k =>
      rw [hm, hk] at h
      dsimp only at h
      cases hg : getDictionaryFor Covered.litterEnv 300 deLang m with
      | ok p m1 =>
        cases hg' : getDictionaryFor Covered.litterEnv 300 deLang k with
        | ok q k1 =>
          rw [hg, hg'] at h
          simp only [Bool.and_eq_true, decide_eq_true_eq] at h
          obtain ⟨⟨⟨⟨h1, h2⟩, h3⟩, h4⟩, h5⟩ := h
          refine ⟨m, k, m1, k1, p, q, Settled.of_calls _ (by decide) (.new _) hm, Settled.of_calls _ (by decide) (.new _) hk, h1, h3, h4, ?_, hg, hg', h5⟩
          rw [h2]
          exact Covered.litter_covered
        | _ => rw [hg, hg'] at h; simp at h
      | _ => rw [hg] at h; simp at h

end Tgt
