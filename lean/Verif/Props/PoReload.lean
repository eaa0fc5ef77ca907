import Verif.Props.Parse
import Verif.Proofs.Canon
/-
Loading the same text again changes nothing (C65).
-/
namespace Tgt
open Spec POParser

/-- The maps in a dictionary have no key twice, as is the case after any sequence of calls (`proper_after`). -/
def Dictionary.Proper (d : Dictionary) : Prop :=
  d.entries.keys.Nodup ∧ d.ctxtEntries.keys.Nodup ∧ ∀ c e, d.ctxtEntries.get? c = some e → e.keys.Nodup

theorem proper_after (cs : Str) (h : List Op) : (after cs h).Proper := Dict.nodup_after cs h

namespace Reload

/-- The same keys in the same order. -/
structure Same (d d' : Dictionary) : Prop where
  keys : d'.entries.keys = d.entries.keys
  ctxts : d'.ctxtEntries.keys = d.ctxtEntries.keys
  inner : ∀ c e e', d.ctxtEntries.get? c = some e → d'.ctxtEntries.get? c = some e' → e'.keys = e.keys

theorem Same.refl (d : Dictionary) : Same d d := ⟨rfl, rfl, fun c e e' h h' => by rw [h] at h'; cases h'; rfl⟩

theorem Same.trans {a b c : Dictionary} (h : Same a b) (h' : Same b c) : Same a c := by
  refine ⟨h'.keys.trans h.keys, h'.ctxts.trans h.ctxts, fun k e e' he he' => ?_⟩
  have : k ∈ b.ctxtEntries.keys := by rw [h.ctxts]; exact AMap.mem_keys_iff.2 ⟨_, he⟩
  obtain ⟨f, hf⟩ := AMap.mem_keys_iff.1 this
  exact (h'.inner k f e' hf he').trans (h.inner k e f he hf)

theorem keys_set {κ ν : Type} [DecidableEq κ] (m : AMap κ ν) (k : κ) (v : ν) (h : k ∈ m.keys) : (m.set k v).keys = m.keys := by
  induction m with
  | nil => cases h
  | cons p t ih =>
    obtain ⟨k0, v0⟩ := p
    simp only [AMap.set]
    split
    · rename_i h0; simp [AMap.keys, h0]
    · rename_i h0
      rcases List.mem_cons.1 h with h | h
      · exact absurd h.symm h0
      · simp only [AMap.keys, List.map_cons]
        congr 1
        exact ih h

theorem ext {κ ν : Type} [DecidableEq κ] : ∀ (m m' : AMap κ ν), m.keys.Nodup → m'.keys = m.keys → (∀ k, m'.get? k = m.get? k) → m' = m
  | [], [], _, _, _ => rfl
  | [], _ :: _, _, h, _ => by cases h
  | _ :: _, [], _, h, _ => by cases h
  | (k, v) :: t, (k', v') :: t', hn, hk, hg => by
    simp only [AMap.keys, List.map_cons, List.cons.injEq] at hk
    simp only [AMap.keys, List.map_cons, List.nodup_cons] at hn
    obtain ⟨rfl, hk⟩ := hk
    have h0 := hg k'
    simp only [AMap.get?, if_true, Option.some.injEq] at h0
    subst h0
    congr 1
    refine ext t t' hn.2 hk (fun j => ?_)
    by_cases hj : k' = j
    · subst hj
      rw [AMap.get?_eq_none_iff.2 hn.1, AMap.get?_eq_none_iff.2 (by rw [show AMap.keys t' = AMap.keys t from hk]; exact hn.1)]
    · have := hg j
      simpa [AMap.get?, hj] using this

/-- An addition for a known message. -/
theorem same_apply (d : Dictionary) (a : Add) (h : d.lookup (target a) ≠ none) : Same d (a.apply d).1 := by
  have plain : ∀ i v, d.lookup (none, i) ≠ none → Same d { d with entries := d.entries.set i v } := by
    intro i v h
    refine ⟨keys_set _ _ _ ?_, rfl, (Same.refl d).inner⟩
    exact Classical.byContradiction fun hx => h (AMap.get?_eq_none_iff.2 hx)
  have ctx : ∀ c i v, d.lookup (some c, i) ≠ none →
      Same d { d with ctxtEntries := d.ctxtEntries.set c ((Dictionary.ctxtAt d.ctxtEntries c).set i v) } := by
    intro c i v h
    simp only [Dictionary.lookup] at h
    cases hc : d.ctxtEntries.get? c with
    | none => rw [hc] at h; exact absurd rfl h
    | some e =>
      rw [hc] at h
      have hk : i ∈ e.keys := by
        exact Classical.byContradiction fun hx => h (AMap.get?_eq_none_iff.2 hx)
      refine ⟨rfl, keys_set _ _ _ (AMap.mem_keys_iff.2 ⟨_, hc⟩), fun k f f' hf hf' => ?_⟩
      dsimp only at hf'
      rw [AMap.get?_set] at hf'
      split at hf'
      · rename_i he
        subst he
        rw [hc] at hf
        cases hf; cases hf'
        unfold Dictionary.ctxtAt
        rw [hc]
        exact keys_set _ _ _ hk
      · rw [hf] at hf'; cases hf'; rfl
  rcases a with ⟨_ | c, i, s⟩ | ⟨_ | c, i, p, v⟩
  · exact plain _ _ h
  · exact ctx _ _ _ h
  · exact plain _ _ h
  · exact ctx _ _ _ h

/-- What additions make of the strings of one message. -/
def fold (key : Option Str × Str) (adds : List Add) (v : List Str) : List Str :=
  adds.foldl (fun v a => if target a = key then a.newVec v else v) v

theorem lookup_addAll (key : Option Str × Str) : ∀ (adds : List Add) (d : Dictionary),
    (addAll d adds).lookup key = if key ∈ adds.map target then some (fold key adds ((d.lookup key).getD [])) else d.lookup key := by
  intro adds
  induction adds with
  | nil => intro d; rfl
  | cons a adds ih =>
    intro d
    show (addAll (a.apply d).1 adds).lookup key = _
    rw [ih, Dict.lookup_apply]
    simp only [fold, List.foldl_cons, List.map_cons, List.mem_cons]
    by_cases ha : target a = key
    · subst ha
      simp only [if_true, true_or, Option.getD_some]
      split
      · rfl
      · rename_i hx
        congr 1
        have : ∀ (l : List Add) v, target a ∉ l.map target → l.foldl (fun v b => if target b = target a then b.newVec v else v) v = v := by
          intro l
          induction l with
          | nil => intro v _; rfl
          | cons b l ihl =>
            intro v hb
            simp only [List.map_cons, List.mem_cons, not_or] at hb
            rw [List.foldl_cons, if_neg (Ne.symm hb.1)]
            exact ihl _ hb.2
        rw [this _ _ hx]
    · have hk : ¬ key = target a := fun h => ha h.symm
      simp only [ha, if_false, hk, false_or]

theorem fold_idem (key : Option Str × Str) (adds : List Add) (v : List Str) : fold key adds (fold key adds v) = fold key adds v := by
  have : (∃ w, ∀ v, fold key adds v = w) ∨ (∃ s : Str, ∀ v, fold key adds v = s :: v.tail) ∨ (∀ v, fold key adds v = v) := by
    have gen : ∀ (r : List Add), let g := fun v => fold key r.reverse v
        (∃ w, ∀ v, g v = w) ∨ (∃ s : Str, ∀ v, g v = s :: v.tail) ∨ (∀ v, g v = v) := by
      intro r
      induction r with
      | nil => exact .inr (.inr fun _ => rfl)
      | cons a r ih =>
        simp only [fold, List.reverse_cons, List.foldl_append, List.foldl_cons, List.foldl_nil] at ih ⊢
        by_cases ha : target a = key
        · simp only [ha, if_true]
          rcases a with ⟨c, i, s⟩ | ⟨c, i, p, w⟩
          · rcases ih with ⟨w, hw⟩ | ⟨s', hs⟩ | hv
            · exact .inl ⟨s :: w.tail, fun v => by rw [hw]; rfl⟩
            · exact .inr (.inl ⟨s, fun v => by rw [hs]; rfl⟩)
            · exact .inr (.inl ⟨s, fun v => by rw [hv]; rfl⟩)
          · exact .inl ⟨w, fun v => rfl⟩
        · simp only [ha, if_false]; exact ih
    have := gen adds.reverse
    rwa [List.reverse_reverse] at this
  rcases this with ⟨w, hw⟩ | ⟨s, hs⟩ | hv
  · rw [hw, hw]
  · rw [hs, hs]; rfl
  · rw [hv, hv]

theorem same_addAll : ∀ (adds : List Add) (d : Dictionary), (∀ a ∈ adds, d.lookup (target a) ≠ none) → Same d (addAll d adds) := by
  intro adds
  induction adds with
  | nil => intro d _; exact .refl d
  | cons a adds ih =>
    intro d h
    refine (same_apply d a (h a (by simp))).trans (ih _ (fun b hb => ?_))
    rw [Dict.lookup_apply]
    split
    · simp
    · exact h b (by simp [hb])

theorem proper_apply (d : Dictionary) (a : Add) (h : d.Proper) : (a.apply d).1.Proper := by
  obtain ⟨h1, h2, h3⟩ := h
  have hset : ∀ k i v, ∀ c e, (d.ctxtEntries.set k ((Dictionary.ctxtAt d.ctxtEntries k).set i v)).get? c = some e → e.keys.Nodup := by
    intro k i v c e he
    rw [AMap.get?_set] at he
    split at he
    · cases he
      apply AMap.nodup_set
      unfold Dictionary.ctxtAt
      cases hg : d.ctxtEntries.get? k with
      | none => simp [AMap.keys]
      | some e => exact h3 _ _ hg
    · exact h3 _ _ he
  rcases a with ⟨_ | c, i, s⟩ | ⟨_ | c, i, p, v⟩
  · exact ⟨AMap.nodup_set h1 _ _, h2, h3⟩
  · exact ⟨h1, AMap.nodup_set h2 _ _, hset _ _ _⟩
  · exact ⟨AMap.nodup_set h1 _ _, h2, h3⟩
  · exact ⟨h1, AMap.nodup_set h2 _ _, hset _ _ _⟩

theorem proper_addAll : ∀ (adds : List Add) (d : Dictionary), d.Proper → (addAll d adds).Proper := by
  intro adds
  induction adds with
  | nil => exact fun d h => h
  | cons a adds ih => exact fun d h => ih _ (proper_apply d a h)

theorem addAll_other (adds : List Add) (d : Dictionary) : (addAll d adds).charset = d.charset ∧ (addAll d adds).pluralForms = d.pluralForms ∧
    (addAll d adds).hasFallback = d.hasFallback ∧ (addAll d adds).fallback = d.fallback := by
  induction adds generalizing d with
  | nil => exact ⟨rfl, rfl, rfl, rfl⟩
  | cons a adds ih =>
    obtain ⟨h1, h2, h3, h4⟩ := Dict.apply_other d a
    obtain ⟨g1, g2, g3, g4⟩ := ih (a.apply d).1
    exact ⟨g1.trans h1, g2.trans h2, g3.trans h3, g4.trans h4⟩

/-- Equal if they have the same keys and strings. -/
theorem dict_ext (d d' : Dictionary) (hp : d.Proper) (hs : Same d d') (hl : ∀ key, d'.lookup key = d.lookup key)
    (ho : d'.charset = d.charset ∧ d'.pluralForms = d.pluralForms ∧ d'.hasFallback = d.hasFallback ∧ d'.fallback = d.fallback) : d' = d := by
  have e1 : d'.entries = d.entries := ext _ _ hp.1 hs.keys (fun k => hl (none, k))
  have e2 : d'.ctxtEntries = d.ctxtEntries := by
    refine ext _ _ hp.2.1 hs.ctxts (fun c => ?_)
    cases hc : d.ctxtEntries.get? c with
    | none => rw [AMap.get?_eq_none_iff, hs.ctxts, ← AMap.get?_eq_none_iff]; exact hc
    | some e =>
      have : c ∈ d'.ctxtEntries.keys := by rw [hs.ctxts]; exact AMap.mem_keys_iff.2 ⟨_, hc⟩
      obtain ⟨e', he'⟩ := AMap.mem_keys_iff.1 this
      rw [he']
      congr 1
      refine ext _ _ (hp.2.2 c e hc) (hs.inner c e e' hc he') (fun k => ?_)
      have := hl (some c, k)
      simpa [Dictionary.lookup, hc, he'] using this
  obtain ⟨h1, h2, h3, h4⟩ := ho
  cases d; cases d'
  simp_all

theorem addAll_idem (adds : List Add) (d : Dictionary) (h : d.Proper) : addAll (addAll d adds) adds = addAll d adds := by
  have key : ∀ k, k ∈ adds.map target → (addAll d adds).lookup k = some (fold k adds ((d.lookup k).getD [])) := fun k hk => by
    rw [lookup_addAll, if_pos hk]
  refine dict_ext _ _ (proper_addAll adds d h) (same_addAll _ _ fun a ha => ?_) (fun k => ?_) (addAll_other _ _)
  · rw [key _ (List.mem_map_of_mem ha)]; simp
  · rw [lookup_addAll]
    split
    · rename_i hk
      rw [key k hk, Option.getD_some, fold_idem]
    · rfl

theorem addAll_rule (adds : List Add) (d : Dictionary) (r : PluralForms) :
    addAll { d with pluralForms := r } adds = { addAll d adds with pluralForms := r } := by
  induction adds generalizing d with
  | nil => rfl
  | cons a adds ih =>
    show addAll (a.apply { d with pluralForms := r }).1 adds = { addAll (a.apply d).1 adds with pluralForms := r }
    rw [← ih]
    rcases a with ⟨_ | c, i, s⟩ | ⟨_ | c, i, p, v⟩ <;> rfl

theorem effect_idem (e : Effect) (d : Dictionary) (h : d.Proper) : e.applyTo (e.applyTo d) = e.applyTo d := by
  unfold Effect.applyTo
  dsimp only
  rw [addAll_rule, addAll_idem _ _ h]
  congr 1
  cases hd : d.pluralForms.isDefined with
  | true => simp [hd]
  | false =>
    simp only [Bool.false_eq_true, if_false]
    cases e.rule with
    | none => simp [hd]
    | some r => cases hr : r.isDefined <;> simp [hr]

end Reload

/-- C65: parsing a text into a dictionary that it was already parsed into (whether that came back normally or by an exception) ends
in the same way and leaves the very same dictionary, whatever was in it before. -/
theorem C65_reload (c : Cfg) (input : Stream) (hF : input.rest.length < c.fuel) (d d' : Dictionary) (hd : d.Proper)
    (h : (observe (run c input d)).dict? = some d') :
    (observe (run c input d')).noLog = (observe (run c input d)).noLog ∧ d'.Proper := by
  obtain ⟨e, k, he⟩ := C36_parse_is_additions c input d.charset hF
  have hno : ∀ o : Observed, o.noLog.dict? = o.dict? := by intro o; cases o <;> rfl
  have hd' : d' = e.applyTo d := by
    rw [← hno, he d rfl] at h
    cases k <;> simp [Ending.at, Observed.dict?] at h <;> exact h.symm
  have hcs : d'.charset = d.charset := by rw [hd']; exact (Reload.addAll_other e.adds d).1
  refine ⟨?_, ?_⟩
  · rw [he d' hcs, he d rfl, hd', Reload.effect_idem e d hd]
  · rw [hd']
    exact Reload.proper_addAll e.adds d hd

-- an entry for `a` twice in one text: the second parse goes through the first of them again, and ends with the second
example : let c : Cfg := ⟨.c, demoLib, false, b!"f", true, 200⟩
    let s := unlines [b!"msgid \"a\"", b!"msgstr \"x\"", [], b!"msgid \"a\"", b!"msgstr \"y\"", []]
    (observe (run c (.ofBytes s) (.init b!"UTF-8"))).noLog
      = .returned ((Add.singular none b!"a" b!"y").apply (.init b!"UTF-8")).1 [] ∧
    (observe (run c (.ofBytes s) ((Add.singular none b!"a" b!"y").apply (.init b!"UTF-8")).1)).log.length = 2 := by
  decide +kernel

end Tgt
