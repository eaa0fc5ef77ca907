import Verif.Spec.Answers
import Verif.Props.Dictionary
import Verif.Props.PoConv
import Verif.Props.PoGarbage
import Verif.Props.PoFile
/-
The order of additions and entries (C82).
-/
namespace Tgt
open Spec Spec.Po POParser

namespace Order

theorem stringsRev_filter (key : Option Str × Str) (l : List Op) : stringsRev key l = stringsRev key (l.filter (Op.isFor key)) := by
  induction l with
  | nil => rfl
  | cons o l ih =>
    rcases o with (⟨c, i, s⟩ | ⟨c, i, p, v⟩) | p | p
    · by_cases h : (c, i) = key
      · rw [List.filter_cons_of_pos (by simp [Op.isFor, target, h])]
        simp only [stringsRev, h, if_true, ← ih]
      · rw [List.filter_cons_of_neg (by simp [Op.isFor, target, h])]
        simp only [stringsRev, h, if_false, ← ih]
    · by_cases h : (c, i) = key
      · rw [List.filter_cons_of_pos (by simp [Op.isFor, target, h])]
        simp only [stringsRev, h, if_true]
      · rw [List.filter_cons_of_neg (by simp [Op.isFor, target, h])]
        simp only [stringsRev, h, if_false, ← ih]
    · rw [List.filter_cons_of_neg (by simp [Op.isFor])]; simp only [stringsRev, ← ih]
    · rw [List.filter_cons_of_neg (by simp [Op.isFor])]; simp only [stringsRev, ← ih]

theorem strings_shuffled {h h' : List Op} (hs : Shuffled h h') (key) : strings h key = strings h' key := by
  unfold strings
  rw [stringsRev_filter, stringsRev_filter key h'.reverse, List.filter_reverse, List.filter_reverse, hs.adds]

theorem touched_filter (h : List Op) (key) : Touched h key ↔ h.filter (Op.isFor key) ≠ [] := by
  rw [Ne, List.filter_eq_nil_iff]
  constructor
  · rintro ⟨o, ho, a, rfl, ha⟩ hx
    exact hx _ ho (by simp [Op.isFor, ha])
  · intro hx
    refine Classical.byContradiction fun hn => hx fun o ho hf => hn ?_
    cases o with
    | add a => exact ⟨_, ho, a, rfl, by simpa [Op.isFor] using hf⟩
    | _ => simp [Op.isFor] at hf

theorem touched_shuffled {h h' : List Op} (hs : Shuffled h h') (key) : Touched h key ↔ Touched h' key := by
  rw [touched_filter, touched_filter, hs.adds]

theorem pluralRuleRev_filter (l : List Op) : pluralRuleRev l = pluralRuleRev (l.filter Op.isRule) := by
  induction l with
  | nil => rfl
  | cons o l ih =>
    rcases o with a | p | p
    · rw [List.filter_cons_of_neg (by simp [Op.isRule])]; simp only [pluralRuleRev, ← ih]
    · rw [List.filter_cons_of_pos (by simp [Op.isRule])]; simp only [pluralRuleRev]
    · rw [List.filter_cons_of_neg (by simp [Op.isRule])]; simp only [pluralRuleRev, ← ih]

theorem fallback_filter (l : List Op) : ∀ d : Dictionary,
    (l.foldl Op.run d).hasFallback = ((l.filter Op.isFallback).foldl Op.run d).hasFallback ∧
    (l.foldl Op.run d).fallback = ((l.filter Op.isFallback).foldl Op.run d).fallback := by
  have cong : ∀ (l : List Op), (∀ o ∈ l, o.isFallback = true) → ∀ d d' : Dictionary, d.hasFallback = d'.hasFallback → d.fallback = d'.fallback →
      (l.foldl Op.run d).hasFallback = (l.foldl Op.run d').hasFallback ∧ (l.foldl Op.run d).fallback = (l.foldl Op.run d').fallback := by
    intro l
    induction l with
    | nil => intro _ d d' h1 h2; exact ⟨h1, h2⟩
    | cons o l ih =>
      intro hl d d' h1 h2
      have := hl o List.mem_cons_self
      cases o with
      | addFallback p => exact ih (fun o ho => hl o (List.mem_cons_of_mem _ ho)) _ _ rfl rfl
      | _ => cases this
  induction l with
  | nil => intro d; exact ⟨rfl, rfl⟩
  | cons o l ih =>
    intro d
    rw [List.foldl_cons]
    cases o with
    | addFallback p => rw [List.filter_cons_of_pos (by rfl), List.foldl_cons]; exact ih _
    | add a =>
      rw [List.filter_cons_of_neg (by simp [Op.isFallback])]
      obtain ⟨h1, h2⟩ := ih (a.apply d).1
      obtain ⟨_, _, h3, h4⟩ := Dict.apply_other d a
      obtain ⟨h5, h6⟩ := cong (l.filter Op.isFallback) (fun o ho => (List.mem_filter.1 ho).2) _ _ h3 h4
      exact ⟨h1.trans h5, h2.trans h6⟩
    | setPluralForms p =>
      rw [List.filter_cons_of_neg (by simp [Op.isFallback])]
      obtain ⟨h1, h2⟩ := ih (d.setPluralForms p)
      obtain ⟨h5, h6⟩ := cong (l.filter Op.isFallback) (fun o ho => (List.mem_filter.1 ho).2) (d.setPluralForms p) d rfl rfl
      exact ⟨h1.trans h5, h2.trans h6⟩

theorem charset_after (cs : Str) : ∀ h : List Op, (after cs h).charset = cs := by
  apply Dict.rev_induction
  · rfl
  · intro h o ih
    rw [Dict.after_snoc]
    cases o with
    | add a => exact (Dict.apply_other _ a).1.trans ih
    | _ => exact ih

theorem translateIn_congr (heap) (fuel : Nat) (d d' : Dictionary) (e e' : Entries) (msgid : Str) (he : e.get? msgid = e'.get? msgid)
    (h1 : d.hasFallback = d'.hasFallback) (h2 : d.fallback = d'.fallback) :
    Dictionary.translateIn heap fuel d e msgid = Dictionary.translateIn heap fuel d' e' msgid := by
  cases fuel with
  | zero => rfl
  | succ f => simp only [Dictionary.translateIn, he, h1, h2]

theorem translatePluralIn_congr (d d' : Dictionary) (e e' : Entries) (msgid p : Str) (n : Int) (he : e.get? msgid = e'.get? msgid)
    (hk : e.keys.Perm e'.keys) (h1 : d.pluralForms = d'.pluralForms) :
    (d.translatePluralIn e msgid p n).1 = (d'.translatePluralIn e' msgid p n).1 ∧
    (d.translatePluralIn e msgid p n).2.Perm (d'.translatePluralIn e' msgid p n).2 := by
  unfold Dictionary.translatePluralIn
  rw [he, h1]
  cases e'.get? msgid with
  | none => exact ⟨rfl, (hk.map _).append_left _⟩
  | some v => exact ⟨rfl, .refl _⟩

/-- Maps with the same contents. -/
theorem perm_of_get? {e e' : Entries} (h : e.keys.Nodup) (h' : e'.keys.Nodup) (hg : ∀ i, e.get? i = e'.get? i) : e.Perm e' := by
  have nd : ∀ m : Entries, m.keys.Nodup → m.Nodup := by
    intro m hm
    unfold AMap.keys at hm
    rw [List.Nodup, List.pairwise_map] at hm
    exact hm.imp (fun hne heq => hne (by rw [heq]))
  rw [List.perm_ext_iff_of_nodup (nd e h) (nd e' h')]
  rintro ⟨i, v⟩
  rw [AMap.mem_iff_get? h, AMap.mem_iff_get? h', hg]

theorem lookup_shuffled (cs : Str) {h h' : List Op} (hs : Shuffled h h') (key) : (after cs h).lookup key = (after cs h').lookup key := by
  rw [Dict.lookup_after, Dict.lookup_after]
  have ht := touched_shuffled hs key
  by_cases hx : Touched h key
  · rw [if_pos hx, if_pos (ht.1 hx), strings_shuffled hs]
  · rw [if_neg hx, if_neg (fun h => hx (ht.2 h))]

end Order

theorem Order.touched_lookup (cs : Str) {h : List Op} {key} : Touched h key ↔ (after cs h).lookup key ≠ none := by
  rw [Dict.lookup_after]
  by_cases hx : Touched h key
  · rw [if_pos hx]; exact ⟨fun _ => Option.some_ne_none _, fun _ => hx⟩
  · rw [if_neg hx]; exact ⟨fun h => absurd h hx, fun h => absurd rfl h⟩

theorem Order.stored_iff (cs : Str) {h : List Op} {key} {v : List Str} : (Touched h key ∧ v = strings h key) ↔ (after cs h).lookup key = some v := by
  rw [Dict.lookup_after]
  by_cases hx : Touched h key
  · rw [if_pos hx]; exact ⟨fun h => by rw [h.2], fun h => ⟨hx, (Option.some.inj h).symm⟩⟩
  · rw [if_neg hx]; exact ⟨fun h => absurd h.1 hx, fun h => by cases h⟩

/-- Dictionaries in which the same strings are stored, with the same rule and the same fallback, cannot be told apart. -/
theorem Order.same_answers (cs : Str) (h h' : List Op) (hl : ∀ key, (after cs h).lookup key = (after cs h').lookup key)
    (hpf : (after cs h).pluralForms = (after cs h').pluralForms)
    (hfb : (after cs h).hasFallback = (after cs h').hasFallback ∧ (after cs h).fallback = (after cs h').fallback) :
    SameAnswers (after cs h) (after cs h') := by
  have hcs : (after cs h).charset = (after cs h').charset := by rw [Order.charset_after, Order.charset_after]
  obtain ⟨n1, n2, n3⟩ := Dict.nodup_after cs h
  obtain ⟨m1, m2, m3⟩ := Dict.nodup_after cs h'
  have he : ∀ i, (after cs h).entries.get? i = (after cs h').entries.get? i := fun i => hl (none, i)
  have hep := Order.perm_of_get? n1 m1 he
  have hkeys : ∀ {e e' : Entries}, e.Perm e' → e.keys.Perm e'.keys := fun hp => hp.map Prod.fst
  have hctx : ∀ c, ((after cs h).ctxtEntries.get? c = none ∧ (after cs h').ctxtEntries.get? c = none) ∨
      ∃ e e', (after cs h).ctxtEntries.get? c = some e ∧ (after cs h').ctxtEntries.get? c = some e' ∧ ∀ i, e.get? i = e'.get? i := by
    intro c
    have hc : Dict.hasCtxt (after cs h) c = Dict.hasCtxt (after cs h') c := by
      have key : ∀ {h h' : List Op}, (∀ k, (after cs h).lookup k = (after cs h').lookup k) → Dict.hasCtxt (after cs h) c = true → Dict.hasCtxt (after cs h') c = true := by
        intro h h' hl hx
        rw [Dict.hasCtxt_after] at hx ⊢
        obtain ⟨i, hi⟩ := hx
        exact ⟨i, (Order.touched_lookup cs).2 (by rw [← hl]; exact (Order.touched_lookup cs).1 hi)⟩
      cases hx : Dict.hasCtxt (after cs h) c with
      | true => exact (key hl hx).symm
      | false =>
        cases hy : Dict.hasCtxt (after cs h') c with
        | false => rfl
        | true => rw [key (fun k => (hl k).symm) hy] at hx; cases hx
    unfold Dict.hasCtxt at hc
    have hli : ∀ i, (after cs h).lookup (some c, i) = (after cs h').lookup (some c, i) := fun i => hl (some c, i)
    simp only [Dictionary.lookup] at hli
    cases h1 : (after cs h).ctxtEntries.get? c with
    | none =>
      cases h2 : (after cs h').ctxtEntries.get? c with
      | none => exact .inl ⟨rfl, rfl⟩
      | some e' => rw [h1, h2] at hc; cases hc
    | some e =>
      cases h2 : (after cs h').ctxtEntries.get? c with
      | none => rw [h1, h2] at hc; cases hc
      | some e' =>
        rw [h1, h2] at hli
        exact .inr ⟨e, e', rfl, rfl, hli⟩
  refine ⟨?_, ?_, ?_, ?_, hep, ?_, hcs, hpf⟩
  · intro heap fuel msgid log
    unfold Dictionary.translate
    rw [Order.translateIn_congr heap fuel _ _ _ _ msgid (he msgid) hfb.1 hfb.2]
  · intro heap fuel ctxt msgid log
    unfold Dictionary.translateCtxt
    rcases hctx ctxt with ⟨h1, h2⟩ | ⟨e, e', h1, h2, h3⟩ <;> rw [h1, h2]
    dsimp only
    rw [Order.translateIn_congr heap fuel _ _ _ _ msgid (h3 msgid) hfb.1 hfb.2]
  · intro msgid p n
    exact Order.translatePluralIn_congr _ _ _ _ msgid p n (he msgid) (hkeys hep) hpf
  · intro ctxt msgid p n
    unfold Dictionary.translateCtxtPlural
    rcases hctx ctxt with ⟨h1, h2⟩ | ⟨e, e', h1, h2, h3⟩ <;> rw [h1, h2]
    · exact ⟨rfl, .refl _⟩
    · exact Order.translatePluralIn_congr _ _ _ _ msgid p n (h3 msgid) (hkeys (Order.perm_of_get? (n3 _ _ h1) (m3 _ _ h2) h3)) hpf
  · obtain ⟨a1, a2⟩ := C20_foreach_ctxt cs h _ (.refl _)
    obtain ⟨b1, b2⟩ := C20_foreach_ctxt cs h' _ (.refl _)
    have nd : ∀ l : List (Str × Str × List Str), (l.map (fun c => (c.1, c.2.1))).Nodup → l.Nodup := by
      intro l hm
      rw [List.Nodup, List.pairwise_map] at hm
      exact hm.imp (fun hne heq => hne (by rw [heq]))
    rw [List.perm_ext_iff_of_nodup (nd _ a1) (nd _ b1)]
    rintro ⟨c, i, v⟩
    rw [a2, b2, Order.stored_iff cs, Order.stored_iff cs, hl]

/-- C82.  The order of calls does not matter to a dictionary, except among additions for the same message, among calls of
`set_plural_forms`, and among calls of `addFallback`: after two histories that agree in these, every question has the same answer. -/
theorem C82_histories (cs : Str) (h h' : List Op) (hs : Shuffled h h') : SameAnswers (after cs h) (after cs h') := by
  have hpf : (after cs h).pluralForms = (after cs h').pluralForms := by
    rw [Dict.pluralForms_after, Dict.pluralForms_after]
    unfold pluralRule
    rw [Order.pluralRuleRev_filter, Order.pluralRuleRev_filter h'.reverse, List.filter_reverse, List.filter_reverse, hs.rules]
  have hfb : (after cs h).hasFallback = (after cs h').hasFallback ∧ (after cs h).fallback = (after cs h').fallback := by
    have h1 := Order.fallback_filter h (.init cs)
    have h2 := Order.fallback_filter h' (.init cs)
    rw [← hs.fallbacks] at h2
    exact ⟨h1.1.trans h2.1.symm, h1.2.trans h2.2.symm⟩
  exact Order.same_answers cs h h' (Order.lookup_shuffled cs hs) hpf hfb

namespace Order

/-- What an addition logs, from the strings the message had. -/
def vecLog (old : List Str) : Add → List Diag
  | .singular c i s => (Dictionary.addSingularVec c i old s).2
  | .plural c i p v => (Dictionary.addPluralVec c i p old v).2

theorem apply_log (d : Dictionary) (a : Add) : (a.apply d).2 = vecLog ((d.lookup (target a)).getD []) a := by
  rcases a with ⟨_ | c, i, s⟩ | ⟨_ | c, i, p, v⟩
  · simp only [Add.apply, Dictionary.addSingular, Dict.vecAt_eq]; rfl
  · simp only [Add.apply, Dictionary.addCtxtSingular, Dict.vecAt_eq, Dict.ctxtAt_get?]; rfl
  · simp only [Add.apply, Dictionary.addPlural, Dict.vecAt_eq]; rfl
  · simp only [Add.apply, Dictionary.addCtxtPlural, Dict.vecAt_eq, Dict.ctxtAt_get?]; rfl

/-- The message that a warning about a replaced translation is about. -/
def about : Diag → Option (Option Str × Str)
  | .collisionPlural c i _ _ _ => some (c, i)
  | .collisionSingular c i _ _ => some (c, i)
  | _ => none

theorem vecLog_about (old : List Str) (a : Add) : ∀ x ∈ vecLog old a, about x = some (target a) := by
  intro x hx
  cases a with
  | singular c i s =>
    simp only [vecLog, Dictionary.addSingularVec] at hx
    split at hx
    · cases hx
    · split at hx
      · simp only [List.mem_singleton] at hx; subst hx; rfl
      · cases hx
  | plural c i p v =>
    simp only [vecLog, Dictionary.addPluralVec] at hx
    split at hx
    · cases hx
    · split at hx
      · simp only [List.mem_singleton] at hx; subst hx; rfl
      · cases hx

/-- What the additions for one message log. -/
def keyLog : List Str → List Op → List Diag
  | _, [] => []
  | old, .add a :: r => vecLog old a ++ keyLog (a.newVec old) r
  | old, _ :: r => keyLog old r

theorem lookup_run (d : Dictionary) (o : Op) (key) (h : o.isFor key = false) : (o.run d).lookup key = d.lookup key := by
  cases o with
  | add a =>
    show ((a.apply d).1).lookup key = _
    rw [Dict.lookup_apply, if_neg (by simpa [Op.isFor] using h)]
  | _ => rfl

theorem opLog_filter (key : Option Str × Str) (h : List Op) : ∀ d : Dictionary,
    (opLog d h).filter (fun x => about x == some key) = keyLog ((d.lookup key).getD []) (h.filter (Op.isFor key)) := by
  induction h with
  | nil => intro d; rfl
  | cons o h ih =>
    intro d
    cases hf : o.isFor key with
    | false =>
      rw [List.filter_cons_of_neg (by simp [hf]), ← lookup_run d o key hf, ← ih]
      cases o with
      | add a =>
        simp only [opLog, List.filter_append]
        rw [List.filter_eq_nil_iff.2, List.nil_append]; rfl
        intro x hx
        rw [apply_log] at hx
        rw [vecLog_about _ a x hx]
        simpa [Op.isFor] using hf
      | _ => rfl
    | true =>
      rw [List.filter_cons_of_pos hf]
      cases o with
      | add a =>
        have ha : target a = key := by simpa [Op.isFor] using hf
        simp only [opLog, List.filter_append, keyLog]
        rw [ih, Dict.lookup_apply, if_pos ha, apply_log, ha, List.filter_eq_self.2]
        · rfl
        · intro x hx
          rw [vecLog_about _ a x hx, ha]; simp
      | _ => cases hf

theorem opLog_about (h : List Op) : ∀ d : Dictionary, ∀ x ∈ opLog d h, about x ≠ none := by
  induction h with
  | nil => intro d x hx; cases hx
  | cons o h ih =>
    intro d x hx
    cases o with
    | add a =>
      rcases List.mem_append.1 hx with hx | hx
      · rw [apply_log] at hx; rw [vecLog_about _ a x hx]; simp
      · exact ih _ x hx
    | _ => exact ih _ x hx

end Order

/-- C82.  The warnings about replaced translations are the same, too, each as often as with the other order, and those about each
message in the same order. -/
theorem C82_warnings (cs : Str) (h h' : List Op) (hs : Shuffled h h') :
    (opLog (.init cs) h).Perm (opLog (.init cs) h') := by
  rw [List.perm_iff_count]
  intro x
  cases hx : Order.about x with
  | none =>
    rw [List.count_eq_zero.2 (fun hm => Order.opLog_about h _ x hm hx), List.count_eq_zero.2 (fun hm => Order.opLog_about h' _ x hm hx)]
  | some key =>
    have hp : (fun x => Order.about x == some key) x = true := by simp [hx]
    rw [← List.count_filter (p := fun x => Order.about x == some key) (l := opLog (.init cs) h) hp,
      ← List.count_filter (p := fun x => Order.about x == some key) (l := opLog (.init cs) h') hp, Order.opLog_filter, Order.opLog_filter, hs.adds]

namespace Order

theorem addAll_after (cs : Str) (h : List Op) (adds : List Add) : addAll (after cs h) adds = after cs (h ++ adds.map .add) := by
  unfold addAll after
  rw [List.foldl_append, List.foldl_map]
  rfl

theorem shuffled_adds (h t : List Op) (adds adds' : List Add)
    (ha : ∀ key, adds.filter (fun a => target a == key) = adds'.filter (fun a => target a == key)) :
    Shuffled (h ++ adds.map .add ++ t) (h ++ adds'.map .add ++ t) := by
  have no : ∀ (p : Op → Bool), (∀ a, p (.add a) = false) → ∀ l : List Add, (l.map Op.add).filter p = [] := by
    intro p hp l
    rw [List.filter_eq_nil_iff]
    intro x hx
    obtain ⟨a, _, rfl⟩ := List.mem_map.1 hx
    simp [hp]
  refine ⟨fun key => ?_, ?_, ?_⟩
  · simp only [List.filter_append, List.filter_map]
    have := ha key
    rw [show (Op.isFor key ∘ Op.add) = (fun a => target a == key) from rfl, this]
  · simp only [List.filter_append, no Op.isRule (fun _ => rfl)]
  · simp only [List.filter_append, no Op.isFallback (fun _ => rfl)]

theorem filter_perm {α : Type} (f : α → Option Str × Str) {l l' : List α} (hp : l.Perm l') (hn : (l.map f).Nodup) (key) :
    l.filter (fun a => f a == key) = l'.filter (fun a => f a == key) := by
  have h1 : ∀ l : List α, (l.map f).Nodup → (l.filter (fun a => f a == key)).length ≤ 1 := by
    intro l
    induction l with
    | nil => intro _; simp
    | cons a l ih =>
      intro hn
      rw [List.map_cons, List.nodup_cons] at hn
      by_cases ha : f a = key
      · rw [List.filter_cons_of_pos (by simp [ha]), List.filter_eq_nil_iff.2]
        · simp
        · intro b hb hk
          have : f b = key := by simpa using hk
          exact hn.1 (List.mem_map.2 ⟨b, hb, this.trans ha.symm⟩)
      · rw [List.filter_cons_of_neg (by simpa using ha)]
        exact ih hn.2
  have h2 := hp.filter (fun a => f a == key)
  have h3 := h1 l hn
  cases hl : l.filter (fun a => f a == key) with
  | nil => rw [hl] at h2; exact (List.nil_perm.1 h2).symm
  | cons a r =>
    rw [hl] at h2 h3
    cases r with
    | nil => exact (List.perm_singleton.1 h2.symm).symm
    | cons b r => simp at h3

end Order

/-- C82.  In particular, additions for different messages may be made in any order. -/
theorem C82_additions (cs : Str) (h : List Op) (adds adds' : List Add) (hp : adds.Perm adds') (hn : (adds.map target).Nodup) :
    SameAnswers (addAll (after cs h) adds) (addAll (after cs h) adds') := by
  rw [Order.addAll_after, Order.addAll_after]
  have := Order.shuffled_adds h [] adds adds' (Order.filter_perm target hp hn)
  rw [List.append_nil, List.append_nil] at this
  exact C82_histories cs _ _ this

/-! ### Entries of files -/

namespace Order

/-- The addition that an entry makes, if it makes one. -/
def addOf (lib : IconvLib) (useFuzzy : Bool) (cv : IConv) (en : Entry) : Option Add :=
  match en.body with
  | .single t =>
    if t ≠ [] ∧ (useFuzzy = true ∨ en.fuzzy = false) then
      match cv.convert lib t with
      | .fault _ => none
      | .ok t' _ _ => some (.singular en.ctxt en.msgid t')
    else none
  | .plural idp strs =>
    match convertAll lib cv strs with
    | .error _ => none
    | .ok (strs', _) =>
      if (∃ x ∈ strs, x.2 ≠ []) ∧ (useFuzzy = true ∨ en.fuzzy = false) then
        some (.plural en.ctxt en.msgid idp (pluralVec strs'))
      else none

theorem addOf_target (lib uf cv) (en : Entry) (a : Add) (h : addOf lib uf cv en = some a) : target a = (en.ctxt, en.msgid) := by
  unfold addOf at h
  split at h
  · split at h
    · split at h
      · cases h
      · cases h; rfl
    · cases h
  · split at h
    · cases h
    · split at h
      · cases h; rfl
      · cases h

theorem addOf_same {lib : IconvLib} (hl : Stateless lib) {cv cv' : IConv} (h : SameCd lib cv.cd cv'.cd) (uf) (en : Entry) :
    addOf lib uf cv en = addOf lib uf cv' en := by
  unfold addOf
  split
  · rename_i t _
    obtain ⟨r, cv1, cv1', l, l', h1, h2, _, _⟩ := convert_same hl h t
    rw [h1, h2]
  · rename_i idp strs _
    obtain ⟨r, cv1, cv1', h1, h2, _, _⟩ := convertAll_same hl strs h
    rw [h1, h2]

theorem load_plain (ct : CType) {lib : IconvLib} (hl : Stateless lib) (uf : Bool) (cs : Str) (es : List Entry)
    (hh : ∀ en ∈ es, en.header? = none) : ∀ (cv0 cv : IConv) (e : Effect), SameCd lib cv0.cd cv.cd →
    load ct lib uf cs es cv e = (.returned, { e with adds := e.adds ++ es.filterMap (addOf lib uf cv0) }) := by
  induction es with
  | nil => intro cv0 cv e _; simp [load]
  | cons en es ih =>
    intro cv0 cv e h
    have ih := ih (fun x hx => hh x (List.mem_cons_of_mem _ hx)) cv0
    rw [load, hh en List.mem_cons_self]
    cases hb : en.body with
    | single t =>
      dsimp only
      by_cases hc : t ≠ [] ∧ (uf = true ∨ en.fuzzy = false)
      · rw [if_pos hc]
        obtain ⟨r, cv1, cv1', l, l', h1, h2, h3, h4⟩ := convert_same hl h t
        rw [h2]
        dsimp only
        have ha : addOf lib uf cv0 en = some (.singular en.ctxt en.msgid r) := by
          unfold addOf
          rw [hb]; dsimp only
          rw [if_pos hc, h1]
        rw [ih _ _ (h4.trans h3), List.filterMap_cons_some ha]
        simp
      · rw [if_neg hc]
        have ha : addOf lib uf cv0 en = none := by
          unfold addOf
          rw [hb]; dsimp only
          rw [if_neg hc]
        rw [ih _ _ h, List.filterMap_cons_none ha]
    | plural idp strs =>
      dsimp only
      obtain ⟨r, cv1, cv1', h1, h2, h3, h4⟩ := convertAll_same hl strs h
      rw [h2]
      dsimp only
      by_cases hc : (∃ x, x ∈ strs ∧ x.2 ≠ []) ∧ (uf = true ∨ en.fuzzy = false)
      · have ha : addOf lib uf cv0 en = some (.plural en.ctxt en.msgid idp (pluralVec r)) := by
          unfold addOf
          rw [hb]; dsimp only
          rw [h1]; dsimp only
          rw [if_pos hc]
        rw [if_pos hc, ih _ _ (h4.trans h3), List.filterMap_cons_some ha]
        simp
      · have ha : addOf lib uf cv0 en = none := by
          unfold addOf
          rw [hb]; dsimp only
          rw [h1]; dsimp only
          rw [if_neg hc]
        rw [if_neg hc, ih _ _ (h4.trans h3), List.filterMap_cons_none ha]

theorem load_head (ct : CType) {lib : IconvLib} (hl : Stateless lib) (uf : Bool) (cs : Str) (hd : List Entry) :
    ∀ (cv : IConv) (e : Effect), SameCd lib cv.cd cv.cd →
    (∃ w e1, ∀ es, load ct lib uf cs (hd ++ es) cv e = (.threw w, e1)) ∨
    (∃ cv1 e1, SameCd lib cv1.cd cv1.cd ∧ ∀ es, load ct lib uf cs (hd ++ es) cv e = load ct lib uf cs es cv1 e1) := by
  induction hd with
  | nil => intro cv e h; exact .inr ⟨cv, e, h, fun _ => rfl⟩
  | cons en hd ih =>
    intro cv e h
    simp only [List.cons_append, load]
    cases hh : en.header? with
    | some t =>
      dsimp only
      obtain ⟨_, h2⟩ := setCharsets_sameCd ct lib cv cv (Po.sourceCharset ct t) cs
      rcases hx : cv.setCharsets ct lib (Po.sourceCharset ct t) cs with ⟨cv1, o⟩
      rw [hx] at h2
      cases o with
      | none => exact ih _ _ (h2 rfl)
      | some w => exact .inl ⟨_, _, fun _ => rfl⟩
    | none =>
      cases hb : en.body with
      | single t =>
        dsimp only
        by_cases hc : t ≠ [] ∧ (uf = true ∨ en.fuzzy = false)
        · simp only [if_pos hc]
          obtain ⟨r, cv1, cv1', l, l', h1, h2, h3, h4⟩ := convert_same hl h t
          rw [h1]
          exact ih _ _ (h4.symm.trans h4)
        · simp only [if_neg hc]
          exact ih _ _ h
      | plural idp strs =>
        dsimp only
        obtain ⟨r, cv1, cv1', h1, h2, h3, h4⟩ := convertAll_same hl strs h
        rw [h1]
        dsimp only
        by_cases hc : (∃ x, x ∈ strs ∧ x.2 ≠ []) ∧ (uf = true ∨ en.fuzzy = false)
        · simp only [if_pos hc]; exact ih _ _ (h4.symm.trans h4)
        · simp only [if_neg hc]; exact ih _ _ (h4.symm.trans h4)

theorem applyTo_after (cs : Str) (h : List Op) (adds : List Add) (r : Option PluralForms) :
    (⟨adds, r⟩ : Effect).applyTo (after cs h) = after cs (h ++ adds.map .add ++
      [.setPluralForms (if (after cs h).pluralForms.isDefined then (after cs h).pluralForms else r.getD (after cs h).pluralForms)]) := by
  unfold Effect.applyTo
  rw [addAll_after, Dict.after_snoc]
  rfl

end Order

/-- Both parses ended in the same way, and the dictionaries cannot be told apart. -/
def SameOutcome : Observed → Observed → Prop
  | .returned d _, .returned d' _ => SameAnswers d d'
  | .threw w d _, .threw w' d' _ => w = w' ∧ SameAnswers d d'
  | _, _ => False

/-- C82.  The order of the entries of a file does not matter, except among entries for the same message: take a well-formed file,
leave its first entries up to the last header as they are (`hd`), and put the others in another order, in which those for the same
message are still in the same order (if there are no two for the same message: in any order).  Parsed into any dictionary, both
files lead to the same: every question has the same answer afterwards.  (With a converter whose results depend on what it converted
before, or that crashes, this cannot hold.) -/
theorem C82_files (c : Cfg) (cs : Str) (h : List Op) {st st' : Bool} {ls ls' : List Str} {hd es es' : List Entry}
    (hl : Stateless c.lib)
    (hf : File c.ct st false ls (hd ++ es)) (hf' : File c.ct st' false ls' (hd ++ es'))
    (hh : ∀ en ∈ es, en.header? = none)
    (hkeys : ∀ key, es.filter (fun en => (en.ctxt, en.msgid) == key) = es'.filter (fun en => (en.ctxt, en.msgid) == key))
    (ht : TextOk ls) (ht' : TextOk ls') (hfu : (unlines ls).length + 2 ≤ c.fuel) (hfu' : (unlines ls').length + 2 ≤ c.fuel) :
    SameOutcome (observe (run c (.ofBytes (unlines ls)) (after cs h))) (observe (run c (.ofBytes (unlines ls')) (after cs h))) := by
  have hh' : ∀ en ∈ es', en.header? = none := by
    intro en hen
    have : en ∈ es'.filter (fun x => (x.ctxt, x.msgid) == (en.ctxt, en.msgid)) := List.mem_filter.2 ⟨hen, by simp⟩
    rw [← hkeys] at this
    exact hh en (List.mem_filter.1 this).1
  have r1 := run_file c hf ht hfu (after cs h)
  have r2 := run_file c hf' ht' hfu' (after cs h)
  have lift : ∀ o o' : Observed, SameOutcome o.noLog o'.noLog → SameOutcome o o' := by
    intro o o' h
    cases o <;> cases o' <;> exact h
  apply lift
  rw [r1, r2]
  rcases Order.load_head c.ct hl c.useFuzzy (after cs h).charset hd .init ⟨[], none⟩ trivial with ⟨w, e1, hw⟩ | ⟨cv1, e1, hc, hw⟩
  · rw [hw, hw]
    refine ⟨rfl, ?_⟩
    have : ∀ e : Effect, SameAnswers (e.applyTo (after cs h)) (e.applyTo (after cs h)) := by
      intro e
      obtain ⟨a, r⟩ := e
      rw [Order.applyTo_after]
      exact C82_histories cs _ _ ⟨fun _ => rfl, rfl, rfl⟩
    exact this e1
  · rw [hw, hw, Order.load_plain c.ct hl _ _ es hh cv1 cv1 e1 hc, Order.load_plain c.ct hl _ _ es' hh' cv1 cv1 e1 hc]
    show SameAnswers _ _
    dsimp only
    rw [Order.applyTo_after, Order.applyTo_after]
    refine C82_histories cs _ _ (Order.shuffled_adds h _ _ _ (fun key => ?_))
    rw [List.filter_append, List.filter_append]
    congr 1
    have hx : ∀ l : List Entry, (l.filterMap (Order.addOf c.lib c.useFuzzy cv1)).filter (fun a => target a == key)
        = (l.filter (fun en => (en.ctxt, en.msgid) == key)).filterMap (Order.addOf c.lib c.useFuzzy cv1) := by
      intro l
      rw [List.filter_filterMap, List.filterMap_filter]
      congr 1
      funext en
      cases ha : Order.addOf c.lib c.useFuzzy cv1 en with
      | none => simp
      | some a =>
        have := Order.addOf_target _ _ _ _ _ ha
        simp only [Option.filter_some, this]
    rw [hx, hx, hkeys]

namespace Order

theorem applyTo_eq (e : Effect) (d : Dictionary) : ∃ p, e.applyTo d = (addAll d e.adds).setPluralForms p := ⟨_, rfl⟩

theorem addAll_rule (l : List Add) : ∀ (d : Dictionary) (p : PluralForms), addAll (d.setPluralForms p) l = (addAll d l).setPluralForms p := by
  induction l with
  | nil => intro d p; rfl
  | cons a l ih =>
    intro d p
    show addAll (a.apply { d with pluralForms := p }).1 l = _
    rw [apply_withPf]
    exact ih _ p

theorem dict_of_run {c : Cfg} {s : Stream} {e : Effect} {k : Ending} {d d' : Dictionary}
    (h : (observe (run c s d)).noLog = k.at (e.applyTo d)) (hd : (observe (run c s d)).dict? = some d') : d' = e.applyTo d := by
  have hno : ∀ o : Observed, o.noLog.dict? = o.dict? := by intro o; cases o <;> rfl
  rw [← hno, h] at hd
  cases k <;> simp [Ending.at, Observed.dict?] at hd <;> exact hd.symm

/-- The messages for which there are additions are those that a fresh dictionary has afterwards. -/
theorem target_mem (cs : Str) (adds : List Add) (key : Option Str × Str) (p : PluralForms)
    (hn : adds.filter (fun a => target a == key) ≠ []) :
    match key with
    | (none, i) => ∃ v, (i, v) ∈ ((addAll (.init cs) adds).setPluralForms p).foreach
    | (some x, i) => ∃ v, (x, i, v) ∈ ((addAll (.init cs) adds).setPluralForms p).foreachCtxt := by
  have hd : addAll (.init cs) adds = after cs (adds.map .add) := addAll_after cs [] adds
  have ht : Touched (adds.map .add) key := by
    rw [touched_filter, List.filter_map]
    intro h
    exact hn (List.map_eq_nil_iff.1 h)
  rw [hd]
  rcases key with ⟨_ | x, i⟩
  · exact ⟨_, ((C20_foreach cs (adds.map .add) _ (.refl _)).2 i _).2 ⟨ht, rfl⟩⟩
  · exact ⟨_, ((C20_foreach_ctxt cs (adds.map .add) _ (.refl _)).2 x i _).2 ⟨ht, rfl⟩⟩

end Order

/-- C82.  Two texts, well-formed or not, may be loaded in either order if they have no message in common (`a` and `b` are what each
loads into a fresh dictionary) and the plural rule is the same in the end (as it is if the dictionary had one before): every question
has the same answer afterwards. -/
theorem C82_texts (c c' : Cfg) (s s' : Stream) (cs : Str) (h : List Op) (a b d1 d12 d2 d21 : Dictionary)
    (hf : s.rest.length < c.fuel) (hf' : s'.rest.length < c'.fuel)
    (ha : (observe (run c s (.init cs))).dict? = some a) (hb : (observe (run c' s' (.init cs))).dict? = some b)
    (hno : ∀ i v v', (i, v) ∈ a.foreach → (i, v') ∉ b.foreach)
    (hnoc : ∀ x i v v', (x, i, v) ∈ a.foreachCtxt → (x, i, v') ∉ b.foreachCtxt)
    (h1 : (observe (run c s (after cs h))).dict? = some d1) (h12 : (observe (run c' s' d1)).dict? = some d12)
    (h2 : (observe (run c' s' (after cs h))).dict? = some d2) (h21 : (observe (run c s d2)).dict? = some d21)
    (hp : d12.pluralForms = d21.pluralForms) : SameAnswers d12 d21 := by
  obtain ⟨e, k, he⟩ := C36_parse_is_additions c s cs hf
  obtain ⟨e', k', he'⟩ := C36_parse_is_additions c' s' cs hf'
  have hcs : (after cs h).charset = cs := Order.charset_after cs h
  obtain rfl := Order.dict_of_run (he _ rfl) ha
  obtain rfl := Order.dict_of_run (he' _ rfl) hb
  obtain rfl := Order.dict_of_run (he _ hcs) h1
  obtain rfl := Order.dict_of_run (he' _ hcs) h2
  obtain rfl := Order.dict_of_run (he' _ ((applyTo_charset _ _).trans hcs)) h12
  obtain rfl := Order.dict_of_run (he _ ((applyTo_charset _ _).trans hcs)) h21
  have two : ∀ x y : Effect, ∃ p, y.applyTo (x.applyTo (after cs h)) = after cs (h ++ (x.adds ++ y.adds).map .add ++ [.setPluralForms p]) := by
    intro x y
    obtain ⟨p1, hp1⟩ := Order.applyTo_eq x (after cs h)
    obtain ⟨p2, hp2⟩ := Order.applyTo_eq y (x.applyTo (after cs h))
    refine ⟨p2, ?_⟩
    rw [hp2, hp1, Order.addAll_rule, Dict.after_snoc, ← Order.addAll_after]
    show _ = (addAll (after cs h) (x.adds ++ y.adds)).setPluralForms p2
    have : addAll (after cs h) (x.adds ++ y.adds) = addAll (addAll (after cs h) x.adds) y.adds := by simp [addAll]
    rw [this]; rfl
  obtain ⟨p, hx⟩ := two e e'
  obtain ⟨q, hy⟩ := two e' e
  rw [hx, hy] at hp ⊢
  have : p = q := by rw [Dict.after_snoc, Dict.after_snoc] at hp; exact hp
  subst this
  refine C82_histories cs _ _ (Order.shuffled_adds h _ _ _ (fun key => ?_))
  rw [List.filter_append, List.filter_append]
  by_cases n1 : e.adds.filter (fun a => target a == key) = []
  · rw [n1]; simp
  by_cases n2 : e'.adds.filter (fun a => target a == key) = []
  · rw [n2]; simp
  exfalso
  obtain ⟨p1, hp1⟩ := Order.applyTo_eq e (.init cs)
  obtain ⟨p2, hp2⟩ := Order.applyTo_eq e' (.init cs)
  have m1 := Order.target_mem cs e.adds key p1 n1
  have m2 := Order.target_mem cs e'.adds key p2 n2
  rw [← hp1] at m1
  rw [← hp2] at m2
  rcases key with ⟨_ | x, i⟩
  · obtain ⟨v, hv⟩ := m1
    obtain ⟨v', hv'⟩ := m2
    exact hno i v v' hv hv'
  · obtain ⟨v, hv⟩ := m1
    obtain ⟨v', hv'⟩ := m2
    exact hnoc x i v v' hv hv'

/-- C82.  Catalogues, in any charset that can be converted without memory of earlier strings, with the same messages in any order:
loading them leads to the same. -/
theorem C82_catalogues (c : Cfg) (hl : Stateless c.lib) (dcs : Str) (h : List Op) (cs : Str) (pl : Option Str) (ms ms' : List Message)
    (hms : ∀ m ∈ ms, m.Ok) (hp : ms.Perm ms') (hn : (ms.map (fun m => (m.ctxt, m.msgid))).Nodup)
    (hnl : (10 : Byte) ∉ cs) (hpl : ∀ l, pl = some l → (10 : Byte) ∉ l ∧ b!"Plural-Forms:" <+: l) (hb : cs.map c.ct.toupper ≠ b!"BIG5")
    (hs : (unlines (writeCatalog cs pl ms)).length + 8 < 2147483647) (hs' : (unlines (writeCatalog cs pl ms')).length + 8 < 2147483647)
    (hf : (unlines (writeCatalog cs pl ms)).length + 2 ≤ c.fuel) (hf' : (unlines (writeCatalog cs pl ms')).length + 2 ≤ c.fuel) :
    SameOutcome (observe (run c (.ofBytes (unlines (writeCatalog cs pl ms))) (after dcs h)))
      (observe (run c (.ofBytes (unlines (writeCatalog cs pl ms'))) (after dcs h))) := by
  have hms' : ∀ m ∈ ms', m.Ok := fun m hm => hms m (hp.mem_iff.2 hm)
  have hdecl : declaredCharset c.ct (headerText cs pl) ≠ b!"BIG5" := by
    rw [headerText_charset c.ct cs pl hnl hpl]; exact hb
  have f1 := writeCatalog_file (ct := c.ct) (st := true) cs pl ms hms hdecl
  have f2 := writeCatalog_file (ct := c.ct) (st := true) cs pl ms' hms' hdecl
  refine C82_files c dcs h (hd := [_]) hl f1 f2 ?_ ?_ (textOk_small _ (writeCatalog_no_nl cs pl ms hms) hs (by simp [writeCatalog, writeField]))
    (textOk_small _ (writeCatalog_no_nl cs pl ms' hms') hs' (by simp [writeCatalog, writeField])) hf hf'
  · intro en hen
    obtain ⟨m, hm, rfl⟩ := List.mem_map.1 hen
    have := hms m hm
    unfold Message.Ok at this
    unfold entryOf Entry.header?
    cases hq : m.plural with
    | none => rw [hq] at this; simp [this.1]
    | some p => rfl
  · refine Order.filter_perm (fun en : Entry => (en.ctxt, en.msgid)) (hp.map entryOf) ?_
    rw [List.map_map]
    exact hn

/-! ### Cases -/

example : Stateless demoLib := ⟨demoLib_tame, fun _ _ _ _ _ => rfl⟩

/-- Entries in one order … -/
def orderEntries : List Entry := [⟨false, none, b!"a", .single b!"A"⟩, ⟨false, some b!"c", b!"a", .single b!"CA"⟩, ⟨false, none, b!"b", .single b!"B"⟩]

/-- … and in another. -/
def orderEntries' : List Entry := [⟨false, none, b!"b", .single b!"B"⟩, ⟨false, some b!"c", b!"a", .single b!"CA"⟩, ⟨false, none, b!"a", .single b!"A"⟩]

example : ∀ key, orderEntries.filter (fun en => (en.ctxt, en.msgid) == key) = orderEntries'.filter (fun en => (en.ctxt, en.msgid) == key) :=
  Order.filter_perm (fun en : Entry => (en.ctxt, en.msgid)) (by decide) (by decide)

/-- Histories in different orders, in which one message is given twice. -/
example : Shuffled [.add (.singular none b!"a" b!"1"), .setPluralForms .undefined, .add (.singular none b!"b" b!"2"), .add (.singular none b!"a" b!"3")]
    [.add (.singular none b!"b" b!"2"), .add (.singular none b!"a" b!"1"), .add (.singular none b!"a" b!"3"), .setPluralForms .undefined] := by
  refine ⟨fun key => ?_, by decide, by decide⟩
  simp only [List.filter_cons, Op.isFor, target, List.filter_nil]
  by_cases h1 : ((none, b!"a") : Option Str × Str) == key
  · by_cases h2 : ((none, b!"b") : Option Str × Str) == key
    · have := (beq_iff_eq.1 h1).trans (beq_iff_eq.1 h2).symm
      exact absurd this (by decide)
    · simp [h1, h2]
  · by_cases h2 : ((none, b!"b") : Option Str × Str) == key <;> simp [h1, h2]

/-- The order of additions for the same message does matter. -/
example : ¬ SameAnswers (after [] [.add (.singular none b!"a" b!"1"), .add (.singular none b!"a" b!"2")])
    (after [] [.add (.singular none b!"a" b!"2"), .add (.singular none b!"a" b!"1")]) := by
  intro h
  have := h.translate (fun _ => none) 1 b!"a" []
  exact absurd this (by decide)

/-- A text with a mistake in it … -/
def orderText : Str := b!"msgid \"a\"\nmsgstr \"A\"\n\nmsgid x\n\n\nmsgctxt \"c\"\nmsgid \"a\"\nmsgstr \"CA\"\n"

/-- … and the second. -/
def orderText' : Str := b!"msgid \"b\"\nmsgstr \"B\"\n"

/-- What the dictionary is after loading the first text, the second, both in this order, both in the other order. -/
def orderA : Dictionary := addAll (.init b!"UTF-8") [.singular none b!"a" b!"A", .singular (some b!"c") b!"a" b!"CA"]

@[inherit_doc orderA] def orderB : Dictionary := addAll (.init b!"UTF-8") [.singular none b!"b" b!"B"]

@[inherit_doc orderA] def orderAB : Dictionary := addAll orderA [.singular none b!"b" b!"B"]

@[inherit_doc orderA] def orderBA : Dictionary := addAll orderB [.singular none b!"a" b!"A", .singular (some b!"c") b!"a" b!"CA"]

example : ∃ a b d1 d12 d2 d21 : Dictionary,
    (observe (run ⟨.c, demoLib, true, b!"f", false, 400⟩ (.ofBytes orderText) (.init b!"UTF-8"))).dict? = some a ∧
    (observe (run ⟨.c, demoLib, true, b!"f", false, 400⟩ (.ofBytes orderText') (.init b!"UTF-8"))).dict? = some b ∧
    (observe (run ⟨.c, demoLib, true, b!"f", false, 400⟩ (.ofBytes orderText) (after b!"UTF-8" []))).dict? = some d1 ∧
    (observe (run ⟨.c, demoLib, true, b!"f", false, 400⟩ (.ofBytes orderText') d1)).dict? = some d12 ∧
    (observe (run ⟨.c, demoLib, true, b!"f", false, 400⟩ (.ofBytes orderText') (after b!"UTF-8" []))).dict? = some d2 ∧
    (observe (run ⟨.c, demoLib, true, b!"f", false, 400⟩ (.ofBytes orderText) d2)).dict? = some d21 ∧
    d12.foreach = [(b!"a", [b!"A"]), (b!"b", [b!"B"])] ∧ d21.foreach = [(b!"b", [b!"B"]), (b!"a", [b!"A"])] ∧ SameAnswers d12 d21 := by
  have key : ∀ a b d1 d12 d2 d21 : Dictionary,
    (observe (run ⟨.c, demoLib, true, b!"f", false, 400⟩ (.ofBytes orderText) (.init b!"UTF-8"))).dict? = some a →
    (observe (run ⟨.c, demoLib, true, b!"f", false, 400⟩ (.ofBytes orderText') (.init b!"UTF-8"))).dict? = some b →
    (observe (run ⟨.c, demoLib, true, b!"f", false, 400⟩ (.ofBytes orderText) (after b!"UTF-8" []))).dict? = some d1 →
    (observe (run ⟨.c, demoLib, true, b!"f", false, 400⟩ (.ofBytes orderText') d1)).dict? = some d12 →
    (observe (run ⟨.c, demoLib, true, b!"f", false, 400⟩ (.ofBytes orderText') (after b!"UTF-8" []))).dict? = some d2 →
    (observe (run ⟨.c, demoLib, true, b!"f", false, 400⟩ (.ofBytes orderText) d2)).dict? = some d21 →
    (∀ x ∈ a.foreach, ∀ y ∈ b.foreach, x.1 ≠ y.1) → b.foreachCtxt = [] → d12.pluralForms = d21.pluralForms → SameAnswers d12 d21 := by
    intro a b d1 d12 d2 d21 ha hb h1 h12 h2 h21 hno hnoc hp
    refine C82_texts _ _ _ _ _ [] a b d1 d12 d2 d21 (by decide) (by decide) ha hb ?_ ?_ h1 h12 h2 h21 hp
    · intro i v v' hv hv'
      exact hno _ hv _ hv' rfl
    · intro x i v v' _ h
      rw [hnoc] at h; cases h
  have h1 : (observe (run ⟨.c, demoLib, true, b!"f", false, 400⟩ (.ofBytes orderText) (.init b!"UTF-8"))).dict? = some orderA := by decide +kernel
  have h2 : (observe (run ⟨.c, demoLib, true, b!"f", false, 400⟩ (.ofBytes orderText') (.init b!"UTF-8"))).dict? = some orderB := by decide +kernel
  have h3 : (observe (run ⟨.c, demoLib, true, b!"f", false, 400⟩ (.ofBytes orderText') orderA)).dict? = some orderAB := by decide +kernel
  have h4 : (observe (run ⟨.c, demoLib, true, b!"f", false, 400⟩ (.ofBytes orderText) orderB)).dict? = some orderBA := by decide +kernel
  exact ⟨orderA, orderB, orderA, orderAB, orderB, orderBA, h1, h2, h1, h3, h2, h4, by decide, by decide,
    key _ _ _ _ _ _ h1 h2 h1 h3 h2 h4 (by decide) (by decide) (by decide)⟩

end Tgt
