import Verif.Spec.Touching
import Verif.Props.Manager
import Verif.Props.Dictionary
/-
What an addition to a dictionary of a manager changes: C104.
-/
namespace Tgt
open Spec Manager Mgr

theorem Mgr.stored_lookup (d : Dictionary) (c : Option Str) (i : Str) : stored d c i = d.lookup (c, i) := by
  cases c with
  | none => rfl
  | some c => unfold stored Dictionary.lookup; dsimp only; cases d.ctxtEntries.get? c <;> rfl

/-- What a lookup that is passed on gets. -/
def Mgr.passed (m : Manager) (d : Dictionary) (i : Str) : Str × List Diag :=
  match d.fallback with
  | none => (i, [.couldntTranslate i])
  | some fb => match ((m.heap.get? fb).bind (fun d' => d'.lookup (none, i))).bind List.head? with
    | some s => (s, [.couldntTranslate i])
    | none => (i, [.couldntTranslate i, .couldntTranslate i])

theorem Mgr.told_in {m : Manager} (h : Inv m) {p : DictId} {d : Dictionary} (hp : m.heap.get? p = some d) (e : Entries) (i : Str) (f : Nat) (log : List Diag) :
    Dictionary.translateIn m.heap.get? (f + 2) d e i log = match (e.get? i).bind List.head? with
      | some s => .ok s log
      | none => .ok (passed m d i).1 (log ++ (passed m d i).2) := by
  cases ho : (e.get? i).bind List.head? with
  | some s =>
    obtain ⟨v, hv, hs⟩ := Option.bind_eq_some_iff.1 ho
    cases v with
    | nil => cases hs
    | cons x t => cases hs; exact Dict.translateIn_hit _ _ _ _ _ _ _ hv _
  | none =>
    dsimp only
    cases hf : d.hasFallback with
    | false =>
      have hn : d.fallback = none := by
        rcases (h.live p d hp).2 with rfl | ⟨L, hL⟩
        · obtain ⟨d0, h1, _, h2⟩ := h.empty
          rw [hp] at h1; cases h1; exact h2
        · obtain ⟨_, _, d0, h1, _, h2⟩ := h.cached L p hL
          rw [hp] at h1; cases h1
          rcases h2 with ⟨_, h2⟩ | ⟨h2, _⟩
          · exact h2
          · rw [hf] at h2; cases h2
      rw [Dict.translateIn_miss _ _ _ _ _ ho hf]
      unfold passed; rw [hn]
    | true =>
      obtain ⟨L, q, d', _, _, h1, _, h2, h3⟩ := h.fallback hp hf
      rw [Dict.translateIn_fallback _ _ _ _ _ _ _ ho hf h1 h2]
      unfold passed; rw [h1]
      dsimp only
      rw [h2]
      show _ = Res.ok (match (d'.entries.get? i).bind List.head? with
        | some s => (s, [Diag.couldntTranslate i])
        | none => (i, [Diag.couldntTranslate i, Diag.couldntTranslate i])).1 (log ++ (match (d'.entries.get? i).bind List.head? with
        | some s => (s, [Diag.couldntTranslate i])
        | none => (i, [Diag.couldntTranslate i, Diag.couldntTranslate i])).2)
      cases ho2 : (d'.entries.get? i).bind List.head? with
      | some s =>
        obtain ⟨v, hv, hs⟩ := Option.bind_eq_some_iff.1 ho2
        cases v with
        | nil => cases hs
        | cons x t => cases hs; exact Dict.translateIn_hit _ _ _ _ _ _ _ hv _
      | none =>
        rw [Dict.translateIn_miss _ _ _ _ _ ho2 h3]
        dsimp only
        rw [List.append_assoc]
        rfl

/-- The answer to a lookup without a number, in words. -/
def Mgr.told (m : Manager) (d : Dictionary) (c : Option Str) (i : Str) : Str × List Diag :=
  match (d.lookup (c, i)).bind List.head? with
  | some s => (s, [])
  | none => match c with
    | none => passed m d i
    | some c => if (d.ctxtEntries.get? c).isSome then passed m d i else (i, [.couldntTranslate i])

theorem Mgr.reply_singular {m : Manager} (h : Inv m) {p : DictId} {d : Dictionary} (hp : m.heap.get? p = some d) (f : Nat) (q : Query) (hq : Query.counts q = false) :
    reply (f + 2) m p q = some (told m d (Query.key q).1 (Query.key q).2) := by
  have hp' : ({ m with log := [] } : Manager).heap.get? p = some d := hp
  unfold reply ask
  rw [hp']
  cases q with
  | translate i =>
    show (match (match Dictionary.translateIn m.heap.get? (f + 2) d d.entries i [] with
      | .ok r log => (Res.ok r { ({ m with log := [] } : Manager) with log := log } : Res Manager Str)
      | .poError log => .poError { ({ m with log := [] } : Manager) with log := log }
      | .exn w log => .exn w { ({ m with log := [] } : Manager) with log := log }
      | .fault f => .fault f
      | .diverge => .diverge) with | .ok s m' => some (s, m'.log) | _ => none) = some (told m d none i)
    rw [told_in h hp]
    unfold told
    show _ = some (match (d.entries.get? i).bind List.head? with | some s => (s, []) | none => passed m d i)
    cases (d.entries.get? i).bind List.head? <;> rfl
  | ctxt c i =>
    show (match (match Dictionary.translateCtxt m.heap.get? (f + 2) d c i [] with
      | .ok r log => (Res.ok r { ({ m with log := [] } : Manager) with log := log } : Res Manager Str)
      | .poError log => .poError { ({ m with log := [] } : Manager) with log := log }
      | .exn w log => .exn w { ({ m with log := [] } : Manager) with log := log }
      | .fault f => .fault f
      | .diverge => .diverge) with | .ok s m' => some (s, m'.log) | _ => none) = some (told m d (some c) i)
    unfold told Dictionary.lookup Dictionary.translateCtxt
    dsimp only
    cases hc : d.ctxtEntries.get? c with
    | none => rfl
    | some e =>
      dsimp only
      rw [told_in h hp]
      cases (e.get? i).bind List.head? <;> rfl
  | plural i pl n => cases hq
  | ctxtPlural c i pl n => cases hq

/-- The answer to a lookup with a number, in words. -/
def Mgr.toldN (v : Option (List Str)) (r : PluralForms) (i pl : Str) (n : Int) : Str :=
  match v with
  | none => Dictionary.english i pl n
  | some v => match v[r.getPlural n]? with
    | none => i
    | some s => if !s.isEmpty then s else Dictionary.english i pl n

theorem Mgr.toldN_in (d : Dictionary) (e : Entries) (i pl : Str) (n : Int) : (d.translatePluralIn e i pl n).1 = toldN (e.get? i) d.pluralForms i pl n := by
  unfold Dictionary.translatePluralIn toldN
  cases e.get? i with
  | none => rfl
  | some v =>
    dsimp only
    cases v[d.pluralForms.getPlural n]? with
    | none => rfl
    | some s => dsimp only; split <;> rfl

theorem Mgr.reply_plural {m : Manager} {p : DictId} {d : Dictionary} (hp : m.heap.get? p = some d) (f : Nat) (q : Query) :
    match q with
    | .plural i pl n => (reply f m p q).map Prod.fst = some (toldN (d.lookup (none, i)) d.pluralForms i pl n)
    | .ctxtPlural c i pl n => (reply f m p q).map Prod.fst = some (toldN (d.lookup (some c, i)) d.pluralForms i pl n)
    | _ => True := by
  have hp' : ({ m with log := [] } : Manager).heap.get? p = some d := hp
  cases q with
  | translate i => trivial
  | ctxt c i => trivial
  | plural i pl n =>
    dsimp only
    unfold reply ask
    rw [hp']
    exact congrArg some (toldN_in d d.entries i pl n)
  | ctxtPlural c i pl n =>
    dsimp only
    unfold reply ask
    rw [hp']
    show some (Dictionary.translateCtxtPlural d c i pl n).1 = _
    unfold Dictionary.translateCtxtPlural Dictionary.lookup
    dsimp only
    cases d.ctxtEntries.get? c with
    | none =>
      show some (if n ≠ 1 then pl else i) = some (Dictionary.english i pl n)
      unfold Dictionary.english
      by_cases e : n = 1
      · rw [if_pos e, if_neg (fun h => h e)]
      · rw [if_neg e, if_pos e]
    | some e => exact congrArg some (toldN_in d e i pl n)

/-! ### An addition -/

theorem Mgr.apply_knows (a : Add) (d : Dictionary) (c : Str) :
    ((a.apply d).1.ctxtEntries.get? c).isSome = ((d.ctxtEntries.get? c).isSome || decide ((target a).1 = some c)) := by
  have key : ∀ (c' : Str) (e : Entries), ((d.ctxtEntries.set c' e).get? c).isSome = ((d.ctxtEntries.get? c).isSome || decide (some c' = some c)) := by
    intro c' e
    rw [AMap.get?_set]
    by_cases h : c' = c
    · rw [if_pos h, h]; simp
    · rw [if_neg h]; simp [h]
  rcases a with ⟨_ | c', i, s⟩ | ⟨_ | c', i, p, v⟩
  · simp [Add.apply, Dictionary.addSingular, target]
  · exact key _ _
  · simp [Add.apply, Dictionary.addPlural, target]
  · exact key _ _

/-- The manager after an addition. -/
theorem Mgr.added {m m1 : Manager} {id : DictId} {a : Add} (h : Inv m) (hadd : onDict id (fun d => a.apply d) m = .ok () m1) :
    ∃ d, m.heap.get? id = some d ∧ Inv m1 ∧ ∀ p, m1.heap.get? p = if id = p then some (a.apply d).1 else m.heap.get? p := by
  unfold onDict at hadd
  cases hd : m.heap.get? id with
  | none => rw [hd] at hadd; cases hadd
  | some d =>
    rw [hd] at hadd
    obtain ⟨m', hr, h1, _⟩ := onDict_ok h hd (fun d => a.apply d) (like_apply a d)
    unfold onDict at hr
    rw [hd] at hr
    cases hadd
    cases hr
    exact ⟨d, rfl, h1, fun p => AMap.get?_set _ _ _ _⟩

/-- What is passed on gets the same answer, unless the addition is for this message. -/
theorem Mgr.passed_same {m m1 : Manager} {id : DictId} {a : Add} {d0 : Dictionary} (h0 : m.heap.get? id = some d0)
    (h : ∀ p, m1.heap.get? p = if id = p then some (a.apply d0).1 else m.heap.get? p) (d d1 : Dictionary) (hfb : d1.fallback = d.fallback) (i : Str)
    (hn : d.fallback = some id → target a ≠ (none, i)) : passed m1 d1 i = passed m d i := by
  unfold passed
  rw [hfb]
  cases hf : d.fallback with
  | none => rfl
  | some fb =>
    dsimp only
    rw [h fb]
    by_cases e : id = fb
    · subst e
      rw [if_pos rfl, h0]
      dsimp only [Option.bind_some]
      rw [Dict.lookup_apply, if_neg (hn hf)]
    · rw [if_neg e]

/-- The counterpart to "nothing else changes" that holds of this code: what is said below, of lookups the addition does not concern. -/
def C104_Statement : Prop :=
  ∀ (cs : Str) (m m1 : Manager), Reach cs m → ∀ (id p : DictId) (a : Add) (d : Dictionary) (q : Query) (f : Nat),
    onDict id (fun d => a.apply d) m = .ok () m1 → m.heap.get? p = some d → ¬ Concerned d p id a q →
    (reply (f + 2) m1 p q).map Prod.fst = (reply (f + 2) m p q).map Prod.fst

/-- C104.  An addition to a dictionary of a manager does not change the answer to any lookup it does not concern, on this dictionary or on any other, nor
(for lookups without a number) the messages - except that the first addition in a context opens this context. -/
theorem C104_others_partial (cs : Str) (m m1 : Manager) (hr : Reach cs m) (id p : DictId) (a : Add) (d : Dictionary) (q : Query) (f : Nat)
    (hadd : onDict id (fun d => a.apply d) m = .ok () m1) (hp : m.heap.get? p = some d) (hc : ¬ Concerned d p id a q) (ho : ¬ OpensContext d p id a q) :
    (reply (f + 2) m1 p q).map Prod.fst = (reply (f + 2) m p q).map Prod.fst ∧
    (Query.counts q = false → reply (f + 2) m1 p q = reply (f + 2) m p q) := by
  have h := reach_inv hr
  obtain ⟨d0, hd0, h1, hget⟩ := added h hadd
  -- the contents of `p` after the addition
  have hp1 : ∃ d1, m1.heap.get? p = some d1 ∧ d1.lookup (Query.key q) = d.lookup (Query.key q) ∧ d1.pluralForms = d.pluralForms ∧ d1.fallback = d.fallback ∧
      (p ≠ id → d1 = d) ∧ (p = id → d1 = (a.apply d).1) := by
    rw [hget p]
    by_cases e : id = p
    · subst e
      rw [hd0] at hp; cases hp
      refine ⟨_, if_pos rfl, ?_, ?_, (like_apply a d).2.2, fun hne => absurd rfl hne, fun _ => rfl⟩
      · rw [Dict.lookup_apply, if_neg (fun ht => hc (.inl ⟨rfl, ht⟩))]
      · rcases a with ⟨_ | c', i, s⟩ | ⟨_ | c', i, pl, v⟩ <;> rfl
    · exact ⟨d, by rw [if_neg e]; exact hp, rfl, rfl, rfl, fun _ => rfl, fun he => absurd he.symm e⟩
  obtain ⟨d1, hp1, hl, hpf, hfb, hne, heq⟩ := hp1
  have sing : Query.counts q = false → reply (f + 2) m1 p q = reply (f + 2) m p q := by
    intro hq
    rw [reply_singular h1 hp1 f q hq, reply_singular h hp f q hq]
    congr 1
    unfold told
    rw [show ((Query.key q).1, (Query.key q).2) = Query.key q from rfl, hl]
    cases hs : (d.lookup (Query.key q)).bind List.head? with
    | some s => rfl
    | none =>
      dsimp only
      -- what is passed on
      have hpass : (∀ c, (Query.key q).1 = some c → Dictionary.knows d c) → passed m1 d1 (Query.key q).2 = passed m d (Query.key q).2 := by
        intro hk
        refine passed_same hd0 hget d d1 hfb _ (fun hfid ht => hc (.inr ⟨?_, hfid, ⟨hq, by rw [stored_lookup]; exact hs, hk⟩, ht⟩))
        rintro rfl
        -- a dictionary is not its own fallback
        have hf : d.hasFallback = true := by
          rcases (h.live p d hp).2 with e | ⟨L, hL⟩
          · subst e
            obtain ⟨d2, h2, _, h3⟩ := h.empty
            rw [hp] at h2; cases h2; rw [hfid] at h3; cases h3
          · obtain ⟨_, _, d2, h2, _, h3⟩ := h.cached L p hL
            rw [hp] at h2; cases h2
            rcases h3 with ⟨_, h3⟩ | ⟨h3, _⟩
            · rw [hfid] at h3; cases h3
            · exact h3
        obtain ⟨_, fb, d', _, _, h2, _, h3, h4⟩ := h.fallback hp hf
        rw [hfid] at h2; cases h2
        rw [hp] at h3; cases h3
        rw [hf] at h4; cases h4
      cases hk : (Query.key q).1 with
      | none => exact hpass (fun c hc => by rw [hk] at hc; cases hc)
      | some c =>
        dsimp only
        have hknow : (d1.ctxtEntries.get? c).isSome = (d.ctxtEntries.get? c).isSome ∨
            ((d.ctxtEntries.get? c).isSome = false ∧ (d1.ctxtEntries.get? c).isSome = true ∧ p = id ∧ (target a).1 = some c) := by
          by_cases e : p = id
          · rw [heq e, apply_knows]
            by_cases ht : (target a).1 = some c
            · cases hx : (d.ctxtEntries.get? c).isSome with
              | true => exact .inl (by simp)
              | false => exact .inr ⟨rfl, by simp [ht], e, ht⟩
            · exact .inl (by simp [ht])
          · rw [hne e]; exact .inl rfl
        rcases hknow with hkn | ⟨hk1, hk2, hk3, hk4⟩
        · rw [hkn]
          by_cases hx : (d.ctxtEntries.get? c).isSome = true
          · rw [if_pos hx, if_pos hx]
            refine hpass (fun c' hc' => ?_)
            rw [hk] at hc'; cases hc'
            intro hn; rw [hn] at hx; cases hx
          · rw [if_neg hx, if_neg hx]
        · rw [if_pos hk2, if_neg (show ¬ (d.ctxtEntries.get? c).isSome = true by rw [hk1]; simp)]
          have hf : d.hasFallback = false := by
            cases hf : d.hasFallback with
            | false => rfl
            | true =>
              refine absurd ⟨hk3, hf, c, hk4, ?_, fun hn => ?_⟩ ho
              · cases q with
                | ctxt c' i => cases hk; exact ⟨i, rfl⟩
                | translate i => cases hk
                | plural i pl n => cases hq
                | ctxtPlural c' i pl n => cases hq
              · cases hx : d.ctxtEntries.get? c with
                | none => exact hn hx
                | some e => rw [hx] at hk1; cases hk1
          have hfn : d.fallback = none := by
            rcases (h.live p d hp).2 with e | ⟨L, hL⟩
            · subst e
              obtain ⟨d2, h2, _, h3⟩ := h.empty
              rw [hp] at h2; cases h2; exact h3
            · obtain ⟨_, _, d2, h2, _, h3⟩ := h.cached L p hL
              rw [hp] at h2; cases h2
              rcases h3 with ⟨_, h3⟩ | ⟨h3, _⟩
              · exact h3
              · rw [hf] at h3; cases h3
          unfold passed
          rw [hfb, hfn]
  refine ⟨?_, sing⟩
  cases hq : Query.counts q with
  | false => rw [sing hq]
  | true =>
    have e1 := reply_plural hp1 (f + 2) q
    have e2 := reply_plural hp (f + 2) q
    cases q with
    | translate i => cases hq
    | ctxt c i => cases hq
    | plural i pl n =>
      dsimp only at e1 e2
      rw [e1, e2, hpf]
      rw [show d1.lookup (none, i) = d.lookup (none, i) from hl]
    | ctxtPlural c i pl n =>
      dsimp only at e1 e2
      rw [e1, e2, hpf]
      rw [show d1.lookup (some c, i) = d.lookup (some c, i) from hl]

/-- C104.  What happens then: a lookup in a context that the addition opens, for another message, was answered by the message; now it is passed on to the
fallback, where it is looked up without context. -/
theorem C104_opens (cs : Str) (m m1 : Manager) (hr : Reach cs m) (id : DictId) (a : Add) (d : Dictionary) (c i : Str) (f : Nat)
    (hadd : onDict id (fun d => a.apply d) m = .ok () m1) (hp : m.heap.get? id = some d) (hf : d.hasFallback = true) (ht : (target a).1 = some c)
    (hi : (target a).2 ≠ i) (hk : ¬ Dictionary.knows d c) :
    reply (f + 2) m id (.ctxt c i) = some (i, [.couldntTranslate i]) ∧
    ∃ fb d', d.fallback = some fb ∧ m.heap.get? fb = some d' ∧
      (reply (f + 2) m1 id (.ctxt c i)).map Prod.fst = some (((stored d' none i).bind List.head?).getD i) := by
  have h := reach_inv hr
  obtain ⟨d0, hd0, h1, hget⟩ := added h hadd
  rw [hp] at hd0; cases hd0
  have hk' : d.ctxtEntries.get? c = none := Classical.byContradiction hk
  obtain ⟨_, fb, d', _, _, h2, _, h3, h4⟩ := h.fallback hp hf
  refine ⟨?_, fb, d', h2, h3, ?_⟩
  · rw [reply_singular h hp f _ rfl]
    show some (told m d (some c) i) = _
    unfold told Dictionary.lookup
    simp only [hk', Option.bind_none]
    rfl
  · have hp1 : m1.heap.get? id = some (a.apply d).1 := by rw [hget id, if_pos rfl]
    rw [reply_singular h1 hp1 f _ rfl]
    show some (told m1 (a.apply d).1 (some c) i).1 = _
    have hl : (a.apply d).1.lookup (some c, i) = none := by
      rw [Dict.lookup_apply, if_neg (fun e => hi (by rw [e]))]
      show (match d.ctxtEntries.get? c with | some e => e.get? i | none => none) = none
      rw [hk']
    have hkn : ((a.apply d).1.ctxtEntries.get? c).isSome = true := by rw [apply_knows]; simp [ht]
    unfold told
    rw [hl]
    simp only [Option.bind_none, hkn, if_true]
    unfold passed
    rw [(like_apply a d).2.2, h2]
    have hne : id ≠ fb := by
      rintro rfl
      rw [hp] at h3; cases h3
      rw [hf] at h4; cases h4
    dsimp only
    rw [hget fb, if_neg hne, h3]
    show some _ = some (((d'.lookup (none, i)).bind List.head?).getD i)
    dsimp only [Option.bind_some]
    cases (d'.lookup (none, i)).bind List.head? <;> rfl

theorem Mgr.newVec_first {a : Add} {s : Str} (h : Add.first a = some s) (v : List Str) : (a.newVec v).head? = some s := by
  cases a with
  | singular c i s' =>
    cases h
    cases v with
    | nil => rfl
    | cons x t =>
      rfl
  | plural c i p w => exact h

/-- C104.  And the lookups it does concern find it: after an addition with the string `s`, they are answered by `s`, in the dictionary it was made to and in
those that fall back to it. -/
theorem C104_seen (cs : Str) (m m1 : Manager) (hr : Reach cs m) (id p : DictId) (a : Add) (d : Dictionary) (q : Query) (s : Str) (f : Nat)
    (hadd : onDict id (fun d => a.apply d) m = .ok () m1) (hp : m.heap.get? p = some d) (hc : Concerned d p id a q) (hq : Query.counts q = false)
    (hs : Add.first a = some s) : (reply (f + 2) m1 p q).map Prod.fst = some s := by
  have h := reach_inv hr
  obtain ⟨d0, hd0, h1, hget⟩ := added h hadd
  rcases hc with ⟨rfl, ht⟩ | ⟨hne, hfb, ⟨_, hn, hk⟩, ht⟩
  · rw [hd0] at hp; cases hp
    have hp1 : m1.heap.get? p = some (a.apply d).1 := by rw [hget p, if_pos rfl]
    rw [reply_singular h1 hp1 f q hq]
    unfold told
    rw [show ((Query.key q).1, (Query.key q).2) = Query.key q from rfl, Dict.lookup_apply, if_pos ht]
    simp only [Option.bind_some, newVec_first hs]
    rfl
  · have hp1 : m1.heap.get? p = some d := by rw [hget p, if_neg (fun e => hne e.symm)]; exact hp
    rw [reply_singular h1 hp1 f q hq]
    have hpass : passed m1 d (Query.key q).2 = (s, [.couldntTranslate (Query.key q).2]) := by
      unfold passed
      rw [hfb]
      dsimp only
      rw [hget id, if_pos rfl]
      dsimp only [Option.bind_some]
      rw [Dict.lookup_apply, if_pos ht]
      simp only [Option.bind_some, newVec_first hs]
    unfold told
    rw [stored_lookup] at hn
    rw [hn]
    cases hk2 : (Query.key q).1 with
    | none => simp only [hpass]; rfl
    | some c =>
      have := hk c hk2
      have hkn : (d.ctxtEntries.get? c).isSome = true := by
        cases hx : d.ctxtEntries.get? c with
        | none => exact absurd hx this
        | some e => rfl
      simp only [hkn, if_true, hpass]; rfl

/-- A manager with a dictionary for Austrian German that falls back to the German one. -/
def Mgr.touchDemo : List Call := [.addDirectory b!"hi" false, .getDictionaryFor atLang]

/-- C104 without its exception is false of this code: `"animal"` is a context without messages in the Austrian dictionary, so in it "dog" has no
translation; after the addition of a message "cat2" in this context, "dog" in it is looked up in the German dictionary, and found there. -/
theorem C104_false : ¬ C104_Statement := by
  intro h
  have hx : ∃ m, script (.init b!"UTF-8") touchDemo = some m ∧
      (match onDict 1 (fun d => Add.apply d (.singular (some b!"animal") b!"cat2" b!"x")) m, m.heap.get? 1 with
      | .ok () m1, some d => decide (d.ctxtEntries.get? b!"animal" = none ∧ (reply 2 m1 1 (.ctxt b!"animal" b!"dog")).map Prod.fst = some b!"Hund" ∧
          (reply 2 m 1 (.ctxt b!"animal" b!"dog")).map Prod.fst = some b!"dog")
      | _, _ => false) = true := of_any (by decide +kernel)
  obtain ⟨m, h1, h2⟩ := hx
  have hr := script_reach h1
  split at h2
  · rename_i m1 d hadd hd
    obtain ⟨hk, ha, hb⟩ := of_decide_eq_true h2
    have := h _ m m1 hr 1 1 (.singular (some b!"animal") b!"cat2" b!"x") d (.ctxt b!"animal" b!"dog") 0 hadd hd (by
      rintro (⟨_, e⟩ | ⟨e, _⟩)
      · revert e; decide
      · exact e rfl)
    rw [ha, hb] at this
    revert this; decide
  · cases h2

/-- The same manager meets the hypotheses of the theorems above: an addition without context to the German dictionary concerns the lookup "dog" on the
Austrian one (`C104_seen`), and not the lookup "cat" on either of them (`C104_others_partial`). -/
example : ∃ m, script (.init b!"UTF-8") touchDemo = some m ∧
    (match onDict 2 (fun d => Add.apply d (.singular none b!"dog" b!"Dackel")) m with
    | .ok () m1 => decide ((reply 2 m 1 (.translate b!"dog")).map Prod.fst = some b!"Hund" ∧ (reply 2 m1 1 (.translate b!"dog")).map Prod.fst = some b!"Dackel" ∧
        (m.heap.get? 1).bind (·.fallback) = some 2 ∧ ((m.heap.get? 1).bind (fun d => stored d none b!"dog")).bind List.head? = none ∧
        reply 2 m1 1 (.translate b!"cat") = reply 2 m 1 (.translate b!"cat"))
    | _ => false) = true := of_any (by decide +kernel)

theorem Mgr.reply_of {m m' : Manager} (h : Inv m) (h' : Inv m') {p : DictId} {d : Dictionary} (hp : m.heap.get? p = some d) (hp' : m'.heap.get? p = some d)
    (hf : ∀ fb, d.fallback = some fb → m'.heap.get? fb = m.heap.get? fb) (f : Nat) (q : Query) : reply (f + 2) m' p q = reply (f + 2) m p q := by
  cases hq : Query.counts q with
  | false =>
    rw [reply_singular h hp f q hq, reply_singular h' hp' f q hq]
    have hpass : ∀ i, passed m' d i = passed m d i := by
      intro i
      unfold passed
      cases hfb : d.fallback with
      | none => rfl
      | some fb => dsimp only; rw [hf fb hfb]
    unfold told
    rw [hpass]
  | true =>
    cases q with
    | translate i => cases hq
    | ctxt c i => cases hq
    | plural i pl n =>
      unfold reply ask
      rw [show ({ m with log := [] } : Manager).heap.get? p = some d from hp, show ({ m' with log := [] } : Manager).heap.get? p = some d from hp']
      rfl
    | ctxtPlural c i pl n =>
      unfold reply ask
      rw [show ({ m with log := [] } : Manager).heap.get? p = some d from hp, show ({ m' with log := [] } : Manager).heap.get? p = some d from hp']
      rfl

/-- C104.  Nothing else changes an answer: as long as the manager is not configured, any calls on it - other than additions to this dictionary or to
its fallback, or changes of their plural rules - leave all answers and messages of the dictionary as they were. -/
theorem C104_stable (cs : Str) (calls : List Call) (m m' : Manager) (hr : Reach cs m) (hs : History m calls m') (hP : ∀ c ∈ calls, c.configures = false)
    (p : DictId) (d : Dictionary) (hp : m.heap.get? p = some d)
    (hc : ∀ c ∈ calls, c.changes? ≠ some p ∧ ∀ fb, d.fallback = some fb → c.changes? ≠ some fb) (f : Nat) (q : Query) :
    reply (f + 2) m' p q = reply (f + 2) m p q := by
  have h := reach_inv hr
  refine reply_of h (hist_inv h hs) hp ?_ ?_ f q
  · rw [hist_frame h hs hP p (h.live p d hp).1 (fun c hx => (hc c hx).1)]
    exact hp
  · intro fb hfb
    have hlive : ∃ d', m.heap.get? fb = some d' := by
      have hf : d.hasFallback = true := by
        rcases (h.live p d hp).2 with e | ⟨L, hL⟩
        · subst e
          obtain ⟨d2, h2, _, h3⟩ := h.empty
          rw [hp] at h2; cases h2; rw [hfb] at h3; cases h3
        · obtain ⟨_, _, d2, h2, _, h3⟩ := h.cached L p hL
          rw [hp] at h2; cases h2
          rcases h3 with ⟨_, h3⟩ | ⟨h3, _⟩
          · rw [hfb] at h3; cases h3
          · exact h3
      obtain ⟨_, fb', d', _, _, h2, _, h3, _⟩ := h.fallback hp hf
      rw [hfb] at h2; cases h2
      exact ⟨d', h3⟩
    obtain ⟨d', hd'⟩ := hlive
    exact hist_frame h hs hP fb (h.live fb d' hd').1 (fun c hx => (hc c hx).2 fb hfb)

/-- Between two lookups on the Austrian dictionary, others are made, the languages are listed, and another dictionary is made and added to. -/
example : ∃ m m', script (.init b!"UTF-8") touchDemo = some m ∧
    script m [.getLanguages, .getDictionaryFor (Language.fromEnv b!"fr"), .add 3 (.singular none b!"dog" b!"chien"), .ask 1 (.translate b!"mouse")] = some m' ∧
    (reply 2 m' 1 (.translate b!"dog")).map Prod.fst = some b!"Hund" ∧ (m.heap.get? 1).bind (·.fallback) = some 2 := by
  obtain ⟨m, h1, h2⟩ : ∃ m, script (.init b!"UTF-8") touchDemo = some m ∧
    (script m [.getLanguages, .getDictionaryFor (Language.fromEnv b!"fr"), .add 3 (.singular none b!"dog" b!"chien"), .ask 1 (.translate b!"mouse")]).any
      (fun m' => decide ((reply 2 m' 1 (.translate b!"dog")).map Prod.fst = some b!"Hund" ∧ (m.heap.get? 1).bind (·.fallback) = some 2)) = true :=
    of_any (by decide +kernel)
  obtain ⟨m', h3, h4⟩ := of_any h2
  exact ⟨m, m', h1, h3, h4⟩

/-- C104.  `set_plural_forms` on a dictionary of a manager changes no answer to lookups without a number, nor any answer of another dictionary (even if it
falls back to this one). -/
theorem C104_rule (cs : Str) (m m1 : Manager) (hr : Reach cs m) (id p : DictId) (r : PluralForms) (d : Dictionary) (q : Query) (f : Nat)
    (hset : onDict id (fun d => (d.setPluralForms r, [])) m = .ok () m1) (hp : m.heap.get? p = some d) (hq : p ≠ id ∨ Query.counts q = false) :
    (reply (f + 2) m1 p q).map Prod.fst = (reply (f + 2) m p q).map Prod.fst ∧ (Query.counts q = false → reply (f + 2) m1 p q = reply (f + 2) m p q) := by
  have h := reach_inv hr
  have key : ∃ d0, m.heap.get? id = some d0 ∧ Inv m1 ∧ ∀ p, m1.heap.get? p = if id = p then some (d0.setPluralForms r) else m.heap.get? p := by
    unfold onDict at hset
    cases hd : m.heap.get? id with
    | none => rw [hd] at hset; cases hset
    | some d0 =>
      rw [hd] at hset
      obtain ⟨m', hr', h1, _⟩ := onDict_ok h hd (fun d => (d.setPluralForms r, [])) ⟨rfl, rfl, rfl⟩
      unfold onDict at hr'
      rw [hd] at hr'
      cases hset
      cases hr'
      exact ⟨d0, rfl, h1, fun p => AMap.get?_set _ _ _ _⟩
  obtain ⟨d0, hd0, h1, hget⟩ := key
  have hpass : ∀ i, passed m1 d i = passed m d i := by
    intro i
    unfold passed
    cases d.fallback with
    | none => rfl
    | some fb =>
      dsimp only
      rw [hget fb]
      by_cases e : id = fb
      · subst e
        rw [if_pos rfl, hd0]
        rfl
      · rw [if_neg e]
  have sing : Query.counts q = false → reply (f + 2) m1 p q = reply (f + 2) m p q := by
    intro hc
    by_cases e : id = p
    · subst e
      rw [hd0] at hp; cases hp
      have hp1 : m1.heap.get? id = some (d.setPluralForms r) := by rw [hget id, if_pos rfl]
      rw [reply_singular h1 hp1 f q hc, reply_singular h hd0 f q hc]
      show some (told m1 (d.setPluralForms r) _ _) = some (told m d _ _)
      unfold told
      show some (match (d.lookup _).bind List.head? with
        | some s => (s, [])
        | none => match (Query.key q).1 with
          | none => passed m1 d (Query.key q).2
          | some c => if (d.ctxtEntries.get? c).isSome then passed m1 d (Query.key q).2 else _) = _
      rw [hpass]
    · have hp1 : m1.heap.get? p = some d := by rw [hget p, if_neg e]; exact hp
      rw [reply_singular h1 hp1 f q hc, reply_singular h hp f q hc]
      unfold told
      rw [hpass]
  refine ⟨?_, sing⟩
  cases hc : Query.counts q with
  | false => rw [sing hc]
  | true =>
    have hne : id ≠ p := by
      rcases hq with e | e
      · exact fun e' => e e'.symm
      · rw [hc] at e; cases e
    have hp1 : m1.heap.get? p = some d := by rw [hget p, if_neg hne]; exact hp
    have e1 := reply_plural hp1 (f + 2) q
    have e2 := reply_plural hp (f + 2) q
    cases q with
    | translate i => cases hc
    | ctxt c i => cases hc
    | plural i pl n => exact e1.trans e2.symm
    | ctxtPlural c i pl n => exact e1.trans e2.symm

end Tgt
