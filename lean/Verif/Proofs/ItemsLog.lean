import Verif.Proofs.Items
import Verif.Proofs.Grammar4
import Verif.Spec.PoForm
/-
Messages of arbitrary texts: those that are not about the form of the text are those that loading the entries found gives.
-/
namespace Tgt

namespace Spec.Po

/-- Messages that are not about the form of a text, without their places. -/
def contentLog (l : List Diag) : List Diag := (l.filter (fun m => decide (¬ FormMessage m))).map unplaced

end Spec.Po

namespace POParser
open Spec Spec.Po

theorem formMessage_unplaced (x : Diag) : FormMessage (unplaced x) ↔ FormMessage x := by
  cases x with
  | po lv f n m cur => cases lv <;> exact Iff.rfl
  | _ => exact Iff.rfl

theorem filter_unplaced (l : List Diag) :
    (l.map unplaced).filter (fun m => decide (¬ FormMessage m)) = contentLog l := by
  unfold contentLog
  induction l with
  | nil => rfl
  | cons x l ih =>
    rw [List.map_cons, List.filter_cons, List.filter_cons]
    by_cases h : FormMessage x
    · rw [if_neg (by simp [formMessage_unplaced, h]), if_neg (by simp [h]), ih]
    · rw [if_pos (by simp [formMessage_unplaced, h]), if_pos (by simp [h]), ih, List.map_cons]

/-- A state without the messages about form. -/
def fOf (k : LState) : LState := { k with log := k.log.filter (fun m => decide (¬ FormMessage m)) }

def fRes : Res LState Unit → Res LState Unit
  | .ok a x => .ok a (fOf x)
  | .poError x => .poError (fOf x)
  | .exn w x => .exn w (fOf x)
  | .fault f => .fault f
  | .diverge => .diverge

theorem filter_keep {l : List Diag} (h : ∀ x ∈ l, ¬ FormMessage x) : l.filter (fun m => decide (¬ FormMessage m)) = l := by
  rw [List.filter_eq_self]
  intro x hx
  simpa using h x hx

theorem notForm_po {l : List Diag} (h : ∀ x ∈ l, ∀ lv f n m cur, x ≠ .po lv f n m cur) : ∀ x ∈ l, ¬ FormMessage x := by
  intro x hx
  have := h x hx
  cases x with
  | po lv f n m cur => exact absurd rfl (this lv f n m cur)
  | _ => exact fun h => h

theorem keep_apply (d : Dictionary) (a : Add) : (a.apply d).2.filter (fun m => decide (¬ FormMessage m)) = (a.apply d).2 := by
  apply filter_keep
  apply notForm_po
  intro x hx lv f n m cur
  rcases apply_quotes d a x hx with ⟨_, _, _, _, _, rfl⟩ | ⟨_, _, _, _, rfl⟩ <;> simp

theorem keep_convert {lib : IconvLib} {cv cv' : IConv} {t r : Str} {l : List Diag} (h : cv.convert lib t = .ok r cv' l) :
    l.filter (fun m => decide (¬ FormMessage m)) = l := by
  apply filter_keep
  apply notForm_po
  intro x hx lv f n m cur
  obtain ⟨y, rfl⟩ := convert_quotes _ _ _ _ _ _ h x hx
  simp

theorem keep_warnings (file : Str) (ms : List Str) (h : ∀ m ∈ ms, ¬ FormWarning m) :
    (ms.map (Diag.po .warning file 0 · [])).filter (fun m => decide (¬ FormMessage m)) = ms.map (Diag.po .warning file 0 · []) := by
  apply filter_keep
  intro x hx
  obtain ⟨m, hm, rfl⟩ := List.mem_map.1 hx
  exact h m hm

theorem notForm_list (m : Str) (h : m ∈ [b!"malformed Content-Type header", b!"unknown Plural-Forms given",
    b!"Plural-Forms missmatch between .po file and dictionary", b!"charset not specified for .po, fallback to utf-8",
    b!"msgstr[N] seen, but no Plural-Forms given", b!"msgstr[N] count doesn't match Plural-Forms.nplural"]) : ¬ FormWarning m := by
  revert h
  have : ∀ m ∈ [b!"malformed Content-Type header", b!"unknown Plural-Forms given",
    b!"Plural-Forms missmatch between .po file and dictionary", b!"charset not specified for .po, fallback to utf-8",
    b!"msgstr[N] seen, but no Plural-Forms given", b!"msgstr[N] count doesn't match Plural-Forms.nplural"], ¬ FormWarning m := by decide
  exact this m

theorem headerMessages_notForm (ct : CType) : ∀ (ls : List Str) (r : PluralForms), ∀ m ∈ headerMessages ct r ls, ¬ FormWarning m := by
  intro ls
  induction ls with
  | nil => intro r m hm; cases hm
  | cons l ls ih =>
    intro r m hm
    unfold headerMessages at hm
    split at hm
    · split at hm
      · exact ih _ m hm
      · rcases List.mem_cons.1 hm with rfl | hm
        · exact notForm_list _ (by simp)
        · exact ih _ m hm
    · split at hm
      · split at hm
        · rcases List.mem_cons.1 hm with rfl | hm
          · exact notForm_list _ (by simp)
          · exact ih _ m hm
        · split at hm
          · exact ih _ m hm
          · split at hm
            · rcases List.mem_cons.1 hm with rfl | hm
              · exact notForm_list _ (by simp)
              · exact ih _ m hm
            · exact ih _ m hm
      · exact ih _ m hm

theorem headerWarnings_notForm (ct : CType) (r : PluralForms) (t : Str) : ∀ m ∈ headerWarnings ct r t, ¬ FormWarning m := by
  intro m hm
  unfold headerWarnings at hm
  rcases List.mem_append.1 hm with h | h
  · exact headerMessages_notForm ct _ _ m h
  · split at h
    · simp only [List.mem_singleton] at h; subst h; exact notForm_list _ (by simp)
    · cases h

theorem pluralWarnings_notForm (r : PluralForms) (n : Nat) : ∀ m ∈ pluralWarnings r n, ¬ FormWarning m := by
  intro m hm
  unfold pluralWarnings at hm
  split at hm
  · simp only [List.mem_singleton] at hm; subst hm; exact notForm_list _ (by simp)
  · split at hm
    · simp only [List.mem_singleton] at hm; subst hm; exact notForm_list _ (by simp)
    · cases hm

/-- Diagnostic events are about the form. -/
def Ev.formOnly : Ev → Bool
  | .diag .error _ _ _ => true
  | .diag .warning _ m _ => decide (FormWarning m)
  | .diag .info _ _ _ => false
  | _ => true

theorem formOnly_warning (p : Nat) (m : Str) (q : Bool) (h : FormWarning m) : (Ev.diag .warning p m q).formOnly = true := by
  unfold Ev.formOnly
  exact decide_eq_true h

theorem formOnly_ok : QOk Ev.formOnly where
  err _ _ _ := rfl
  unk _ e := formOnly_warning _ _ _ (.inr (.inr (.inr ⟨e, rfl⟩)))
  garbage _ := formOnly_warning _ _ _ (.inr (.inr (.inl rfl)))
  space _ := formOnly_warning _ _ _ (.inl rfl)
  lead _ := formOnly_warning _ _ _ (.inr (.inl rfl))
  clear := rfl
  conv _ _ _ := rfl
  plural _ _ _ _ _ := rfl
  singular _ _ _ _ _ _ := rfl
  header _ _ := rfl

theorem fStep (ct lib uf file ped) (e : Ev) (he : e.formOnly = true) (k : LState) :
    (e.isDiag = true → fRes (lStep ct lib uf file ped e k) = .ok () (fOf k)) ∧
    (e.isDiag = false → fRes (lStep ct lib uf file ped e k) = lStep ct lib uf file ped e (fOf k)) := by
  cases e with
  | diag lv p m q =>
    refine ⟨fun _ => ?_, fun h => (by cases h)⟩
    simp only [lStep]
    split
    · rfl
    · have hf : FormMessage (.po lv file 0 m []) := by
        cases lv with
        | error => trivial
        | warning => exact of_decide_eq_true he
        | info => cases he
      simp [fRes, fOf, List.filter_append, hf]
  | clear => exact ⟨fun h => (by cases h), fun _ => rfl⟩
  | conv n t =>
    refine ⟨fun h => (by cases h), fun _ => ?_⟩
    simp only [lStep, fOf]
    cases h : k.conv.convert lib t with
    | ok r cv l => simp only [fRes, fOf, List.filter_append, keep_convert h]
    | fault f => rfl
  | singular fz ctxt id t =>
    refine ⟨fun h => (by cases h), fun _ => ?_⟩
    simp only [lStep, fOf]
    split
    · cases h : k.conv.convert lib t with
      | ok r cv l => simp only [fRes, fOf, List.filter_append, keep_convert h, keep_apply]
      | fault f => rfl
    · rfl
  | plural p fz ctxt id idp =>
    refine ⟨fun h => (by cases h), fun _ => ?_⟩
    simp only [lStep, fOf]
    split
    · simp only [fRes, fOf, List.filter_append, keep_apply, keep_warnings _ _ (pluralWarnings_notForm _ _)]
    · rfl
  | header p t =>
    refine ⟨fun h => (by cases h), fun _ => ?_⟩
    simp only [lStep, fOf]
    generalize k.conv.setCharsets ct lib (Po.sourceCharset ct t) k.dict.charset = g
    obtain ⟨cv, o⟩ := g
    cases o <;> simp only [fRes, fOf, List.filter_append, keep_warnings _ _ (headerWarnings_notForm _ _ _)]

theorem fInterp (ct lib uf file ped) : ∀ (w : List Ev) (_ : ∀ x ∈ w, x.formOnly = true) (k : LState),
    fRes (lInterp ct lib uf file ped w k) = lInterp ct lib uf file ped (essence w) (fOf k) := by
  intro w
  induction w with
  | nil => intro _ k; rfl
  | cons e w ih =>
    intro hw k
    have ih := ih (fun x hx => hw x (List.mem_cons_of_mem _ hx))
    obtain ⟨h1, h2⟩ := fStep ct lib uf file ped e (hw e List.mem_cons_self) k
    have hes : essence (e :: w) = if e.isDiag then essence w else e.norm :: essence w := by
      unfold essence
      rw [List.filter_cons]
      cases e <;> rfl
    rw [hes]
    cases hd : e.isDiag with
    | true =>
      have h1 := h1 hd
      rw [if_pos rfl, lInterp, bind_apply]
      cases hl : lStep ct lib uf file ped e k with
      | ok a k' =>
        rw [hl] at h1
        injection h1 with _ h1
        dsimp only
        rw [ih k', h1]
      | _ => rw [hl] at h1; cases h1
    | false =>
      have h2 := h2 hd
      rw [if_neg (by simp), lInterp, lInterp, bind_apply, bind_apply, lStep_norm, ← h2]
      cases lStep ct lib uf file ped e k with
      | ok a k' => exact ih k'
      | _ => rfl

theorem lStep_counted (ct lib file ped) (uf fz : Bool) (k : LState) :
    (∀ c i t, lStep ct lib uf file ped (.singular fz c i t) k = lStep ct lib false file ped (.singular (fz && !uf) c i t) k) ∧
    (∀ p c i idp, lStep ct lib uf file ped (.plural p fz c i idp) k = lStep ct lib false file ped (.plural p (fz && !uf) c i idp) k) := by
  have h : (uf || !fz) = (false || !(fz && !uf)) := by cases uf <;> cases fz <;> rfl
  exact ⟨fun c i t => by simp only [lStep, h], fun p c i idp => by simp only [lStep, h]⟩

theorem lInterp_convs (ct lib uf file ped) (strs : List (Nat × Str)) (k : LState) :
    lInterp ct lib uf file ped (strs.map (fun x => Ev.conv x.1 x.2)) k = lInterp ct lib false file ped (strs.map (fun x => Ev.conv x.1 x.2)) k := by
  rw [convertAll_lInterp, convertAll_lInterp]

theorem lInterp_congr (ct lib uf file ped) (w1 w2 w1' w2' : List Ev) (h1 : ∀ k, lInterp ct lib uf file ped w1 k = lInterp ct lib false file ped w1' k)
    (h2 : ∀ k, lInterp ct lib uf file ped w2 k = lInterp ct lib false file ped w2' k) (k : LState) :
    lInterp ct lib uf file ped (w1 ++ w2) k = lInterp ct lib false file ped (w1' ++ w2') k := by
  rw [lInterp_append, lInterp_append, bind_apply, bind_apply, h1]
  cases lInterp ct lib false file ped w1' k with
  | ok a k' => exact h2 k'
  | _ => rfl

theorem lInterp_one (ct lib uf file ped) (e e' : Ev) (he : ∀ k, lStep ct lib uf file ped e k = lStep ct lib false file ped e' k) (k : LState) :
    lInterp ct lib uf file ped [e] k = lInterp ct lib false file ped [e'] k := by
  simp only [lInterp]
  rw [bind_apply, bind_apply, he]

/-- The events of an item do what those of the entry it counts as do, messages included. -/
theorem lInterp_counted (ct lib uf file ped) (i : Item) (hb : ∀ e, i = .broken e → e.isPlural) (k : LState) :
    lInterp ct lib uf file ped (evsOf' (some i)) k = lInterp ct lib false file ped (evsOf (i.counted uf)) k := by
  cases i with
  | whole e =>
    obtain ⟨fz, c, i, body⟩ := e
    cases body with
    | single t =>
      show lInterp ct lib uf file ped (if i.isEmpty then [.header 0 t] else if !t.isEmpty then [.singular fz c i t] else []) k
        = lInterp ct lib false file ped (if i.isEmpty then [.header 0 t] else if !t.isEmpty then [.singular (fz && !uf) c i t] else []) k
      split
      · exact lInterp_one ct lib uf file ped _ _ (fun _ => rfl) k
      · split
        · exact lInterp_one ct lib uf file ped _ _ (fun k => (lStep_counted ct lib file ped uf fz k).1 _ _ _) k
        · rfl
    | plural idp strs =>
      show lInterp ct lib uf file ped ([Ev.clear] ++ (strs.map (fun x => Ev.conv x.1 x.2) ++ (if strs.any (fun x => !x.2.isEmpty) then [.plural 0 fz c i idp] else []))) k
        = lInterp ct lib false file ped ([Ev.clear] ++ (strs.map (fun x => Ev.conv x.1 x.2) ++ (if strs.any (fun x => !x.2.isEmpty) then [.plural 0 (fz && !uf) c i idp] else []))) k
      refine lInterp_congr ct lib uf file ped _ _ _ _ (lInterp_one ct lib uf file ped _ _ (fun _ => rfl))
        (lInterp_congr ct lib uf file ped _ _ _ _ (lInterp_convs ct lib uf file ped strs) (fun k => ?_)) k
      split
      · exact lInterp_one ct lib uf file ped _ _ (fun k => (lStep_counted ct lib file ped uf fz k).2 _ _ _ _) k
      · rfl
  | broken e =>
    obtain ⟨fz, c, i, body⟩ := e
    cases body with
    | single t => obtain ⟨_, _, h⟩ := hb _ rfl; cases h
    | plural idp strs =>
      show lInterp ct lib uf file ped ([Ev.clear] ++ strs.map (fun x => Ev.conv x.1 x.2)) k
        = lInterp ct lib false file ped ([Ev.clear] ++ (strs.map (fun x => Ev.conv x.1 x.2) ++ (if strs.any (fun x => !x.2.isEmpty) then [.plural 0 true c i idp] else []))) k
      refine lInterp_congr ct lib uf file ped _ _ _ _ (lInterp_one ct lib uf file ped _ _ (fun _ => rfl)) (fun k => ?_) k
      rw [lInterp_append, bind_apply, lInterp_convs]
      cases lInterp ct lib false file ped (strs.map (fun x => Ev.conv x.1 x.2)) k with
      | ok a k' =>
        show Res.ok a k' = lInterp ct lib false file ped _ k'
        split
        · simp only [lInterp, bind_apply, lStep]; rfl
        · rfl
      | _ => rfl

theorem items_loadFull (ct lib uf file ped) (is : List (Option Item)) (hi : ∀ i ∈ is.filterMap id, (∀ idp, i.entry.body ≠ .plural idp []) ∧ ∀ e, i = .broken e → e.isPlural) :
    ∀ k : LState, lObs (lInterp ct lib uf file ped (is.flatMap evsOf') k)
      = loadFull ct lib false file ((is.filterMap id).map (Item.counted uf)) k.conv k.dict k.log := by
  induction is with
  | nil => intro k; rfl
  | cons x is ih =>
    intro k
    rw [List.flatMap_cons, lInterp_append, bind_apply]
    cases x with
    | none => exact ih hi { k with vec := [] }
    | some i =>
      have hi' : ∀ j ∈ is.filterMap id, (∀ idp, j.entry.body ≠ .plural idp []) ∧ ∀ e, j = .broken e → e.isPlural :=
        fun j hj => hi j (by show j ∈ i :: is.filterMap id; exact List.mem_cons_of_mem _ hj)
      have ih := ih hi'
      have hi0 := hi i (by show i ∈ i :: is.filterMap id; exact List.mem_cons_self)
      have hne : ∀ e ∈ (i :: is.filterMap id).map (Item.counted uf), ∀ idp, e.body ≠ .plural idp [] := by
        intro e he idp
        obtain ⟨j, hj, rfl⟩ := List.mem_map.1 he
        rw [counted_body]
        exact (hi j hj).1 idp
      have hload := loadFull_eq ct lib false file ped ((i :: is.filterMap id).map (Item.counted uf)) hne k
      show _ = loadFull ct lib false file ((i :: is.filterMap id).map (Item.counted uf)) k.conv k.dict k.log
      rw [← hload, List.map_cons, List.flatMap_cons, lInterp_append, bind_apply, lInterp_counted ct lib uf file ped i hi0.2]
      cases lInterp ct lib false file ped (evsOf (i.counted uf)) k with
      | ok a k' =>
        show lObs (lInterp ct lib uf file ped (is.flatMap evsOf') k') = lObs (lInterp ct lib false file ped _ k')
        rw [ih k', loadFull_eq ct lib false file ped _ (fun e he => hne e (by rw [List.map_cons]; exact List.mem_cons_of_mem _ he)) k']
      | _ => rfl

end POParser
end Tgt
