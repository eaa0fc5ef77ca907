import Verif.Spec.Catalogue
import Verif.Proofs.MgrLoad
import Verif.Props.PoFile
/-
Loading installed catalogues.
-/
namespace Tgt.Mgr
open Spec Manager POParser Po

/-- What an installed catalogue does to a dictionary. -/
def catEff (r : PluralForms) (x : Str × Option Catalogue) (d : Dictionary) : Dictionary :=
  match x.2 with
  | none => d
  | some c => (⟨c.messages.map Message.add, some r⟩ : Effect).applyTo d

theorem catEff_charset (r : PluralForms) (x : Str × Option Catalogue) (d : Dictionary) : (catEff r x d).charset = d.charset := by
  unfold catEff
  cases x.2 with
  | none => rfl
  | some c => exact (like_applyTo _ _).1

theorem catEff_rule (r : PluralForms) (x : Str × Option Catalogue) (d : Dictionary) (h : d.pluralForms.isDefined = true → d.pluralForms = r) :
    (catEff r x d).pluralForms.isDefined = true → (catEff r x d).pluralForms = r := by
  unfold catEff
  cases x.2 with
  | none => exact h
  | some c =>
    unfold Effect.applyTo
    dsimp only
    split
    · exact h
    · intro _; rfl

theorem cat_load {env : Env} {cs : Str} {r : PluralForms} {l : Language} {x : Str × Option Catalogue}
    (hi : Installed env l x.1 x.2) (hg : ∀ c, x.2 = some c → c.Good env cs r) (d : Dictionary) (lg : List Diag) (hcs : d.charset = cs)
    (hd : d.pluralForms.isDefined = true → d.pluralForms = r) :
    ∃ files lg', env.fs.openDirectory x.1 = .ok files ∧ files1 env l x.1 files (d, lg) = .ok () (catEff r x d, lg') := by
  obtain ⟨dir, o⟩ := x
  dsimp only at hi hg ⊢
  cases hi with
  | nothing ho hn =>
    rename_i files
    refine ⟨files, lg ++ scanLog env.ct files, ho, ?_⟩
    unfold files1
    rcases best_cases env.ct l files with ⟨_, h2⟩ | ⟨⟨_, _, e, h, _⟩, _⟩
    · rw [if_pos h2]; rfl
    · have := hn _ (by rw [e]; exact List.mem_append_right _ List.mem_cons_self)
      omega
  | catalogue ho hb hf =>
    rename_i files f c
    have hgood := hg c rfl
    refine ⟨files, lg ++ scanLog env.ct files ++ addLog d (c.messages.map Message.add), ho, ?_⟩
    unfold files1
    rcases scan_best env.ct l files with ⟨hn, _⟩ | ⟨f', h1, h2⟩
    · obtain ⟨_, _, e, h, _⟩ := hb
      have := hn f (by rw [e]; exact List.mem_append_right _ List.mem_cons_self)
      omega
    · have hff : f' = f := by
        obtain ⟨b1, a1, e1, p1, x1, y1⟩ := h1
        obtain ⟨b2, a2, e2, p2, x2, y2⟩ := hb
        have hle1 : fileScore env.ct l f' ≤ fileScore env.ct l f := by
          have : f' ∈ b2 ++ f :: a2 := by rw [← e2, e1]; simp
          rcases List.mem_append.1 this with h | h
          · exact Nat.le_of_lt (x2 _ h)
          · rcases List.mem_cons.1 h with h | h
            · rw [h]; exact Nat.le_refl _
            · exact y2 _ h
        have hle2 : fileScore env.ct l f ≤ fileScore env.ct l f' := by
          have : f ∈ b1 ++ f' :: a1 := by rw [← e1, e2]; simp
          rcases List.mem_append.1 this with h | h
          · exact Nat.le_of_lt (x1 _ h)
          · rcases List.mem_cons.1 h with h | h
            · rw [h]; exact Nat.le_refl _
            · exact y1 _ h
        have hfb : f' ∉ b2 := fun h => by have := x2 _ h; omega
        have hgb : f ∉ b1 := fun h => by have := x1 _ h; omega
        rw [e1] at e2
        rcases List.append_eq_append_iff.1 e2 with ⟨t, h1, h2⟩ | ⟨t, h1, h2⟩
        · cases t with
          | nil => simp at h2; exact h2.1
          | cons a t =>
            simp only [List.cons_append, List.cons.injEq] at h2
            exact absurd (by rw [h1, ← h2.1]; simp) hfb
        · cases t with
          | nil => simp at h2; exact h2.1.symm
          | cons a t =>
            simp only [List.cons_append, List.cons.injEq] at h2
            exact absurd (by rw [h1, ← h2.1]; simp) hgb
      subst hff
      have hne : f' ≠ [] := by
        obtain ⟨_, _, _, h, _⟩ := hb
        exact fileScore_ne_nil h
      have hempty : (files.foldl (scanStep env.ct l) ([], 0)).1 = f' := by rw [h2]
      rw [hempty, if_neg (by cases f' with | nil => exact absurd rfl hne | cons a t => simp)]
      unfold file1
      rw [hf]
      dsimp only
      have hrt := C74_recoded_round_trip (cfgOf env (dir ++ b!"/" ++ f')) d c.charset (some c.rule) c.file c.messages hgood.messages hgood.ascii
        hgood.oneLine.1 hgood.named (by rw [hcs]; exact hgood.charset)
        (by
          intro ln hln
          cases hln
          obtain ⟨q1, q2, q3⟩ := hgood.rule
          refine ⟨hgood.oneLine.2, q1, ?_, ?_⟩
          · show (PluralForms.fromString env.ct c.rule).isDefined = true
            rw [q2]; exact q3
          · intro hdd
            show d.pluralForms = PluralForms.fromString env.ct c.rule
            rw [q2]; exact hd hdd)
        (by
          intro m hm hp
          obtain ⟨q1, q2, q3⟩ := hgood.rule
          show (PluralForms.fromString env.ct c.rule).isDefined = true ∧ m.strs.length = (PluralForms.fromString env.ct c.rule).getNplural
          rw [q2]
          exact ⟨q3, hgood.plurals m hm hp⟩)
        hgood.size hgood.fuel
      have hrule : (some c.rule).map (PluralForms.fromString (cfgOf env (dir ++ b!"/" ++ f')).ct) = some r := by
        show some (PluralForms.fromString env.ct c.rule) = some r
        rw [hgood.rule.2.1]
      rw [hrule] at hrt
      unfold parse1
      have htext : c.text = unlines (writeCatalog c.charset (some c.rule) c.file) := rfl
      rw [htext]
      dsimp only
      cases hrun : run (cfgOf env (dir ++ b!"/" ++ f')) (.ofBytes (unlines (writeCatalog c.charset (some c.rule) c.file))) d with
      | ok a s =>
        rw [hrun] at hrt
        simp only [observe, Observed.returned.injEq] at hrt
        dsimp only
        rw [hrt.1, hrt.2]
        rfl
      | _ => rw [hrun] at hrt; simp [observe] at hrt

theorem cats_load {env : Env} {cs : Str} {r : PluralForms} {l : Language} (xs : List (Str × Option Catalogue)) :
    (∀ x ∈ xs, Installed env l x.1 x.2) → (∀ x ∈ xs, ∀ c, x.2 = some c → c.Good env cs r) → ∀ (d : Dictionary) (lg : List Diag), d.charset = cs →
    (d.pluralForms.isDefined = true → d.pluralForms = r) →
    ∃ lg', dirs1 env l (xs.map Prod.fst) (d, lg) = .ok () (xs.foldl (fun d x => catEff r x d) d, lg') := by
  induction xs with
  | nil => intro _ _ d lg _ _; exact ⟨lg, rfl⟩
  | cons x xs ih =>
    intro hi hg d lg hcs hd
    obtain ⟨files, lg1, ho, h1⟩ := cat_load (hi x List.mem_cons_self) (hg x List.mem_cons_self) d lg hcs hd
    obtain ⟨lg2, h2⟩ := ih (fun y hy => hi y (List.mem_cons_of_mem _ hy)) (fun y hy => hg y (List.mem_cons_of_mem _ hy)) (catEff r x d) lg1
      ((catEff_charset r x d).trans hcs) (catEff_rule r x d hd)
    refine ⟨lg2, ?_⟩
    rw [List.map_cons, dirs1, ho]
    dsimp only
    rw [bind_apply, h1]
    exact h2

/-- What a whole installation makes of a dictionary. -/
def instEff (r : PluralForms) (i : Installation) (d : Dictionary) : Dictionary := i.foldr (catEff r) d

theorem offers_load {env : Env} {cs : Str} {r : PluralForms} {l : Language} {path : List Str} {i : Installation} (h : Offers env cs r l path i)
    (lg : List Diag) : ∃ lg', dirs1 env l path.reverse (Dictionary.init cs, lg) = .ok () (instEff r i (Dictionary.init cs), lg') := by
  obtain ⟨lg', h'⟩ := cats_load (cs := cs) (r := r) (l := l) i.reverse (fun x hx => h.installed x (by simpa using hx))
    (fun x hx => h.good x (by simpa using hx)) (Dictionary.init cs) lg rfl (by intro h; cases h)
  refine ⟨lg', ?_⟩
  rw [h.path, ← List.map_reverse, h', List.foldl_reverse]
  rfl

/-! ### Lookups -/

theorem target_add (m : Message) : target m.add = (m.ctxt, m.msgid) := by
  unfold Message.add
  cases m.plural <;> rfl

theorem lookup_addAll_mem (adds : List Add) (a : Add) (ha : a ∈ adds) (hn : (adds.map target).Nodup) : ∀ d : Dictionary,
    (addAll d adds).lookup (target a) = some (a.newVec ((d.lookup (target a)).getD [])) := by
  induction adds with
  | nil => cases ha
  | cons b t ih =>
    intro d
    simp only [List.map_cons, List.nodup_cons] at hn
    show (addAll (b.apply d).1 t).lookup _ = _
    rcases List.mem_cons.1 ha with rfl | ha
    · rw [lookup_addAll_other _ _ _ hn.1, Dict.lookup_apply, if_pos rfl]
    · rw [ih ha hn.2, Dict.lookup_apply, if_neg]
      intro e
      exact hn.1 (by rw [e]; exact List.mem_map.2 ⟨a, ha, rfl⟩)

theorem catEff_lacks {r : PluralForms} {x : Str × Option Catalogue} {ctxt : Option Str} {msgid : Str}
    (h : ∀ c, x.2 = some c → ¬ c.Has ctxt msgid) (d : Dictionary) : (catEff r x d).lookup (ctxt, msgid) = d.lookup (ctxt, msgid) := by
  unfold catEff
  cases hx : x.2 with
  | none => rfl
  | some c =>
    dsimp only
    rw [lookup_applyTo]
    refine lookup_addAll_none _ _ _ ?_
    intro a ha e
    obtain ⟨m, hm, rfl⟩ := List.mem_map.1 ha
    rw [target_add] at e
    cases e
    exact h c hx ⟨m, hm, rfl, rfl⟩

theorem instEff_lacks {r : PluralForms} {ctxt : Option Str} {msgid : Str} (i : Installation) :
    Lacks i ctxt msgid → ∀ d : Dictionary, (instEff r i d).lookup (ctxt, msgid) = d.lookup (ctxt, msgid) := by
  induction i with
  | nil => intro _ d; rfl
  | cons x i ih =>
    intro h d
    show (catEff r x (instEff r i d)).lookup _ = _
    rw [catEff_lacks (h x List.mem_cons_self), ih (fun y hy => h y (List.mem_cons_of_mem _ hy))]

theorem instEff_append (r : PluralForms) (i j : Installation) (d : Dictionary) : instEff r (i ++ j) d = instEff r i (instEff r j d) := by
  simp [instEff]

theorem instEff_first {r : PluralForms} {i : Installation} {m : Message} (h : First i m)
    (hg : ∀ x ∈ i, ∀ c, x.2 = some c → (c.messages.map (fun m => (m.ctxt, m.msgid))).Nodup) (d : Dictionary) :
    ∃ old, (instEff r i d).lookup (m.ctxt, m.msgid) = some (m.add.newVec old) := by
  obtain ⟨before, dir, c, after, rfl, hm, hb⟩ := h
  refine ⟨((instEff r after d).lookup (m.ctxt, m.msgid)).getD [], ?_⟩
  rw [instEff_append, instEff_lacks before hb]
  show ((⟨c.messages.map Message.add, some r⟩ : Effect).applyTo (instEff r after d)).lookup _ = _
  rw [lookup_applyTo]
  have hn : ((c.messages.map Message.add).map target).Nodup := by
    rw [List.map_map]
    have : (target ∘ Message.add) = fun m => (m.ctxt, m.msgid) := funext target_add
    rw [this]
    exact hg (dir, some c) (by simp) c rfl
  have := lookup_addAll_mem (c.messages.map Message.add) m.add (List.mem_map.2 ⟨m, hm, rfl⟩) hn (instEff r after d)
  rw [target_add] at this
  exact this

theorem instEff_defined (r : PluralForms) (i : Installation) : ∀ d : Dictionary,
    (d.pluralForms.isDefined = true → d.pluralForms = r) →
    (∃ x ∈ i, ∃ c, x.2 = some c) → (instEff r i d).pluralForms = r := by
  induction i with
  | nil => rintro d _ ⟨_, h, _⟩; cases h
  | cons x i ih =>
    intro d hd h
    show (catEff r x (instEff r i d)).pluralForms = r
    have hd' : ∀ i : Installation, (instEff r i d).pluralForms.isDefined = true → (instEff r i d).pluralForms = r := by
      intro i
      induction i with
      | nil => exact hd
      | cons y i ih => exact catEff_rule r y _ ih
    unfold catEff
    cases hx : x.2 with
    | none =>
      obtain ⟨y, hy, c, hc⟩ := h
      rcases List.mem_cons.1 hy with rfl | hy
      · rw [hx] at hc; cases hc
      · exact ih d hd ⟨y, hy, c, hc⟩
    | some c =>
      unfold Effect.applyTo
      dsimp only
      split
      · rename_i h'; exact hd' i h'
      · rfl

end Tgt.Mgr
