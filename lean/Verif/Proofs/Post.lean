import Verif.Proofs.Sim
import Verif.Proofs.Delta
/-
Properties of all events of a parse, given properties of the strings it reads.
-/
namespace Tgt.POParser
open Spec

/-- From `p`, all events satisfy `G`, a normal result satisfies `R`. -/
def Post {α : Type} (G : List Ev → Prop) (R : α → Prop) (e : E α) (p : Nat) : Prop :=
  G (e p).1 ∧ ∀ a q, (e p).2 = .ok a q → R a

/-- A property of event lists that is closed under appending and holds of diagnostics. -/
structure GOk (G : List Ev → Prop) : Prop where
  nil : G []
  app : ∀ w w', G w → G w' → G (w ++ w')
  diag : ∀ lv p m b, G [.diag lv p m b]

section
variable {α β : Type} {G : List Ev → Prop} {R : α → Prop} {R' : β → Prop} {p : Nat}

theorem Post.bind (hg : GOk G) {e : E α} {f : α → E β} (h : Post G R e p) (hf : ∀ a q, R a → Post G R' (f a) q) : Post G R' (e >>= f) p := by
  obtain ⟨h1, h2⟩ := h
  unfold Post
  rw [e_bind]; unfold E.bind
  rcases hx : e p with ⟨v, r⟩
  rw [hx] at h1 h2
  cases r with
  | ok a q =>
    obtain ⟨h3, h4⟩ := hf a q (h2 a q rfl)
    exact ⟨hg.app _ _ h1 h3, h4⟩
  | err q => exact ⟨h1, fun a q h => by cases h⟩
  | overflow => exact ⟨h1, fun a q h => by cases h⟩
  | diverge => exact ⟨h1, fun a q h => by cases h⟩

theorem Post.pure (hg : GOk G) {a : α} (h : R a) : Post G R (E.pure a) p := ⟨hg.nil, fun a' q e => by cases e; exact h⟩
theorem Post.diverge (hg : GOk G) : Post G R (E.diverge : E α) p := ⟨hg.nil, fun a' q e => by cases e⟩
theorem Post.next (hg : GOk G) : Post G (fun _ => True) nextE p := by
  unfold Post nextE
  split
  · exact ⟨hg.nil, fun _ _ _ => trivial⟩
  · exact ⟨hg.nil, fun _ _ _ => trivial⟩
theorem Post.warn (hg : GOk G) (m : Str) (b : Bool) : Post G (fun _ => True) (warnE m b) p := ⟨hg.diag _ _ _ _, fun _ _ _ => trivial⟩
theorem Post.emit {w : List Ev} (h : G w) : Post G (fun _ => True) (E.emit w) p := ⟨h, fun _ _ _ => trivial⟩
theorem Post.emitAt {w : Nat → List Ev} (h : G (w p)) : Post G (fun _ => True) (E.emitAt w) p := ⟨h, fun _ _ _ => trivial⟩
theorem Post.mono {R2 : α → Prop} {e : E α} (h : Post G R e p) (hr : ∀ a, R a → R2 a) : Post G R2 e p :=
  ⟨h.1, fun a q ha => hr a (h.2 a q ha)⟩
theorem Post.ite {c : Prop} [Decidable c] {e1 e2 : E α} (h1 : c → Post G R e1 p) (h2 : ¬ c → Post G R e2 p) : Post G R (if c then e1 else e2) p := by
  split
  · exact h1 (by assumption)
  · exact h2 (by assumption)

theorem Post.line {T : Tape} {f : Str → E β} (h : Post G R' (f (T p).line) p) : Post G R' (lineE T >>= f) p := h

theorem post_recover (hg : GOk G) (ct : CType) (T : Tape) : ∀ f p, Post G (fun _ => True) (recoverE ct T f) p := by
  intro f
  induction f with
  | zero => intro p; exact Post.diverge hg
  | succ f ih =>
    intro p
    unfold recoverE
    refine Post.bind hg (Post.next hg) (fun _ p _ => ?_)
    show G ((if (!(T p).eof && !emptyLine ct (T p).line) = true then recoverE ct T f else E.pure ()) p).1 ∧ _
    refine ⟨?_, fun _ _ _ => trivial⟩
    split
    · exact (ih p).1
    · exact hg.nil

theorem post_error (hg : GOk G) (ct : CType) (fuel : Nat) (T : Tape) (m : Str) : Post G R (errorE (α := α) ct fuel T m) p := by
  unfold errorE
  exact Post.bind hg (Post.emitAt (hg.diag _ _ _ _)) (fun _ _ _ => Post.bind hg (post_recover hg ct T fuel _)
    (fun _ _ _ => ⟨hg.nil, fun a q h => by cases h⟩))
end

section
variable {ct : CType} {fuel : Nat} {T : Tape} {b : Bool} {G G' : List Ev → Prop}

/-- What is known of the strings read: `R skip` of a string after a keyword of `skip` bytes. -/
structure Reads (ct : CType) (T : Tape) (R : Nat → Str → Prop) : Prop where
  kw : ∀ b p skip t, (skip = 5 → hasPrefix b!"msgid" (T p).line = true) → rdKw ct b (T p).line skip = some t → R skip t
  cont : ∀ b p skip t out, rdCont ct b (T p).line = some (some t) → R skip out → R skip (out ++ t)

theorem diags_of {α : Type} {e : E α} (hg : GOk G) (h : Evs Ev.isDiag e) (p : Nat) : G (e p).1 := by
  have h := h p
  generalize (e p).1 = w at h
  induction w with
  | nil => exact hg.nil
  | cons x w ih =>
    cases x with
    | diag lv q m pd => exact hg.app [_] w (hg.diag _ _ _ _) (ih (fun y hy => h y (List.mem_cons_of_mem _ hy)))
    | _ => exact absurd (h _ List.mem_cons_self) (by simp [Ev.isDiag])

theorem top_ok : GOk (fun _ => True) := ⟨trivial, fun _ _ _ _ => trivial, fun _ _ _ _ => trivial⟩

theorem post_rd (hg : GOk G) {R : Str → Prop} {out : Str} {o : Option Str} {p : Nat} (h : ∀ t, o = some t → R (out ++ t)) :
    Post G R (rdE ct fuel T out o) p := by
  cases o with
  | none => exact post_error hg _ _ _ _
  | some t => exact Post.pure hg (h t rfl)

theorem post_getStringLine {R : Str → Prop} {out : Str} {skip p : Nat} (h : ∀ t, rdLine b (T p).line skip = some t → R (out ++ t)) :
    Post (fun _ => True) R (getStringLineE ct fuel T b out skip) p := by
  have h1 := post_rd (ct := ct) (fuel := fuel) (T := T) (p := p) top_ok h
  have h2 := (eqv_getStringLine (ct := ct) (fuel := fuel) (T := T) (b := b) out skip p).2
  exact ⟨trivial, fun a q ha => h1.2 a q (by rw [← h2]; exact ha)⟩

theorem rd_contLoop {R : Nat → Str → Prop} (h : Reads ct T R) (skip : Nat) : ∀ (f : Nat) (out : Str) (p : Nat),
    R skip out → Post (fun _ => True) (R skip) (contLoopE ct fuel T b f out) p := by
  intro f
  induction f with
  | zero => intro out p _; exact Post.diverge top_ok
  | succ f ih =>
    intro out p hr
    unfold contLoopE
    refine Post.bind top_ok (Post.next top_ok) (fun _ p _ => Post.line ?_)
    cases hs : scanQuote ct (T p).line 0 with
    | none => exact Post.pure top_ok hr
    | some i =>
      have h1 : Post (fun _ => True) (R skip) (getStringLineE ct fuel T b out i >>= fun out => contLoopE ct fuel T b f out) p :=
        Post.bind (R := R skip) top_ok (post_getStringLine (fun t ht => h.cont b p skip t out (by unfold rdCont; rw [hs, Option.map_some, ht]) hr))
          (fun a q ha => ih a q ha)
      have h2 := (eqv_ite_warn (c := i = 1) (m := b!"leading whitespace before string") (q := true)
        (f := getStringLineE ct fuel T b out i >>= fun out => contLoopE ct fuel T b f out) (p := p)).2
      exact ⟨trivial, fun a q ha => h1.2 a q (by rw [← h2]; exact ha)⟩

theorem post_getString (hg : GOk G) {R : Nat → Str → Prop} (h : Reads ct T R) (skip p : Nat)
    (hk : skip = 5 → hasPrefix b!"msgid" (T p).line = true) :
    Post G (R skip) (getStringE ct fuel T b skip) p := by
  refine ⟨diags_of hg (nh_getString ct fuel T b skip) p, fun a q ha => ?_⟩
  rw [(eqv_getString (ct := ct) (fuel := fuel) (T := T) (b := b) skip p).2] at ha
  refine (Post.bind (R := R skip) top_ok (post_rd top_ok (fun t ht => ?_)) (fun a q ha => rd_contLoop h skip fuel a q ha)).2 a q ha
  exact h.kw b p skip t hk ht

/-- A property `G` of event lists that the parser maintains; `G'` holds within plural entries. -/
structure EvSpec (R : Nat → Str → Prop) (G G' : List Ev → Prop) : Prop where
  ok : GOk G
  ok' : GOk G'
  clear : ∀ w, G' w → G (.clear :: w)
  conv : ∀ n t, n ≤ 9 → R 9 t → G' [.conv n t]
  plural : ∀ p fz c i ip, R 5 i → R 12 ip → (∀ t, c = some t → R 7 t) → G' [.plural p fz c i ip]
  singular : ∀ fz c i t, R 5 i → R 6 t → (∀ t, c = some t → R 7 t) → i ≠ [] → t ≠ [] → G [.singular fz c i t]
  header : ∀ p t, R 5 [] → R 6 t → G [.header p t]

variable {R : Nat → Str → Prop}

theorem post_commentLoop (hg : GOk G) (T : Tape) (f : Nat) (fz : Bool) (p : Nat) : Post G (fun _ => True) (commentLoopE T f fz) p :=
  ⟨diags_of hg (nh_commentLoop T f fz) p, fun _ _ _ => trivial⟩

theorem post_pluralLoop (hs : EvSpec R G G') (h : Reads ct T R) : ∀ (f : Nat) (first saw : Bool) (p : Nat),
    Post G' (fun _ => True) (pluralLoopE ct fuel T b f first saw) p := by
  intro f
  induction f with
  | zero => intro _ _ p; exact Post.diverge hs.ok'
  | succ f ih =>
    intro first saw p
    unfold pluralLoopE
    refine Post.line (Post.ite (fun _ => Post.ite (fun _ => post_error hs.ok' _ _ _ _) (fun _ => Post.pure hs.ok' trivial)) (fun _ => ?_))
    cases hm : msgstrIndex (T p).line with
    | none => exact post_error hs.ok' _ _ _ _
    | some n =>
      exact Post.bind hs.ok' (post_getString hs.ok' h 9 p (fun h => by cases h)) (fun t q ht =>
        Post.bind hs.ok' (Post.emit (hs.conv n t (msgstrIndex_le _ _ hm) ht)) (fun _ q _ => ih _ _ _))

theorem post_pluralEntry (hs : EvSpec R G G') (h : Reads ct T R) (fz : Bool) (c : Option Str) (i : Str) (hi : R 5 i)
    (hc : ∀ t, c = some t → R 7 t) (p : Nat) : Post G (fun _ => True) (pluralEntryE ct fuel T b fz c i) p := by
  unfold pluralEntryE
  refine Post.bind hs.ok (post_getString hs.ok h 12 p (fun h => by cases h)) (fun ip q hip => ?_)
  have hrest : Post G' (fun _ => True) (pluralLoopE ct fuel T b fuel true false >>= fun saw => lineE T >>= fun l =>
      if !emptyLine ct l then errorE ct fuel T b!"expected 'msgstr[N]' or empty line"
      else if saw then E.emitAt (fun p => [.plural p fz c i ip]) else E.pure ()) q :=
    Post.bind hs.ok' (post_pluralLoop hs h _ _ _ _) (fun saw q _ => Post.line (Post.ite (fun _ => post_error hs.ok' _ _ _ _)
      (fun _ => Post.ite (fun _ => Post.emitAt (hs.plural _ _ _ _ _ hi hip hc)) (fun _ => Post.pure hs.ok' trivial))))
  refine ⟨?_, fun _ _ _ => trivial⟩
  rw [e_bind]
  unfold E.bind E.emit
  exact hs.clear _ hrest.1

theorem post_singularEntry (hs : EvSpec R G G') (h : Reads ct T R) (fz : Bool) (c : Option Str) (i : Str) (hi : R 5 i)
    (hc : ∀ t, c = some t → R 7 t) (p : Nat) : Post G (fun _ => True) (singularEntryE ct fuel T b fz c i) p := by
  unfold singularEntryE
  refine Post.bind hs.ok (post_getString hs.ok h 6 p (fun h => by cases h)) (fun t q ht => Post.ite (fun h0 => Post.emitAt ?_)
    (fun h0 => Post.ite (fun h1 => Post.emit ?_) (fun _ => Post.pure hs.ok trivial)))
  · have : i = [] := by simpa using h0
    subst this
    exact hs.header _ _ hi ht
  · exact hs.singular _ _ _ _ hi ht hc (by simpa using h0) (by simpa using h1)

theorem post_entry (hs : EvSpec R G G') (h : Reads ct T R) (p : Nat) : Post G (fun _ => True) (entryE ct fuel T b) p := by
  unfold entryE
  refine Post.bind hs.ok (post_commentLoop hs.ok T _ _ _) (fun fz p _ => Post.line (Post.bind (R := fun _ => True) hs.ok
    (Post.ite (fun _ => ?_) (fun _ => Post.pure hs.ok trivial)) (fun _ q _ => ?_)))
  · unfold entryBodyE
    refine Post.bind (R := fun c => ∀ t, c = some t → R 7 t) hs.ok ?_ (fun c q hc => Post.bind (R := R 5) hs.ok ?_ (fun i q hi => ?_))
    · unfold ctxtE
      exact Post.line (Post.ite (fun _ => Post.bind hs.ok (post_getString hs.ok h 7 _ (fun h => by cases h)) (fun t q ht =>
        Post.pure hs.ok (fun t' e => by cases e; exact ht))) (fun _ => Post.pure hs.ok (fun t' e => by cases e)))
    · unfold msgidE
      exact Post.line (Post.ite (fun hx => post_getString hs.ok h 5 _ (fun _ => hx)) (fun _ => post_error hs.ok _ _ _ _))
    · exact Post.line (Post.ite (fun _ => post_pluralEntry hs h _ _ _ hi hc _) (fun _ =>
        Post.line (Post.ite (fun _ => post_singularEntry hs h _ _ _ hi hc _) (fun _ => post_error hs.ok _ _ _ _))))
  · unfold finishE
    exact Post.line (Post.bind (R := fun _ => True) hs.ok (Post.ite (fun _ => post_error hs.ok _ _ _ _) (fun _ => Post.pure hs.ok trivial))
      (fun _ q _ => Post.next hs.ok))

theorem post_mainLoop (hs : EvSpec R G G') (h : Reads ct T R) : ∀ (f : Nat) (b : Bool) (p : Nat), G (mainLoopE ct fuel T f b p).1 := by
  intro f
  induction f with
  | zero => intro b p; exact hs.ok.nil
  | succ f ih =>
    intro b p
    have he := (post_entry (fuel := fuel) (b := b) hs h p).1
    unfold mainLoopE
    by_cases hp : (T p).eof = true
    · rw [hp]; exact hs.ok.nil
    · have hp' : (T p).eof = false := by simpa using hp
      rw [hp']
      simp only [Bool.not_false, if_true]
      rcases hx : entryE ct fuel T b p with ⟨v, r⟩
      rw [hx] at he
      cases r with
      | ok a q => exact hs.ok.app _ _ he (ih _ _)
      | err q => exact hs.ok.app _ _ he (ih _ _)
      | overflow => exact he
      | diverge => exact he

theorem reads_any (ct : CType) (T : Tape) : Reads ct T (fun _ _ => True) := ⟨fun _ _ _ _ _ _ => trivial, fun _ _ _ _ _ _ _ => trivial⟩

/-- The parser clears the vector before using it. -/
theorem guarded_mainLoop (ct : CType) (fuel : Nat) (T : Tape) (f : Nat) (b : Bool) (p : Nat) :
    Guarded false (mainLoopE ct fuel T f b p).1 := by
  refine post_mainLoop (R := fun _ _ => True) (G := Guarded false) (G' := Guarded true) ?_ (reads_any ct T) f b p
  exact ⟨⟨trivial, fun _ _ => Guarded.append, fun _ _ _ _ => trivial⟩, ⟨trivial, fun _ _ => Guarded.append, fun _ _ _ _ => trivial⟩,
    fun w h => h, fun _ _ _ _ => ⟨rfl, trivial⟩, fun _ _ _ _ _ _ _ _ => ⟨rfl, trivial⟩, fun _ _ _ _ _ _ _ _ _ => trivial, fun _ _ _ _ => trivial⟩

theorem lex_nil {b : Bool} {s rest : Str} (h : (lex b s).res = .ok ([], rest)) : s = 34 :: rest := by
  have push : ∀ (w : Str) (r : Lex) rest, w ≠ [] → (r.push w).res ≠ .ok ([], rest) := by
    intro w r rest hw hx
    unfold Lex.push at hx
    cases hr : r.res with
    | error m => rw [hr] at hx; cases hx
    | ok x =>
      rw [hr] at hx
      obtain ⟨t, u⟩ := x
      dsimp only at hx
      cases w with
      | nil => exact hw rfl
      | cons a w => injection hx with hx; injection hx with hx; cases hx
  unfold lex at h
  split at h
  · cases h
  · injection h with h; injection h with _ h; rw [h]
  · split at h
    · cases h
    · split at h <;> cases h
  · split at h
    · exact absurd h (push _ _ _ (by simp))
    · split at h
      · split at h
        · exact absurd h (push _ _ _ (by simp))
        · exact absurd h (push _ _ _ (by simp))
      · exact absurd h (push _ _ _ (by simp))

theorem rdLine_nil {b : Bool} {l : Str} {skip : Nat} (h : rdLine b l skip = some []) :
    ∃ t, l = l.take skip ++ 34 :: 34 :: t := by
  unfold rdLine at h
  split at h
  · cases h
  · split at h
    · cases h
    · rename_i h1 h2
      split at h
      · cases h
      · rename_i t rest hr
        cases h
        have := lex_nil hr
        refine ⟨rest, ?_⟩
        have h3 : l[skip]? = some 34 := by simpa using h2
        have h4 : skip < l.length := by
          rcases Nat.lt_or_ge skip l.length with h | h
          · exact h
          · rw [List.getElem?_eq_none h] at h3; cases h3
        have h5 : l.drop skip = 34 :: l.drop (skip + 1) := by
          rw [List.drop_eq_getElem_cons h4]
          rw [List.getElem?_eq_getElem h4] at h3
          injection h3 with h3
          rw [h3]
        rw [← this, ← h5, List.take_append_drop]

theorem skipTo_ok {ct : CType} : ∀ {s : Str} {i j : Nat}, skipTo ct s i = .ok j → ∃ ws t, Po.Blank ct ws ∧ s = ws ++ 34 :: t ∧ j = i + ws.length := by
  intro s
  induction s with
  | nil => intro i j h; cases h
  | cons x s ih =>
    intro i j h
    unfold skipTo at h
    split at h
    · rename_i hx
      cases h
      exact ⟨[], s, fun b hb => (by cases hb), by rw [hx]; rfl, rfl⟩
    · split at h
      · cases h
      · rename_i hsp
        obtain ⟨ws, t, h1, h2, h3⟩ := ih h
        refine ⟨x :: ws, t, ?_, by rw [h2]; rfl, by simp; omega⟩
        intro b hb
        rcases List.mem_cons.1 hb with rfl | hb
        · simpa using hsp
        · exact h1 b hb

theorem rdKw_nil {ct : CType} {b : Bool} {l : Str} (hp : hasPrefix b!"msgid" l = true) (h : rdKw ct b l 5 = some []) :
    ∃ ws t, Po.Blank ct ws ∧ l = b!"msgid" ++ ws ++ 34 :: 34 :: t := by
  have h5 : l.take 5 = b!"msgid" := by
    obtain ⟨t, ht⟩ := List.isPrefixOf_iff_prefix.1 hp
    rw [← ht]; rfl
  unfold rdKw at h
  split at h
  · cases h
  · split at h
    · rename_i hc
      obtain ⟨t, ht⟩ := rdLine_nil h
      refine ⟨[32], t, ?_, ?_⟩
      · intro x hx
        simp only [List.mem_singleton] at hx
        subst hx
        rw [ct.isspace_ascii 32 (by decide)]; rfl
      · have h6 : l.take (5 + 1) = b!"msgid" ++ [32] := by
          rw [List.take_add_one, h5, hc.1]; rfl
        rw [h6] at ht
        exact ht
    · split at h
      · cases h
      · rename_i i hi
        obtain ⟨t, ht⟩ := rdLine_nil h
        obtain ⟨ws, u, h1, h2, h3⟩ := skipTo_ok hi
        refine ⟨ws, t, h1, ?_⟩
        have h4 : l.take i = b!"msgid" ++ ws := by
          have hw : (l.drop 5).take ws.length = ws := by
            have hpre : (l.take (u32 l.length)).drop 5 <+: l.drop 5 := by
              rw [List.drop_take]; exact List.take_prefix _ _
            obtain ⟨z, hz⟩ := hpre
            rw [← hz, h2]
            simp
          rw [h3, List.take_add, h5, hw]
        rw [h4] at ht
        exact ht

/-- No header entry is found in lines none of which can start one. -/
theorem noHeader_mainLoop (ct : CType) (fuel : Nat) (T : Tape) (hT : ∀ p ws t, Po.Blank ct ws → (T p).line ≠ b!"msgid" ++ ws ++ 34 :: 34 :: t)
    (f : Nat) (b : Bool) (p : Nat) : ∀ e ∈ (mainLoopE ct fuel T f b p).1, e.noHdr = true := by
  refine post_mainLoop (R := fun n t => n = 5 → t ≠ []) (G := fun w => ∀ e ∈ w, e.noHdr = true) (G' := fun w => ∀ e ∈ w, e.noHdr = true) ?_ ?_ f b p
  · have hg : GOk (fun w => ∀ e ∈ w, Ev.noHdr e = true) := by
      refine ⟨fun e he => (by cases he), fun w w' h h' e he => ?_, fun lv p m b e he => ?_⟩
      · rcases List.mem_append.1 he with h1 | h1
        · exact h e h1
        · exact h' e h1
      · simp only [List.mem_singleton] at he; subst he; rfl
    refine ⟨hg, hg, fun w h e he => ?_, fun _ _ _ _ e he => ?_, fun _ _ _ _ _ _ _ _ e he => ?_, fun _ _ _ _ _ _ _ _ _ e he => ?_, fun _ _ h _ => absurd rfl (h rfl)⟩
    · rcases List.mem_cons.1 he with rfl | he
      · rfl
      · exact h e he
    · simp only [List.mem_singleton] at he; subst he; rfl
    · simp only [List.mem_singleton] at he; subst he; rfl
    · simp only [List.mem_singleton] at he; subst he; rfl
  · refine ⟨fun b p skip t hk h h5 h0 => ?_, fun b p skip t out _ h h5 h0 => ?_⟩
    · subst h5; subst h0
      obtain ⟨ws, t, h1, h2⟩ := rdKw_nil (hk rfl) h
      exact hT p ws t h1 h2
    · exact h h5 (by simp at h0; exact h0.1)

end
end Tgt.POParser
