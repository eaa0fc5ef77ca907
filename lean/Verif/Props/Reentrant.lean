import Verif.Proofs.Reentrant
import Verif.Props.Manager
/-
Log callbacks that call the library (C87).
-/
namespace Tgt
open Spec Manager Mgr Reentrant
variable {κ : Type}

namespace Reentrant

/-- Comes back, and with this then true of the state, or not at all. -/
def Back {α : Type} (I : State κ → Prop) (r : Res (State κ) α) : Prop := (∃ a s', r = .ok a s' ∧ I s') ∨ r = .diverge

theorem Back.bind {α β : Type} {I J : State κ → Prop} {p : Prog (State κ) α} {g : α → Prog (State κ) β} {s : State κ}
    (hp : Back I (p s)) (hg : ∀ a s, I s → Back J (g a s)) : Back J (Prog.bind p g s) := by
  unfold Prog.bind
  rcases hp with ⟨a, s', h, hi⟩ | h
  · rw [h]; exact hg a s' hi
  · rw [h]; exact .inr rfl

theorem Back.pure {α : Type} {I : State κ → Prop} (a : α) {s : State κ} (h : I s) : Back I (Prog.pure a s) := .inl ⟨a, s, rfl, h⟩

theorem Back.each {α : Type} {I : State κ → Prop} {p : α → Prog (State κ) Unit} {l : List α} (h : ∀ a ∈ l, ∀ s, I s → Back I (p a s)) :
    ∀ s, I s → Back I (Reentrant.each p l s) := by
  induction l with
  | nil => intro s hs; exact .pure () hs
  | cons a l ih =>
    intro s hs
    exact .bind (h a (List.mem_cons_self ..) s hs) (fun _ s' hs' => ih (fun b hb => h b (List.mem_cons_of_mem _ hb)) s' hs')

theorem running_append (h h' : List (Event κ)) : running (h ++ h') = running h + running h' := by
  induction h with
  | nil => simp [running]
  | cons e h ih => cases e <;> simp only [List.cons_append, running, ih] <;> omega

/-- One act of a callback at nesting `n`. -/
def act (body : List (Event κ) → List (Act κ)) (heap : DictId → Option Dictionary) (f n : Nat) : Act κ → Prog (State κ) Unit
  | .ask id q => Prog.bind (askDict (say body heap f n) heap f id q) fun _ => Prog.pure ()
  | .set lv k => Prog.modify (fun s => { s with callbacks := s.callbacks.set k lv })

theorem say_none {body : List (Event κ) → List (Act κ)} {heap : DictId → Option Dictionary} {f n : Nat} {d : Diag} {s : State κ}
    (h : s.callbacks.installed d.level = none) : say body heap f n d s = .ok () s := by
  unfold say
  simp only [Prog.bind, Prog.get]
  rw [h]
  rfl

theorem say_zero {body : List (Event κ) → List (Act κ)} {heap : DictId → Option Dictionary} {f : Nat} {d : Diag} {s : State κ} {k : κ}
    (h : s.callbacks.installed d.level = some k) : say body heap f 0 d s = .diverge := by
  unfold say
  simp only [Prog.bind, Prog.get]
  rw [h]
  rfl

/-- A logging statement that calls `k`. -/
theorem say_some {body : List (Event κ) → List (Act κ)} {heap : DictId → Option Dictionary} {f n : Nat} {d : Diag} {s : State κ} {k : κ}
    (h : s.callbacks.installed d.level = some k) :
    say body heap f (n + 1) d s =
      Prog.bind (each (act body heap f n) (body (s.events ++ [.enter k d.text]))) (fun _ => note .leave)
        ⟨s.callbacks, s.events ++ [.enter k d.text]⟩ := by
  have ha : act body heap f n = (fun a => match a with
          | .ask id q => Prog.bind (askDict (say body heap f n) heap f id q) fun _ => Prog.pure ()
          | .set lv k => Prog.modify (fun s => { s with callbacks := s.callbacks.set k lv })) := by
    funext a; cases a <;> rfl
  rw [ha]
  conv => lhs; unfold say
  simp only [Prog.bind, Prog.get]
  rw [h]
  rfl

/-- What a logging statement does, if it comes back: callbacks called have returned; what setting callbacks does not change, stays. -/
theorem say_back {m : Manager} (hm : Inv m) {body : List (Event κ) → List (Act κ)} (hb : AsksLive body m) {f : Nat} (hf : 2 ≤ f)
    (I : Callbacks κ → Prop) (hI : ∀ h lv k c, .set lv k ∈ body h → I c → I (c.set k lv)) (n : Nat) : ∀ (δ : Int) (d : Diag) (s : State κ),
    running s.events = δ → I s.callbacks →
    Back (fun s' => running s'.events = δ ∧ I s'.callbacks) (say body m.heap.get? f n d s) := by
  induction n with
  | zero =>
    intro δ d s hs hc
    cases hk : s.callbacks.installed d.level with
    | none => rw [say_none hk]; exact .inl ⟨(), s, rfl, hs, hc⟩
    | some k => rw [say_zero hk]; exact .inr rfl
  | succ n ih =>
    intro δ d s hs hc
    cases hk : s.callbacks.installed d.level with
    | none => rw [say_none hk]; exact .inl ⟨(), s, rfl, hs, hc⟩
    | some k =>
      rw [say_some hk]
      have hev : running (s.events ++ [Event.enter k d.text]) = δ + 1 := by rw [running_append, hs]; simp [running]
      refine .bind (I := fun s' : State κ => running s'.events = δ + 1 ∧ I s'.callbacks) (Back.each ?_ _ ⟨hev, hc⟩) ?_
      · intro a ha s1 h1
        cases a with
        | set lv k => exact .inl ⟨(), _, rfl, h1.1, hI _ _ _ _ ha h1.2⟩
        | ask id q =>
          obtain ⟨r, -, h3⟩ := ask_eq hm hf (hb _ _ _ ha) q
          unfold act
          dsimp only
          rw [h3]
          refine .bind (I := fun s' : State κ => running s'.events = δ + 1 ∧ I s'.callbacks) ?_ (fun _ s2 h2 => .pure () h2)
          refine .bind (I := fun s' : State κ => running s'.events = δ + 1 ∧ I s'.callbacks) ?_ (fun _ s2 h2 => .pure _ h2)
          exact Back.each (fun d' _ s2 h2 => ih (δ + 1) d' s2 h2.1 h2.2) s1 h1
      · intro _ s' h2
        refine .inl ⟨(), _, rfl, ?_, h2.2⟩
        show running (s'.events ++ [.leave]) = δ
        rw [running_append, h2.1]; simp [running]; omega

/-- Callbacks that ask nothing when `B` of them are running: a logging statement comes back. -/
theorem say_guarded {m : Manager} (hm : Inv m) {body : List (Event κ) → List (Act κ)} (hb : AsksLive body m) {f : Nat} (hf : 2 ≤ f) (B : Nat)
    (hB : ∀ h, (B : Int) ≤ running h → ∀ id q, .ask id q ∉ body h) (n : Nat) : ∀ (d : Diag) (s : State κ),
    (B : Int) ≤ running s.events + n + 1 →
    ∃ s', say body m.heap.get? f (n + 1) d s = .ok () s' := by
  induction n with
  | zero =>
    intro d s hs
    cases hk : s.callbacks.installed d.level with
    | none => exact ⟨s, say_none hk⟩
    | some k =>
      have hev : running (s.events ++ [Event.enter k d.text]) = running s.events + 1 := by rw [running_append]; simp [running]
      rw [say_some hk]
      have hno := hB _ (by rw [hev]; simpa using hs)
      have : ∀ (l : List (Act κ)), (∀ id q, .ask id q ∉ l) → ∀ s, ∃ s', each (act body m.heap.get? f 0) l s = .ok () s' := by
        intro l
        induction l with
        | nil => intro _ s; exact ⟨s, rfl⟩
        | cons a l il =>
          intro hl s
          cases a with
          | ask id q => exact absurd (List.mem_cons_self ..) (hl id q)
          | set lv k => exact il (fun id q hq => hl id q (List.mem_cons_of_mem _ hq)) _
      obtain ⟨s', h1⟩ := this _ hno ⟨s.callbacks, s.events ++ [.enter k d.text]⟩
      exact ⟨{ s' with events := s'.events ++ [.leave] }, by unfold Prog.bind; rw [h1]; rfl⟩
  | succ n ih =>
    intro d s hs
    cases hk : s.callbacks.installed d.level with
    | none => exact ⟨s, say_none hk⟩
    | some k =>
      have hev : running (s.events ++ [Event.enter k d.text]) = running s.events + 1 := by rw [running_append]; simp [running]
      rw [say_some hk]
      generalize s.events ++ [Event.enter k d.text] = ev at hev
      have says : ∀ (l : List Diag) (s1 : State κ), running s1.events = running s.events + 1 →
          ∃ s', each (say body m.heap.get? f (n + 1)) l s1 = .ok () s' ∧ running s'.events = running s.events + 1 := by
        intro l
        induction l with
        | nil => intro s1 h1; exact ⟨s1, rfl, h1⟩
        | cons d' l il =>
          intro s1 h1
          obtain ⟨s2, h2⟩ := ih d' s1 (by rw [h1]; omega)
          have hr : running s2.events = running s.events + 1 := by
            rcases say_back hm hb hf (fun _ => True) (fun _ _ _ _ _ _ => trivial) (n + 1) _ d' s1 h1 trivial with ⟨_, s3, h3, h4, -⟩ | h3
            · rw [h2] at h3; cases h3; exact h4
            · rw [h2] at h3; cases h3
          obtain ⟨s3, h3, h4⟩ := il s2 hr
          exact ⟨s3, by show Prog.bind _ _ _ = _; unfold Prog.bind; rw [h2]; exact h3, h4⟩
      have acts : ∀ (l : List (Act κ)), (∀ a ∈ l, a ∈ body ev) → ∀ s1 : State κ, running s1.events = running s.events + 1 →
          ∃ s', each (act body m.heap.get? f (n + 1)) l s1 = .ok () s' := by
        intro l
        induction l with
        | nil => intro _ s1 _; exact ⟨s1, rfl⟩
        | cons a l il =>
          intro hl s1 h1
          cases a with
          | set lv k => exact il (fun b hb => hl b (List.mem_cons_of_mem _ hb)) _ h1
          | ask id q =>
            obtain ⟨r, -, h3⟩ := ask_eq hm hf (hb _ _ _ (hl _ (List.mem_cons_self ..))) q
            obtain ⟨s2, h2, hr⟩ := says (Spec.says f m id q) s1 h1
            obtain ⟨s3, h4⟩ := il (fun b hb => hl b (List.mem_cons_of_mem _ hb)) s2 hr
            refine ⟨s3, ?_⟩
            show Prog.bind (Prog.bind (askDict _ _ _ _ _) _) _ _ = _
            rw [h3]
            unfold saying Prog.bind
            rw [h2]
            exact h4
      obtain ⟨s', h1⟩ := acts (body ev) (fun _ h => h) ⟨s.callbacks, ev⟩ hev
      exact ⟨{ s' with events := s'.events ++ [.leave] }, by unfold Prog.bind; rw [h1]; rfl⟩

theorem each_mono {α : Type} {p p' : α → Prog (State κ) Unit} {l : List α} (h : ∀ a ∈ l, ∀ s s', p a s = .ok () s' → p' a s = .ok () s') :
    ∀ s s', each p l s = .ok () s' → each p' l s = .ok () s' := by
  induction l with
  | nil => intro s s' e; exact e
  | cons a l ih =>
    intro s s' e
    have e : Prog.bind (p a) (fun _ => each p l) s = .ok () s' := e
    show Prog.bind (p' a) (fun _ => each p' l) s = .ok () s'
    unfold Prog.bind at e ⊢
    cases h1 : p a s with
    | ok u s1 =>
      rw [h1] at e
      rw [h a (List.mem_cons_self ..) s s1 h1]
      exact ih (fun b hb => h b (List.mem_cons_of_mem _ hb)) s1 s' e
    | poError s1 => rw [h1] at e; cases e
    | exn w s1 => rw [h1] at e; cases e
    | fault w => rw [h1] at e; cases e
    | diverge => rw [h1] at e; cases e

/-- A bound on nesting that was not reached does not matter. -/
theorem say_mono {m : Manager} (hm : Inv m) {body : List (Event κ) → List (Act κ)} (hb : AsksLive body m) {f : Nat} (hf : 2 ≤ f) (n : Nat) :
    ∀ (d : Diag) (s s' : State κ), say body m.heap.get? f n d s = .ok () s' → say body m.heap.get? f (n + 1) d s = .ok () s' := by
  induction n with
  | zero =>
    intro d s s' e
    cases hk : s.callbacks.installed d.level with
    | none => rw [say_none hk] at e ⊢; exact e
    | some k => rw [say_zero hk] at e; cases e
  | succ n ih =>
    intro d s s' e
    cases hk : s.callbacks.installed d.level with
    | none => rw [say_none hk] at e ⊢; exact e
    | some k =>
      rw [say_some hk] at e ⊢
      generalize (⟨s.callbacks, s.events ++ [Event.enter k d.text]⟩ : State κ) = s0 at e ⊢
      unfold Prog.bind at e ⊢
      cases h1 : each (act body m.heap.get? f n) (body (s.events ++ [Event.enter k d.text])) s0 with
      | ok u s1 =>
        rw [h1] at e
        have : each (act body m.heap.get? f (n + 1)) (body (s.events ++ [Event.enter k d.text])) s0 = .ok () s1 := by
          refine each_mono (p := act body m.heap.get? f n) ?_ s0 s1 h1
          intro a ha s2 s3 e2
          cases a with
          | set lv k => exact e2
          | ask id q =>
            obtain ⟨r, -, h3⟩ := ask_eq hm hf (hb _ _ _ ha) q
            have e2 : Prog.bind (askDict (say body m.heap.get? f n) m.heap.get? f id q) (fun _ => Prog.pure ()) s2 = .ok () s3 := e2
            show Prog.bind (askDict (say body m.heap.get? f (n + 1)) m.heap.get? f id q) (fun _ => Prog.pure ()) s2 = .ok () s3
            rw [h3] at e2 ⊢
            unfold saying at e2 ⊢
            rw [bind_assoc] at e2 ⊢
            unfold Prog.bind at e2 ⊢
            cases h4 : each (say body m.heap.get? f n) (says f m id q) s2 with
            | ok u s4 =>
              rw [h4] at e2
              rw [each_mono (fun d' _ => ih d') s2 s4 h4]
              exact e2
            | poError s1 => rw [h4] at e2; cases e2
            | exn w s1 => rw [h4] at e2; cases e2
            | fault w => rw [h4] at e2; cases e2
            | diverge => rw [h4] at e2; cases e2
        rw [this]
        exact e
      | poError s1 => rw [h1] at e; cases e
      | exn w s1 => rw [h1] at e; cases e
      | fault w => rw [h1] at e; cases e
      | diverge => rw [h1] at e; cases e

theorem ask_mono {m : Manager} (hm : Inv m) {body : List (Event κ) → List (Act κ)} (hb : AsksLive body m) {f : Nat} (hf : 2 ≤ f)
    {id : DictId} (hl : m.heap.get? id ≠ none) (q : Query) (n k : Nat) (s s' : State κ) (r : Str)
    (h : Reentrant.ask body m.heap.get? f n id q s = .ok r s') : Reentrant.ask body m.heap.get? f (n + k) id q s = .ok r s' := by
  obtain ⟨r', -, h3⟩ := ask_eq hm hf hl q
  unfold Reentrant.ask at h ⊢
  rw [h3] at h ⊢
  unfold saying Prog.bind at h ⊢
  induction k with
  | zero => exact h
  | succ k ih =>
    cases h4 : each (say body m.heap.get? f (n + k)) (says f m id q) s with
    | ok u s4 =>
      rw [h4] at ih
      rw [← Nat.add_assoc, each_mono (fun d' _ => say_mono hm hb hf (n + k) d') s s4 h4]
      exact ih
    | poError s1 => rw [h4] at ih; cases ih
    | exn w s1 => rw [h4] at ih; cases ih
    | fault w => rw [h4] at ih; cases ih
    | diverge => rw [h4] at ih; cases ih

/-- Callbacks that only ask what is translated: a logging statement is heard once. -/
theorem say_quiet {m : Manager} (hm : Inv m) {body : List (Event κ) → List (Act κ)} (hb : AsksLive body m) {f : Nat} (hf : 2 ≤ f)
    (hs : SetsNothing body) (hq : ∀ h id q, .ask id q ∈ body h → says f m id q = []) (n : Nat) (d : Diag) (s : State κ) :
    say body m.heap.get? f (n + 1) d s = .ok () { s with events := s.events ++ hears s.callbacks d } := by
  have hlist : listener s.callbacks d.level = s.callbacks.installed d.level := by
    cases d.level <;> rfl
  unfold hears
  rw [hlist]
  cases hk : s.callbacks.installed d.level with
  | none => rw [say_none hk]; simp
  | some k =>
    rw [say_some hk]
    have : ∀ (l : List (Act κ)), (∀ a ∈ l, a ∈ body (s.events ++ [.enter k d.text])) → ∀ s, each (act body m.heap.get? f n) l s = .ok () s := by
      intro l
      induction l with
      | nil => intro _ s; rfl
      | cons a l il =>
        intro hl s1
        cases a with
        | set lv k' => exact absurd (hl _ (List.mem_cons_self ..)) (hs _ _ _)
        | ask id q =>
          have hmem := hl _ (List.mem_cons_self ..)
          obtain ⟨r, -, h3⟩ := ask_eq hm hf (hb _ _ _ hmem) q
          rw [hq _ _ _ hmem] at h3
          show Prog.bind (Prog.bind (askDict _ _ _ _ _) _) _ _ = _
          rw [h3]
          exact il (fun b hb => hl b (List.mem_cons_of_mem _ hb)) s1
    unfold Prog.bind
    rw [this _ (fun _ h => h)]
    show Res.ok () _ = _
    dsimp only
    rw [List.append_assoc]; rfl

/-- Callbacks that always ask something that makes an info message: an info message never comes back. -/
theorem say_endless {m : Manager} (hm : Inv m) {body : List (Event κ) → List (Act κ)} (hb : AsksLive body m) {f : Nat} (hf : 2 ≤ f)
    (hs : SetsNothing body) (k : κ)
    (hq : ∀ h text, ∃ id q, .ask id q ∈ body (h ++ [.enter k text]) ∧ ∃ d ∈ says f m id q, d.level = .info) (n : Nat) :
    ∀ (d : Diag) (s : State κ), d.level = .info → s.callbacks.info = some k → say body m.heap.get? f n d s = .diverge := by
  have stay : ∀ n d (s : State κ), s.callbacks.info = some k → Back (fun s' => s'.callbacks.info = some k) (say body m.heap.get? f n d s) := by
    intro n d s h
    rcases say_back hm hb hf (fun c => c.info = some k) (fun h lv k' c hc _ => absurd hc (hs _ _ _)) n _ d s rfl h with ⟨u, s', h1, h2⟩ | h1
    · exact .inl ⟨u, s', h1, h2.2⟩
    · exact .inr h1
  induction n with
  | zero => intro d s hd hk; exact say_zero (k := k) (by rw [hd]; exact hk)
  | succ n ih =>
    intro d s hd hk
    rw [say_some (k := k) (by rw [hd]; exact hk)]
    obtain ⟨id, q, hmem, d', hd', hlv⟩ := hq s.events d.text
    generalize s.events ++ [Event.enter k d.text] = ev at hmem ⊢
    have saysl : ∀ (l : List Diag), d' ∈ l → ∀ s : State κ, s.callbacks.info = some k → each (say body m.heap.get? f n) l s = .diverge := by
      intro l
      induction l with
      | nil => intro h; cases h
      | cons a l il =>
        intro hl s1 h1
        show Prog.bind _ _ _ = _
        unfold Prog.bind
        rcases stay n a s1 h1 with ⟨u, s2, h2, h3⟩ | h2
        · by_cases hax : d' = a
          · subst hax
            rw [ih d' s1 hlv h1] at h2
            cases h2
          · rw [h2]
            exact il ((List.mem_cons.1 hl).resolve_left hax) s2 h3
        · rw [h2]
    have acts : ∀ (l : List (Act κ)), (∀ a ∈ l, a ∈ body ev) → .ask id q ∈ l → ∀ s : State κ, s.callbacks.info = some k →
        each (act body m.heap.get? f n) l s = .diverge := by
      intro l
      induction l with
      | nil => intro _ h; cases h
      | cons a l il =>
        intro hl hin s1 h1
        cases a with
        | set lv k' => exact absurd (hl _ (List.mem_cons_self ..)) (hs _ _ _)
        | ask id' q' =>
          obtain ⟨r, -, h3⟩ := ask_eq hm hf (hb _ _ _ (hl _ (List.mem_cons_self ..))) q'
          show Prog.bind (Prog.bind (askDict _ _ _ _ _) _) _ _ = _
          rw [h3]
          rw [bind_assoc]
          unfold saying
          rw [bind_assoc]
          by_cases hax : (Act.ask id q : Act κ) = .ask id' q'
          · injection hax with e1 e2
            subst e1; subst e2
            unfold Prog.bind
            rw [saysl _ hd' s1 h1]
          · unfold Prog.bind
            rcases Back.each (l := says f m id' q') (fun a _ s h => stay n a s h) s1 h1 with ⟨u, s2, h2, h4⟩ | h2
            · rw [h2]
              exact il (fun b hb => hl b (List.mem_cons_of_mem _ hb)) ((List.mem_cons.1 hin).resolve_left hax) s2 h4
            · rw [h2]
    unfold Prog.bind
    rw [acts (body ev) (fun _ h => h) hmem ⟨s.callbacks, ev⟩ hk]

end Reentrant

/-- C87.  Whatever log callbacks do in the way of lookups (through dictionaries that are alive) and of setting callbacks: a lookup that comes back, comes
back with the answer it gives when callbacks do nothing; and it ends neither by an exception nor in undefined behaviour. -/
theorem C87_same_answer (cs : Str) (m : Manager) (hr : Reach cs m) (body : List (Event κ) → List (Act κ)) (hb : AsksLive body m) (fuel : Nat)
    (hf : 2 ≤ fuel) (id : DictId) (hl : m.heap.get? id ≠ none) (q : Query) (n : Nat) (s : State κ) :
    (∃ r s' m', Reentrant.ask body m.heap.get? fuel n id q s = .ok r s' ∧ Manager.ask fuel id q m = .ok r m') ∨
      Reentrant.ask body m.heap.get? fuel n id q s = .diverge := by
  have hm := reach_inv hr
  obtain ⟨r, h2, h3⟩ := Reentrant.ask_eq hm hf hl q
  have hb' : Back (fun _ => True) (Reentrant.ask body m.heap.get? fuel n id q s) := by
    unfold Reentrant.ask
    rw [h3]
    refine .bind (I := fun _ => True) (Back.each ?_ s trivial) (fun _ _ _ => .pure _ trivial)
    intro d _ s1 _
    rcases say_back hm hb hf (fun _ => True) (fun _ _ _ _ _ _ => trivial) n _ d s1 rfl trivial with ⟨u, s3, h4, -⟩ | h4
    · exact .inl ⟨u, s3, h4, trivial⟩
    · exact .inr h4
  rcases hb' with ⟨r', s', h, -⟩ | h
  · refine .inl ⟨r', s', { m with log := m.log ++ says fuel m id q }, h, ?_⟩
    have : r' = r := by
      unfold Reentrant.ask at h
      rw [h3] at h
      unfold saying Prog.bind at h
      cases h5 : each (say body m.heap.get? fuel n) (says fuel m id q) s with
      | ok u s4 => rw [h5] at h; cases h; rfl
      | poError s1 => rw [h5] at h; cases h
      | exn w s1 => rw [h5] at h; cases h
      | fault w => rw [h5] at h; cases h
      | diverge => rw [h5] at h; cases h
    rw [this]
    exact h2 m.log
  · exact .inr h

/-- C87.  Callbacks that ask nothing when `B` callbacks are already running (with a guard against recursion: `B = 2`): every lookup comes back, with the
same answer. -/
theorem C87_guarded (cs : Str) (m : Manager) (hr : Reach cs m) (body : List (Event κ) → List (Act κ)) (hb : AsksLive body m) (fuel : Nat)
    (hf : 2 ≤ fuel) (B : Nat) (hB : ∀ h, (B : Int) ≤ running h → ∀ id q, .ask id q ∉ body h)
    (id : DictId) (hl : m.heap.get? id ≠ none) (q : Query) (s : State κ) (hs : running s.events = 0) :
    ∃ r s' m', (∀ n, B < n → Reentrant.ask body m.heap.get? fuel n id q s = .ok r s') ∧ running s'.events = 0 ∧
      Manager.ask fuel id q m = .ok r m' := by
  have hm := reach_inv hr
  obtain ⟨r, h2, h3⟩ := Reentrant.ask_eq hm hf hl q
  have go : ∀ (l : List Diag) (s : State κ), running s.events = 0 →
      ∃ s', each (say body m.heap.get? fuel (B + 1)) l s = .ok () s' ∧ running s'.events = 0 := by
    intro l
    induction l with
    | nil => intro s h; exact ⟨s, rfl, h⟩
    | cons d l il =>
      intro s h
      obtain ⟨s1, h1⟩ := say_guarded hm hb hf B hB B d s (by rw [h]; omega)
      have h0 : running s1.events = 0 := by
        rcases say_back hm hb hf (fun _ => True) (fun _ _ _ _ _ _ => trivial) (B + 1) _ d s h trivial with ⟨_, s3, h4, h5, -⟩ | h4
        · rw [h1] at h4; cases h4; exact h5
        · rw [h1] at h4; cases h4
      obtain ⟨s2, h4, h5⟩ := il s1 h0
      exact ⟨s2, by show Prog.bind _ _ _ = _; unfold Prog.bind; rw [h1]; exact h4, h5⟩
  obtain ⟨s', h1, h0⟩ := go (says fuel m id q) s hs
  refine ⟨r, s', _, fun n hn => ?_, h0, h2 m.log⟩
  obtain ⟨k, rfl⟩ : ∃ k, n = B + 1 + k := ⟨n - (B + 1), by omega⟩
  refine ask_mono hm hb hf hl q (B + 1) k s s' r ?_
  unfold Reentrant.ask
  rw [h3]
  unfold saying Prog.bind
  rw [h1]
  rfl

/-- C87.  Callbacks that look up only what is translated (lookups that say nothing) and set no callbacks: every lookup comes back with the same answer, and
each of its messages is heard once, as if callbacks only listened. -/
theorem C87_translated (cs : Str) (m : Manager) (hr : Reach cs m) (body : List (Event κ) → List (Act κ)) (hb : AsksLive body m) (fuel : Nat)
    (hf : 2 ≤ fuel) (hs : SetsNothing body) (hq : ∀ h id q, .ask id q ∈ body h → says fuel m id q = [])
    (id : DictId) (hl : m.heap.get? id ≠ none) (q : Query) (s : State κ) :
    ∃ r m', (∀ n, 0 < n → Reentrant.ask body m.heap.get? fuel n id q s =
        .ok r { s with events := s.events ++ (says fuel m id q).flatMap (hears s.callbacks) }) ∧ Manager.ask fuel id q m = .ok r m' := by
  have hm := reach_inv hr
  obtain ⟨r, h2, h3⟩ := Reentrant.ask_eq hm hf hl q
  refine ⟨r, _, fun n hn => ?_, h2 m.log⟩
  obtain ⟨k, rfl⟩ : ∃ k, n = k + 1 := ⟨n - 1, by omega⟩
  have go : ∀ (l : List Diag) (s : State κ),
      each (say body m.heap.get? fuel (k + 1)) l s = .ok () { s with events := s.events ++ l.flatMap (hears s.callbacks) } := by
    intro l
    induction l with
    | nil => intro s; show Res.ok () s = _; simp
    | cons d l il =>
      intro s
      show Prog.bind _ _ _ = _
      unfold Prog.bind
      rw [say_quiet hm hb hf hs hq k d s]
      show each _ l _ = _
      rw [il]
      simp
  unfold Reentrant.ask
  rw [h3]
  unfold saying Prog.bind
  rw [go]
  rfl

/-- C87.  A callback for info messages that, whenever it is called, looks something up that is not translated (a lookup with an info message): every lookup
with an info message recurses for ever. -/
theorem C87_endless (cs : Str) (m : Manager) (hr : Reach cs m) (body : List (Event κ) → List (Act κ)) (hb : AsksLive body m) (fuel : Nat)
    (hf : 2 ≤ fuel) (hs : SetsNothing body) (k : κ)
    (hq : ∀ h text, ∃ id q, .ask id q ∈ body (h ++ [.enter k text]) ∧ ∃ d ∈ says fuel m id q, d.level = .info)
    (id : DictId) (hl : m.heap.get? id ≠ none) (q : Query) (hi : ∃ d ∈ says fuel m id q, d.level = .info) (s : State κ)
    (hk : s.callbacks.info = some k) (n : Nat) :
    Reentrant.ask body m.heap.get? fuel n id q s = .diverge := by
  have hm := reach_inv hr
  obtain ⟨r, h2, h3⟩ := Reentrant.ask_eq hm hf hl q
  obtain ⟨d', hd', hlv⟩ := hi
  have stay : ∀ n d (s : State κ), s.callbacks.info = some k → Back (fun s' => s'.callbacks.info = some k) (say body m.heap.get? fuel n d s) := by
    intro n d s h
    rcases say_back hm hb hf (fun c => c.info = some k) (fun h lv k' c hc _ => absurd hc (hs _ _ _)) n _ d s rfl h with ⟨u, s', h1, h2⟩ | h1
    · exact .inl ⟨u, s', h1, h2.2⟩
    · exact .inr h1
  have saysl : ∀ (l : List Diag), d' ∈ l → ∀ s : State κ, s.callbacks.info = some k → each (say body m.heap.get? fuel n) l s = .diverge := by
    intro l
    induction l with
    | nil => intro h; cases h
    | cons a l il =>
      intro hl s1 h1
      show Prog.bind _ _ _ = _
      unfold Prog.bind
      rcases stay n a s1 h1 with ⟨u, s2, h2, h3⟩ | h2
      · by_cases hax : d' = a
        · subst hax
          rw [say_endless hm hb hf hs k hq n d' s1 hlv h1] at h2
          cases h2
        · rw [h2]
          exact il ((List.mem_cons.1 hl).resolve_left hax) s2 h3
      · rw [h2]
  unfold Reentrant.ask
  rw [h3]
  unfold saying Prog.bind
  rw [saysl _ hd' s hk]

/-- C87.  Callbacks that remove all callbacks before their lookups (and set them again afterwards): every lookup comes back with the same answer, whatever
is looked up. -/
theorem C87_muted (cs : Str) (m : Manager) (hr : Reach cs m) (body : List (Event κ) → List (Act κ)) (hb : AsksLive body m) (fuel : Nat)
    (hf : 2 ≤ fuel)
    (hmute : ∀ h, ∃ (asks : List (DictId × Query)) (sets : List (Level × Option κ)),
      body h = [.set .info none, .set .warning none, .set .error none] ++ asks.map (fun a => .ask a.1 a.2) ++ sets.map (fun a => .set a.1 a.2))
    (id : DictId) (hl : m.heap.get? id ≠ none) (q : Query) (s : State κ) :
    ∃ r s' m', (∀ n, 0 < n → Reentrant.ask body m.heap.get? fuel n id q s = .ok r s') ∧ Manager.ask fuel id q m = .ok r m' := by
  have hm := reach_inv hr
  have silent : ∀ n (l : List Diag) (ev : List (Event κ)),
      each (say body m.heap.get? fuel n) l ⟨⟨none, none, none⟩, ev⟩ = .ok () ⟨⟨none, none, none⟩, ev⟩ := by
    intro n l ev
    induction l with
    | nil => rfl
    | cons d l il =>
      show Prog.bind _ _ _ = _
      unfold Prog.bind
      rw [say_none (by cases d.level <;> rfl)]
      exact il
  have asksOk : ∀ n (l : List (DictId × Query)) (ev : List (Event κ)), (∀ a ∈ l, m.heap.get? a.1 ≠ none) →
      each (act body m.heap.get? fuel n) (l.map (fun a => .ask a.1 a.2)) ⟨⟨none, none, none⟩, ev⟩ = .ok () ⟨⟨none, none, none⟩, ev⟩ := by
    intro n l ev hl
    induction l with
    | nil => rfl
    | cons a l il =>
      obtain ⟨r, -, h3⟩ := Reentrant.ask_eq hm hf (hl a (List.mem_cons_self ..)) a.2
      show Prog.bind (Prog.bind (askDict _ _ _ _ _) _) _ _ = _
      rw [h3]
      unfold saying Prog.bind
      rw [silent]
      exact il (fun b hb => hl b (List.mem_cons_of_mem _ hb))
  have setsOk : ∀ n (l : List (Level × Option κ)) (s : State κ),
      ∃ s', each (act body m.heap.get? fuel n) (l.map (fun a => .set a.1 a.2)) s = .ok () s' := by
    intro n l
    induction l with
    | nil => intro s; exact ⟨s, rfl⟩
    | cons a l il => intro s; exact il _
  have sayOk : ∀ (d : Diag) (s : State κ), ∃ s', say body m.heap.get? fuel 1 d s = .ok () s' := by
    intro d s
    cases hk : s.callbacks.installed d.level with
    | none => exact ⟨s, say_none hk⟩
    | some k =>
      rw [say_some hk]
      obtain ⟨asks, sets, hbd⟩ := hmute (s.events ++ [.enter k d.text])
      have hlive : ∀ a ∈ asks, m.heap.get? a.1 ≠ none := by
        intro a ha
        refine hb (s.events ++ [.enter k d.text]) a.1 a.2 ?_
        rw [hbd]
        exact List.mem_append_left _ (List.mem_append_right _ (List.mem_map_of_mem ha))
      rw [hbd, each_append, each_append]
      obtain ⟨s', h1⟩ := setsOk 0 sets ⟨⟨none, none, none⟩, s.events ++ [.enter k d.text]⟩
      refine ⟨{ s' with events := s'.events ++ [.leave] }, ?_⟩
      unfold Prog.bind
      have e0 : each (act body m.heap.get? fuel 0) [.set .info none, .set .warning none, .set .error none] ⟨s.callbacks, s.events ++ [.enter k d.text]⟩
          = .ok () ⟨⟨none, none, none⟩, s.events ++ [.enter k d.text]⟩ := rfl
      rw [e0]
      dsimp only
      rw [asksOk 0 asks _ hlive]
      dsimp only
      rw [h1]
      rfl
  have go : ∀ (l : List Diag) (s : State κ), ∃ s', each (say body m.heap.get? fuel 1) l s = .ok () s' := by
    intro l
    induction l with
    | nil => intro s; exact ⟨s, rfl⟩
    | cons d l il =>
      intro s
      obtain ⟨s1, h1⟩ := sayOk d s
      obtain ⟨s2, h2⟩ := il s1
      exact ⟨s2, by show Prog.bind _ _ _ = _; unfold Prog.bind; rw [h1]; exact h2⟩
  obtain ⟨r, h2, h3⟩ := Reentrant.ask_eq hm hf hl q
  obtain ⟨s', h1⟩ := go (says fuel m id q) s
  refine ⟨r, s', _, fun n hn => ?_, h2 m.log⟩
  obtain ⟨k, rfl⟩ : ∃ k, n = 1 + k := ⟨n - 1, by omega⟩
  refine ask_mono hm hb hf hl q 1 k s s' r ?_
  unfold Reentrant.ask
  rw [h3]
  unfold saying Prog.bind
  rw [h1]
  rfl

/-! ### Cases -/

/-- A manager whose first dictionary translates "Note" into "Hinweis". -/
def noteManager : Manager :=
  { Manager.init b!"UTF-8" with heap := [(0, { Dictionary.init b!"UTF-8" with entries := [(b!"Note", [b!"Hinweis"])] })] }

theorem noteManager_reach : Reach b!"UTF-8" noteManager :=
  ⟨[.add 0 (.singular none b!"Note" b!"Hinweis")], .snoc (env := ⟨.c, ⟨fun _ _ => .ok, fun _ _ _ _ _ => ⟨[], .ok⟩, fun _ _ _ _ _ => Nat.zero_le _⟩,
    false, ⟨fun _ => .ok [], fun _ => .null⟩, 2⟩) .nil (.inl ⟨.done, by decide +kernel⟩)⟩

/-- A callback that looks up "Note" (to print it before the message) for every message. -/
def translating : List (Event Unit) → List (Act Unit) := fun _ => [.ask 0 (.translate b!"Note")]
/-- A callback that looks up "Warning", which is not translated. -/
def careless : List (Event Unit) → List (Act Unit) := fun _ => [.ask 0 (.translate b!"Warning")]
/-- The same with a guard against recursion. -/
def careful : List (Event Unit) → List (Act Unit) := fun h => if running h < 2 then [.ask 0 (.translate b!"Warning")] else []
/-- The same, with the callbacks removed meanwhile. -/
def muting : List (Event Unit) → List (Act Unit) := fun _ =>
  [.set .info none, .set .warning none, .set .error none, .ask 0 (.translate b!"Warning"), .set .info (some ()), .set .warning (some ()), .set .error (some ())]

theorem live0 : noteManager.heap.get? 0 ≠ none := by decide +kernel

example : ∃ r m', (∀ n, 0 < n → Reentrant.ask translating noteManager.heap.get? 2 n 0 (.translate b!"Hello") ⟨.default (), []⟩ =
    .ok r { callbacks := .default (), events := [] ++ (says 2 noteManager 0 (.translate b!"Hello")).flatMap (hears (.default ())) }) ∧
    Manager.ask 2 0 (.translate b!"Hello") noteManager = .ok r m' :=
  C87_translated _ _ noteManager_reach translating (fun _ id q h => by simp only [translating, List.mem_singleton, Act.ask.injEq] at h; rw [h.1]; exact live0)
    2 (Nat.le_refl _) (fun _ _ _ h => by simp [translating] at h)
    (fun _ id q h => by simp only [translating, List.mem_singleton, Act.ask.injEq] at h; rw [h.1, h.2]; decide +kernel) 0 live0 _ ⟨.default (), []⟩

example : says 2 noteManager 0 (.translate b!"Hello") = [.couldntTranslate b!"Hello"] := by decide +kernel

example (n : Nat) : Reentrant.ask careless noteManager.heap.get? 2 n 0 (.translate b!"Hello") ⟨.default (), []⟩ = .diverge :=
  C87_endless _ _ noteManager_reach careless (fun _ id q h => by simp only [careless, List.mem_singleton, Act.ask.injEq] at h; rw [h.1]; exact live0)
    2 (Nat.le_refl _) (fun _ _ _ h => by simp [careless] at h) ()
    (fun _ _ => ⟨0, .translate b!"Warning", List.mem_singleton.2 rfl, .couldntTranslate b!"Warning", by decide +kernel, rfl⟩) 0 live0 _
    ⟨.couldntTranslate b!"Hello", by decide +kernel, rfl⟩ ⟨.default (), []⟩ rfl n

example : ∃ r s' m', (∀ n, 2 < n → Reentrant.ask careful noteManager.heap.get? 2 n 0 (.translate b!"Hello") ⟨.default (), []⟩ = .ok r s') ∧
    running s'.events = 0 ∧ Manager.ask 2 0 (.translate b!"Hello") noteManager = .ok r m' :=
  C87_guarded _ _ noteManager_reach careful
    (fun h id q hh => by
      unfold careful at hh
      split at hh
      · simp only [List.mem_singleton, Act.ask.injEq] at hh; rw [hh.1]; exact live0
      · cases hh)
    2 (Nat.le_refl _) 2 (fun h hh id q hm => by
      unfold careful at hm
      rw [if_neg (by omega)] at hm
      cases hm) 0 live0 _ ⟨.default (), []⟩ rfl

/-- What happens: the message is heard, and in the callback the message about its own lookup. -/
example : Reentrant.ask careful noteManager.heap.get? 2 3 0 (.translate b!"Hello") ⟨.default (), []⟩ =
    .ok b!"Hello" ⟨.default (), [.enter () (b!"Couldn't translate: Hello" ++ [10]), .enter () (b!"Couldn't translate: Warning" ++ [10]), .leave, .leave]⟩ := by
  decide +kernel

example : ∃ r s' m', (∀ n, 0 < n → Reentrant.ask muting noteManager.heap.get? 2 n 0 (.translate b!"Hello") ⟨.default (), []⟩ = .ok r s') ∧
    Manager.ask 2 0 (.translate b!"Hello") noteManager = .ok r m' :=
  C87_muted _ _ noteManager_reach muting
    (fun h id q hh => by
      simp only [muting, List.mem_cons, Act.ask.injEq, List.not_mem_nil, or_false, reduceCtorEq, false_or] at hh
      rw [hh.1]; exact live0)
    2 (Nat.le_refl _) (fun _ => ⟨[(0, .translate b!"Warning")], [(.info, some ()), (.warning, some ()), (.error, some ())], rfl⟩) 0 live0 _
    ⟨.default (), []⟩

end Tgt
