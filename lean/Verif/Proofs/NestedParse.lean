import Verif.Model.Nested
import Verif.Proofs.Memory
import Verif.Proofs.Mgr
/-
A parse during which callbacks run that leave the dictionary alone.
-/
namespace Tgt.Nested
open Spec Manager POParser Mgr Memory

/-- What holds of the way code ends. -/
def Sat {α : Type} (ok : α → Manager → Prop) (ex : Str → Manager → Prop) (te : Prop) (fa : Fault → Prop) (di : Prop) : Out α → Prop
  | .ok a m => ok a m
  | .exn w m => ex w m
  | .terminated => te
  | .fault f => fa f
  | .diverge => di

theorem Sat.mono {α : Type} {ok ok' : α → Manager → Prop} {ex ex' : Str → Manager → Prop} {te te' : Prop} {fa fa' : Fault → Prop} {di di' : Prop} {o : Out α}
    (h : Sat ok ex te fa di o) (h1 : ∀ a m, ok a m → ok' a m) (h2 : ∀ w m, ex w m → ex' w m) (h3 : te → te') (h4 : ∀ f, fa f → fa' f) (h5 : di → di') :
    Sat ok' ex' te' fa' di' o := by
  cases o with
  | ok a m => exact h1 a m h
  | exn w m => exact h2 w m h
  | terminated => exact h3 h
  | fault f => exact h4 f h
  | diverge => exact h5 h

theorem Sat.bind {α β : Type} {ok : α → Manager → Prop} {ok' : β → Manager → Prop} {ex : Str → Manager → Prop} {te : Prop} {fa : Fault → Prop} {di : Prop}
    {p : N α} {f : α → N β} {m : Manager}
    (h : Sat ok ex te fa di (p m)) (hf : ∀ a m', ok a m' → Sat ok' ex te fa di (f a m')) : Sat ok' ex te fa di (bind p f m) := by
  unfold Nested.bind
  cases hp : p m with
  | ok a m' => rw [hp] at h; exact hf a m' h
  | exn w m' => rw [hp] at h; exact h
  | terminated => rw [hp] at h; exact h
  | fault e => rw [hp] at h; exact h
  | diverge => rw [hp] at h; exact h

/-- Endings a logging statement may have. -/
structure Bad where
  te : Prop
  fa : Fault → Prop
  di : Prop

/-- While dictionary `id` is loaded, `R x m` relates its contents and the messages so far to the state; logging statements and writes to the dictionary keep it. -/
structure Voice (say : Say) (id : DictId) (R : DL → Manager → Prop) (B : Bad) : Prop where
  dict : ∀ {x m}, R x m → m.heap.get? id = some x.1
  write : ∀ {x m y}, R x m → Like x.1 y → R (y, x.2) { m with heap := m.heap.set id y }
  say : ∀ {x m} (d : Diag), R x m → Sat (fun _ m' => R (x.1, x.2 ++ [d]) m') (fun _ _ => False) B.te B.fa B.di (say d m)

variable {say : Say} {id : DictId} {R : DL → Manager → Prop} {B : Bad}

/-- Messages logged before. -/
theorem Voice.after (v : Voice say id R B) (l : List Diag) : Voice say id (fun x m => R (x.1, l ++ x.2) m) B where
  dict := fun {x _} h => v.dict (x := (x.1, l ++ x.2)) h
  write := fun {x _ _} h hl => v.write (x := (x.1, l ++ x.2)) h hl
  say := fun {x _} d h => (v.say (x := (x.1, l ++ x.2)) d h).mono (fun _ _ h => by simpa using h) (fun _ _ h => h) (fun h => h) (fun _ h => h) (fun h => h)

theorem says_sim (v : Voice say id R B) (ds : List Diag) : ∀ (x : DL) (m : Manager), R x m →
    Sat (fun _ m' => R (x.1, x.2 ++ ds) m') (fun _ _ => False) B.te B.fa B.di (says say ds m) := by
  induction ds with
  | nil => intro x m h; simpa [says, Sat, Nested.pure] using h
  | cons d ds ih =>
    intro x m h
    unfold says
    refine Sat.bind (v.say d h) ?_
    intro _ m' h'
    simpa using ih _ m' h'

theorem write_sim (v : Voice say id R B) {x : DL} {m : Manager} (h : R x m) {f : Dictionary → Dictionary} (hl : Like x.1 (f x.1)) {ex : Str → Manager → Prop} {te : Prop}
    {fa : Fault → Prop} {di : Prop} :
    Sat (fun _ m' => R (f x.1, x.2) m') ex te fa di (write id f m) := by
  unfold write
  rw [v.dict h]
  exact v.write h hl

theorem withDict_eq (v : Voice say id R B) {α : Type} {x : DL} {m : Manager} (h : R x m) (f : Dictionary → N α) : withDict id f m = f x.1 m := by
  unfold withDict
  rw [v.dict h]

/-! ### Additions -/

theorem slotted_eq (d : Dictionary) (c : Option Str) (i : Str) : slotted d c i = setVec d c i (vec d c i) := by
  have he : ∀ e : Entries, slot e i = e.set i (Dictionary.vecAt e i) := by
    intro e
    unfold slot Dictionary.vecAt
    cases h : e.get? i with
    | some v => exact (AMap.set_same h).symm
    | none => rfl
  cases c with
  | none => simp only [slotted, setVec, vec, he]
  | some c => simp only [slotted, setVec, vec, he]

theorem like_setVec (d : Dictionary) (c : Option Str) (i : Str) (v : List Str) : Like d (setVec d c i v) := by
  cases c <;> exact ⟨rfl, rfl, rfl⟩

theorem add_sim (v : Voice say id R B) (a : Add) (x : DL) (m : Manager) (h : R x m) :
    Sat (fun _ m' => R ((a.apply x.1).1, x.2 ++ (a.apply x.1).2) m') (fun _ _ => False) B.te B.fa B.di (add say id a m) := by
  cases a with
  | singular c i s =>
    unfold add
    rw [Mem.apply_eq, Mem.apply_log]
    simp only [target, Add.newVec]
    refine Sat.bind (write_sim v h (f := fun d => slotted d c i) (by rw [slotted_eq]; exact like_setVec _ _ _ _)) ?_
    intro _ m1 h1
    rw [slotted_eq] at h1
    rw [withDict_eq v h1]
    dsimp only
    rw [Mem.vec_setVec]
    have hfin : ∀ (l : List Diag) (u w : List Str) (m2 : Manager), R (setVec x.1 c i u, l) m2 →
        Sat (fun _ m' => R (setVec x.1 c i w, l) m') (fun _ _ => False) B.te B.fa B.di (write id (fun d => setVec d c i w) m2) := by
      intro l u w m2 h2
      have := write_sim v h2 (f := fun d => setVec d c i w) (like_setVec _ _ _ _) (ex := fun _ _ => False) (te := B.te) (fa := B.fa) (di := B.di)
      dsimp only at this
      rwa [Mem.setVec_setVec] at this
    cases hv : vec x.1 c i with
    | nil =>
      dsimp only [Dictionary.addSingularVec]
      have := hfin x.2 _ [s] m1 h1
      simpa using this
    | cons v0 rest =>
      dsimp only [Dictionary.addSingularVec]
      rw [hv] at h1
      by_cases hne : v0 ≠ s
      · rw [if_pos hne, if_pos hne]
        refine Sat.bind (v.say _ h1) ?_
        intro _ m2 h2
        dsimp only at h2
        rw [withDict_eq v h2]
        dsimp only
        rw [Mem.vec_setVec]
        exact hfin _ _ _ _ h2
      · rw [if_neg hne, if_neg hne]
        have he : v0 = s := by simpa using hne
        subst he
        simpa [Sat, Nested.pure] using h1
  | plural c i p s =>
    unfold add
    rw [Mem.apply_eq, Mem.apply_log]
    simp only [target, Add.newVec]
    refine Sat.bind (write_sim v h (f := fun d => slotted d c i) (by rw [slotted_eq]; exact like_setVec _ _ _ _)) ?_
    intro _ m1 h1
    rw [slotted_eq] at h1
    rw [withDict_eq v h1]
    dsimp only
    rw [Mem.vec_setVec]
    have hfin : ∀ (l : List Diag) (u w : List Str) (m2 : Manager), R (setVec x.1 c i u, l) m2 →
        Sat (fun _ m' => R (setVec x.1 c i w, l) m') (fun _ _ => False) B.te B.fa B.di (write id (fun d => setVec d c i w) m2) := by
      intro l u w m2 h2
      have := write_sim v h2 (f := fun d => setVec d c i w) (like_setVec _ _ _ _) (ex := fun _ _ => False) (te := B.te) (fa := B.fa) (di := B.di)
      dsimp only at this
      rwa [Mem.setVec_setVec] at this
    unfold Dictionary.addPluralVec
    by_cases hv : (vec x.1 c i).isEmpty = true
    · rw [if_pos hv, if_pos hv]
      have := hfin x.2 _ s m1 h1
      simpa using this
    · rw [if_neg hv, if_neg hv]
      by_cases hne : vec x.1 c i ≠ s
      · rw [if_pos hne, if_pos hne]
        refine Sat.bind (v.say _ h1) ?_
        intro _ m2 h2
        exact hfin _ _ _ _ h2
      · rw [if_neg hne, if_neg hne]
        have he : vec x.1 c i = s := by simpa using hne
        rw [he] at h1
        simpa [Sat, Nested.pure] using h1

/-! ### Events -/

theorem convert_sim (v : Voice say id R B) (c : Cfg) (t : Str) (s : PSt) (x : DL) (m : Manager) (h : R x m) :
    Sat (fun r m' => ∃ d, s.conv.convert c.lib t = .ok r.1 r.2.conv d ∧ r.2.vec = s.vec ∧ R (x.1, x.2 ++ d) m') (fun _ _ => False) B.te
      (fun f => B.fa f ∨ s.conv.convert c.lib t = .fault f) B.di (convert say c t s m) := by
  unfold convert
  cases hc : s.conv.convert c.lib t with
  | fault f => exact .inr rfl
  | ok r cv d =>
    dsimp only
    refine Sat.bind ((says_sim v d x m h).mono (fun _ _ h => h) (fun _ _ h => h) (fun h => h) (fun _ h => .inl h) (fun h => h)) ?_
    intro _ m' h'
    exact ⟨d, rfl, rfl, h'⟩

theorem hdrEffect_split (c : Cfg) (n : Nat) (cur : Str) (d : Dictionary) (l : List Diag) (t : Str) :
    Like d (hdrEffect c n cur (d, []) t).1 ∧ (hdrEffect c n cur (d, l) t) = ((hdrEffect c n cur (d, []) t).1, l ++ (hdrEffect c n cur (d, []) t).2) ∧
    ((hdrEffect c n cur (d, []) t).2 ≠ [] → (hdrEffect c n cur (d, []) t).1 = d) := by
  unfold hdrEffect
  split
  · split
    · exact ⟨.refl _, by simp, fun _ => rfl⟩
    · exact ⟨.refl _, by simp, fun _ => rfl⟩
  · split
    · split
      · exact ⟨.refl _, by simp, fun _ => rfl⟩
      · split
        · exact ⟨⟨rfl, rfl, rfl⟩, by simp, fun h => absurd rfl h⟩
        · split
          · exact ⟨.refl _, by simp, fun _ => rfl⟩
          · exact ⟨.refl _, by simp, fun _ => rfl⟩
    · exact ⟨.refl _, by simp, fun _ => rfl⟩

theorem headerLine_sim (v : Voice say id R B) (c : Cfg) (n : Nat) (cur l : Str) (x : DL) (m : Manager) (h : R x m) :
    Sat (fun _ m' => R (hdrEffect c n cur x l) m') (fun _ _ => False) B.te B.fa B.di (headerLine say c id n cur l m) := by
  obtain ⟨d, lg⟩ := x
  obtain ⟨h1, h2, h3⟩ := hdrEffect_split c n cur d lg l
  rw [h2]
  unfold headerLine
  rw [withDict_eq v h]
  dsimp only
  cases hx : hdrEffect c n cur (d, []) l with
  | mk d' ds =>
    rw [hx] at h1 h3
    dsimp only at h1 h3
    cases ds with
    | nil =>
      dsimp only
      rw [List.append_nil]
      exact write_sim v h (f := fun _ => d') h1
    | cons a ds =>
      dsimp only
      rw [h3 (by simp)]
      exact says_sim v (a :: ds) _ m h

theorem headerLines_sim (v : Voice say id R B) (c : Cfg) (n : Nat) (cur : Str) (ls : List Str) : ∀ (x : DL) (m : Manager), R x m →
    Sat (fun _ m' => R (hdrEffects c n cur ls x) m') (fun _ _ => False) B.te B.fa B.di (headerLinesIn say c id n cur ls m) := by
  induction ls with
  | nil => intro x m h; exact h
  | cons l ls ih =>
    intro x m h
    unfold headerLinesIn
    refine Sat.bind (headerLine_sim v c n cur l x m h) ?_
    intro _ m' h'
    exact ih _ m' h'

/-- Converter and strings. -/
def pst (x : List Str × PState) : PSt := ⟨x.1, x.2.conv⟩

theorem step_sim (v : Voice say id R B) (c : Cfg) (T : Tape) (e : Ev) (x : List Str × PState) (m : Manager) (h : R (x.2.dict, x.2.log) m) :
    Sat (fun s m' => ∃ y, evStep c T e x = .ok () y ∧ s = pst y ∧ R (y.2.dict, y.2.log) m')
      (fun w m' => ∃ y, evStep c T e x = .exn w y ∧ R (y.2.dict, y.2.log) m') B.te (fun f => B.fa f ∨ evStep c T e x = .fault f) B.di
      (step say c T id (pst x) e m) := by
  have conv : ∀ t, Sat (fun r m' => ∃ s, POParser.convert c t x.2 = .ok r.1 s ∧ r.2 = ⟨x.1, s.conv⟩ ∧ R (s.dict, s.log) m') (fun _ _ => False) B.te
      (fun f => B.fa f ∨ POParser.convert c t x.2 = .fault f) B.di (convert say c t (pst x) m) := by
    intro t
    have := convert_sim v c t (pst x) _ m h
    refine this.mono ?_ (fun _ _ h => h) (fun h => h) ?_ (fun h => h)
    · rintro ⟨r1, s1⟩ m' ⟨d, h1, h2, h3⟩
      dsimp only [pst] at h1 h2 h3
      refine ⟨{ x.2 with conv := s1.conv, log := x.2.log ++ d }, ?_, ?_, h3⟩
      · unfold POParser.convert; rw [h1]
      · cases s1; dsimp only at h2; subst h2; rfl
    · rintro f (h1 | h1)
      · exact .inl h1
      · dsimp only [pst] at h1
        refine .inr ?_
        unfold POParser.convert; rw [h1]
  cases e with
  | diag lv p msg ped =>
    unfold step evStep
    dsimp only
    by_cases hp : (ped && !c.pedantic) = true
    · rw [if_pos hp, if_pos hp]
      exact ⟨x, rfl, rfl, h⟩
    · rw [if_neg hp, if_neg hp]
      refine Sat.bind ((v.say _ h).mono (fun _ _ h => h) (fun _ _ h => h.elim) (fun h => h) (fun _ h => .inl h) (fun h => h)) ?_
      intro _ m' h'
      exact ⟨_, rfl, rfl, h'⟩
  | clear => exact ⟨_, rfl, rfl, h⟩
  | conv n t =>
    unfold step evStep
    dsimp only
    refine Sat.bind ((conv t).mono (fun _ _ h => h) (fun _ _ h => h.elim) (fun h => h) ?_ (fun h => h)) ?_
    · rintro f (h1 | h1)
      · exact .inl h1
      · exact .inr (by rw [h1])
    · rintro r m' ⟨s, h1, h2, h3⟩
      rw [h1, h2]
      exact ⟨_, rfl, rfl, h3⟩
  | singular fz ctxt i t =>
    unfold step evStep
    dsimp only
    by_cases hf : (c.useFuzzy || !fz) = true
    · rw [if_pos hf, if_pos hf]
      refine Sat.bind ((conv t).mono (fun _ _ h => h) (fun _ _ h => h.elim) (fun h => h) ?_ (fun h => h)) ?_
      · rintro f (h1 | h1)
        · exact .inl h1
        · exact .inr (by rw [h1])
      · rintro r m' ⟨s, h1, h2, h3⟩
        rw [h1, h2]
        dsimp only
        refine Sat.bind ((add_sim v _ _ m' h3).mono (fun _ _ h => h) (fun _ _ h => h.elim) (fun h => h) (fun _ h => .inl h) (fun h => h)) ?_
        intro _ m2 h4
        exact ⟨_, rfl, rfl, h4⟩
    · rw [if_neg hf, if_neg hf]
      exact ⟨x, rfl, rfl, h⟩
  | plural p fz ctxt i ip =>
    unfold step evStep
    dsimp only
    by_cases hf : (c.useFuzzy || !fz) = true
    · rw [if_pos hf, if_pos hf, withDict_eq v h]
      refine Sat.bind ((says_sim v _ _ m h).mono (fun _ _ h => h) (fun _ _ h => h.elim) (fun h => h) (fun _ h => .inl h) (fun h => h)) ?_
      intro _ m' h'
      refine Sat.bind ((add_sim v _ _ m' h').mono (fun _ _ h => h) (fun _ _ h => h.elim) (fun h => h) (fun _ h => .inl h) (fun h => h)) ?_
      intro _ m2 h4
      exact ⟨_, rfl, rfl, h4⟩
    · rw [if_neg hf, if_neg hf]
      exact ⟨x, rfl, rfl, h⟩
  | header p t =>
    unfold step evStep header
    dsimp only
    rw [parseHeader_eq]
    have hm : R ((mv T x.2 p).dict, (mv T x.2 p).log) m := h
    refine Sat.bind ((headerLines_sim v c (p + 1) (T p).line (headerLines t []) _ m hm).mono (fun _ _ h => h) (fun _ _ h => h.elim) (fun h => h) (fun _ h => .inl h) (fun h => h)) ?_
    intro _ m1 h1
    refine Sat.bind ((says_sim v _ _ m1 h1).mono (fun _ _ h => h) (fun _ _ h => h.elim) (fun h => h) (fun _ h => .inl h) (fun h => h)) ?_
    intro _ m2 h2
    have h3 : R ((afterHeader c t (mv T x.2 p)).dict, (afterHeader c t (mv T x.2 p)).log) m2 := h2
    rw [withDict_eq v h3]
    have hconv : (pst x).conv = (afterHeader c t (mv T x.2 p)).conv := rfl
    have hd : ((hdrEffects c (p + 1) (T p).line (headerLines t []) ((mv T x.2 p).dict, (mv T x.2 p).log)).1).charset = (afterHeader c t (mv T x.2 p)).dict.charset := rfl
    dsimp only
    rw [hconv]
    unfold setCharsets
    cases hr : (afterHeader c t (mv T x.2 p)).conv.setCharsets c.ct c.lib (sourceCharset (headerCharset c.ct t)) (afterHeader c t (mv T x.2 p)).dict.charset with
    | mk cv o =>
      cases o with
      | none => exact ⟨_, rfl, rfl, h3⟩
      | some w => exact ⟨_, rfl, h3⟩

theorem steps_sim (v : Voice say id R B) (c : Cfg) (T : Tape) (w : List Ev) : ∀ (x : List Str × PState) (m : Manager), R (x.2.dict, x.2.log) m →
    Sat (fun s m' => ∃ y, interp c T w x = .ok () y ∧ s = pst y ∧ R (y.2.dict, y.2.log) m')
      (fun e m' => ∃ y, interp c T w x = .exn e y ∧ R (y.2.dict, y.2.log) m') B.te (fun f => B.fa f ∨ interp c T w x = .fault f) B.di
      (steps say c T id w (pst x) m) := by
  induction w with
  | nil => intro x m h; exact ⟨x, rfl, rfl, h⟩
  | cons e w ih =>
    intro x m h
    have hs := step_sim v c T e x m h
    unfold steps
    simp only [interp, bind_apply]
    unfold Nested.bind
    cases hp : step say c T id (pst x) e m with
    | ok s m' =>
      rw [hp] at hs
      obtain ⟨y, h1, h2, h3⟩ := hs
      rw [h1, h2]
      exact ih y m' h3
    | exn a m' =>
      rw [hp] at hs
      obtain ⟨y, h1, h2⟩ := hs
      rw [h1]
      exact ⟨y, rfl, h2⟩
    | terminated => rw [hp] at hs; exact hs
    | fault f =>
      rw [hp] at hs
      rcases hs with hs | hs
      · exact .inl hs
      · exact .inr (by rw [hs])
    | diverge => rw [hp] at hs; exact hs

/-- A parse. -/
theorem parse_sim (v : Voice say id R B) (env : Env) (pofile : Str) (s : Stream) (x : DL) (m : Manager) (h : R x m) :
    Sat (fun _ m' => ∃ d l, observe (run (cfgOf env pofile) s x.1) = .returned d l ∧ R (d, x.2 ++ l) m')
      (fun w m' => ∃ d l, observe (run (cfgOf env pofile) s x.1) = .threw w d l ∧ R (d, x.2 ++ l) m') B.te
      (fun f => B.fa f ∨ run (cfgOf env pofile) s x.1 = .fault f) (B.di ∨ run (cfgOf env pofile) s x.1 = .diverge ∨ env.fuel ≤ s.rest.length)
      (parse say env id pofile s m) := by
  unfold parse
  rw [withDict_eq v h]
  by_cases hlen : s.rest.length < env.fuel
  · have hlen' : s.rest.length < (cfgOf env pofile).fuel := hlen
    dsimp only
    rw [if_pos hlen]
    have ho := run_obs (cfgOf env pofile) s x.1 hlen'
    have hcr : ∀ f, observe (run (cfgOf env pofile) s x.1) = .crashed f → run (cfgOf env pofile) s x.1 = .fault f := by
      intro f hf
      cases hr : run (cfgOf env pofile) s x.1 <;> rw [hr] at hf <;> cases hf
      rfl
    have h0 : (fun y m => R (y.1, x.2 ++ y.2) m) ((initState s x.1).dict, (initState s x.1).log) m := by
      show R (x.1, x.2 ++ []) m
      rw [List.append_nil]; exact h
    have hs := steps_sim (v.after x.2) (cfgOf env pofile) (startTape s) (events (cfgOf env pofile).ct (cfgOf env pofile).fuel s).1 ([], initState s x.1) m h0
    have hps : pst ([], initState s x.1) = ⟨[], IConv.init⟩ := rfl
    rw [hps] at hs
    unfold obsE at ho
    have hgoal : ∀ o, steps say (cfgOf env pofile) (startTape s) id (events (cfgOf env pofile).ct (cfgOf env pofile).fuel s).1 ⟨[], IConv.init⟩ m = o →
        Sat (fun _ m' => ∃ d l, observe (run (cfgOf env pofile) s x.1) = .returned d l ∧ R (d, x.2 ++ l) m')
          (fun w m' => ∃ d l, observe (run (cfgOf env pofile) s x.1) = .threw w d l ∧ R (d, x.2 ++ l) m') B.te
          (fun f => B.fa f ∨ run (cfgOf env pofile) s x.1 = .fault f) (B.di ∨ run (cfgOf env pofile) s x.1 = .diverge ∨ env.fuel ≤ s.rest.length)
          (Nested.bind (steps say (cfgOf env pofile) (startTape s) id (events (cfgOf env pofile).ct (cfgOf env pofile).fuel s).1 ⟨[], IConv.init⟩) (fun _ =>
            match (events (cfgOf env pofile).ct (cfgOf env pofile).fuel s).2 with
            | .ok _ _ => Nested.pure ()
            | .err _ => throw b!"POParserError"
            | .overflow => fail .signedOverflow
            | .diverge => fun _ => .diverge) m) := by
      intro o heq
      unfold Nested.bind
      rw [heq] at hs ⊢
      cases o with
      | ok a m' =>
        obtain ⟨y, h1, h2, h3⟩ := hs
        rw [h1] at ho
        dsimp only at ho ⊢
        cases hres : (events (cfgOf env pofile).ct (cfgOf env pofile).fuel s).2 with
        | ok a p => rw [hres] at ho; exact ⟨_, _, ho, h3⟩
        | err p => exact absurd hres (mainLoopE_not_err _ _ _ _ _ _ _)
        | overflow => rw [hres] at ho; exact .inr (hcr _ ho)
        | diverge => rw [hres] at ho; exact .inr (.inl ((observe_unfinished _).1 ho))
      | exn w m' =>
        obtain ⟨y, h1, h2⟩ := hs
        rw [h1] at ho
        exact ⟨_, _, ho, h2⟩
      | terminated => exact hs
      | fault f =>
        rcases hs with hs | hs
        · exact .inl hs
        · rw [hs] at ho; exact .inr (hcr _ ho)
      | diverge => exact .inl hs
    exact hgoal _ rfl
  · dsimp only
    rw [if_neg hlen]
    exact .inr (.inr (by omega))

end Tgt.Nested
