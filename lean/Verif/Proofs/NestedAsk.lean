import Verif.Proofs.Nested
/-
Callbacks that only ask: all calls.
-/
namespace Tgt.Nested
open Spec Manager POParser Mgr

variable {env : Env} {path : List Str} {say : Say}

theorem Asking.keeps (ha : Asking env path say) {m0 m : Manager} (hk : Keeps env m0 m) (hp : m0.searchPath = path) (d : Diag) :
    Sat (fun _ m' => Keeps env m0 m') (fun _ _ => False) (Unlistable env path) (FaultOk env.lib) True (say d m) :=
  (ha d m hk.inv (hk.path.trans hp)).mono (fun _ _ h => hk.trans h) (fun _ _ h => h) (fun h => h) (fun _ h => h) (fun h => h)

theorem keeps_get {m0 m : Manager} (h0 : Inv m0) (hk : Keeps env m0 m) {id : DictId} {d : Dictionary} (hd : m0.heap.get? id = some d) : m.heap.get? id = some d := by
  rw [hk.frame id (h0.live id d hd).1]; exact hd

theorem withDict_get {α : Type} {m : Manager} {id : DictId} {d : Dictionary} (h : m.heap.get? id = some d) (f : Dictionary → N α) : withDict id f m = f d m := by
  unfold withDict; rw [h]

theorem translateIn_keeps (ha : Asking env path say) {m0 : Manager} (h0 : Inv m0) (hp : m0.searchPath = path) (msgid : Str) (f : Nat) :
    ∀ {m : Manager} {id : DictId} {d : Dictionary} (e : Entries), Keeps env m0 m → m0.heap.get? id = some d →
    Sat (fun s m' => Keeps env m0 m' ∧ ∀ log, ∃ lg, Dictionary.translateIn m0.heap.get? f d e msgid log = .ok s lg) (fun _ _ => False) (Unlistable env path) (FaultOk env.lib) True
      (translateIn say f id e msgid m) := by
  induction f with
  | zero => intro m id d e _ _; trivial
  | succ f ih =>
    intro m id d e hk hd
    have miss : (∀ log, Dictionary.translateIn m0.heap.get? (f + 1) d e msgid log = (fun log => let log := log ++ [Diag.couldntTranslate msgid]
          if d.hasFallback then
            match d.fallback with
            | none => (.fault .nullDeref : Res (List Diag) Str)
            | some p =>
              match m0.heap.get? p with
              | none => .fault .useAfterFree
              | some d' => Dictionary.translateIn m0.heap.get? f d' d'.entries msgid log
          else .ok msgid log) log) →
        Sat (fun s m' => Keeps env m0 m' ∧ ∀ log, ∃ lg, Dictionary.translateIn m0.heap.get? (f + 1) d e msgid log = .ok s lg) (fun _ _ => False) (Unlistable env path)
          (FaultOk env.lib) True ((Nested.bind (say (.couldntTranslate msgid)) fun _ =>
            withDict id fun d =>
              if d.hasFallback then
                match d.fallback with
                | none => fail .nullDeref
                | some p => withDict p fun d' => translateIn say f p d'.entries msgid
              else Nested.pure msgid) m) := by
      intro he
      refine Sat.bind (ha.keeps hk hp _) ?_
      intro _ m1 hk1
      rw [withDict_get (keeps_get h0 hk1 hd)]
      by_cases hf : d.hasFallback = true
      · obtain ⟨L, q, d', _, _, h1, _, h2, h3⟩ := h0.fallback hd hf
        rw [if_pos hf, h1]
        dsimp only
        rw [withDict_get (keeps_get h0 hk1 h2)]
        refine (ih d'.entries hk1 h2).mono ?_ (fun _ _ h => h) (fun h => h) (fun _ h => h) (fun h => h)
        rintro s m2 ⟨h4, h5⟩
        refine ⟨h4, fun log => ?_⟩
        obtain ⟨lg, h6⟩ := h5 (log ++ [.couldntTranslate msgid])
        refine ⟨lg, ?_⟩
        rw [he]
        dsimp only
        rw [if_pos hf, h1]
        dsimp only
        rw [h2]
        exact h6
      · rw [if_neg hf]
        refine ⟨hk1, fun log => ⟨log ++ [.couldntTranslate msgid], ?_⟩⟩
        rw [he]
        dsimp only
        rw [if_neg hf]
    rw [translateIn]
    cases hg : e.get? msgid with
    | none => exact miss (fun log => by rw [Dictionary.translateIn, hg]; rfl)
    | some v =>
      cases v with
      | nil => exact miss (fun log => by rw [Dictionary.translateIn, hg]; rfl)
      | cons s t => exact ⟨hk, fun log => ⟨log, by rw [Dictionary.translateIn, hg]; rfl⟩⟩

theorem candidates_keeps (ha : Asking env path say) {m0 : Manager} (h0 : Inv m0) (hp : m0.searchPath = path) {id : DictId} {d : Dictionary} (hd : m0.heap.get? id = some d)
    (ctxt : Option Str) (ks : List Str) : ∀ {m : Manager}, Keeps env m0 m →
    Sat (fun _ m' => Keeps env m0 m') (fun _ _ => False) (Unlistable env path) (FaultOk env.lib) True (candidates say id ctxt (entriesOf d ctxt).keys ks m) := by
  induction ks with
  | nil => intro m hk; exact hk
  | cons k ks ih =>
    intro m hk
    unfold candidates
    refine Sat.bind (ha.keeps hk hp _) ?_
    intro _ m1 hk1
    rw [withDict_get (keeps_get h0 hk1 hd), if_pos rfl]
    exact ih hk1

theorem translatePluralIn_keeps (ha : Asking env path say) {m : Manager} (h0 : Inv m) (hp : m.searchPath = path) {id : DictId} {d : Dictionary} (hd : m.heap.get? id = some d)
    (ctxt : Option Str) (i p : Str) (n : Int) :
    Sat (fun s m' => Keeps env m m' ∧ s = (d.translatePluralIn (entriesOf d ctxt) i p n).1) (fun _ _ => False) (Unlistable env path) (FaultOk env.lib) True
      (translatePluralIn say id ctxt d i p n m) := by
  unfold translatePluralIn Dictionary.translatePluralIn
  cases he : (entriesOf d ctxt).get? i with
  | some v =>
    dsimp only
    cases hv : v[d.pluralForms.getPlural n]? with
    | none =>
      dsimp only
      refine Sat.bind (ha.keeps (.refl h0) hp _) ?_
      intro _ m1 hk1
      refine Sat.bind (ha.keeps hk1 hp _) ?_
      intro _ m2 hk2
      exact ⟨hk2, rfl⟩
    | some s =>
      dsimp only
      split
      · exact ⟨.refl h0, rfl⟩
      · exact ⟨.refl h0, rfl⟩
  | none =>
    dsimp only
    refine Sat.bind (ha.keeps (.refl h0) hp _) ?_
    intro _ m1 hk1
    refine Sat.bind (ha.keeps hk1 hp _) ?_
    intro _ m2 hk2
    rw [withDict_get (keeps_get h0 hk2 hd)]
    refine Sat.bind (candidates_keeps ha h0 hp hd ctxt _ hk2) ?_
    intro _ m3 hk3
    exact ⟨hk3, rfl⟩

theorem ask_keeps (ha : Asking env path say) {m : Manager} (h0 : Inv m) (hp : m.searchPath = path) {id : DictId} {d : Dictionary} (hd : m.heap.get? id = some d)
    (f : Nat) (q : Query) :
    Sat (fun s m' => Keeps env m m' ∧ ∃ lg, Manager.ask f id q m = .ok s { m with log := lg }) (fun _ _ => False) (Unlistable env path) (FaultOk env.lib) True
      (ask say f id q m) := by
  have plain : ∀ s lg, q.on m.heap.get? f d m.log = .ok s lg → ∃ lg, Manager.ask f id q m = .ok s { m with log := lg } := by
    intro s lg h
    refine ⟨lg, ?_⟩
    unfold Manager.ask
    rw [hd]
    dsimp only
    rw [h]
  unfold ask
  rw [withDict_get hd]
  cases q with
  | translate i =>
    dsimp only
    refine (translateIn_keeps ha h0 hp i f d.entries (.refl h0) hd).mono ?_ (fun _ _ h => h) (fun h => h) (fun _ h => h) (fun h => h)
    rintro s m' ⟨h1, h2⟩
    obtain ⟨lg, h3⟩ := h2 m.log
    exact ⟨h1, plain s lg h3⟩
  | ctxt c i =>
    dsimp only
    cases hc : d.ctxtEntries.get? c with
    | some e =>
      dsimp only
      refine (translateIn_keeps ha h0 hp i f e (.refl h0) hd).mono ?_ (fun _ _ h => h) (fun h => h) (fun _ h => h) (fun h => h)
      rintro s m' ⟨h1, h2⟩
      obtain ⟨lg, h3⟩ := h2 m.log
      exact ⟨h1, plain s lg (by unfold Query.on Dictionary.translateCtxt; dsimp only; rw [hc]; exact h3)⟩
    | none =>
      dsimp only
      refine Sat.bind (ha.keeps (.refl h0) hp _) ?_
      intro _ m1 hk1
      exact ⟨hk1, plain i _ (by unfold Query.on Dictionary.translateCtxt; dsimp only; rw [hc])⟩
  | plural i p n =>
    dsimp only
    refine (translatePluralIn_keeps ha h0 hp hd none i p n).mono ?_ (fun _ _ h => h) (fun h => h) (fun _ h => h) (fun h => h)
    rintro s m' ⟨h1, h2⟩
    subst h2
    exact ⟨h1, plain _ _ rfl⟩
  | ctxtPlural c i p n =>
    dsimp only
    cases hc : d.ctxtEntries.get? c with
    | some e =>
      dsimp only
      refine (translatePluralIn_keeps ha h0 hp hd (some c) i p n).mono ?_ (fun _ _ h => h) (fun h => h) (fun _ h => h) (fun h => h)
      rintro s m' ⟨h1, h2⟩
      subst h2
      have he : entriesOf d (some c) = e := by unfold entriesOf Dictionary.ctxtAt; dsimp only; rw [hc]
      refine ⟨h1, plain _ (m.log ++ (d.translateCtxtPlural c i p n).2) ?_⟩
      rw [he]
      unfold Query.on Dictionary.translateCtxtPlural
      dsimp only
      rw [hc]
    | none =>
      dsimp only
      refine Sat.bind (ha.keeps (.refl h0) hp _) ?_
      intro _ m1 hk1
      refine ⟨hk1, plain _ (m.log ++ (d.translateCtxtPlural c i p n).2) ?_⟩
      unfold Query.on Dictionary.translateCtxtPlural
      dsimp only
      rw [hc]

/-! ### Calls -/

theorem steady_const (l : Language) : Steady (fun _ => l) := fun _ _ _ => rfl
theorem steady_current : Steady (fun m => m.currentLanguage) := fun _ _ h => h

theorem getDictionary_keeps (ha : Asking env path say) {m : Manager} (h0 : Inv m) (hp : m.searchPath = path) :
    Sat (fun p m' => Keeps env m m' ∧ (m.currentLanguage.isDefined = true → m'.dictionaries.get? m.currentLanguage = some p) ∧ (m.currentLanguage.isDefined = false → p = 0))
      (fun _ m' => Broken m m' ∧ Unlistable env path) (Unlistable env path) (FaultOk env.lib) True (getDictionary say env m) := by
  unfold getDictionary
  cases hc : m.currentDict with
  | some p =>
    obtain ⟨h1, h2⟩ := h0.cur p hc
    exact ⟨.refl h0, fun _ => h2, fun h => by rw [h1] at h; cases h⟩
  | none =>
    dsimp only
    by_cases hl : m.currentLanguage.isDefined = true
    · rw [if_pos hl]
      refine Sat.bind (getFor_keeps ha env.fuel steady_current hl h0 hp) ?_
      rintro p m' ⟨hk, hd⟩
      refine ⟨?_, fun _ => hd, fun h => by rw [hl] at h; cases h⟩
      have hi := hk.inv
      refine ⟨⟨hi.path, hi.keysD, hi.inj, hi.cached, hi.empty, hi.heapK, hi.live, hi.freedN, hi.freedIff, ?_⟩, ?_, hk.frame, hk.lang, hk.news⟩
      · intro q hq
        cases hq
        show m'.currentLanguage.isDefined = true ∧ m'.dictionaries.get? m'.currentLanguage = some p
        rw [hk.lang]
        exact ⟨hl, hd⟩
      · have g := hk.grow
        exact ⟨g.path, g.charset, g.fuzzy, g.freed, g.next, g.keeps, g.log⟩
    · rw [if_neg hl]
      exact ⟨.refl h0, fun h => absurd h hl, fun _ => rfl⟩

theorem collect_exn {dirs : List Str} : ∀ {acc : List Language} {m m' : Manager} {w : Str}, collectDirs env dirs acc m = .exn w m' → Unlistable env dirs := by
  induction dirs with
  | nil => intro acc m m' w h; cases h
  | cons d t ih =>
    intro acc m m' w h
    unfold collectDirs at h
    cases ho : env.fs.openDirectory d with
    | error w' => exact ⟨d, by simp, w', ho⟩
    | ok files =>
      rw [ho] at h
      obtain ⟨d', h1, h2⟩ := ih h
      exact ⟨d', List.mem_cons_of_mem _ h1, h2⟩

theorem perform_keeps (ha : Asking env path say) (c : Call) {m : Manager} (h0 : Inv m) (hp : m.searchPath = path) (hc : c.Asks m) :
    Sat (fun a m' => Keeps env m m' ∧ Answers env m m' c a) (fun _ m' => Broken m m' ∧ Unlistable env path) (Unlistable env path) (FaultOk env.lib) True
      (perform say env c m) := by
  cases c with
  | getDictionary =>
    unfold perform
    refine Sat.bind (getDictionary_keeps ha h0 hp) ?_
    rintro p m' ⟨h1, h2, h3⟩
    exact ⟨h1, p, rfl, h2, h3⟩
  | getDictionaryFor l =>
    unfold perform
    refine Sat.bind (getFor_keeps ha env.fuel (steady_const l) hc h0 hp) ?_
    rintro p m' ⟨h1, h2⟩
    exact ⟨h1, p, rfl, h2⟩
  | getLanguages =>
    unfold perform lift Call.run
    simp only [prog_bind, bind_apply]
    unfold Manager.getLanguages
    simp only [prog_bind, bind_apply, Prog.get]
    rcases getLanguages_state env m.searchPath [] m with ⟨l, h⟩ | ⟨w, h⟩
    · rw [h]
      refine ⟨.refl h0, m.log, ?_⟩
      unfold Call.run Manager.getLanguages
      simp only [prog_bind, bind_apply, Prog.get, h]
      rfl
    · rw [h]
      refine ⟨(Keeps.refl (env := env) h0).broken, ?_⟩
      have := collect_exn h
      rwa [hp] at this
  | getLanguage => exact ⟨.refl h0, m.log, rfl⟩
  | getUseFuzzy => exact ⟨.refl h0, m.log, rfl⟩
  | ask id q =>
    unfold perform
    cases hd : m.heap.get? id with
    | none => exact absurd hd hc
    | some d =>
      refine Sat.bind ((ask_keeps ha h0 hp hd env.fuel q).mono (fun _ _ h => h) (fun _ _ h => h.elim) (fun h => h) (fun _ h => h) (fun h => h)) ?_
      rintro s m' ⟨h1, lg, h2⟩
      refine ⟨h1, lg, ?_⟩
      unfold Call.run
      simp only [prog_bind, bind_apply, h2]
      rfl
  | _ => exact hc.elim

theorem talk_keeps (ha : Asking env path say) {body : Body} (hb : OnlyAsks body) (k : Nat) : ∀ (as : List Answer) {m : Manager}, Inv m → m.searchPath = path →
    Sat (fun _ m' => Keeps env m m') (fun _ _ => Unlistable env path) (Unlistable env path) (FaultOk env.lib) True (talk say env body k as m) := by
  induction k with
  | zero => intro as m _ _; trivial
  | succ k ih =>
    intro as m h0 hp
    unfold talk
    cases hc : body m as with
    | none => exact .refl h0
    | some c =>
      dsimp only
      refine Sat.bind ((perform_keeps ha c h0 hp (hb m as c hc)).mono (fun _ _ h => h) (fun _ _ h => h.2) (fun h => h) (fun _ h => h) (fun h => h)) ?_
      rintro a m' ⟨hk, _⟩
      exact (ih (as ++ [a]) hk.inv (hk.path.trans hp)).mono (fun _ _ h => hk.trans h) (fun _ _ h => h) (fun h => h) (fun _ h => h) (fun h => h)

theorem say_asking {body : Body} (hb : OnlyAsks body) (n : Nat) : Asking env path (Nested.say env body n) := by
  induction n with
  | zero => intro d m _ _; trivial
  | succ n ih =>
    intro d m h0 hp
    unfold Nested.say noexcept
    have hk := keeps_log (env := env) h0 [d]
    have ht := talk_keeps ih hb (n + 1) [] hk.inv hp
    dsimp only
    cases hr : talk (Nested.say env body n) env body (n + 1) [] { m with log := m.log ++ [d] } with
    | exn w m' => rw [hr] at ht; exact ht
    | ok a m' => rw [hr] at ht; exact hk.trans ht
    | terminated => rw [hr] at ht; exact ht
    | fault f => rw [hr] at ht; exact ht
    | diverge => trivial

/-! ### The same contents as without callbacks -/

theorem full_contents {m : Manager} {l : Language} {p : DictId} (h : Full env m l p) : ∃ x, dirs1 env l m.searchPath.reverse (Dictionary.init m.charset, []) = .ok () x ∧
    ∃ d, m.heap.get? p = some d ∧ unlinked d = x.1 ∧ (l.getCountry ≠ [] → d.hasFallback = true ∧ ∃ q, d.fallback = some q ∧ m.dictionaries.get? (baseOf l) = some q) := by
  obtain ⟨x, d, h1, h2, h3, h4⟩ := h
  exact ⟨x, h1, d, h2, h3, h4⟩

/-- The contents of the dictionary of a language after a completed load are determined by the state before. -/
def viewOf (env : Env) (m : Manager) (l : Language) : Option (Dictionary × Option Dictionary) :=
  match m.dictionaries.get? l with
  | some p => contents m p
  | none =>
    match dirs1 env l m.searchPath.reverse (Dictionary.init m.charset, []) with
    | .ok _ x =>
      if l.getCountry = [] then some (x.1, none)
      else match m.dictionaries.get? (baseOf l) with
        | some q => (m.heap.get? q).map fun d => (x.1, some (unlinked d))
        | none =>
          match dirs1 env (baseOf l) m.searchPath.reverse (Dictionary.init m.charset, []) with
          | .ok _ y => some (x.1, some y.1)
          | _ => none
    | _ => none

theorem contents_old {m m' : Manager} (h0 : Inv m) (hf : Frame m m') {p : DictId} {d : Dictionary} (hd : m.heap.get? p = some d) : contents m' p = contents m p := by
  unfold contents
  have hlt := (h0.live p d hd).1
  rw [hf p hlt, hd]
  simp only [Option.map_some]
  cases hfb : d.fallback with
  | none => rfl
  | some q =>
    have hhf : d.hasFallback = true := by
      rcases (h0.live p d hd).2 with e | ⟨L, hL⟩
      · subst e
        obtain ⟨d0, a1, a2, a3⟩ := h0.empty
        rw [hd] at a1; cases a1; rw [hfb] at a3; cases a3
      · obtain ⟨_, _, d1, b1, _, b2⟩ := h0.cached L p hL
        rw [hd] at b1; cases b1
        rcases b2 with ⟨_, b2⟩ | ⟨b2, _⟩
        · rw [hfb] at b2; cases b2
        · exact b2
    obtain ⟨L, q', d', _, _, h1, _, h2, _⟩ := h0.fallback hd hhf
    rw [hfb] at h1; cases h1
    simp only [Option.bind_some]
    rw [hf q (h0.live q d' h2).1]

theorem keeps_view {m m' : Manager} (h0 : Inv m) (hk : Keeps env m m') {l : Language} {p : DictId} (hl : l.isDefined = true) (hp : m'.dictionaries.get? l = some p) :
    contents m' p = viewOf env m l := by
  unfold viewOf
  cases hc : m.dictionaries.get? l with
  | some q =>
    have : q = p := by have := hk.grow.keeps l q hc; rw [hp] at this; cases this; rfl
    subst this
    obtain ⟨_, _, d, hd, _⟩ := h0.cached l q hc
    exact contents_old h0 hk.frame hd
  | none =>
    dsimp only
    obtain ⟨x, hx, d, hd, hu, hfb⟩ := full_contents (hk.news l p hp hc)
    rw [hk.grow.path, hk.grow.charset] at hx
    rw [hx]
    dsimp only
    unfold contents
    rw [hd]
    simp only [Option.map_some]
    by_cases hco : l.getCountry = []
    · rw [if_pos hco]
      have : d.fallback = none := by
        obtain ⟨_, _, d1, b1, _, b2⟩ := hk.inv.cached l p hp
        rw [hd] at b1; cases b1
        rcases b2 with ⟨_, b2⟩ | ⟨_, b2, _⟩
        · exact b2
        · exact absurd hco b2
      rw [this, hu]; rfl
    · rw [if_neg hco]
      obtain ⟨_, q, h1, h2⟩ := hfb hco
      rw [h1, hu]
      simp only [Option.bind_some]
      cases hb : m.dictionaries.get? (baseOf l) with
      | some q' =>
        have : q' = q := by have := hk.grow.keeps _ q' hb; rw [h2] at this; cases this; rfl
        subst this
        obtain ⟨_, _, e, he, _⟩ := h0.cached _ q' hb
        dsimp only
        rw [keeps_get h0 hk he, he]
        rfl
      | none =>
        dsimp only
        obtain ⟨y, hy, e, he, hu2, _⟩ := full_contents (hk.news _ q h2 hb)
        rw [hk.grow.path, hk.grow.charset] at hy
        rw [hy, he]
        simp [hu2]

end Tgt.Nested
