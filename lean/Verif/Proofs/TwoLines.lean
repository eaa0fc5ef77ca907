import Verif.Proofs.Canon
/-
A file with a single message, exactly.
-/
namespace Tgt.POParser
open Spec Spec.Po

/-- The code ends normally with exactly these events. -/
def Runs {α : Type} (e : E α) (p : Nat) (w : List Ev) (a : α) (q : Nat) : Prop := e p = (w, .ok a q)
/-- The code ends by an error with exactly these events. -/
def Fails {α : Type} (e : E α) (p : Nat) (w : List Ev) (q : Nat) : Prop := e p = (w, .err q)

section
variable {α β : Type} {p q r : Nat} {w w1 w2 : List Ev} {a : α} {b : β}

theorem Runs.pure (a : α) : Runs (E.pure a) p [] a p := rfl

theorem Runs.bind {e : E α} {f : α → E β} (h1 : Runs e p w1 a q) (h2 : Runs (f a) q w2 b r) :
    Runs (e >>= f) p (w1 ++ w2) b r := by
  unfold Runs at *
  rw [e_bind]; unfold E.bind; rw [h1]; dsimp only; rw [h2]

theorem Runs.bind0 {e : E α} {f : α → E β} (h1 : Runs e p [] a q) (h2 : Runs (f a) q w2 b r) :
    Runs (e >>= f) p w2 b r := Runs.bind h1 h2

theorem Runs.bindEq {e : E α} {f : α → E β} (h1 : Runs e p [] a q) : (e >>= f) p = f a q := by
  unfold Runs at h1
  rw [e_bind]; unfold E.bind; rw [h1]; rfl

theorem lineE_bindEq {T : Tape} {f : Str → E β} : (lineE T >>= f) p = f (T p).line p := Runs.bindEq rfl

theorem Runs.bindL {e : E α} {f : α → E β} (h1 : Runs e p w1 a q) (h2 : Runs (f a) q [] b r) :
    Runs (e >>= f) p w1 b r := by
  have := Runs.bind h1 h2
  rwa [List.append_nil] at this

theorem Runs.fails {e : E α} {f : α → E β} (h1 : Runs e p w1 a q) (h2 : Fails (f a) q w2 r) :
    Fails (e >>= f) p (w1 ++ w2) r := by
  unfold Runs Fails at *
  rw [e_bind]; unfold E.bind; rw [h1]; dsimp only; rw [h2]

theorem Runs.fails0 {e : E α} {f : α → E β} (h1 : Runs e p [] a q) (h2 : Fails (f a) q w2 r) :
    Fails (e >>= f) p w2 r := Runs.fails h1 h2

theorem Fails.bind {e : E α} {f : α → E β} (h1 : Fails e p w1 q) : Fails (e >>= f) p w1 q := by
  unfold Fails at *
  rw [e_bind]; unfold E.bind; rw [h1]

theorem Runs.line {T : Tape} {f : Str → E β} (h : Runs (f (T p).line) p w b r) : Runs (lineE T >>= f) p w b r :=
  Runs.bind0 (a := (T p).line) (q := p) rfl h
theorem Fails.line {T : Tape} {f : Str → E β} (h : Fails (f (T p).line) p w r) : Fails (lineE T >>= f) p w r :=
  Runs.fails0 (a := (T p).line) (q := p) rfl h

theorem Runs.next (h : p + 1 < intMax) : Runs nextE p [] () (p + 1) := by
  unfold Runs nextE; rw [if_neg (by omega)]

/-- Strict code without events. -/
theorem Yields.runs {e : E α} (h : Yields true e p [] a q) : Runs e p [] a q := by
  obtain ⟨w', h1, h2, h3⟩ := h
  have : w' = [] := by
    cases w' with
    | nil => rfl
    | cons x t =>
      have := (h3 x List.mem_cons_self).2 rfl
      simp [essence, this] at h2
  subst this
  exact h1
end

section
variable {ct : CType} {fuel : Nat} {T : Tape}

theorem main_ok (f : Nat) {b : Bool} {p q : Nat} {w : List Ev} (he : (T p).eof = false) (h : Runs (entryE ct fuel T b) p w () q) :
    mainLoopE ct fuel T (f + 1) b p
      = (w ++ (mainLoopE ct fuel T f (big5After ct b w) q).1, (mainLoopE ct fuel T f (big5After ct b w) q).2) := by
  unfold Runs at h
  conv => lhs; unfold mainLoopE
  simp only [he, h, Bool.not_false, if_true]

theorem main_err (f : Nat) {b : Bool} {p q : Nat} {w : List Ev} (he : (T p).eof = false) (h : Fails (entryE ct fuel T b) p w q) :
    mainLoopE ct fuel T (f + 1) b p
      = (w ++ (mainLoopE ct fuel T f (big5After ct b w) q).1, (mainLoopE ct fuel T f (big5After ct b w) q).2) := by
  unfold Fails at h
  conv => lhs; unfold mainLoopE
  simp only [he, h, Bool.not_false, if_true]

theorem main_eof (f : Nat) {b : Bool} {p : Nat} (he : (T p).eof = true) : mainLoopE ct fuel T (f + 1) b p = ([], .ok () p) := by
  conv => lhs; unfold mainLoopE
  simp only [he, Bool.not_true, Bool.false_eq_true, if_false]

/-- Recovery that stops at once. -/
theorem fails_error {α : Type} (m : Str) (p : Nat) (hf : 0 < fuel) (hm : p + 1 < intMax)
    (hstop : (T (p + 1)).eof = true ∨ emptyLine ct (T (p + 1)).line = true) :
    Fails (errorE (α := α) ct fuel T m) p [.diag .error p m false] (p + 1) := by
  obtain ⟨g, rfl⟩ : ∃ g, fuel = g + 1 := ⟨fuel - 1, by omega⟩
  unfold errorE
  have hr : Runs (recoverE ct T (g + 1)) p [] () (p + 1) := by
    unfold recoverE
    refine Runs.bind0 (Runs.next hm) (Runs.line (Runs.bind0 (a := (T (p + 1)).eof) (q := p + 1) rfl ?_))
    rw [if_neg]
    · exact Runs.pure _
    · rcases hstop with h | h <;> simp [h]
  have h1 : Runs (E.emitAt (fun p => [Ev.diag .error p m false])) p [.diag .error p m false] () p := rfl
  exact Runs.fails h1 (Runs.fails0 hr rfl)

/-- The messages of a string line. -/
def lineWarnings (ct : CType) (p : Nat) (u : List Byte) (trail : Str) : List Ev :=
  u.map (fun e => .diag .warning p (unknownMsg e) false) ++
  (if trail.any (fun b => !ct.isspace b) then [.diag .warning p b!"unexpected garbage after string ignoren" false] else [])

variable (id r : Str)

theorem two_msgid (hf : 1 ≤ fuel) (hs : Short T) (h0 : (T 0).line = writeField b!"msgid" id) (h1 : ∃ t, (T 1).line = 109 :: t) :
    Runs (getStringE ct fuel T false 5) 0 [] id 1 := by
  obtain ⟨t, ht⟩ := h1
  refine Yields.runs ?_
  exact y_getString (st := true) hs (writeField_field b!"msgid" id) 0 5 rfl ⟨h0, trivial⟩ hf (by show 0 + 1 < intMax; decide) (m_line _ t ht).2.1

/-- The second line, if its string is fine. -/
theorem two_msgstr (hf : 1 ≤ fuel) (hs : Short T) (h1 : (T 1).line = b!"msgstr \"" ++ r) (h2 : (T 2).line = [])
    {u : List Byte} {text trail : Str} (hx : lex false r = ⟨u, .ok (text, trail)⟩) :
    Runs (getStringE ct fuel T false 6) 1 (lineWarnings ct 1 u trail) text 2 := by
  obtain ⟨g, rfl⟩ : ∃ g, fuel = g + 1 := ⟨fuel - 1, by omega⟩
  have hu : u32 (T 1).line.length = (T 1).line.length := Nat.mod_eq_of_lt (hs 1)
  have hr : r ≠ [] := by rintro rfl; simp [lex] at hx
  have hlen : (T 1).line.length = 8 + r.length := by rw [h1]; simp; omega
  have hpos : 0 < r.length := List.length_pos_iff.2 hr
  unfold getStringE
  refine Runs.line ?_
  rw [if_neg (by rw [hu, hlen]; omega)]
  have hsep : ((T 1).line[6]? = some 32 ∧ (T 1).line[6 + 1]? = some 34) := by rw [h1]; exact ⟨rfl, rfl⟩
  rw [if_pos hsep]
  refine Runs.bindL ?_ ?_ (a := text) (q := 1)
  · unfold getStringLineE
    refine Runs.line ?_
    rw [if_neg (by rw [hu, hlen]; omega), if_neg (by rw [hsep.2]; simp)]
    have hd : (T 1).line.drop (6 + 1 + 1) = r := by rw [h1]; rfl
    dsimp only
    rw [hd, hx]
    dsimp only
    unfold lineWarnings
    refine Runs.bind (a := ()) (q := 1) rfl ?_
    split
    · exact Runs.bindL (a := ()) (q := 1) rfl (Runs.pure _)
    · exact Runs.pure _
  · unfold contLoopE
    refine Runs.bind0 (Runs.next (by decide)) (Runs.line ?_)
    rw [h2]
    exact Runs.pure _

theorem two_msgstr_fail (hf : 1 ≤ fuel) (hs : Short T) (h1 : (T 1).line = b!"msgstr \"" ++ r) (h2 : (T 2).line = [])
    (hx : ∀ t, (lex false r).res ≠ .ok t) :
    ∃ m u, Fails (getStringE ct fuel T false 6) 1 (u ++ [.diag .error 1 m false]) 2 ∧ ∀ x ∈ u, x.isDiag = true := by
  have hu : u32 (T 1).line.length = (T 1).line.length := Nat.mod_eq_of_lt (hs 1)
  have hlen : (T 1).line.length = 8 + r.length := by rw [h1]; simp; omega
  have herr : ∀ m, Fails (errorE (α := Str) ct fuel T m) 1 [.diag .error 1 m false] 2 := fun m =>
    fails_error m 1 hf (by decide) (.inr (by rw [h2]; rfl))
  unfold getStringE
  have hsep : ((T 1).line[6]? = some 32 ∧ (T 1).line[6 + 1]? = some 34) := by rw [h1]; exact ⟨rfl, rfl⟩
  by_cases hr : r = []
  · refine ⟨b!"unexpected end of line", [], Fails.line ?_, by simp⟩
    rw [if_neg (by rw [hu, hlen]; omega), if_pos hsep]
    refine Fails.bind ?_
    unfold getStringLineE
    refine Fails.line ?_
    rw [if_pos (by rw [hu, hlen, hr]; simp)]
    exact herr _
  · have hpos : 0 < r.length := List.length_pos_iff.2 hr
    have hd : (T 1).line.drop (6 + 1 + 1) = r := by rw [h1]; rfl
    cases hl : lex false r with
    | mk u res =>
      cases res with
      | ok t => exact absurd (by rw [hl]) (hx t)
      | error m =>
        refine ⟨m, u.map (fun e => .diag .warning 1 (unknownMsg e) false), Fails.line ?_, ?_⟩
        · rw [if_neg (by rw [hu, hlen]; omega), if_pos hsep]
          refine Fails.bind ?_
          unfold getStringLineE
          refine Fails.line ?_
          rw [if_neg (by rw [hu, hlen]; omega), if_neg (by rw [hsep.2]; simp)]
          dsimp only
          rw [hd, hl]
          dsimp only
          exact Runs.fails (a := ()) (q := 1) rfl (herr m)
        · intro x hx
          obtain ⟨e, _, rfl⟩ := List.mem_map.1 hx
          rfl

/-- Everything before the second string. -/
theorem two_prefix (hf : 1 ≤ fuel) (hs : Short T) (h0 : (T 0).line = writeField b!"msgid" id)
    (h1 : (T 1).line = b!"msgstr \"" ++ r) :
    entryE ct fuel T false 0 = (do
      (do
        let msgstr ← getStringE ct fuel T false 6
        if id.isEmpty then E.emitAt (fun p => [.header p msgstr])
        else if !msgstr.isEmpty then E.emit [.singular false none id msgstr]
        else E.pure ())
      finishE ct fuel T : E Unit) 1 := by
  obtain ⟨g, rfl⟩ : ∃ g, fuel = g + 1 := ⟨fuel - 1, by omega⟩
  have hb0 : (T 0).line = 109 :: ((writeField b!"msgid" id).drop 1) := by rw [h0]; rfl
  have hb1 : (T 1).line = 109 :: ((b!"msgstr \"" ++ r).drop 1) := by rw [h1]; rfl
  have hcl : Runs (commentLoopE T (g + 1) false) 0 [] false 0 := by
    unfold commentLoopE
    refine Runs.line ?_
    rw [h0, if_neg (by simp [hasPrefix, writeField])]
    exact Runs.pure _
  have hbody : ∀ (k : Unit → E Unit), (entryBodyE ct (g + 1) T false false >>= k) 0
      = (singularEntryE ct (g + 1) T false false none id >>= k) 1 := by
    intro k
    have hc : Runs (ctxtE ct (g + 1) T false) 0 [] none 0 := by
      unfold ctxtE
      refine Runs.line ?_
      rw [h0, if_neg (by simp [hasPrefix, writeField])]
      exact Runs.pure _
    have hm : Runs (msgidE ct (g + 1) T false) 0 [] id 1 := by
      unfold msgidE
      refine Runs.line ?_
      rw [h0, if_pos (by simp [hasPrefix, writeField])]
      exact two_msgid id hf hs h0 ⟨_, hb1⟩
    have hall : entryBodyE ct (g + 1) T false false 0 = singularEntryE ct (g + 1) T false false none id 1 := by
      have hp1 : hasPrefix b!"msgid_plural" (T 1).line = false := by rw [h1]; rfl
      have hp2 : hasPrefix b!"msgstr" (T 1).line = true := by rw [h1]; simp [hasPrefix]
      unfold entryBodyE
      rw [hc.bindEq, hm.bindEq, lineE_bindEq, hp1, if_neg (by simp),
        lineE_bindEq, hp2, if_pos rfl]
    rw [e_bind, e_bind]
    unfold E.bind
    rw [hall]
  unfold entryE
  rw [hcl.bindEq, lineE_bindEq, (m_line (ct := ct) _ _ hb0).1, if_pos (by simp)]
  exact hbody (fun _ => finishE ct (g + 1) T)

/-- The whole file, if the string is fine. -/
theorem two_ok (hid : id ≠ []) (hf : 3 ≤ fuel) (hs : Short T) (h0 : (T 0).line = writeField b!"msgid" id)
    (h1 : (T 1).line = b!"msgstr \"" ++ r) (h2 : (T 2).line = [])
    (he : ∀ q, (T q).eof = decide (2 ≤ q)) {u : List Byte} {text trail : Str} (hx : lex false r = ⟨u, .ok (text, trail)⟩) :
    mainLoopE ct fuel T fuel false 0 = (lineWarnings ct 1 u trail ++ (if text = [] then [] else [.singular false none id text]), .ok () 3) := by
  obtain ⟨g, hg⟩ : ∃ g, fuel = g + 2 := ⟨fuel - 2, by omega⟩
  have hentry : Runs (entryE ct fuel T false) 0
      (lineWarnings ct 1 u trail ++ (if text = [] then [] else [.singular false none id text])) () 3 := by
    unfold Runs
    rw [two_prefix id r (by omega) hs h0 h1]
    have hfin : Runs (finishE ct fuel T) 2 [] () 3 := by
      unfold finishE
      refine Runs.line ?_
      rw [h2]
      exact Runs.bind0 (Runs.pure ()) (Runs.next (by decide))
    refine Runs.bindL (a := ()) (q := 2) (Runs.bind (two_msgstr r (by omega) hs h1 h2 hx) ?_) hfin
    rw [if_neg (by simpa using hid)]
    by_cases ht : text = []
    · subst ht; exact Runs.pure _
    · rw [if_pos (by simpa using ht), if_neg ht]; rfl
  have hl : mainLoopE ct fuel T fuel false 0 = mainLoopE ct fuel T (g + 1 + 1) false 0 := by rw [hg]
  rw [hl, main_ok (g + 1) (by rw [he]; rfl) hentry, main_eof g (by rw [he]; rfl), List.append_nil]

/-- The whole file, if the string is not fine. -/
theorem two_fail (hf : 3 ≤ fuel) (hs : Short T) (h0 : (T 0).line = writeField b!"msgid" id)
    (h1 : (T 1).line = b!"msgstr \"" ++ r) (h2 : (T 2).line = [])
    (he : ∀ q, (T q).eof = decide (2 ≤ q)) (hx : ∀ t, (lex false r).res ≠ .ok t) :
    ∃ m u, mainLoopE ct fuel T fuel false 0 = (u ++ [.diag .error 1 m false], .ok () 2) ∧ ∀ x ∈ u, x.isDiag = true := by
  obtain ⟨g, hg⟩ : ∃ g, fuel = g + 2 := ⟨fuel - 2, by omega⟩
  obtain ⟨m, u, h3, h4⟩ := two_msgstr_fail (ct := ct) (fuel := fuel) r (by omega) hs h1 h2 hx
  refine ⟨m, u, ?_, h4⟩
  have hentry : Fails (entryE ct fuel T false) 0 (u ++ [.diag .error 1 m false]) 2 := by
    unfold Fails
    rw [two_prefix id r (by omega) hs h0 h1]
    exact Fails.bind (Fails.bind h3)
  have hl : mainLoopE ct fuel T fuel false 0 = mainLoopE ct fuel T (g + 1 + 1) false 0 := by rw [hg]
  rw [hl, main_err (g + 1) (by rw [he]; rfl) hentry, main_eof g (by rw [he]; rfl), List.append_nil]
end
end Tgt.POParser
