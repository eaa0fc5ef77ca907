import Verif.Spec.Said
import Verif.Props.Dictionary
import Verif.Props.Manager
import Verif.Props.ManagerLoad
import Verif.Props.Parse
import Verif.Props.ReadErrors
/-
C79: the wording of messages.
-/
namespace Tgt
open Spec POParser Manager Mgr

/-! ### Numbers -/

theorem digitsValue_append (a b : Str) : ∀ v, digitsValue v (a ++ b) = digitsValue (digitsValue v a) b := by
  induction a with
  | nil => intro v; rfl
  | cons x t ih => intro v; exact ih _

theorem digit_byte (k : Nat) (h : k < 10) : (UInt8.ofNat k.digitChar.toNat).toNat = 48 + k := by
  match k, h with
  | 0, _ | 1, _ | 2, _ | 3, _ | 4, _ | 5, _ | 6, _ | 7, _ | 8, _ | 9, _ => rfl

theorem decimal_small (k : Nat) (h : k < 10) : decimal k = [UInt8.ofNat k.digitChar.toNat] := by
  unfold decimal; rw [Nat.toDigits_of_lt_base h]; rfl

theorem decimal_big (n : Nat) (h : 10 ≤ n) : decimal n = decimal (n / 10) ++ [UInt8.ofNat (n % 10).digitChar.toNat] := by
  unfold decimal; rw [Nat.toDigits_of_base_le (by omega) h]; simp

theorem decimal_spec (n : Nat) : Decimal n (decimal n) := by
  induction n using Nat.strongRecOn with
  | _ n ih =>
    by_cases h : n < 10
    · rw [decimal_small n h]
      refine ⟨?_, by simp, ?_, ?_⟩
      · intro b hb; simp at hb; subst hb; rw [digit_byte n h]; omega
      · generalize UInt8.ofNat n.digitChar.toNat = b
        rintro e
        rw [List.head?_cons] at e
        rw [Option.some.inj e]
      · have h2 := digit_byte n h
        generalize UInt8.ofNat n.digitChar.toNat = b at h2 ⊢
        show 10 * 0 + (b.toNat - 48) = n
        omega
    · have h1 := ih (n / 10) (by omega)
      rw [decimal_big n (by omega)]
      refine ⟨?_, by simp, ?_, ?_⟩
      · intro b hb
        rcases List.mem_append.1 hb with hb | hb
        · exact h1.digits b hb
        · simp at hb; subst hb; rw [digit_byte _ (Nat.mod_lt _ (by omega))]; have := Nat.mod_lt n (show 10 > 0 by omega); omega
      · intro e
        have hne := h1.nonempty
        rw [List.head?_append, Option.or_of_isSome (by rw [List.isSome_head?]; simpa using hne)] at e
        have := h1.short e
        have hv := h1.value
        rw [this] at hv
        have hv' : 0 = n / 10 := hv
        clear hv this e h1 ih
        omega
      · rw [digitsValue_append, h1.value]
        have h2 := digit_byte _ (Nat.mod_lt n (show 10 > 0 by omega))
        generalize UInt8.ofNat (n % 10).digitChar.toNat = b at h2 ⊢
        show 10 * (n / 10) + (b.toNat - 48) = n
        omega

/-! ### Additions -/

theorem showVec_eq (v : List Str) : showVec v = quotedList v := by
  unfold quotedList
  induction v with
  | nil => rfl
  | cons a t ih =>
    cases t with
    | nil => simp [showVec]
    | cons b t =>
      rw [showVec, ih]
      · simp [List.intercalate]
      · simp

theorem stringsRev_untouched (key : Option Str × Str) : ∀ r : List Op, stringsRev key r ≠ [] → ∃ o ∈ r, ∃ a, o = .add a ∧ target a = key := by
  intro r
  induction r with
  | nil => intro h; exact absurd rfl h
  | cons o t ih =>
    intro hne
    rcases o with ⟨⟨c, i, s⟩ | ⟨c, i, p, v⟩⟩ | p | p
    · simp only [stringsRev] at hne
      split at hne
      · rename_i hk; exact ⟨_, List.mem_cons_self .., _, rfl, hk⟩
      · obtain ⟨o, ho, ha⟩ := ih hne; exact ⟨o, List.mem_cons_of_mem _ ho, ha⟩
    · simp only [stringsRev] at hne
      split at hne
      · rename_i hk; exact ⟨_, List.mem_cons_self .., _, rfl, hk⟩
      · obtain ⟨o, ho, ha⟩ := ih hne; exact ⟨o, List.mem_cons_of_mem _ ho, ha⟩
    · obtain ⟨o, ho, ha⟩ := ih hne; exact ⟨o, List.mem_cons_of_mem _ ho, ha⟩
    · obtain ⟨o, ho, ha⟩ := ih hne; exact ⟨o, List.mem_cons_of_mem _ ho, ha⟩

theorem strings_untouched (h : List Op) (key : Option Str × Str) (hn : ¬ Touched h key) : strings h key = [] := by
  refine Classical.byContradiction fun hne => hn ?_
  obtain ⟨o, ho, ha⟩ := stringsRev_untouched key h.reverse hne
  exact ⟨o, by simpa using ho, ha⟩

theorem lookup_strings (cs : Str) (h : List Op) (key : Option Str × Str) : ((after cs h).lookup key).getD [] = strings h key := by
  rw [Dict.lookup_after]
  split
  · rfl
  · rename_i hn; rw [strings_untouched h key hn]; rfl

/-- C79.  What is heard from an addition: nothing, or, if it replaces different strings, one warning that names the message and quotes
the old and the new strings. -/
theorem C79_addition (cs : Str) (h : List Op) (a : Add) :
    heard (a.apply (after cs h)).2
      = if replaces a (strings h (target a)) then [(.warning, collisionText a (strings h (target a)))] else [] := by
  have hp : ∀ (c : Option Str) (i p : Str) (o v : List Str),
      heard (Dictionary.addPluralVec c i p o v).2
        = if replaces (.plural c i p v) o then [(.warning, collisionText (.plural c i p v) o)] else [] := by
    intro c i p o v
    unfold Dictionary.addPluralVec replaces
    cases o with
    | nil => simp [heard]
    | cons v0 vs =>
      by_cases hv : v0 :: vs = v
      · subst hv; simp [heard]
      · cases c <;> simp [hv, heard, Diag.level, Diag.text, collisionText, showVec_eq]
  have hs : ∀ (c : Option Str) (i : Str) (o : List Str) (s : Str),
      heard (Dictionary.addSingularVec c i o s).2
        = if replaces (.singular c i s) o then [(.warning, collisionText (.singular c i s) o)] else [] := by
    intro c i o s
    unfold Dictionary.addSingularVec replaces
    cases o with
    | nil => simp [heard]
    | cons v0 vs =>
      by_cases hv : v0 = s
      · subst hv; simp [heard]
      · cases c <;> simp [hv, heard, Diag.level, Diag.text, collisionText]
  rcases a with ⟨_ | c, i, s⟩ | ⟨_ | c, i, p, v⟩
  · simp only [Add.apply, Dictionary.addSingular, Dict.vecAt_eq]
    rw [show ((after cs h).entries.get? i).getD [] = strings h (none, i) from lookup_strings cs h (none, i)]
    exact hs none i _ s
  · simp only [Add.apply, Dictionary.addCtxtSingular, Dict.vecAt_eq, Dict.ctxtAt_get?, lookup_strings]
    exact hs (some c) i _ s
  · simp only [Add.apply, Dictionary.addPlural, Dict.vecAt_eq]
    rw [show ((after cs h).entries.get? i).getD [] = strings h (none, i) from lookup_strings cs h (none, i)]
    exact hp none i p _ v
  · simp only [Add.apply, Dictionary.addCtxtPlural, Dict.vecAt_eq, Dict.ctxtAt_get?, lookup_strings]
    exact hp (some c) i p _ v

example : heard ((Add.singular (some b!"menu") b!"exit" b!"Ende").apply (after b!"UTF-8" [.add (.singular (some b!"menu") b!"exit" b!"Aus")])).2
    = [(.warning, b!"collision in add_translation: 'menu', 'exit' -> 'Aus' vs 'Ende'\n")] := by decide +kernel

/-! ### Lookups -/

theorem plural_said (cs : Str) (h : List Op) (c : Option Str) (e : Entries) (msgid p : Str) (n : Int)
    (he : ∀ i, e.get? i = if Touched h (c, i) then some (strings h (c, i)) else none) (hk : e.keys.Nodup) :
    SaidOfPlural h c msgid n (heard ((after cs h).translatePluralIn e msgid p n).2) := by
  unfold SaidOfPlural Dictionary.translatePluralIn
  rw [he, Dict.pluralForms_after]
  by_cases ht : Touched h (c, msgid)
  · rw [if_pos ht, if_pos ht]
    dsimp only
    split
    · rename_i hl
      rw [List.getElem?_eq_getElem hl]
      dsimp only
      split <;> rfl
    · rename_i hl
      rw [List.getElem?_eq_none (by omega)]
      exact ⟨decimal _, decimal_spec _, by simp [heard, Diag.level, Diag.text]⟩
  · rw [if_neg ht, if_neg ht]
    dsimp only
    refine ⟨e.keys, hk, fun j => ?_, ?_⟩
    · rw [AMap.mem_keys_iff, he]
      by_cases hj : Touched h (c, j) <;> simp [hj]
    · simp [heard, missing, Diag.level, Diag.text, Function.comp_def]

/-- C79.  What is heard from a lookup (in a dictionary without fallback): nothing if there is a translation, and otherwise what
`SaidOfLookup` says; nothing else. -/
theorem C79_lookup (cs : Str) (h : List Op) (hn : NoFallback h) (q : Query) (heap : DictId → Option Dictionary) (fuel : Nat) (hf : 0 < fuel)
    (log : List Diag) :
    ∃ r said, q.on heap fuel (after cs h) log = .ok r (log ++ said) ∧ SaidOfLookup h (heard said) q := by
  have hfb := Dict.hasFallback_after cs h hn
  obtain ⟨f, rfl⟩ : ∃ f, fuel = f + 1 := ⟨fuel - 1, by omega⟩
  have single : ∀ (c : Option Str) (e : Entries) (i : Str), ((e.get? i).getD [] = strings h (c, i)) →
      ∃ r said, Dictionary.translateIn heap (f + 1) (after cs h) e i log = .ok r (log ++ said) ∧
        heard said = if (latest h (c, i)).isNone then missing i else [] := by
    intro c e i he
    rw [Dict.latest_eq_head]
    cases hs : strings h (c, i) with
    | nil =>
      refine ⟨_, _, Dict.translateIn_miss heap f _ e i ?_ hfb log, by simp [heard, missing, Diag.level, Diag.text]⟩
      rw [hs] at he
      cases hg : e.get? i with
      | none => rfl
      | some v => rw [hg] at he; simp at he; subst he; rfl
    | cons s t =>
      refine ⟨s, [], ?_, by simp [heard]⟩
      rw [List.append_nil]
      refine Dict.translateIn_hit heap f _ e i s t ?_ log
      rw [hs] at he
      cases hg : e.get? i with
      | none => rw [hg] at he; cases he
      | some v => rw [hg] at he; simp at he; subst he; rfl
  have hctx : ∀ c e i, (after cs h).ctxtEntries.get? c = some e →
      e.get? i = if Touched h (some c, i) then some (strings h (some c, i)) else none := by
    intro c e i he
    rw [← Dict.lookup_after cs]
    simp only [Dictionary.lookup, he]
  have hnone : ∀ c, (after cs h).ctxtEntries.get? c = none ↔ ¬ ∃ j, Touched h (some c, j) := by
    intro c
    rw [← Dict.hasCtxt_after cs]
    unfold Dict.hasCtxt
    cases (after cs h).ctxtEntries.get? c <;> simp
  cases q with
  | translate i => exact single none _ i (lookup_strings cs h (none, i))
  | ctxt c i =>
    simp only [Query.on, Dictionary.translateCtxt, SaidOfLookup]
    cases he : (after cs h).ctxtEntries.get? c with
    | none =>
      refine ⟨i, _, rfl, ?_⟩
      have : strings h (some c, i) = [] := strings_untouched h _ (fun ht => (hnone c).1 he ⟨i, ht⟩)
      rw [Dict.latest_eq_head, this]
      simp [heard, missing, Diag.level, Diag.text]
    | some e =>
      refine single (some c) e i ?_
      rw [hctx c e i he]
      split
      · rfl
      · rename_i hu; rw [strings_untouched h _ hu]; rfl
  | plural i p n =>
    exact ⟨_, _, rfl, plural_said cs h none _ i p n (fun j => Dict.lookup_after cs (none, j) h) (Dict.nodup_after cs h).1⟩
  | ctxtPlural c i p n =>
    refine ⟨_, _, rfl, ?_, ?_⟩
    · intro hj
      unfold Dictionary.translateCtxtPlural
      cases he : (after cs h).ctxtEntries.get? c with
      | none => exact absurd hj ((hnone c).1 he)
      | some e => exact plural_said cs h (some c) e i p n (fun j => hctx c e j he) ((Dict.nodup_after cs h).2.2 c e he)
    · intro hj
      unfold Dictionary.translateCtxtPlural
      rw [(hnone c).2 hj]
      simp [heard, missing, Diag.level, Diag.text]

-- a missing plural message: the candidates are listed
example : ∃ r said, (Query.plural b!"cat" b!"cats" 3).on (fun _ => none) 1
      (after b!"UTF-8" [.add (.plural none b!"dog" b!"dogs" [b!"Hund"]), .add (.singular none b!"x" b!"y")]) [] = .ok r said ∧
    heard said = [(.info, b!"Couldn't translate: cat\n"), (.info, b!"Candidates: \n"), (.info, b!"'dog'\n"), (.info, b!"'x'\n")] :=
  ⟨_, _, rfl, by decide +kernel⟩

/-! ### Parses -/

theorem startTape_any (s : Stream) (p : Nat) : (startTape s p).line = lineOf s (p + 1) := by
  obtain ⟨t, g, b⟩ := s
  unfold lineOf
  cases g with
  | true =>
    rw [if_pos rfl]
    cases b with
    | true => exact (startTape_broken t p).1
    | false => exact (startTape_lines t p).1
  | false =>
    rw [if_neg (by simp)]
    have h0 : ∀ p, tape ⟨⟨t, false, b⟩, [], true⟩ p = ⟨⟨t, false, b⟩, [], true⟩ := by
      intro p
      induction p with
      | zero => rfl
      | succ p ih => show (tape _ p).next = _; rw [ih]; rfl
    show (tape ⟨⟨t, false, b⟩, [], true⟩ p).line = []
    rw [h0]

/-- C79.  Everything that is heard from a parse (of any stream into any dictionary) is a complaint about a line, naming the file, the
number of the line and quoting it, or about a replaced translation or a string that cannot be converted. -/
theorem C79_parse (c : Cfg) (input : Stream) (d : Dictionary) (lv : Level) (t : Str)
    (h : (lv, t) ∈ heard (observe (run c input d)).log) : SaidOfFile c.filename (lineOf input) lv t := by
  obtain ⟨x, hx, he⟩ := List.mem_map.1 h
  rcases run_obs_mono c input d (c.fuel + input.rest.length + 1) (by omega) (by omega) with h' | h'
  · rw [h'] at hx; cases hx
  · rw [h'] at hx
    have hq := obsE_log c _ _ (events_say _ _ _) _ _ _ hx
    simp only [Prod.mk.injEq] at he
    obtain ⟨rfl, rfl⟩ := he
    cases x with
    | po lv f n m cur =>
      obtain ⟨rfl, hw, p, rfl, rfl⟩ := hq
      refine .inl ⟨p + 1, m, by omega, hw, decimal (p + 1), decimal_spec _, ?_⟩
      rw [startTape_any]
      cases lv <;> simp [Diag.text, Diag.level, severity]
    | collisionPlural c i p o n => exact .inr (.inl ⟨rfl, .plural c i p n, o, by cases c <;> simp [Diag.text, collisionText, showVec_eq]⟩)
    | collisionSingular c i o n => exact .inr (.inl ⟨rfl, .singular c i n, [o], by cases c <;> simp [Diag.text, collisionText]⟩)
    | iconvInvalid s => exact .inr (.inr ⟨rfl, s, by simp [Diag.text]⟩)
    | _ => exact hq.elim

example : SaidOfFile b!"de.po" (lineOf (.ofBytes b!"oops\n")) .error b!"de.po:1: error: expected 'msgid': oops\n" :=
  C79_parse ⟨.c, demoLib, false, b!"de.po", true, 60⟩ _ (.init b!"UTF-8") _ _ (by decide +kernel)

/-! ### Loading -/

theorem best_unique {ct : CType} {l : Language} {files : List Str} {f g : Str} (hf : BestFile ct l files f) (hg : BestFile ct l files g) : f = g := by
  obtain ⟨b1, a1, e1, p1, h1, k1⟩ := hf
  obtain ⟨b2, a2, e2, p2, h2, k2⟩ := hg
  rw [e1] at e2
  rcases List.append_eq_append_iff.1 e2 with ⟨t, h3, h4⟩ | ⟨t, h3, h4⟩
  · cases t with
    | nil => simp at h4; exact h4.1
    | cons x t =>
      simp only [List.cons_append, List.cons.injEq] at h4
      obtain ⟨rfl, h4⟩ := h4
      have := h2 f (by rw [h3]; simp)
      have := k1 g (by rw [h4]; simp)
      omega
  · cases t with
    | nil => simp at h4; exact h4.1.symm
    | cons x t =>
      simp only [List.cons_append, List.cons.injEq] at h4
      obtain ⟨rfl, h4⟩ := h4
      have := h1 g (by rw [h3]; simp)
      have := k2 f (by rw [h4]; simp)
      omega

theorem noFile_best {ct : CType} {l : Language} {files : List Str} {f : Str} (hn : NoFile ct l files) (hf : BestFile ct l files f) : False := by
  obtain ⟨b, a, e, p, _⟩ := hf
  have := hn f (by rw [e]; simp)
  omega

theorem scan_heard (ct : CType) (files : List Str) : heard (scanLog ct files)
    = (files.filter (unknownName ct)).map (fun f => (.warning, f ++ b!": warning: ignoring, unknown language\n")) := by
  induction files with
  | nil => rfl
  | cons f t ih =>
    have hu : (hasSuffix f b!".po" && !(Language.fromEnv ((convertFilename2Language ct f).getD [])).isDefined) = unknownName ct f := by
      unfold unknownName denoted
      cases hs : hasSuffix f b!".po" with
      | false =>
        have : ¬ b!".po" <:+ f := fun h => by rw [(hasSuffix_iff f _).2 h] at hs; cases hs
        rw [if_neg this]
        simp
      | true =>
        have h3 : b!".po" <:+ f := (hasSuffix_iff f _).1 hs
        rw [if_pos h3, List.isSuffixOf_iff_suffix.2 h3]
        cases hc : convertFilename2Language ct f with
        | none =>
          have hlen : ¬ f.length < 3 := by have := h3.length_le; simpa using this
          exact absurd ((C13_throws_iff ct f).1 hc) hlen
        | some name =>
          simp only [Option.getD_some, Option.map_some, Bool.true_and]
          cases Language.fromEnv name <;> rfl
    unfold scanLog
    rw [hu]
    cases hq : unknownName ct f with
    | true =>
      rw [if_pos rfl, List.filter_cons, if_pos (by rw [hq])]
      show _ :: heard (scanLog ct t) = _
      rw [ih]
      simp [Diag.level, Diag.text]
    | false =>
      rw [if_neg (by simp), List.filter_cons, if_neg (by rw [hq]; simp)]
      exact ih

theorem files1_said {env : Env} {l : Language} {dir : Str} {files : List Str} {x y : DL} {a : Unit}
    (ho : env.fs.openDirectory dir = .ok files) (h : files1 env l dir files x = .ok a y) :
    ∃ new, y.2 = x.2 ++ new ∧ SaidOfDir env l dir (heard new) := by
  have hap : ∀ a b, heard (a ++ b) = heard a ++ heard b := fun a b => List.map_append
  unfold files1 at h
  rcases best_cases env.ct l files with ⟨h1, h2⟩ | ⟨h1, h2⟩
  · rw [if_pos h2] at h
    cases h
    refine ⟨scanLog env.ct files, rfl, ?_⟩
    have := SaidOfDir.mk (env := env) (l := l) (dir := dir) (rest := []) ho (fun _ => rfl) (fun f hf => (noFile_best h1 hf).elim)
    rwa [List.append_nil, ← scan_heard] at this
  · rw [if_neg (by rw [h2]; simp)] at h
    generalize (files.foldl (scanStep env.ct l) ([], 0)).1 = g at h h1 h2
    have build : ∀ rest : List Diag, y.2 = x.2 ++ scanLog env.ct files ++ rest →
        ((env.fs.openFile (dir ++ b!"/" ++ g) = .null → heard rest = [(.error, b!"error: failure opening: " ++ dir ++ b!"/" ++ g ++ b!"\n")]) ∧
        (∀ w, env.fs.openFile (dir ++ b!"/" ++ g) = .throws w → heard rest = failure (dir ++ b!"/" ++ g) w) ∧
        (∀ s, env.fs.openFile (dir ++ b!"/" ++ g) = .stream s →
        ∃ d, (∀ x ∈ heard (Spec.parseFile env (dir ++ b!"/" ++ g) s d).log, SaidOfFile (dir ++ b!"/" ++ g) (lineOf s) x.1 x.2) ∧
          heard rest = heard (Spec.parseFile env (dir ++ b!"/" ++ g) s d).log ++
            match Spec.parseFile env (dir ++ b!"/" ++ g) s d with
            | .threw w _ _ => failure (dir ++ b!"/" ++ g) w
            | _ => [])) →
        ∃ new, y.2 = x.2 ++ new ∧ SaidOfDir env l dir (heard new) := by
      intro rest hy hr
      refine ⟨scanLog env.ct files ++ rest, by rw [hy, List.append_assoc], ?_⟩
      rw [hap, scan_heard]
      refine SaidOfDir.mk ho (fun hn => (noFile_best hn h1).elim) (fun f hf => ?_)
      rw [best_unique hf h1]
      exact hr
    unfold file1 at h
    cases hf : env.fs.openFile (dir ++ b!"/" ++ g) with
    | null =>
      rw [hf] at h
      cases h
      refine build [.openFailure (dir ++ b!"/" ++ g)] rfl ⟨fun _ => ?_, (fun w hw => by rw [hf] at hw; cases hw), (fun w hw => by rw [hf] at hw; cases hw)⟩
      simp [heard, Diag.level, Diag.text]
    | throws w =>
      rw [hf] at h
      cases h
      refine build [.parseFailure (dir ++ b!"/" ++ g), .parseFailureWhat w] rfl ⟨(fun hw => by rw [hf] at hw; cases hw), fun w' hw => ?_, (fun w hw => by rw [hf] at hw; cases hw)⟩
      rw [hf] at hw; cases hw
      simp [heard, Diag.level, Diag.text, Spec.failure]
    | stream s =>
      rw [hf] at h
      have hall : ∀ z ∈ heard (Spec.parseFile env (dir ++ b!"/" ++ g) s x.1).log, SaidOfFile (dir ++ b!"/" ++ g) (lineOf s) z.1 z.2 :=
        fun z hz => C79_parse (cfgOf env (dir ++ b!"/" ++ g)) s x.1 z.1 z.2 hz
      dsimp only at h
      unfold parse1 at h
      rcases run_cases (cfgOf env (dir ++ b!"/" ++ g)) s x.1 with ⟨st, hr, hd⟩ | ⟨w, st, hr, hd⟩ | ⟨f, hr, _⟩ | hr
      · rw [hr] at h
        cases h
        have hp : Spec.parseFile env (dir ++ b!"/" ++ g) s x.1 = .returned st.dict st.log := by rw [parseFile_dict, hr]; rfl
        refine build st.log rfl ⟨(fun hw => by rw [hf] at hw; cases hw), (fun w hw => by rw [hf] at hw; cases hw), fun s' hs => ?_⟩
        rw [hf] at hs; cases hs
        refine ⟨x.1, hall, ?_⟩
        rw [hp]
        simp [Observed.log]
      · rw [hr] at h
        cases h
        have hp : Spec.parseFile env (dir ++ b!"/" ++ g) s x.1 = .threw w st.dict st.log := by rw [parseFile_dict, hr]; rfl
        refine build (st.log ++ [.parseFailure (dir ++ b!"/" ++ g), .parseFailureWhat w]) (by simp) ⟨(fun hw => by rw [hf] at hw; cases hw), (fun w hw => by rw [hf] at hw; cases hw), fun s' hs => ?_⟩
        rw [hf] at hs; cases hs
        refine ⟨x.1, hall, ?_⟩
        rw [hp, hap]
        simp [Observed.log, Spec.failure, heard, Diag.level, Diag.text]
      · rw [hr] at h; cases h
      · rw [hr] at h; cases h

theorem dirs1_said {env : Env} {l : Language} (dirs : List Str) : ∀ {x y : DL} {a : Unit}, dirs1 env l dirs x = .ok a y →
    ∃ new, y.2 = x.2 ++ new ∧ ∀ acc s, SaidOfPath env l acc s → SaidOfPath env l (dirs.reverse ++ acc) (s ++ heard new) := by
  induction dirs with
  | nil => intro x y a h; cases h; exact ⟨[], by simp, fun acc s h => by simpa [heard] using h⟩
  | cons dir t ih =>
    intro x y a h
    unfold dirs1 at h
    cases ho : env.fs.openDirectory dir with
    | error w => rw [ho] at h; cases h
    | ok files =>
      rw [ho] at h
      dsimp only at h
      rw [bind_apply] at h
      cases hx : files1 env l dir files x with
      | ok b z =>
        rw [hx] at h
        obtain ⟨n1, h1, h2⟩ := files1_said ho hx
        obtain ⟨n2, h3, h4⟩ := ih h
        refine ⟨n1 ++ n2, by rw [h3, h1, List.append_assoc], fun acc s hp => ?_⟩
        have := h4 (dir :: acc) _ (.cons hp h2)
        simpa [heard] using this
      | _ => rw [hx] at h; cases h

theorem path_said {env : Env} {l : Language} {path : List Str} {x y : DL} {a : Unit} (h : dirs1 env l path.reverse x = .ok a y) :
    ∃ new, y.2 = x.2 ++ new ∧ SaidOfPath env l path (heard new) := by
  obtain ⟨new, h1, h2⟩ := dirs1_said _ h
  exact ⟨new, h1, by simpa using h2 [] [] .nil⟩

/-- Loading a language without country. -/
theorem base_said (env : Env) (n : Nat) (l : Language) (hl : l.isDefined = true) (hc : l.getCountry = []) (m m' : Manager) (p : DictId)
    (hg : getDictionaryFor env n l m = .ok p m') :
    ∃ new, m'.log = m.log ++ new ∧ (if (m.dictionaries.get? l).isSome then heard new = [] else SaidOfPath env l m.searchPath (heard new)) := by
  cases n with
  | zero => cases hg
  | succ f =>
    cases hn : m.dictionaries.get? l with
    | some q =>
      rw [getFor_hit env f l m hl hn] at hg
      cases hg
      exact ⟨[], by simp, by simp [heard]⟩
    | none =>
      rw [getFor_miss env f l m hl hn] at hg
      cases hx : dirs1 env l m.searchPath.reverse (Dictionary.init m.charset, m.log) with
      | ok a x =>
        rw [hx] at hg
        dsimp only [Res.mapS] at hg
        obtain ⟨n1, h1, h2⟩ := path_said hx
        rw [if_pos hc] at hg
        cases hg
        exact ⟨n1, h1, by simpa using h2⟩
      | _ => rw [hx] at hg; cases hg

/-- C79.  What is heard from `get_dictionary(l)` (for any `l`, on any manager): nothing if the language is loaded already; otherwise what
searching the search path for it gives, followed by what searching it for the language without country gives, if that is needed and not
loaded already. -/
theorem C79_load (env : Env) (n : Nat) (l : Language) (m m' : Manager) (p : DictId) (hg : getDictionaryFor env n l m = .ok p m') :
    ∃ new said said', m'.log = m.log ++ new ∧ heard new = said ++ said' ∧
      (if (m.dictionaries.get? l).isSome then said = [] else SaidOfPath env l m.searchPath said) ∧
      (if (m.dictionaries.get? l).isSome ∨ l.getCountry = [] ∨ (m.dictionaries.get? (Language.fromSpec l.getLanguage [] [])).isSome then said' = []
       else SaidOfPath env (Language.fromSpec l.getLanguage [] []) m.searchPath said') := by
  cases n with
  | zero => cases hg
  | succ f =>
    have hl : l.isDefined = true := by
      cases hd : l.isDefined with
      | true => rfl
      | false => rw [getDictionaryFor, if_pos (by simp [hd])] at hg; cases hg
    cases hn : m.dictionaries.get? l with
    | some q =>
      rw [getFor_hit env f l m hl hn] at hg
      cases hg
      exact ⟨[], [], [], by simp, rfl, by simp, by simp⟩
    | none =>
      rw [getFor_miss env f l m hl hn] at hg
      cases hx : dirs1 env l m.searchPath.reverse (Dictionary.init m.charset, m.log) with
      | ok a x =>
        rw [hx] at hg
        dsimp only [Res.mapS] at hg
        obtain ⟨n1, h1, h2⟩ := path_said hx
        by_cases hc : l.getCountry = []
        · rw [if_pos hc] at hg
          cases hg
          exact ⟨n1, heard n1, [], h1, by simp, by simpa using h2, by simp [hc]⟩
        · rw [if_neg hc] at hg
          have hne : baseOf l ≠ l := fun e => hc (by rw [← e]; exact (base_defined hl).2)
          cases hr : getDictionaryFor env f (baseOf l) (put (fresh l m) m.nextId x) with
          | ok fb m2 =>
            rw [hr] at hg
            obtain ⟨n2, h3, h4⟩ := base_said env f _ (base_defined hl).1 (base_defined hl).2 _ _ _ hr
            have hlog : m'.log = m2.log := by
              dsimp only at hg
              rw [prog_bind, bind_apply] at hg
              unfold Manager.addFallback at hg
              cases hd : m2.heap.get? m.nextId with
              | none => rw [hd] at hg; cases hg
              | some d2 =>
                rw [hd] at hg
                cases hg
                rfl
            have hget : (put (fresh l m) m.nextId x).dictionaries.get? (baseOf l) = m.dictionaries.get? (baseOf l) :=
              AMap.get?_set_ne _ _ hne.symm
            rw [hget] at h4
            refine ⟨n1 ++ n2, heard n1, heard n2, ?_, by simp [heard], by simpa using h2, ?_⟩
            · rw [hlog, h3, ← List.append_assoc, ← h1]; rfl
            · show (if _ ∨ _ ∨ (m.dictionaries.get? (baseOf l)).isSome = true then _ else _)
              simp only [Option.isSome_none, Bool.false_eq_true, hc, false_or]
              exact h4
          | _ => rw [hr] at hg; cases hg
      | _ => rw [hx] at hg; cases hg

-- loading Austrian German from two directories: both are searched twice, the lower one first
example : ∃ p m, getDictionaryFor demoEnv 3 atLang (newManager ⟨[b!"hi", b!"lo"], b!"UTF-8", true⟩) = .ok p m ∧
    (heard m.log).map (·.2) =
      [b!"lo/de.po:3: warning: charset not specified for .po, fallback to utf-8: \n",
       b!"xx.po: warning: ignoring, unknown language\n",
       b!"lo/de.po:3: warning: charset not specified for .po, fallback to utf-8: \n",
       b!"xx.po: warning: ignoring, unknown language\n",
       b!"hi/de.po:3: warning: Plural-Forms missmatch between .po file and dictionary: \n",
       b!"hi/de.po:3: warning: charset not specified for .po, fallback to utf-8: \n",
       b!"collision in add_translation: 'dog' -> 'Hund' vs 'Koeter'\n"] := by
  have h : (match getDictionaryFor demoEnv 3 atLang (newManager ⟨[b!"hi", b!"lo"], b!"UTF-8", true⟩) with
    | .ok _ m => some ((heard m.log).map (·.2)) | _ => none) = some
      [b!"lo/de.po:3: warning: charset not specified for .po, fallback to utf-8: \n",
       b!"xx.po: warning: ignoring, unknown language\n",
       b!"lo/de.po:3: warning: charset not specified for .po, fallback to utf-8: \n",
       b!"xx.po: warning: ignoring, unknown language\n",
       b!"hi/de.po:3: warning: Plural-Forms missmatch between .po file and dictionary: \n",
       b!"hi/de.po:3: warning: charset not specified for .po, fallback to utf-8: \n",
       b!"collision in add_translation: 'dog' -> 'Hund' vs 'Koeter'\n"] := by decide +kernel
  generalize getDictionaryFor demoEnv 3 atLang (newManager ⟨[b!"hi", b!"lo"], b!"UTF-8", true⟩) = r at h
  cases r with
  | ok p m => exact ⟨p, m, rfl, Option.some.inj h⟩
  | _ => cases h

end Tgt
