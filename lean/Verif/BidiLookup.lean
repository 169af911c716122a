import Verif.BidiBD16
import Verif.BidiResolve

/-
The parser's look at the bracket pairs, after the scanner has ended.
-/
namespace Uax.Bidi
open Spec

/-- The map from positions to handlers leads to handlers. -/
def Scanner.IrsOk (sc : Scanner) : Prop := ∀ x ∈ sc.irs, x.2 < sc.handlers.length

theorem irsOk_of {a b : Scanner} (h : a.IrsOk) (h1 : b.irs = a.irs) (h2 : b.handlers.length = a.handlers.length) : b.IrsOk := by
  intro x hx
  rw [h1] at hx
  rw [h2]
  exact h x hx

theorem setHandler_length (hs : List Handler) (i : Nat) (f : Handler → Handler) : (setHandler hs i f).length = hs.length := by
  simp [setHandler]

theorem switch_irs {sc : Scanner} (h : sc.IrsOk) (s : Scrap) : (isolatingRunSwitch sc s).IrsOk := by
  unfold isolatingRunSwitch
  split
  · split
    · exact h
    · dsimp only
      split <;> exact irsOk_of h rfl (setHandler_length _ _ _)
  · intro x hx
    dsimp only at hx ⊢
    rw [List.length_append, setHandler_length]
    rw [List.mem_cons] at hx
    rcases hx with rfl | hx
    · simp
    · have := h x hx
      simp only [List.length_singleton]
      omega

theorem proceed_irs {sc : Scanner} (h : sc.IrsOk) (r : Nat) (la : Scrap) (a : Bool) : (proceed sc r la a).IrsOk := by
  have hp : ∀ (sc : Scanner) s, sc.IrsOk → (prepareRuleBD16 sc r s).IrsOk := by
    intro sc s h
    unfold prepareRuleBD16
    split
    · exact h
    · split <;> exact irsOk_of h rfl (setHandler_length _ _ _)
  unfold proceed
  dsimp only
  exact hp _ _ h

theorem nextRune_irs {T : Tables} {o : Options} {sc : Scanner} (h : sc.IrsOk) (pos : Nat) : (nextRune T o sc pos).2.IrsOk := by
  have hr : (readRune T o sc).2.IrsOk := by
    unfold readRune
    split
    · exact h
    · dsimp only
      split <;> exact h
  unfold nextRune
  dsimp only
  repeat' split
  all_goals first
    | exact hr
    | exact h

theorem scanLoop_irs {T : Tables} {o : Options} {sc : Scanner} (h : sc.IrsOk) : (scanLoop T o sc).IrsOk := by
  unfold scanLoop
  have hn := nextRune_irs (T := T) (o := o) h sc.current.r
  split
  · rename_i sc' he
    rw [he] at hn
    dsimp only
    split
    · exact switch_irs hn _
    · exact hn
  · rename_i sc' he
    rw [he] at hn
    dsimp only
    split
    · split
      · split
        · exact switch_irs hn _
        · exact hn
      · exact proceed_irs hn _ _ _
    · exact hn

theorem steps_irs {T : Tables} {o : Options} : ∀ (n : Nat) {sc : Scanner}, sc.IrsOk → (sc.steps T o n).IrsOk := by
  intro n
  induction n with
  | zero => intro sc h; exact h
  | succ n ih =>
    intro sc h
    rw [Scanner.steps]
    cases hs : sc.step T o with
    | none => exact h
    | some s1 =>
      refine ih ?_
      unfold Scanner.step at hs
      split at hs
      · simp only [Option.some.injEq] at hs; subst hs; exact scanLoop_irs h
      · simp only [Option.some.injEq] at hs; subst hs; exact proceed_irs h _ _ _
      · cases hs

theorem recv_irs {T : Tables} {o : Options} {sched : Nat → Nat} {e e' : Scanner × Nat} {x : Scrap} (h : e.1.IrsOk)
    (hr : (scannerEnv T o sched).recv e = some (x, e')) : e'.1.IrsOk := by
  obtain ⟨sc, i⟩ := e
  change ((sc.steps T o (3 * sc.input.length + 4)).receive).map _ = _ at hr
  have hk := steps_irs (T := T) (o := o) (3 * sc.input.length + 4) h
  generalize sc.steps T o (3 * sc.input.length + 4) = s1 at hr hk
  unfold Scanner.receive at hr
  split at hr
  all_goals
    simp only [Option.map_some, Option.map_none, Option.some.injEq, Prod.mk.injEq, reduceCtorEq] at hr
  all_goals
    rw [← hr.2]
    exact hk

theorem feeds_irs {T : Tables} {o : Options} {sched : Nat → Nat} {e e' : Scanner × Nat} {ss : List Scrap} (h : e.1.IrsOk)
    (hf : Feeds (scannerEnv T o sched) e ss e') : e'.1.IrsOk := by
  induction hf with
  | stop hr _ => exact recv_irs h hr
  | more hr _ _ ih => exact ih (recv_irs h hr)

/-- With a single handler the parser looks there. -/
theorem bd16For_single {sc : Scanner} {h : Handler} (hi : sc.IrsOk) (hh : sc.handlers = [h]) (pos : Nat) : sc.bd16For pos = 0 := by
  have h0 : sc.irsAt 0 = 0 := by
    unfold Scanner.irsAt
    cases hf : sc.irs.find? (·.1 == 0) with
    | none => rfl
    | some x =>
      have := hi x (List.mem_of_find?_eq_some hf)
      rw [hh] at this
      simp at this
      simpa using this
  unfold Scanner.bd16For
  rw [h0, hh]
  unfold bd16Loop
  dsimp only [List.length_singleton, List.getElem?_cons_zero]
  cases h.next with
  | none => rfl
  | some j =>
    dsimp only [bd16Loop]
    split <;> rfl

/-- What the parser sees. -/
theorem pairing_single {T : Tables} {o : Options} {sched : Nat → Nat} {sc : Scanner} {h : Handler} (hs : sc.step T o = none) (hi : sc.IrsOk)
    (hh : sc.handlers = [h]) (i : Nat) (s : Scrap) : ((scannerEnv T o sched).pairing (sc, i) s).1 = h.find s := by
  show ((sc.steps T o (sched i)).handlers[(sc.steps T o (sched i)).bd16For s.l]?).bind (·.find s) = _
  have : ∀ n, sc.steps T o n = sc := by
    intro n
    cases n with
    | zero => rfl
    | succ n => rw [Scanner.steps, hs]
  rw [this, bd16For_single hi hh, hh]
  rfl

/-- Looking for a pair finds what is there, when positions differ. -/
theorem find_opening {h : Handler} (hn : (h.found.map (·.1)).Nodup) (p q : Nat) :
    (∃ pr, h.find { clz := cBRACKO, l := p } = some pr ∧ pr.closing.l = q) ↔ (p, q) ∈ h.found := by
  unfold Handler.found at hn ⊢
  unfold Handler.find
  simp only [if_true]
  generalize h.pairings = l at hn ⊢
  induction l with
  | nil => simp
  | cons x xs ih =>
    rw [List.map_cons, List.map_cons, List.nodup_cons] at hn
    rw [List.map_cons, List.mem_cons, Prod.mk.injEq]
    by_cases hx : x.opening.l = p
    · rw [List.find?_cons_of_pos (by simpa using hx)]
      constructor
      · rintro ⟨pr, h1, h2⟩
        obtain rfl := Option.some.inj h1
        exact Or.inl ⟨hx.symm, h2.symm⟩
      · rintro (⟨-, h2⟩ | h2)
        · exact ⟨x, rfl, h2.symm⟩
        · exfalso
          apply hn.1
          rw [hx]
          exact List.mem_map.mpr ⟨(p, q), h2, rfl⟩
    · rw [List.find?_cons_of_neg (by simpa using hx), ih hn.2]
      constructor
      · exact Or.inr
      · rintro (⟨h1, -⟩ | h2)
        · exact absurd h1.symm hx
        · exact h2

theorem find_closing {h : Handler} (hn : (h.found.map (·.2)).Nodup) (p q : Nat) :
    (∃ pr, h.find { clz := cBRACKC, l := q } = some pr ∧ pr.opening.l = p) ↔ (p, q) ∈ h.found := by
  unfold Handler.found at hn ⊢
  unfold Handler.find
  simp only [show (cBRACKC = cBRACKO) = False from by decide, if_false]
  generalize h.pairings = l at hn ⊢
  induction l with
  | nil => simp
  | cons x xs ih =>
    rw [List.map_cons, List.map_cons, List.nodup_cons] at hn
    rw [List.map_cons, List.mem_cons, Prod.mk.injEq]
    by_cases hx : x.closing.l = q
    · rw [List.find?_cons_of_pos (by simpa using hx)]
      constructor
      · rintro ⟨pr, h1, h2⟩
        obtain rfl := Option.some.inj h1
        exact Or.inl ⟨h2.symm, hx.symm⟩
      · rintro (⟨h1, -⟩ | h2)
        · exact ⟨x, rfl, h1.symm⟩
        · exfalso
          apply hn.1
          rw [hx]
          exact List.mem_map.mpr ⟨(p, q), h2, rfl⟩
    · rw [List.find?_cons_of_neg (by simpa using hx), ih hn.2]
      constructor
      · exact Or.inr
      · rintro (⟨-, h1⟩ | h2)
        · exact absurd h1.symm hx
        · exact h2

/-- Brackets of a text come at increasing positions. -/
inductive Increasing : Nat → List Bracket → Prop
  | nil {n} : Increasing n []
  | opening {n c pos rest} (h : n ≤ pos) (hr : Increasing (pos + 1) rest) : Increasing n (.opening c pos :: rest)
  | closing {n r pos rest} (h : n ≤ pos) (hr : Increasing (pos + 1) rest) : Increasing n (.closing r pos :: rest)

theorem Increasing.le {n m : Nat} {l : List Bracket} (h : Increasing m l) (hn : n ≤ m) : Increasing n l := by
  cases h with
  | nil => exact .nil
  | opening h hr => exact .opening (by omega) hr
  | closing h hr => exact .closing (by omega) hr

theorem utf8_pos (c : Char) : 0 < (utf8 [c]).length := by
  have := Char.utf8Size_pos c
  simpa [utf8] using this

theorem increasing_brackets {T : Tables} {o : Options} : ∀ (t : List Char) (n : Nat), Increasing n (bracketsOf T o n t) := by
  intro t
  induction t with
  | nil => intro n; exact .nil
  | cons c t ih =>
    intro n
    rw [bracketsOf]
    have := utf8_pos c
    have h1 := (ih (n + (utf8 [c]).length)).le (n := n + 1) (by omega)
    split
    · split
      · exact .opening (Nat.le_refl _) h1
      · exact h1.le (by omega)
    · split
      · exact .closing (Nat.le_refl _) h1
      · exact h1.le (by omega)

/-- Positions occur once in the pairs. -/
theorem bd16_nodup (std : Bool) : ∀ (l : List Bracket) (stack : List (Nat × Nat)) (n : Nat), Increasing n l → (∀ x ∈ stack, x.2 < n) →
    (stack.map (·.2)).Nodup →
    ((bd16 std stack l).map (·.1)).Nodup ∧ ((bd16 std stack l).map (·.2)).Nodup ∧
    (∀ x ∈ bd16 std stack l, n ≤ x.2 ∧ (x.1 ∈ stack.map (·.2) ∨ n ≤ x.1)) := by
  intro l
  induction l with
  | nil => intro stack n _ _ _; simp [bd16]
  | cons b l ih =>
    intro stack n hi hs hn
    cases hi with
    | @opening _ c pos _ h hr =>
      rw [bd16]
      have hskip := ih stack (pos + 1) hr (fun x hx => by have := hs x hx; omega) hn
      have hpush := ih ((c, pos) :: stack) (pos + 1) hr (by
        intro x hx
        rw [List.mem_cons] at hx
        rcases hx with rfl | hx
        · simp
        · have := hs x hx; omega) (by
        rw [List.map_cons, List.nodup_cons]
        refine ⟨?_, hn⟩
        intro hm
        obtain ⟨y, hy, he⟩ := List.mem_map.mp hm
        have := hs y hy
        simp only at he
        omega)
      split
      · refine ⟨hpush.1, hpush.2.1, fun x hx => ?_⟩
        obtain ⟨g1, g2⟩ := hpush.2.2 x hx
        refine ⟨by omega, ?_⟩
        rcases g2 with g2 | g2
        · rw [List.map_cons, List.mem_cons] at g2
          rcases g2 with g2 | g2
          · right; simp only at g2; omega
          · exact Or.inl g2
        · right; omega
      · split
        · simp
        · refine ⟨hskip.1, hskip.2.1, fun x hx => ?_⟩
          obtain ⟨g1, g2⟩ := hskip.2.2 x hx
          refine ⟨by omega, ?_⟩
          rcases g2 with g2 | g2
          · exact Or.inl g2
          · right; omega
    | @closing _ r pos _ h hr =>
      rw [bd16]
      have hskip := ih stack (pos + 1) hr (fun x hx => by have := hs x hx; omega) hn
      cases hd : stack.dropWhile (fun x => if std then canonical x.1 ≠ canonical r else x.1 ≠ r) with
      | nil =>
        dsimp only
        refine ⟨hskip.1, hskip.2.1, fun x hx => ?_⟩
        obtain ⟨g1, g2⟩ := hskip.2.2 x hx
        refine ⟨by omega, ?_⟩
        rcases g2 with g2 | g2
        · exact Or.inl g2
        · right; omega
      | cons y below =>
        obtain ⟨c, p⟩ := y
        dsimp only
        have hsub : ((c, p) :: below).Sublist stack := by rw [← hd]; exact List.dropWhile_sublist _
        have hnd := hn.sublist (hsub.map (·.2))
        rw [List.map_cons, List.nodup_cons] at hnd
        obtain ⟨g1, g2, g3⟩ := ih below (pos + 1) hr (fun x hx => by
          have := hs x (hsub.mem (List.mem_cons_of_mem _ hx)); omega) hnd.2
        have hp : p < n := hs (c, p) (hsub.mem (List.mem_cons_self ..))
        refine ⟨?_, ?_, ?_⟩
        · rw [List.map_cons, List.nodup_cons]
          refine ⟨fun hm => ?_, g1⟩
          obtain ⟨z, hz, he⟩ := List.mem_map.mp hm
          simp only at he
          rcases (g3 z hz).2 with h5 | h5
          · rw [he] at h5
            exact hnd.1 h5
          · omega
        · rw [List.map_cons, List.nodup_cons]
          refine ⟨fun hm => ?_, g2⟩
          obtain ⟨z, hz, he⟩ := List.mem_map.mp hm
          have := (g3 z hz).1
          simp only at he
          omega
        · intro z hz
          rw [List.mem_cons] at hz
          rcases hz with rfl | hz
          · exact ⟨h, Or.inl (List.mem_map.mpr ⟨(c, p), hsub.mem (List.mem_cons_self ..), rfl⟩)⟩
          · obtain ⟨h5, h6⟩ := g3 z hz
            refine ⟨by omega, ?_⟩
            rcases h6 with h6 | h6
            · exact Or.inl ((hsub.map (·.2)).mem (by rw [List.map_cons]; exact List.mem_cons_of_mem _ h6))
            · right; omega

/-- The bracket pairs the parser finds, in a text without isolates. -/
theorem lookup_pairs {T : Tables} {o : Options} (hT : KnownClasses T) (hB : BracketTable T) (ho : o.markup = none) (sched : Nat → Nat) (t : List Char)
    (hni : Spec.NoIsolates (classes T o (firstParagraph T o t))) :
    ∃ ss fin, Feeds (scannerEnv T o sched) (newScanner o (utf8 t), 0) ss (fin, 0) ∧ ∀ i p q,
      ((∃ pr, ((scannerEnv T o sched).pairing (fin, i) { clz := cBRACKO, l := p }).1 = some pr ∧ pr.closing.l = q) ↔
        (p, q) ∈ bd16 false [] (bracketsOf T o 0 (firstParagraph T o t))) ∧
      ((∃ pr, ((scannerEnv T o sched).pairing (fin, i) { clz := cBRACKC, l := q }).1 = some pr ∧ pr.opening.l = p) ↔
        (p, q) ∈ bd16 false [] (bracketsOf T o 0 (firstParagraph T o t))) := by
  have hN : ∀ r, T.cls r ≠ cNULL := by
    intro r h
    have := hT r
    rw [h] at this
    exact absurd this (by decide)
  obtain ⟨fin, h1, h2, h3⟩ := scanner_feeds ho hN sched (utf8 t)
  have hh := h3 (noIsolates_text t hni)
  rw [paragraph_text] at hh
  have hperm := pairUp_bd16 hT hB (o := o) (firstParagraph T o t) (initialOuterScrap o false) none [] {} (by intro x hx; cases hx)
  have e0 : (initialOuterScrap o false).r = 0 := by unfold initialOuterScrap; split <;> rfl
  rw [e0] at hperm
  change (Handler.found _).Perm ([] ++ bd16 false [] _) at hperm
  rw [List.nil_append] at hperm
  generalize pairUp T o _ (initialOuterScrap o false) none [] {} = h at hh hperm
  have hi := feeds_irs (show (newScanner o (utf8 t)).IrsOk by intro x hx; have : x = (0, 0) := by simpa [newScanner] using hx
                                                              subst this; exact Nat.one_pos) h1
  obtain ⟨d1, d2, -⟩ := bd16_nodup false (bracketsOf T o 0 (firstParagraph T o t)) [] 0 (increasing_brackets _ 0) (by simp) (by simp)
  refine ⟨_, fin, h1, fun i p q => ⟨?_, ?_⟩⟩
  · rw [pairing_single (ended_atRest h2) hi hh, find_opening ((hperm.map _).nodup_iff.mpr d1), hperm.mem_iff]
  · rw [pairing_single (ended_atRest h2) hi hh, find_closing ((hperm.map _).nodup_iff.mpr d2), hperm.mem_iff]

/-- Without overflow and canonical equivalents nothing deviates from BD16. -/
theorem bd16_std : ∀ (l : List Bracket) (stack : List (Nat × Nat)), NeverFull stack l →
    (∀ x ∈ stack, x.1 ≠ 0x2329 ∧ x.1 ≠ 0x232A) → (∀ b ∈ l, match b with
      | .opening c _ => c ≠ 0x2329 ∧ c ≠ 0x232A
      | .closing r _ => r ≠ 0x2329 ∧ r ≠ 0x232A) → bd16 true stack l = bd16 false stack l := by
  intro l
  induction l with
  | nil => intros; rfl
  | cons b l ih =>
    intro stack hf hs hl
    have hl' : ∀ b ∈ l, _ := fun b hb => hl b (List.mem_cons_of_mem _ hb)
    have hb := hl b (List.mem_cons_self ..)
    cases b with
    | opening c pos =>
      rw [NeverFull] at hf
      rw [bd16, bd16, if_pos hf.1, if_pos hf.1]
      refine ih _ hf.2 ?_ hl'
      intro x hx
      rw [List.mem_cons] at hx
      rcases hx with rfl | hx
      · exact hb
      · exact hs x hx
    | closing r pos =>
      rw [NeverFull] at hf
      dsimp only at hb
      have hc : ∀ n, n ≠ 0x2329 ∧ n ≠ 0x232A → canonical n = n := by
        intro n hn
        unfold canonical
        rw [if_neg hn.1, if_neg hn.2]
      have e : stack.dropWhile (fun x => if true = true then canonical x.1 ≠ canonical r else x.1 ≠ r) = stack.dropWhile (fun x => x.1 ≠ r) := by
        clear hf
        induction stack with
        | nil => rfl
        | cons x xs ihx =>
          have hx := hc x.1 (hs x (List.mem_cons_self ..))
          have hr := hc r hb
          have := ihx (fun y hy => hs y (List.mem_cons_of_mem _ hy))
          simp only [List.dropWhile_cons, if_true, hx, hr] at this ⊢
          split
          · exact this
          · rfl
      rw [bd16, bd16, e]
      simp only [Bool.false_eq_true, if_false]
      cases hd : stack.dropWhile (fun x => x.1 ≠ r) with
      | nil =>
        rw [hd] at hf
        exact ih _ hf hs hl'
      | cons y below =>
        rw [hd] at hf
        dsimp only
        rw [ih below hf (fun x hx => hs x ((List.dropWhile_sublist _).mem (by rw [hd]; exact List.mem_cons_of_mem _ hx))) hl']

theorem pairs_noAngle : ∀ p ∈ pairedBrackets, p.2 ≠ 0x2329 ∧ (p.1 ≠ 0x2329 → p.2 ≠ 0x232A) := by decide +kernel

theorem brackets_noAngle {T : Tables} {o : Options} : ∀ (t : List Char) (n : Nat), NoAngle t → ∀ b ∈ bracketsOf T o n t, match b with
      | .opening c _ => c ≠ 0x2329 ∧ c ≠ 0x232A
      | .closing r _ => r ≠ 0x2329 ∧ r ≠ 0x232A := by
  intro t
  induction t with
  | nil => intro n _ b hb; cases hb
  | cons c t ih =>
    intro n ha b hb
    have ih' := ih (n + (utf8 [c]).length) (fun x hx => ha x (List.mem_cons_of_mem _ hx))
    have hc := ha c (List.mem_cons_self ..)
    rw [bracketsOf] at hb
    split at hb
    · split at hb
      · rename_i p hp
        rw [List.mem_cons] at hb
        rcases hb with rfl | hb
        · have hm := List.mem_of_find?_eq_some hp
          have he : p.1 = c.toNat := by simpa using List.find?_some hp
          exact ⟨(pairs_noAngle p hm).1, (pairs_noAngle p hm).2 (by rw [he]; exact hc.1)⟩
        · exact ih' b hb
      · exact ih' b hb
    · split at hb
      · rw [List.mem_cons] at hb
        rcases hb with rfl | hb
        · exact hc
        · exact ih' b hb
      · exact ih' b hb

end Uax.Bidi
