import Verif.Decide
import Verif.SpecInside
import Verif.Regroup

/-! Two breakers of different kinds in one Segmenter. -/

namespace Uax
open Seg

set_option linter.unusedSectionVars false

/-- segment.go:81, 114-119: the breakers of a Segmenter are interface values, so they may be of different kinds. -/
def both {α β : Type} (A : Breaker α) (B : Breaker β) : Breaker (α ⊕ β) where
  step
    | .inl a, r => let o := A.step a r; (.inl o.1, o.2)
    | .inr b, r => let o := B.step b r; (.inr o.1, o.2)

/-- What two breakers say, as what the Segmenter hears. -/
def hear (v w : Verdict) : Verdict := ⟨max v.lam w.lam, v.prim, [w.prim]⟩

theorem verdicts_both {α β : Type} (A : Breaker α) (B : Breaker β) : ∀ (rs : List Int) (a : α) (b : β) (i : Nat),
    (verdicts (both A B) [.inl a, .inr b] rs)[i]? = (verdicts A [a] rs)[i]?.bind fun v => (verdicts B [b] rs)[i]?.map fun w => hear v w
  | [], _, _, _ => rfl
  | r :: rs, a, b, i => by
    have e : verdicts (both A B) [.inl a, .inr b] (r :: rs) = hear ⟨maxLam [(A.step a r).2.1], (A.step a r).2.2, []⟩ ⟨maxLam [(B.step b r).2.1], (B.step b r).2.2, []⟩ ::
        verdicts (both A B) [.inl (A.step a r).1, .inr (B.step b r).1] rs := by
      show Verdict.mk (max (A.step a r).2.1 (max (B.step b r).2.1 0)) (A.step a r).2.2 [(B.step b r).2.2] :: _ = _
      unfold hear
      simp only [maxLam]
      congr 2
      omega
    rw [e]
    cases i with
    | zero => rfl
    | succ i =>
      rw [List.getElem?_cons_succ, verdicts_both A B rs]
      rfl

section
variable {vs vP vG : List Verdict} (hj : ∀ i : Nat, vs[i]? = vP[i]?.bind fun v => vG[i]?.map fun w => hear v w) (hl : vP.length = vG.length)
include hj hl

theorem both_get (i : Nat) : (vs[i]? = none ∧ vP[i]? = none ∧ vG[i]? = none) ∨ ∃ v w, vP[i]? = some v ∧ vG[i]? = some w ∧ vs[i]? = some (hear v w) := by
  have h := hj i
  cases hp : vP[i]? with
  | none =>
    rw [hp] at h
    refine .inl ⟨h, rfl, ?_⟩
    rw [List.getElem?_eq_none_iff] at hp ⊢
    omega
  | some v =>
    have : i < vG.length := by
      rw [← hl]
      exact (List.getElem?_eq_some_iff.mp hp).1
    rw [hp, List.getElem?_eq_getElem this] at h
    exact .inr ⟨v, _, rfl, List.getElem?_eq_getElem this, h⟩

theorem both_length : vs.length = vP.length := by
  rcases Nat.lt_trichotomy vs.length vP.length with h | h | h
  · rcases both_get hj hl vs.length with ⟨-, h2, -⟩ | ⟨v, w, -, -, h3⟩
    · rw [List.getElem?_eq_none_iff] at h2; omega
    · rw [List.getElem?_eq_none (Nat.le_refl _)] at h3; cases h3
  · exact h
  · rcases both_get hj hl vP.length with ⟨h1, -, -⟩ | ⟨v, w, h2, -, -⟩
    · rw [List.getElem?_eq_none_iff] at h1; omega
    · rw [List.getElem?_eq_none (Nat.le_refl _)] at h2; cases h2

theorem both_ripe (i n : Nat) : ripe vs i n = (ripe vP i n && ripe vG i n) := by
  unfold ripe
  rcases both_get hj hl (i + n) with ⟨h1, h2, h3⟩ | ⟨v, w, h1, h2, h3⟩
  · rw [h1, h2]; rfl
  · rw [h1, h2, h3]
    simp only [Option.map_some, Option.getD_some, hear]
    rw [← Bool.decide_and, decide_eq_decide]
    omega

theorem both_term0 (i n : Nat) : term vs i n = term vP i n := by
  unfold term
  rcases both_get hj hl (i + n) with ⟨h1, h2, h3⟩ | ⟨v, w, h1, h2, h3⟩
  · rw [h1, h2]
  · rw [h1, h3]; rfl

theorem both_soFar0 (i n : Nat) : soFar0 vs i n = soFar0 vP i n := by
  induction n with
  | zero => rw [soFar0_zero, soFar0_zero, both_term0 hj hl]
  | succ n ih => rw [soFar0_succ, soFar0_succ, both_term0 hj hl, ih]

theorem both_soFar1 (i n : Nat) : soFar1 vs i n = soFar0 vG i n := by
  unfold soFar1 soFar0
  congr 1
  apply List.ext_getElem?
  intro k
  rw [List.getElem?_mapIdx, List.getElem?_mapIdx, List.getElem?_take, List.getElem?_take, List.getElem?_drop, List.getElem?_drop]
  by_cases hk : k < n + 1
  · rw [if_pos hk, if_pos hk]
    rcases both_get hj hl (i + k) with ⟨h1, h2, h3⟩ | ⟨v, w, h1, h2, h3⟩
    · rw [h1, h3]; rfl
    · rw [h2, h3]
      simp [hear]
  · rw [if_neg hk, if_neg hk]; rfl

end

/-- What the Segmenter does with two breakers, `vP` and `vG`, in whichever order. -/
structure Heard (T : Tester) (vs vP vG : List Verdict) (e : Nat) (zP zG : Bool) : Prop where
  len : vs.length = vP.length
  lenG : vP.length = vG.length
  ripe : ∀ i n, ripe vs i n = (ripe vP i n && ripe vG i n)
  ok : ∀ i n, i < e → okAt T vs e i n = decide (Feasible (soFar0 vP i n) zP ∨ Feasible (soFar0 vG i n) zG)

theorem heard_first {vs vP vG : List Verdict} (hj : ∀ i : Nat, vs[i]? = vP[i]?.bind fun v => vG[i]?.map fun w => hear v w) (hl : vP.length = vG.length) (e : Nat) (z0 z1 : Bool) :
    Heard ⟨z0, z1, true⟩ vs vP vG e z0 z1 where
  len := both_length hj hl
  lenG := hl
  ripe := both_ripe hj hl
  ok i n hi := by
    unfold okAt Tester.ok base
    rw [if_neg (by omega), Int.zero_add, Int.zero_add, both_soFar0 hj hl, both_soFar1 hj hl]
    simp

theorem heard_second {vs vP vG : List Verdict} (hj : ∀ i : Nat, vs[i]? = vG[i]?.bind fun v => vP[i]?.map fun w => hear v w) (hl : vP.length = vG.length) (e : Nat) (z0 z1 : Bool) :
    Heard ⟨z0, z1, true⟩ vs vP vG e z1 z0 where
  len := by rw [both_length hj hl.symm, hl]
  lenG := hl
  ripe i n := by rw [both_ripe hj hl.symm, Bool.and_comm]
  ok i n hi := by
    unfold okAt Tester.ok base
    rw [if_neg (by omega), Int.zero_add, Int.zero_add, both_soFar0 hj hl.symm, both_soFar1 hj hl.symm]
    simp [Bool.or_comm]

/-- A breaker that decides each position, not before the next rune: its sum of penalties allows a break there always or, as soon as it has no match open, never. -/
structure Decides (vs : List Verdict) (e : Nat) (good : Int → Bool) (cut : Nat → Bool) : Prop where
  len : vs.length = e + 1
  yes : ∀ i, i < e → cut i = true → SaysYes vs i
  no : ∀ i, i < e → cut i = false → ∀ n m, 1 ≤ n → n ≤ m → i + m < vs.length → ripe vs i n = true → good (soFar0 vs i m) = false
  last : ∀ v, vs[e]? = some v → v.lam ≤ 1

section
variable {T : Tester} {vs vP vG : List Verdict} {e : Nat} {zP zG : Bool} (H : Heard T vs vP vG e zP zG) {cutP cutG : Nat → Bool}
  (hy : ∀ i, i < e → cutP i = true → SaysYes vP i ∨ (SaysOnce vP i ∧ cutG i = true ∧ ripe vG i 1 = true)) 
  {good : Int → Bool} (hgf : ∀ p, Feasible p zP → good p = true) (hgy : ∀ p : Int, p < 10000 ∧ p ≠ 0 → good p = true)
  (hn : ∀ i, i < e → cutP i = false → ∀ n m, 1 ≤ n → n ≤ m → i + m < vP.length → ripe vP i n = true → good (soFar0 vP i m) = false)
  (hlast : ∀ v, vP[e]? = some v → v.lam ≤ 1) 
  {good' : Int → Bool} (hgf' : ∀ p, Feasible p zG → good' p = true) (hgy' : ∀ p : Int, p < 10000 ∧ p ≠ 0 → good' p = true) (D : Decides vG e good' cutG) (h00 : ∀ i, i < e → (ripe vP i 0 && ripe vG i 0) = false)
include H hy hgf hgy hn hlast hgf' hgy' D h00

theorem both_steady : Steady T vs e := by
  have hL := H.len
  have hl := H.lenG
  have hlen := D.len
  intro i n m h0 h1 h2 h3 h4
  have hi : i < e := by omega
  rw [H.ok i _ hi, decide_eq_false_iff_not, not_or] at h2 ⊢
  rw [H.ripe, Bool.and_eq_true] at h1
  have hG : cutG i = false := by
    cases hc : cutG i with
    | false => rfl
    | true =>
      have := (D.yes i hi hc).ok n h0 (by omega)
      exact absurd ⟨this.1, fun e => absurd e this.2⟩ h2.2
  refine ⟨?_, fun h => ?_⟩
  · cases hp : cutP i with
    | true =>
      rcases hy i hi hp with h | h
      · have := h.ok n h0 (by omega)
        exact absurd ⟨this.1, fun e => absurd e this.2⟩ h2.1
      · rw [hG] at h; cases h.2.1
    | false =>
      intro hf
      have := hn i hi hp n m h0 h3 (by omega) h1.1
      rw [hgf _ hf] at this
      cases this
  · have := D.no i hi hG n m h0 h3 (by omega) h1.2
    rw [hgf' _ h] at this
    cases this

theorem both_time {i n : Nat} (hi : i < e) (h : cutTime T vs e i = some n) : 1 ≤ n ∧ i + n < e + 1 ∧ ripe vP i n = true ∧ ripe vG i n = true := by
  have hL := H.len
  have hl := H.lenG
  have hlen := D.len
  unfold cutTime at h
  have hm := List.mem_of_find?_eq_some h
  have ht := List.find?_some h
  rw [List.mem_range] at hm
  rw [Bool.and_eq_true, H.ripe] at ht
  have h0 : n ≠ 0 := by
    rintro rfl
    have := ht.1
    rw [h00 i hi] at this
    cases this
  rw [Bool.and_eq_true] at ht
  exact ⟨by omega, by omega, ht.1.1, ht.1.2⟩

/-- When a position is cut, the penalties say who wanted it. -/
theorem both_who (i n : Nat) (hi : i < e) (h : cutTime T vs e i = some n) :
    ((cutP i = true → soFar0 vP i n < 10000 ∧ soFar0 vP i n ≠ 0) ∧ (cutP i = false → good (soFar0 vP i n) = false)) ∧
    ((cutG i = true → soFar0 vG i n < 10000 ∧ soFar0 vG i n ≠ 0) ∧ (cutG i = false → good' (soFar0 vG i n) = false)) := by
  have hL := H.len
  have hl := H.lenG
  have hlen := D.len
  obtain ⟨h1, h2, h3, h4⟩ := both_time H hy hgf hgy hn hlast hgf' hgy' D h00 hi h
  refine ⟨⟨fun hp => ?_, fun hp => ?_⟩, ⟨fun hc => (D.yes i hi hc).ok n h1 (by omega), fun hc => D.no i hi hc n n h1 (Nat.le_refl _) (by omega) h4⟩⟩
  · rcases hy i hi hp with h' | ⟨h', hc, hr⟩
    · exact h'.ok n h1 (by omega)
    · -- the next rune decides
      have : n = 1 := by
        refine Classical.byContradiction fun hne => ?_
        unfold cutTime at h
        obtain ⟨-, as, bs, e1, e2⟩ := List.find?_eq_some_iff_append.mp h
        have h1 : (1 : Nat) ∈ as := by
          have hlen2 : as.length = n := by
            have := congrArg (fun l => l[as.length]?) e1
            simp only [List.getElem?_append_right (Nat.le_refl _), Nat.sub_self, List.getElem?_cons_zero] at this
            obtain ⟨h3, h4⟩ := List.getElem?_eq_some_iff.mp this
            rw [List.getElem_range] at h4
            exact h4
          have := congrArg (fun l => l[1]?) e1
          rw [List.getElem?_append_left (by omega), List.getElem?_range (by omega)] at this
          exact List.mem_of_getElem? this.symm
        have := e2 1 h1
        have hG := (D.yes i hi hc).ok 1 (by omega) (by omega)
        rw [H.ripe, h'.ripe, hr, H.ok i 1 hi, decide_eq_true (.inr ⟨hG.1, fun e => absurd e hG.2⟩)] at this
        cases this
      subst this
      exact h'.ok
  · exact hn i hi hp n n h1 (Nat.le_refl _) (by omega) h3

theorem both_below (i n : Nat) (hi : i < e) (h : cutTime T vs e i = some n) :
    (good (soFar0 vP i n) = cutP i) ∧ (good' (soFar0 vG i n) = cutG i) := by
  obtain ⟨⟨h1, h2⟩, h3, h4⟩ := both_who H hy hgf hgy hn hlast hgf' hgy' D h00 i n hi h
  constructor
  · cases hp : cutP i with
    | true => exact hgy _ (h1 hp)
    | false => exact h2 hp
  · cases hp : cutG i with
    | true => exact hgy' _ (h3 hp)
    | false => exact h4 hp

theorem both_cut (i : Nat) (hi : i < e) : (cutTime T vs e i).isSome = (cutP i || cutG i) := by
  have hL := H.len
  have hl := H.lenG
  have hlen := D.len
  cases hc : cutTime T vs e i with
  | some n =>
    obtain ⟨h1, h2⟩ := both_below H hy hgf hgy hn hlast hgf' hgy' D h00 i n hi hc
    unfold cutTime at hc
    have ht := List.find?_some hc
    rw [Bool.and_eq_true, H.ok i n hi, decide_eq_true_eq] at ht
    rcases ht.2 with h | h
    · rw [← h1, hgf _ h]; rfl
    · rw [← h2, hgf' _ h]; simp
  | none =>
    have hno : ¬ (cutP i = true ∨ cutG i = true) := by
      intro hor
      unfold cutTime at hc
      rw [List.find?_eq_none] at hc
      have fin : ∀ n, n < vs.length - i → ripe vP i n = true → ripe vG i n = true → Feasible (soFar0 vP i n) zP ∨ Feasible (soFar0 vG i n) zG → False := by
        intro n h1 h2 h3 h4
        refine hc n (List.mem_range.mpr h1) ?_
        rw [H.ripe, h2, h3, H.ok i n hi, decide_eq_true h4]
        rfl
      have ripeEnd : ∀ vs' : List Verdict, vs'.length = e + 1 → (∀ v, vs'[e]? = some v → v.lam ≤ 1) → ripe vs' i (e - i) = true := by
        intro vs' h1 h2
        unfold ripe
        rw [show i + (e - i) = e by omega]
        have he : vs'[e]? = some (vs'[e]'(by omega)) := List.getElem?_eq_getElem (by omega)
        have := h2 _ he
        rw [he]
        simp only [Option.map_some, Option.getD_some, decide_eq_true_eq]
        omega
      refine fin (e - i) (by omega) (ripeEnd vP (by omega) hlast) (ripeEnd vG hlen D.last) ?_
      by_cases hG : cutG i = true
      · have := (D.yes i hi hG).ok (e - i) (by omega) (by omega)
        exact .inr ⟨this.1, fun e => absurd e this.2⟩
      · have hp : cutP i = true := hor.resolve_right hG
        rcases hy i hi hp with h | h
        · have := h.ok (e - i) (by omega) (by omega)
          exact .inl ⟨this.1, fun e => absurd e this.2⟩
        · exact absurd h.2.1 hG
    rw [not_or, Bool.not_eq_true, Bool.not_eq_true] at hno
    rw [hno.1, hno.2]
    rfl

theorem both_mark (hm : (ripe vs e 0 && okAt T vs e e 0) = false) : cutTime T vs e e = none := by
  have hL := H.len
  have hl := H.lenG
  have hlen := D.len
  unfold cutTime
  rw [List.find?_eq_none]
  intro n h
  rw [List.mem_range] at h
  obtain rfl : n = 0 := by omega
  rw [hm]
  decide

end

/-! ### Groups of segments -/

theorem pieces_pieces {α : Type} (m1 m2 : α → Bool) (M : List α → Bool) (hM : ∀ p a, M (p ++ [a]) = m1 a) (hs : ∀ a, m1 a = true → m2 a = true) :
    ∀ (l acc : List α) (done : List (List α)), (pieces M done (pieces m2 acc l)).map List.flatten = pieces m1 (done.flatten ++ acc) l
  | [], _, _ => rfl
  | a :: l, acc, done => by
    rw [pieces, pieces]
    by_cases h2 : m2 a = true
    · rw [if_pos h2, pieces, hM]
      by_cases h1 : m1 a = true
      · rw [if_pos h1, if_pos h1, List.map_cons, pieces_pieces m1 m2 M hM hs l [] []]
        simp
      · rw [if_neg h1, if_neg h1, pieces_pieces m1 m2 M hM hs l [] _]
        simp
    · rw [if_neg h2, if_neg (fun h => h2 (hs a h)), pieces_pieces m1 m2 M hM hs l _ done, List.append_assoc]

/-- Segments, put together up to those with a penalty that passes a test. -/
theorem segments_groups (pl : List Place) (test : Int × Int → Bool) (cut : Nat → Bool) (text : List Int) (hr : pl.map (·.r) = text ++ [0])
    (hc : ∀ i, i < text.length → (pl[i]?.map fun p => p.cut && test (p.p0, p.p1)) = some (cut i)) (hl : (pl[text.length]?.map (·.cut)) = some false) :
    (pieces (fun g : Segment => test g.pens) [] (segmentsOf pl)).map (fun w => (w.map (·.runes)).flatten) = cutAfter cut text := by
  have e1 := segmentsOf_cutAfter (pl.map fun p => { p with cut := p.cut && test (p.p0, p.p1) }) cut text (by rw [List.map_map]; exact hr)
    (by
      intro i hi
      rw [List.getElem?_map, Option.map_map]
      exact hc i hi)
    (by
      rw [List.getElem?_map, Option.map_map]
      cases h : pl[text.length]? with
      | none => rw [h] at hl; cases hl
      | some p =>
        rw [h] at hl
        simp only [Option.map_some, Option.some.injEq] at hl
        simp [hl])
  rw [← e1]
  have e2 := pieces_map (fun p : Place => { p with cut := p.cut && test (p.p0, p.p1) }) (fun p => p.cut && test (p.p0, p.p1)) Place.cut (fun _ => rfl) pl []
  rw [List.map_nil] at e2
  have e3 := pieces_pieces (fun p : Place => p.cut && test (p.p0, p.p1)) Place.cut (fun seg => (seg.getLast?.map fun p => p.cut && test (p.p0, p.p1)).getD false)
    (by intro p a; simp) (by intro a h; rw [Bool.and_eq_true] at h; exact h.1) pl [] []
  rw [List.flatten_nil, List.nil_append] at e3
  unfold segmentsOf
  rw [e2, ← e3]
  have e4 := pieces_map (fun seg : List Place => (⟨seg.map (·.r), ((seg.getLast?.map fun p => (p.p0, p.p1)).getD (0, 0))⟩ : Segment))
    (fun seg => test ((seg.getLast?.map fun p => (p.p0, p.p1)).getD (0, 0))) (fun g => test g.pens) (fun _ => rfl) (pieces Place.cut [] pl) []
  rw [List.map_nil] at e4
  rw [e4]
  have e5 : pieces (fun seg : List Place => test ((seg.getLast?.map fun p => (p.p0, p.p1)).getD (0, 0))) [] (pieces Place.cut [] pl) =
      pieces (fun seg => (seg.getLast?.map fun p => p.cut && test (p.p0, p.p1)).getD false) [] (pieces Place.cut [] pl) := by
    have hlast : ∀ (l acc : List Place), ∀ seg ∈ pieces Place.cut acc l, ∃ p, seg.getLast? = some p ∧ p.cut = true := by
      intro l
      induction l with
      | nil => intro acc seg h; cases h
      | cons a l ih =>
        intro acc seg h
        rw [pieces] at h
        split at h
        · rename_i hc
          rcases List.mem_cons.mp h with rfl | h
          · exact ⟨a, by simp, hc⟩
          · exact ih _ _ h
        · exact ih _ _ h
    have congr : ∀ (ls : List (List Place)) (acc : List (List Place)), (∀ seg ∈ ls, ∃ p, seg.getLast? = some p ∧ p.cut = true) →
        pieces (fun seg : List Place => test ((seg.getLast?.map fun p => (p.p0, p.p1)).getD (0, 0))) acc ls =
        pieces (fun seg => (seg.getLast?.map fun p => p.cut && test (p.p0, p.p1)).getD false) acc ls := by
      intro ls
      induction ls with
      | nil => intro _ _; rfl
      | cons s ls ih =>
        intro acc h
        obtain ⟨p, h1, h2⟩ := h s (List.mem_cons_self ..)
        have ih' := fun acc => ih acc fun seg hs => h seg (List.mem_cons_of_mem _ hs)
        rw [pieces, pieces, h1]
        simp only [Option.map_some, Option.getD_some, h2, Bool.true_and, ih']
    exact congr _ _ (hlast pl [])
  rw [e5]
  simp only [List.map_map]
  refine List.map_congr_left fun g _ => ?_
  simp only [Function.comp_apply, List.map_flatten, List.map_map]
  congr 1
  refine List.map_congr_left fun q _ => ?_
  simp only [Function.comp_apply, List.map_map]
  rfl

end Uax
