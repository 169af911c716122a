import Verif.CutAfter
import Verif.SegmentEarly

/-! From what is said about each position to where the text is cut, for a single breaker. -/

namespace Uax
open Seg

/-- What is said `n` runes after rune `i` about the position after rune `i`. -/
def term (vs : List Verdict) (i n : Nat) : Int := (vs[i + n]?.map fun v => v.prim.getD n 0).getD 0

theorem soFar0_zero (vs : List Verdict) (i : Nat) : soFar0 vs i 0 = term vs i 0 := by
  unfold soFar0 term
  rw [Nat.add_zero, ← List.head?_drop]
  cases vs.drop i <;> simp

theorem soFar0_succ (vs : List Verdict) (i n : Nat) : soFar0 vs i (n + 1) = soFar0 vs i n + term vs i (n + 1) := by
  unfold soFar0 term
  rw [← List.getElem?_drop]
  generalize vs.drop i = ws
  rw [List.take_add_one (l := ws) (i := n + 1)]
  cases h : ws[n + 1]? with
  | none => simp
  | some v =>
    have hl := (List.getElem?_eq_some_iff.mp h).1
    rw [List.mapIdx_append, List.sum_append]
    simp only [Option.toList_some, List.mapIdx_cons, List.mapIdx_nil, List.sum_cons, List.sum_nil, List.length_take, Option.map_some, Option.getD_some]
    rw [show 0 + min (n + 1) ws.length = n + 1 by omega]
    omega

/-- What is said about the position after rune `i`, if there is to be a cut: it is never forbidden. -/
structure SaysYes (vs : List Verdict) (i : Nat) : Prop where
  ok : ∀ n, 1 ≤ n → i + n < vs.length → soFar0 vs i n < 10000 ∧ soFar0 vs i n ≠ 0

/-- If there is to be no cut: as soon as the position has left all matches it is forbidden, and that does
not change. -/
structure SaysNo (z0 : Bool) (vs : List Verdict) (i : Nat) : Prop where
  mono : ∀ n m, 1 ≤ n → n ≤ m → i + m < vs.length → soFar0 vs i n ≤ soFar0 vs i m
  no : ∀ n, 1 ≤ n → i + n < vs.length → ripe vs i n = true → 10000 ≤ soFar0 vs i n
  zero : ripe vs i 0 = true → z0 = false ∧ soFar0 vs i 0 = 0

theorem ok_single (z0 z1 : Bool) (x y : Int) : Tester.ok ⟨z0, z1, false⟩ x y = decide (x < 10000 ∧ (x = 0 → z0 = true)) := by
  simp [Tester.ok, Feasible]

variable (z0 z1 : Bool) (vs : List Verdict) (e : Nat) (cut : Nat → Bool)

theorem decide_steady (hlen : vs.length = e + 1) (hy : ∀ i, i < e → cut i = true → SaysYes vs i) (hn : ∀ i, i < e → cut i = false → SaysNo z0 vs i) :
    Steady ⟨z0, z1, false⟩ vs e := by
  intro i n m h0 h1 h2 h3 h4
  have hi : i < e := by omega
  have hb : base e i = 0 := by unfold base; rw [if_neg (by omega)]
  unfold okAt at h2 ⊢
  rw [ok_single, hb, Int.zero_add] at h2 ⊢
  cases hc : cut i with
  | true =>
    have := (hy i hi hc).ok n h0 (by omega)
    exfalso
    rw [decide_eq_false_iff_not] at h2
    exact h2 ⟨this.1, fun h => absurd h this.2⟩
  | false =>
    have h5 := (hn i hi hc).no n h0 (by omega) h1
    have h6 := (hn i hi hc).mono n m h0 h3 h4
    rw [decide_eq_false_iff_not]
    rintro ⟨h7, _⟩
    omega

theorem decide_cut (hlen : vs.length = e + 1) (hlast : ∀ v, vs[e]? = some v → v.lam ≤ 1)
    (hy : ∀ i, i < e → cut i = true → SaysYes vs i) (hn : ∀ i, i < e → cut i = false → SaysNo z0 vs i) (i : Nat) (hi : i < e) :
    (cutTime ⟨z0, z1, false⟩ vs e i).isSome = cut i := by
  have hb : base e i = 0 := by unfold base; rw [if_neg (by omega)]
  unfold cutTime
  cases hc : cut i with
  | true =>
    rw [List.find?_isSome]
    refine ⟨e - i, by rw [List.mem_range]; omega, ?_⟩
    have h1 : ripe vs i (e - i) = true := by
      unfold ripe
      rw [show i + (e - i) = e by omega]
      have he : vs[e]? = some (vs[e]'(by omega)) := List.getElem?_eq_getElem (by omega)
      have := hlast _ he
      rw [he]
      simp only [Option.map_some, Option.getD_some, decide_eq_true_eq]
      omega
    have h2 := (hy i hi hc).ok (e - i) (by omega) (by omega)
    rw [h1, Bool.true_and]
    unfold okAt
    rw [ok_single, hb, Int.zero_add, decide_eq_true_eq]
    exact ⟨h2.1, fun h => absurd h h2.2⟩
  | false =>
    rw [List.find?_eq_none.mpr]
    · rfl
    · intro n hn'
      rw [List.mem_range] at hn'
      rw [Bool.and_eq_true]
      rintro ⟨h1, h2⟩
      unfold okAt at h2
      rw [ok_single, hb, Int.zero_add, decide_eq_true_eq] at h2
      have hN := hn i hi hc
      cases n with
      | zero =>
        obtain ⟨h3, h4⟩ := hN.zero h1
        have := h2.2 h4
        rw [h3] at this; cases this
      | succ n =>
        have := hN.no (n + 1) (by omega) (by omega) h1
        omega

/-- If there is to be a cut that is decided by the next rune: later the position is forbidden, but that is too late. -/
structure SaysOnce (vs : List Verdict) (i : Nat) : Prop where
  len : i + 1 < vs.length
  ripe : ripe vs i 1 = true
  ok : soFar0 vs i 1 < 10000 ∧ soFar0 vs i 1 ≠ 0
  later : ∀ n, 2 ≤ n → i + n < vs.length → 10000 ≤ soFar0 vs i n

theorem decide_steady_once (hlen : vs.length = e + 1) (hy : ∀ i, i < e → cut i = true → SaysYes vs i ∨ SaysOnce vs i)
    (hn : ∀ i, i < e → cut i = false → SaysNo z0 vs i) : Steady ⟨z0, z1, false⟩ vs e := by
  intro i n m h0 h1 h2 h3 h4
  have hi : i < e := by omega
  have hb : base e i = 0 := by unfold base; rw [if_neg (by omega)]
  unfold okAt at h2 ⊢
  rw [ok_single, hb, Int.zero_add] at h2 ⊢
  cases hc : cut i with
  | true =>
    rw [decide_eq_false_iff_not] at h2
    rcases hy i hi hc with hy | hy
    · have := hy.ok n h0 (by omega)
      exact absurd ⟨this.1, fun h => absurd h this.2⟩ h2
    · by_cases hn1 : n = 1
      · subst hn1
        exact absurd ⟨hy.ok.1, fun h => absurd h hy.ok.2⟩ h2
      · have := hy.later m (by omega) (by omega)
        rw [decide_eq_false_iff_not]
        rintro ⟨h7, _⟩
        omega
  | false =>
    have h5 := (hn i hi hc).no n h0 (by omega) h1
    have h6 := (hn i hi hc).mono n m h0 h3 h4
    rw [decide_eq_false_iff_not]
    rintro ⟨h7, _⟩
    omega

theorem decide_cut_once (hlen : vs.length = e + 1) (hlast : ∀ v, vs[e]? = some v → v.lam ≤ 1)
    (hy : ∀ i, i < e → cut i = true → SaysYes vs i ∨ SaysOnce vs i) (hn : ∀ i, i < e → cut i = false → SaysNo z0 vs i) (i : Nat) (hi : i < e) :
    (cutTime ⟨z0, z1, false⟩ vs e i).isSome = cut i := by
  by_cases hs : SaysOnce vs i
  · have hb : base e i = 0 := by unfold base; rw [if_neg (by omega)]
    have hc : cut i = true := by
      cases hc : cut i with
      | true => rfl
      | false =>
        have := (hn i hi hc).no 1 (by omega) hs.len hs.ripe
        have := hs.ok.1
        omega
    rw [hc]
    unfold cutTime
    rw [List.find?_isSome]
    refine ⟨1, by rw [List.mem_range]; have := hs.len; omega, ?_⟩
    rw [hs.ripe, Bool.true_and]
    unfold okAt
    rw [ok_single, hb, Int.zero_add, decide_eq_true_eq]
    exact ⟨hs.ok.1, fun h => absurd h hs.ok.2⟩
  · cases hc : cut i with
    | true =>
      have hyi := (hy i hi hc).resolve_right hs
      have hb : base e i = 0 := by unfold base; rw [if_neg (by omega)]
      unfold cutTime
      rw [List.find?_isSome]
      refine ⟨e - i, by rw [List.mem_range]; omega, ?_⟩
      have h1 : ripe vs i (e - i) = true := by
        unfold Uax.ripe
        rw [show i + (e - i) = e by omega]
        have he : vs[e]? = some (vs[e]'(by omega)) := List.getElem?_eq_getElem (by omega)
        have := hlast _ he
        rw [he]
        simp only [Option.map_some, Option.getD_some, decide_eq_true_eq]
        omega
      have h2 := hyi.ok (e - i) (by omega) (by omega)
      rw [h1, Bool.true_and]
      unfold okAt
      rw [ok_single, hb, Int.zero_add, decide_eq_true_eq]
      exact ⟨h2.1, fun h => absurd h h2.2⟩
    | false =>
      have hb : base e i = 0 := by unfold base; rw [if_neg (by omega)]
      unfold cutTime
      rw [List.find?_eq_none.mpr]
      · rfl
      · intro n hn'
        rw [List.mem_range] at hn'
        rw [Bool.and_eq_true]
        rintro ⟨h1, h2⟩
        unfold okAt at h2
        rw [ok_single, hb, Int.zero_add, decide_eq_true_eq] at h2
        have hN := hn i hi hc
        cases n with
        | zero =>
          obtain ⟨h3, h4⟩ := hN.zero h1
          have := h2.2 h4
          rw [h3] at this; cases this
        | succ n =>
          have := hN.no (n + 1) (by omega) (by omega) h1
          omega

theorem decide_mark (hlen : vs.length = e + 1) (hm : ripe vs e 0 = true → 0 ≤ soFar0 vs e 0) :
    cutTime ⟨z0, z1, false⟩ vs e e = none := by
  unfold cutTime
  rw [List.find?_eq_none]
  intro n hn'
  rw [List.mem_range] at hn'
  have : n = 0 := by omega
  subst this
  rw [Bool.and_eq_true]
  rintro ⟨h1, h2⟩
  unfold okAt base at h2
  rw [ok_single, if_pos rfl, decide_eq_true_eq] at h2
  have := hm h1
  omega

end Uax
