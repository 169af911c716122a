import Verif.LineSpecProofs

/-! The penalties at mandatory line breaks. -/

namespace Uax
namespace Line

open SpecLine

/-- Classes after which a break is mandatory. -/
def newlines : List LClass := [.BK, .LF, .NL, .CR]

/-- Classes before which no break is wanted at all. -/
def never : List LClass := [.BK, .CR, .LF, .NL, .SP, .ZW]

/-- Other classes before which no break is wanted in most cases. -/
def rarely : List LClass := [.BA, .HY, .NS, .QU, .GL, .WJ, .CL, .CP, .EX, .IS, .SY]

theorem table7_ok : (bools.all fun hl => bools.all fun cr => newlines.all fun a => real.all fun d =>
    (decide (hl = true ∧ cr = true) || decide (a = .CR ∧ d = .LF) ||
    decide (S1 hl cr a a false d false 1 0 ≤ 1000) && decide (S1 hl cr a a false d false 1 0 ≠ 0) &&
      (decide (d ∈ never) || decide (S1 hl cr a a false d false 1 0 ≤ -8800)) &&
      (!(decide (a = .CR) || (cr && decide (a = .LF)) || decide (d ∉ never ∧ d ∉ rarely)) || decide (S1 hl cr a a false d false 1 0 ≤ -9000)))) = true := by
  decide +kernel

theorem table7_use {hl cr : Bool} (hc : ¬ (hl = true ∧ cr = true)) {a d : LClass} (ha : a ∈ newlines) (hd : d ∈ real) (hl' : ¬ (a = .CR ∧ d = .LF)) :
    S1 hl cr a a false d false 1 0 ≤ 1000 ∧ S1 hl cr a a false d false 1 0 ≠ 0 ∧
    (d ∉ never → S1 hl cr a a false d false 1 0 ≤ -8800) ∧
    (a = .CR ∨ (cr = true ∧ a = .LF) ∨ (d ∉ never ∧ d ∉ rarely) → S1 hl cr a a false d false 1 0 ≤ -9000) := by
  have h := all_mem (all_mem (all_mem (all_mem table7_ok (mem_bools hl)) (mem_bools cr)) ha) hd
  rw [decide_eq_false hc, decide_eq_false hl', Bool.false_or, Bool.false_or] at h
  simp only [Bool.and_eq_true, Bool.or_eq_true, decide_eq_true_eq, Bool.not_eq_true', Bool.or_eq_false_iff, Bool.and_eq_false_iff,
    decide_eq_false_iff_not] at h
  obtain ⟨⟨⟨h1, h2⟩, h3⟩, h4⟩ := h
  refine ⟨h1, h2, fun h => h3.resolve_left h, ?_⟩
  intro h
  rcases h4 with h5 | h5
  · exfalso
    obtain ⟨⟨h6, h7⟩, h8⟩ := h5
    rcases h with h | ⟨h, h'⟩ | h
    · exact h6 h
    · rcases h7 with h7 | h7
      · rw [h] at h7; cases h7
      · exact h7 h'
    · exact h8 h
  · exact h5

theorem newline_real {a : LClass} (ha : a ∈ newlines) : a ∈ real ∧ a ≠ .SP ∧ a ≠ .RI ∧ (∀ R c, c = a → evN R c = none) ∧ startN a = [] := by
  revert ha
  unfold newlines
  cases a <;> intro ha <;> first
    | exact absurd ha (by decide)
    | exact ⟨by decide, by decide, by decide, by rintro R c rfl; cases R <;> rfl, rfl⟩

theorem At.newline {vs : List Verdict} {i : Nat} {h : List LC} {d : LC} {rest : List LC} (A : At vs i h d rest) (hg : Good h)
    (hd : d.1 ∈ real) (hf : Follows h d) (hn : last h ∈ newlines) :
    ripe vs i 1 = true ∧ soFar0 vs i 1 = S1 (last h.tail == .HL) (last h.tail == .CR) (last h) (last h) false d.1 false 1 0 := by
  obtain ⟨n1, n2, n3, n4, n5⟩ := newline_real hn
  have hnums : nums h = [] := by
    rw [List.eq_nil_iff_forall_not_mem]
    intro k hk
    cases h with
    | nil => cases hk
    | cons c h =>
      rw [last_cons, if_neg (real_not (hg c List.mem_cons_self)).1] at n4 n5
      rcases mem_nums_cons.mp hk with ⟨k0, _, h2, _⟩ | ⟨h1, _⟩
      · rw [n4 _ _ rfl] at h2; cases h2
      · rw [n5] at h1; cases h1
  have hskip : last (skip h) = last h := by
    cases h with
    | nil => rfl
    | cons c h =>
      rw [last_cons, if_neg (real_not (hg c List.mem_cons_self)).1] at n2
      rw [skip_not n2]
  have hodd : odd h = false := by
    cases e : odd h with
    | false => rfl
    | true => exact absurd (odd_RI hg e) n3
  constructor
  · refine (A.open' 0 (by omega)).mpr ?_
    intro k hk
    simp only [List.take_zero, List.reverse_nil, List.nil_append] at hk
    unfold acts at hk
    simp only [List.mem_append] at hk
    rcases hk with ((hk | hk) | hk) | hk
    · rw [(pairs_are _ k hk).2]; omega
    · rw [(spaced_are _ k hk).2]; omega
    · unfold flag at hk
      split at hk
      · simp only [List.mem_singleton] at hk; subst hk; simp
      · cases hk
    · rcases mem_nums_cons.mp hk with ⟨k0, h4, _⟩ | ⟨_, h4⟩
      · rw [hnums] at h4; cases h4
      · omega
  · have hdup : ¬ (d.2 = true ∧ last h = d.1) := by
      rintro ⟨h1, h2⟩
      rcases hf with h3 | ⟨_, h3⟩
      · rw [h3] at h1; cases h1
      · rcases h3 h1 with ⟨_, h4⟩ | ⟨h4, h5⟩
        · rw [← h2] at h4
          revert h4 hn
          generalize last h = a
          unfold newlines
          cases a <;> decide
        · rw [h4] at h2; exact h5 h2
    have hdf : dflt h d = 1 := by unfold dflt; rw [if_neg hdup]; rfl
    have hj : join1 h d.1 = false := by
      cases e : join1 h d.1 with
      | false => rfl
      | true =>
        rcases ((join1_iff h d.1).mp e).1 with ⟨k, hk, _⟩ | ⟨k, hk, _⟩ <;> (rw [hnums] at hk; cases hk)
    have hs2 : fin (last h) (last h) false d.1 d.2 1 = fin (last h) (last h) false d.1 false 1 := by
      cases e : d.2 with
      | false => rfl
      | true =>
        rcases hf with h1 | ⟨_, h1⟩
        · rw [h1] at e; cases e
        · rcases h1 e with h1 | h1
          · exact absurd ⟨e, h1.1.symm⟩ hdup
          · rw [h1.1, fin_one_AL]
    rw [soFar0_succ, A.zero, A.one, hdf, n25_one_not hj, hskip, hodd, hs2]
    rfl

theorem cutTime_one {z0 z1 : Bool} {vs : List Verdict} {e i : Nat} (h0 : ripe vs i 0 = false) (h1 : ripe vs i 1 = true) (hi : i < e)
    (hl : i + 1 < vs.length) (hs : soFar0 vs i 1 ≤ 1000 ∧ soFar0 vs i 1 ≠ 0) : cutTime ⟨z0, z1, false⟩ vs e i = some 1 := by
  unfold cutTime
  rw [List.find?_range_eq_some]
  refine ⟨?_, by rw [List.mem_range]; omega, ?_⟩
  · rw [h1, Bool.true_and]
    unfold okAt
    have hb : base e i = 0 := by unfold base; rw [if_neg (by omega)]
    rw [ok_single, hb, Int.zero_add, decide_eq_true_eq]
    exact ⟨by omega, fun h => absurd h hs.2⟩
  · intro j hj
    obtain rfl : j = 0 := by omega
    rw [h0]; rfl

/-- The penalty at a mandatory break. -/
theorem newline_pen {T : LTables} {b : LBrk} (hR : Rep [] b) (text : List Int) (ht : ∀ x ∈ text, x ≠ 0) (z0 z1 : Bool) (i : Nat) (hi : i + 1 < text.length)
    (hn : raw T text[i] ∈ newlines) (hcr : ¬ (raw T text[i] = .CR ∧ raw T text[i + 1] = .LF)) :
    ∃ p, (placesEarly (breaker T) [b] z0 z1 text)[i]? = some p ∧ p.r = text[i] ∧ p.cut = true ∧ p.p0 ≤ 1000 ∧
      (raw T text[i + 1] ∉ never → p.p0 ≤ -8800) ∧
      (raw T text[i] = .CR ∨ (raw T text[i] = .LF ∧ 0 < i ∧ (text[i - 1]?.map (raw T)) = some .CR) ∨ (raw T text[i + 1] ∉ never ∧ raw T text[i + 1] ∉ rarely) →
        p.p0 ≤ -9000) := by
  have hlt : i + 1 < (text ++ [0]).length := by rw [List.length_append, List.length_singleton]; omega
  have hg : Good (H (sees T [] text) (i + 1)) := H_good T text ht _
  have A := at_of T hR (text ++ [0]) i hlt (by rw [H_text T text _ (by omega)]; exact hg)
  rw [H_text T text _ (by omega), List.getElem_append_left hi] at A
  have hH : ∀ j (hj : j < text.length), H (sees T [] text) (j + 1) = cls T (H (sees T [] text) j) text[j] :: H (sees T [] text) j :=
    fun j hj => H_succ _ _ _ (sees_get T text j hj)
  have hlast : ∀ j (hj : j < text.length), mark (raw T text[j]) = false → last (H (sees T [] text) (j + 1)) = raw T text[j] := by
    intro j hj hm
    have := H_good T text ht (j + 1)
    rw [hH j hj] at this ⊢
    rw [last_cons, if_neg (real_not (this _ List.mem_cons_self)).1, cls_not T _ hm]
  have hm0 : mark (raw T text[i]) = false := real_not_mark (newline_real hn).1
  have e1 := hlast i (by omega) hm0
  obtain ⟨hreal, hfol⟩ := good_cls T hg text[i + 1] (ht _ (List.getElem_mem _))
  obtain ⟨r1, s1⟩ := A.newline hg hreal hfol (by rw [e1]; exact hn)
  rw [e1] at s1
  generalize hd : cls T (H (sees T [] text) (i + 1)) text[i + 1] = d at *
  have hd1 : d.1 = if mark (raw T text[i + 1]) then .AL else raw T text[i + 1] := by
    rw [← hd]
    cases hm : mark (raw T text[i + 1]) with
    | false => rw [cls_not T _ hm]; rfl
    | true =>
      rw [cls_mark T hg hm, e1]
      have : raw T text[i] ∈ [LClass.sot, .BK, .CR, .LF, .NL, .SP, .ZW] := by
        revert hn
        generalize raw T text[i] = a
        unfold newlines
        cases a <;> decide
      simp only [if_pos this, if_true]
  have hmk : ∀ c, mark c = true → c ∉ never ∧ c ∉ rarely ∧ c ≠ .LF := by intro c; cases c <;> decide
  have hne1 : raw T text[i + 1] ∉ never → d.1 ∉ never := by
    intro h
    rw [hd1]
    split
    · decide
    · exact h
  have hne2 : raw T text[i + 1] ∉ rarely → d.1 ∉ rarely := by
    intro h
    rw [hd1]
    split
    · decide
    · exact h
  have hcr' : ¬ (raw T text[i] = .CR ∧ d.1 = .LF) := by
    rintro ⟨h1, h2⟩
    rw [hd1] at h2
    split at h2
    · cases h2
    · exact hcr ⟨h1, h2⟩
  have hb : ¬ ((last (H (sees T [] text) (i + 1)).tail == .HL) = true ∧ (last (H (sees T [] text) (i + 1)).tail == .CR) = true) := by
    rintro ⟨h1, h2⟩
    rw [beq_iff_eq] at h1 h2
    rw [h1] at h2; cases h2
  obtain ⟨t1, t2, t3, t4⟩ := table7_use hb hn hreal hcr'
  rw [← s1] at t1 t2 t3 t4
  have hc : cutTime ⟨z0, z1, decide (1 < [b].length)⟩ (verdicts (breaker T) [b] (text ++ [0])) text.length i = some 1 :=
    cutTime_one A.ripe0 r1 (by omega) (by rw [Seg.verdicts_length]; exact hlt) ⟨t1, t2⟩
  have hbase : base text.length i = 0 := by unfold base; rw [if_neg (by omega)]
  have hp : (placesEarly (breaker T) [b] z0 z1 text)[i]? =
      some ⟨text[i], base text.length i + soFar0 (verdicts (breaker T) [b] (text ++ [0])) i 1,
        base text.length i + soFar1 (verdicts (breaker T) [b] (text ++ [0])) i 1, true⟩ := by
    unfold placesEarly
    simp only
    rw [List.getElem?_mapIdx, List.getElem?_append_left (by omega), List.getElem?_eq_getElem (show i < text.length by omega)]
    simp only [Option.map_some, Option.some.injEq]
    rw [hc]
  refine ⟨_, hp, rfl, rfl, ?_, ?_, ?_⟩
  · simp only [hbase, Int.zero_add]; exact t1
  · intro h; simp only [hbase, Int.zero_add]; exact t3 (hne1 h)
  · intro h
    simp only [hbase, Int.zero_add]
    apply t4
    rcases h with h | ⟨h1, h2, h3⟩ | ⟨h1, h2⟩
    · exact Or.inl h
    · refine Or.inr (Or.inl ⟨?_, h1⟩)
      obtain ⟨j, rfl⟩ : ∃ j, i = j + 1 := ⟨i - 1, by omega⟩
      rw [Nat.add_sub_cancel, List.getElem?_eq_getElem (by omega), Option.map_some, Option.some.injEq] at h3
      rw [hH (j + 1) (by omega), List.tail_cons, hlast j (by omega) (by rw [h3]; rfl), h3]
      rfl
    · exact Or.inr (Or.inr ⟨hne1 h1, hne2 h2⟩)

end Line
end Uax
