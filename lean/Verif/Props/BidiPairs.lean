import Verif.BidiPairsResolve
import Verif.Props.BidiN0
import Verif.Props.BidiDirections

/-! Property C52 for texts with bracket pairs: DirectionAt gives the direction of each character
according to UAX#9.

`directionsPairs e ks cs` (SpecN0.lean) are the directions which the rules W1 to W7, N0, N1, N2,
I1 and I2 of the standard give to characters of the classes `cs` in embedding direction `e`, if
N0 gives the directions `ks` to brackets. `RuleN0` says which ones these are. -/

namespace Uax
open Bidi Spec

/-- For every text of letters (no Arabic ones), European numbers in left-to-right context with
separators and terminators, marks, neutrals and brackets, which does not begin with a nonspacing
mark: after resolution, which comes to an end whatever the schedule is, DirectionAt gives the
direction of the standard for every byte of every character of the first paragraph, if
- all brackets are in pairs with letters inside, which get the embedding direction from inside or
  their direction from a letter before them (`BracketsDecided`), and no marks follow brackets,
- neutrals directly before brackets have the direction of the paragraph (`NeutralsBefore`),
- separators beside neutrals are settled as in `C52_directions_partial`,
- there are never 63 open brackets, no angle brackets, and less than 65536 bytes.
Missing: other texts, see `C52_bracket_violated` and the violations of C71 and C37. -/
theorem C52_brackets_partial (T : Tables) (o : Options) (sched : Nat → Nat) (t : List Char) (hT : KnownClasses T) (hB : BracketTable T) (ho : o.markup = none)
    (h1 : PairClasses (classes T o (firstParagraph T o t))) (h2 : NumbersLTR (outer o) (classes T o (firstParagraph T o t)))
    (h3 : (classes T o (firstParagraph T o t)).head? ≠ some cNSM) (h4 : (utf8 (firstParagraph T o t)).length < 65536)
    (h5 : NeverFull [] (bracketsOf T o 0 (firstParagraph T o t))) (h6 : NoAngle (firstParagraph T o t))
    (d : Nat → Option Class) (hd : RuleN0 T o (firstParagraph T o t) d) (h7 : BracketsDecided T o (firstParagraph T o t)) (h8 : NoMarksAfter (classes T o (firstParagraph T o t)))
    (h9 : SeparatorsSettled (outer o) (setBrackets (perChar d 0 (firstParagraph T o t)) (w5 cON (w4 cON (w3 (w2 (outer o) (w1 (outer o) (classes T o (firstParagraph T o t))))))))
      (resolvedPairs (outer o) (perChar d 0 (firstParagraph T o t)) (classes T o (firstParagraph T o t))))
    (h10 : NeutralsBefore (outer o) (w3 (w2 (outer o) (w1 (outer o) (classes T o (firstParagraph T o t)))))
      (resolvedPairs (outer o) (perChar d 0 (firstParagraph T o t)) (classes T o (firstParagraph T o t)))) :
    ∃ rl, Resolves T o sched (utf8 t) rl ∧ ∀ pre c post, firstParagraph T o t = pre ++ c :: post → ∀ k, k < (utf8 [c]).length →
      (directionsPairs (outer o) (perChar d 0 (firstParagraph T o t)) (classes T o (firstParagraph T o t)))[pre.length]? =
        some (rl.directionAt ((utf8 pre).length + k)) := by
  obtain ⟨N, p, ys, e1, e2, e3, e4, -, e5⟩ := resolve_pairs hT hB ho sched t h1 h2 h3 h4 h5 h6 d hd h7 h8 h9 h10
  refine ⟨_, resolves_of e1, ?_⟩
  intro pre c post hp k hk
  have he : outer o = cL ∨ outer o = cR := by unfold outer; split <;> simp
  have hpos : (utf8 pre).length + k < (utf8 (firstParagraph T o t)).length := by
    rw [hp, Uax.Bidi.utf8_append, utf8_len c post]
    omega
  obtain ⟨s, s1, s2⟩ := find_bytes ys 0 _ _ e3 (fun s hs => (e4 s hs).2.1) (Nat.zero_le _) hpos
  have hdir : (levelsOf o p.stack).directionAt ((utf8 pre).length + k) = directionOf s .ltr := by
    unfold Levels.directionAt levelsOf
    dsimp only
    rw [e2, List.cons_append, List.find?_cons_of_neg, List.find?_append, s1]
    · rfl
    · have : (initialOuterScrap o true).r = 0 := rfl
      rw [this]
      simp
  have hlen := pairs_length he h1 h2 (d := d)
  rw [hdir]
  rw [e5, Nat.sub_zero] at s2
  have hg := spread_get pre c post (resolvedPairs (outer o) (perChar d 0 (firstParagraph T o t)) (classes T o (firstParagraph T o t))) k (by rw [← hp]; exact hlen) hk
  rw [← hp] at hg
  rw [hg] at s2
  unfold directionsPairs
  rw [List.getElem?_map, s2, Option.map_some, Option.some.injEq]
  rcases (e4 s (List.mem_of_find?_eq_some s1)).1 with h | h <;> unfold directionOf Spec.level <;> rw [h] <;> rcases he with h | h <;> rw [h] <;> rfl

/-- Forms of the conditions which can be computed. The indices of the pairs are given. -/
theorem bracketsDecided_of {T : Tables} {o : Options} {t : List Char} (L : List (Nat × Nat))
    (h1 : ∀ i, i < t.length → (classes T o t)[i]? = some cBRACKO ∨ (classes T o t)[i]? = some cBRACKC → ∃ x ∈ L, i = x.1 ∨ i = x.2)
    (h2 : ∀ x ∈ L, x.1 < x.2 ∧ x.2 < t.length ∧ ((utf8 (t.take x.1)).length, (utf8 (t.take x.2)).length) ∈ bd16 true [] (bracketsOf T o 0 t) ∧
      (∃ y ∈ (t.take x.2).drop (x.1 + 1), charClass T o y = cL ∨ charClass T o y = cR) ∧
      (outer o ∈ strongTypes T o (fun _ => none) (lastLetter T o (t.take x.1)) 0 ((t.take x.2).drop (x.1 + 1)) ∨
        ∃ y ∈ (t.take x.1).getLast?, strongType (charClass T o y) ≠ none)) : BracketsDecided T o t := by
  intro u c w ht hc
  have hu : u.length < t.length := by rw [ht]; simp
  have htk : t.take u.length = u := by rw [ht]; simp
  obtain ⟨⟨i, j⟩, hx, hi⟩ := h1 u.length hu (by
    unfold classes
    rw [ht, List.getElem?_map]
    simpa using hc)
  obtain ⟨k1, k2, k3, k4, k5⟩ := h2 _ hx
  dsimp only at k1 k2 k3 k4 k5 hi
  have e1 : t.take j = t.take i ++ t[i] :: (t.take j).drop (i + 1) := by
    have : (t.take j)[i]'(by rw [List.length_take]; omega) = t[i] := List.getElem_take
    rw [← this, List.getElem_cons_drop]
    conv => lhs; rw [← List.take_append_drop i (t.take j)]
    rw [List.take_take, Nat.min_eq_left (Nat.le_of_lt k1)]
  have e2 : t = t.take i ++ t[i] :: ((t.take j).drop (i + 1) ++ t[j] :: t.drop (j + 1)) := by
    rw [List.getElem_cons_drop]
    have := List.take_append_drop j t
    rw [e1, List.append_assoc, List.cons_append] at this
    exact this.symm
  refine ⟨t.take i, t[i], (t.take j).drop (i + 1), t[j], t.drop (j + 1), e2, ?_, ?_, k4, ?_⟩
  · rcases hi with rfl | rfl
    · exact Or.inl htk.symm
    · right
      rw [← e1, htk]
  · rw [← e1]; exact k3
  · refine k5.imp id ?_
    rintro ⟨y, hy, hs⟩
    refine ⟨t.take i, [], by simp, by simp, Or.inr ?_⟩
    obtain ⟨v, hv⟩ := List.getLast?_eq_some_iff.mp hy
    exact ⟨v, y, hv, hs⟩

theorem noMarksAfter_of {cs : List Class} (h : ∀ i, i < cs.length → cs[i]? = some cBRACKO ∨ cs[i]? = some cBRACKC → cs[i + 1]? ≠ some cNSM) : NoMarksAfter cs := by
  intro pre x post e
  have := h pre.length (by rw [e]; simp)
  rw [e] at this
  simp at this
  exact ⟨this.1, this.2⟩

theorem neutralsBefore_of {e : Class} {cs ds : List Class} (h : ∀ i, i < cs.length → (∃ x ∈ [cS, cWS, cON, cES, cET, cCS], cs[i]? = some x) →
    cs[i + 1]? = some cBRACKO ∨ cs[i + 1]? = some cBRACKC → ds[i]? = some e) : NeutralsBefore e cs ds := by
  intro i x y hx hy hxn hyb
  exact h i (List.getElem?_eq_some_iff.mp hx).1 ⟨x, hxn, hx⟩ (by rw [hy]; simpa using hyb)

/-- A text with nested pairs of both directions, numbers, separators and neutrals. Upper case
letters are R. -/
def paired : List Char := "A(b[C]d, 1,2) e (F g!) - H(I) j 5%! K(LM N).".toList

example : firstParagraph bracketSample { testing := true } paired = paired ∧ PairClasses (classes bracketSample { testing := true } paired) ∧
    NumbersLTR cL (classes bracketSample { testing := true } paired) ∧ (classes bracketSample { testing := true } paired).head? ≠ some cNSM ∧
    (utf8 paired).length < 65536 ∧ NoAngle paired ∧ BracketsDecided bracketSample { testing := true } paired ∧ NoMarksAfter (classes bracketSample { testing := true } paired) := by
  refine ⟨by decide +kernel, by show ∀ c ∈ _, _; decide +kernel, numbersLTR_of (by decide +kernel), by decide +kernel, by decide +kernel, by show ∀ c ∈ _, _; decide +kernel,
    bracketsDecided_of [(1, 12), (3, 5), (16, 21), (26, 28), (37, 42)] (by decide +kernel) (by decide +kernel), noMarksAfter_of (by decide +kernel)⟩

example : NeverFull [] (bracketsOf bracketSample { testing := true } 0 paired) := by
  rw [show bracketsOf bracketSample { testing := true } 0 paired = [.opening 0x29 1, .opening 0x5D 3, .closing 0x5D 5, .closing 0x29 12, .opening 0x29 16,
    .closing 0x29 21, .opening 0x29 26, .closing 0x29 28, .opening 0x29 37, .closing 0x29 42] from by decide +kernel]
  simp [NeverFull]

/-- What the rules give: the last two pairs are right to left. -/
example : ∃ d, RuleN0 bracketSample { testing := true } paired d ∧
    SeparatorsSettled cL (setBrackets (perChar d 0 paired) (w5 cON (w4 cON (w3 (w2 cL (w1 cL (classes bracketSample { testing := true } paired)))))))
      (resolvedPairs cL (perChar d 0 paired) (classes bracketSample { testing := true } paired)) ∧
    NeutralsBefore cL (w3 (w2 cL (w1 cL (classes bracketSample { testing := true } paired)))) (resolvedPairs cL (perChar d 0 paired) (classes bracketSample { testing := true } paired)) ∧
    directionsPairs cL (perChar d 0 paired) (classes bracketSample { testing := true } paired) =
      [.rtl, .ltr, .ltr, .ltr, .rtl] ++ List.replicate 12 .ltr ++ [.rtl] ++ List.replicate 7 .ltr ++ List.replicate 4 .rtl ++ List.replicate 7 .ltr ++
        List.replicate 7 .rtl ++ [.ltr] := by
  refine ⟨_, ruleN0_dirs _ _ _, separatorsSettled_of (by decide +kernel), neutralsBefore_of (by decide +kernel), by decide +kernel⟩

/-- The property does not hold for texts with brackets: in "A (B)" the brackets are right to left,
and so is the space between `A` and the bracket. But it is left to right. -/
theorem C52_bracket_violated : ∃ (T : Tables) (o : Options) (t : List Char) (sched : Nat → Nat) (rl : Levels) (d : Nat → Option Class), KnownClasses T ∧ BracketTable T ∧
    o.markup = none ∧ o.outerR2L = false ∧ firstParagraph T o t = t ∧ classes T o t = [cR, cWS, cBRACKO, cR, cBRACKC] ∧ BracketsDecided T o t ∧ RuleN0 T o t d ∧
    directionsPairs (outer o) (perChar d 0 t) (classes T o t) = [.rtl, .rtl, .rtl, .rtl, .rtl] ∧
    Resolves T o sched (utf8 t) rl ∧ (List.range 5).map rl.directionAt = [.rtl, .ltr, .rtl, .rtl, .rtl] := by
  obtain ⟨rl, a1, a2⟩ := resolvedWith_iff (T := bracketSample) (o := { testing := true }) (sched := fun _ => 0) (b := utf8 "A (B)".toList) (n := 199)
    (f := fun rl => decide ((List.range 5).map rl.directionAt = [.rtl, .ltr, .rtl, .rtl, .rtl])) (by decide +kernel)
  refine ⟨bracketSample, { testing := true }, "A (B)".toList, _, rl, _, bracketSample_known, bracketSample_table, rfl, rfl, by decide +kernel, by decide +kernel,
    ?_, ruleN0_dirs _ _ _, by decide +kernel, a1, of_decide_eq_true a2⟩
  intro u c w ht hc
  have hu : u = ['A', ' '] ∨ u = ['A', ' ', '(', 'B'] := by
    have hl : u.length < 5 := by
      have := congrArg List.length ht
      simp at this
      omega
    have h0 : u = "A (B)".toList.take u.length := by rw [ht]; simp
    have hcl : charClass bracketSample { testing := true } c = (classes bracketSample { testing := true } "A (B)".toList).getD u.length 0 := by
      unfold classes
      rw [ht]
      simp [List.getD]
    rw [hcl] at hc
    match hn : u.length, hl with
    | 0, _ => rw [hn] at hc; exact absurd hc (by decide +kernel)
    | 1, _ => rw [hn] at hc; exact absurd hc (by decide +kernel)
    | 2, _ => left; rw [h0, hn]; rfl
    | 3, _ => rw [hn] at hc; exact absurd hc (by decide +kernel)
    | 4, _ => right; rw [h0, hn]; rfl
  exact ⟨['A', ' '], '(', ['B'], ')', [], by decide +kernel, hu, by decide +kernel, by decide +kernel,
    Or.inr ⟨['A'], [' '], rfl, by decide +kernel, Or.inr ⟨[], 'A', rfl, by decide +kernel⟩⟩⟩

end Uax
