import Verif.BidiDirections
import Verif.BidiEndless

/-! Property C52: DirectionAt gives the direction of each character according to UAX#9.

`directions e cs` (SpecBidi.lean) are the directions which the rules W1 to W7, N1, N2, I1 and I2
of the standard give to characters of the classes `cs` in embedding direction `e`. -/

namespace Uax
open Bidi Spec

/-- For every text of letters, European numbers with separators and terminators, marks and
neutrals (no brackets, isolates, Arabic numbers, formatting characters), which does not begin
with a nonspacing mark, whose numbers stand in left-to-right context, and where a separator or
terminator which rules W4 and W5 leave comes directly after a neutral or after another kind of
separator only if the next other character is a neutral too or if the direction there is the one of the
paragraph: after resolution, which comes to an end whatever the schedule is, DirectionAt gives
the direction of the standard for every byte of every character of the first paragraph.
Missing: other texts, see `C52_violated`, `C52_number_violated`; for brackets see C37, for
isolates C42 and C51. -/
theorem C52_directions_partial (T : Tables) (o : Options) (sched : Nat → Nat) (t : List Char) (hT : KnownClasses T) (ho : o.markup = none)
    (h1 : PlainClasses (classes T o (firstParagraph T o t))) (h2 : (classes T o (firstParagraph T o t)).head? ≠ some cNSM)
    (h3 : NumbersLTR (outer o) (classes T o (firstParagraph T o t)))
    (h4 : SeparatorsSettled (outer o) (w5 cON (w4 cON (w3 (w2 (outer o) (w1 (outer o) (classes T o (firstParagraph T o t)))))))
      (resolved (outer o) (classes T o (firstParagraph T o t)))) :
    ∃ rl, Resolves T o sched (utf8 t) rl ∧ ∀ pre c post, firstParagraph T o t = pre ++ c :: post → ∀ k, k < (utf8 [c]).length →
      (directions (outer o) (classes T o (firstParagraph T o t)))[pre.length]? = some (rl.directionAt ((utf8 pre).length + k)) := by
  obtain ⟨N, p, ys, e1, e2, e3, e4, -, e5⟩ := resolve_bytes hT ho sched t h1 h2 h3 h4 (known_notNull hT)
  refine ⟨_, resolves_of e1, ?_⟩
  intro pre c post hp k hk
  have he : outer o = cL ∨ outer o = cR := by unfold outer; split <;> simp
  have hlen := resolved_length (T := T) (t := firstParagraph T o t) he h1 h3
  have hpos : (utf8 pre).length + k < (utf8 (firstParagraph T o t)).length := by
    have hs := spread_length pre (List.replicate pre.length cL) (by simp)
    have : ∀ (q : List Char) (d : List Char), (utf8 (q ++ d)).length = (utf8 q).length + (utf8 d).length := by
      intro q d
      induction q with
      | nil => show (utf8 d).length = 0 + _; omega
      | cons x q ih => rw [List.cons_append, utf8_len x (q ++ d), ih, utf8_len x q]; omega
    rw [hp, this, utf8_len c post]
    omega
  obtain ⟨s, s1, s2⟩ := find_bytes ys 0 _ _ e3 (fun s hs => (e4 s hs).2.1) (Nat.zero_le _) hpos
  have hd : (levelsOf o p.stack).directionAt ((utf8 pre).length + k) = directionOf s .ltr := by
    unfold Levels.directionAt levelsOf
    dsimp only
    rw [e2, List.cons_append, List.find?_cons_of_neg, List.find?_append, s1]
    · rfl
    · have : (initialOuterScrap o true).r = 0 := rfl
      rw [this]
      simp
  rw [hd]
  rw [e5, hp, Nat.sub_zero, spread_get pre c post _ k (by rw [← hp]; exact hlen) hk, ← hp] at s2
  unfold directions
  rw [List.getElem?_map, s2, Option.map_some, Option.some.injEq]
  rcases (e4 s (List.mem_of_find?_eq_some s1)).1 with h | h <;> unfold directionOf Spec.level <;> rw [h] <;> rcases he with h | h <;> rw [h] <;> rfl

/-- A text with letters of both directions, numbers with separators and terminators, marks and
neutrals at all sides, and what the rules give. -/
def mixed : List Char := "a 12,3% b+c אב, ג. d é! ".toList

example : PlainClasses (classes sample {} mixed) ∧ (classes sample {} mixed).head? ≠ some cNSM ∧ firstParagraph sample {} mixed = mixed ∧
    NumbersLTR cL (classes sample {} mixed) ∧
    directions cL (classes sample {} mixed) = List.replicate 12 .ltr ++ List.replicate 5 .rtl ++ List.replicate 8 .ltr := by
  refine ⟨by show ∀ c ∈ _, _; decide +kernel, by decide +kernel, by decide +kernel, numbersLTR_of (by decide +kernel), by decide +kernel⟩

/-- A form of the condition on separators that can be computed. -/
theorem separatorsSettled_of {e : Class} {cs ds : List Class} (h : ∀ i, i < cs.length - 1 → cs[i + 1]? = some cES ∨ cs[i + 1]? = some cET ∨ cs[i + 1]? = some cCS →
    cs[i]? = cs[i + 1]? ∨ (∀ x ∈ [cB, cS, cWS, cON, cES, cET, cCS], cs[i]? ≠ some x) ∨ ds[i + 1]? = some e ∨
      ∃ z ∈ [cS, cWS, cON], ((cs.drop (i + 2)).dropWhile (· ∈ [cES, cET, cCS])).head? = some z) : SeparatorsSettled e cs ds := by
  intro i x y hx hy hyy
  obtain ⟨h1, -⟩ := List.getElem?_eq_some_iff.mp hy
  have := h i (by omega) (by
    rw [hy]
    simp only [List.mem_cons, List.not_mem_nil, or_false] at hyy
    rcases hyy with rfl | rfl | rfl <;> simp)
  rw [hx, hy] at this
  rcases this with h | h | h
  · exact Or.inl (by simpa using h)
  · exact Or.inr (Or.inl fun hx => h x hx rfl)
  · exact Or.inr (Or.inr h)

example : SeparatorsSettled cL (w5 cON (w4 cON (w3 (w2 cL (w1 cL (classes sample {} mixed)))))) (resolved cL (classes sample {} mixed)) :=
  separatorsSettled_of (by decide +kernel)

/-- Separators between spaces. The conditions hold also for a right-to-left text. -/
def spaced : List Char := "a - b, +1% א - ב, ג -c".toList

example : PlainClasses (classes sample {} spaced) ∧ (classes sample {} spaced).head? ≠ some cNSM ∧ firstParagraph sample {} spaced = spaced ∧
    NumbersLTR cL (classes sample {} spaced) ∧
    SeparatorsSettled cL (w5 cON (w4 cON (w3 (w2 cL (w1 cL (classes sample {} spaced)))))) (resolved cL (classes sample {} spaced)) ∧
    directions cL (classes sample {} spaced) = List.replicate 11 .ltr ++ List.replicate 8 .rtl ++ List.replicate 3 .ltr := by
  refine ⟨by show ∀ c ∈ _, _; decide +kernel, by decide +kernel, by decide +kernel, numbersLTR_of (by decide +kernel), separatorsSettled_of (by decide +kernel),
    by decide +kernel⟩

example : PlainClasses (classes sample {} "א - ב, +% ג".toList) ∧
    SeparatorsSettled cR (w5 cON (w4 cON (w3 (w2 cR (w1 cR (classes sample {} "א - ב, +% ג".toList)))))) (resolved cR (classes sample {} "א - ב, +% ג".toList)) :=
  ⟨by show ∀ c ∈ _, _; decide +kernel, separatorsSettled_of (by decide +kernel)⟩

/-- The property does not hold: a separator after white space is not taken together with it, and
neither gets the direction of the letters on both sides. (Upper case letters are R.) -/
theorem C52_violated : ∃ (T : Tables) (o : Options) (t : List Char) (sched : Nat → Nat) (rl : Levels), KnownClasses T ∧ o.markup = none ∧
    PlainClasses (classes T o (firstParagraph T o t)) ∧ Resolves T o sched (utf8 t) rl ∧ t.length = 4 ∧ (utf8 t).length = 4 ∧
    firstParagraph T o t = t ∧ directions (outer o) (classes T o t) = [.rtl, .rtl, .rtl, .rtl] ∧
    [rl.directionAt 0, rl.directionAt 1, rl.directionAt 2, rl.directionAt 3] = [.rtl, .ltr, .ltr, .rtl] := by
  obtain ⟨rl, a1, a2⟩ := resolvedWith_iff (T := sample) (o := { testing := true }) (sched := fun _ => 0) (b := utf8 "A +B".toList) (n := 99)
    (f := fun rl => decide ([rl.directionAt 0, rl.directionAt 1, rl.directionAt 2, rl.directionAt 3] = [.rtl, .ltr, .ltr, .rtl])) (by decide +kernel)
  exact ⟨sample, { testing := true }, "A +B".toList, _, rl, sample_known, rfl, by show ∀ c ∈ _, _; decide +kernel, a1, by decide +kernel, by decide +kernel,
    by decide +kernel, by decide +kernel, by simpa using a2⟩

/-- In a right-to-left paragraph a number before the first letter takes the neutral after it along
to the left-to-right side. -/
theorem C52_number_violated : ∃ (T : Tables) (o : Options) (t : List Char) (sched : Nat → Nat) (rl : Levels), KnownClasses T ∧ o.markup = none ∧
    PlainClasses (classes T o (firstParagraph T o t)) ∧ Resolves T o sched (utf8 t) rl ∧ t.length = 3 ∧ (utf8 t).length = 3 ∧
    firstParagraph T o t = t ∧ directions (outer o) (classes T o t) = [.ltr, .rtl, .ltr] ∧
    [rl.directionAt 0, rl.directionAt 1, rl.directionAt 2] = [.ltr, .ltr, .ltr] := by
  obtain ⟨rl, a1, a2⟩ := resolvedWith_iff (T := sample) (o := { outerR2L := true }) (sched := fun _ => 0) (b := utf8 "1 a".toList) (n := 99)
    (f := fun rl => decide ([rl.directionAt 0, rl.directionAt 1, rl.directionAt 2] = [.ltr, .ltr, .ltr])) (by decide +kernel)
  exact ⟨sample, { outerR2L := true }, "1 a".toList, _, rl, sample_known, rfl, by show ∀ c ∈ _, _; decide +kernel, a1, by decide +kernel, by decide +kernel,
    by decide +kernel, by decide +kernel, by simpa using a2⟩

end Uax
