import Verif.Props.BidiPairs
import Verif.Props.BidiSplit

/-! Properties C63 and C72 for texts with bracket pairs: visual order, runs, and lines. -/

namespace Uax
open Bidi Spec

/-- The texts of `C52_brackets_partial`, with directions `d` of brackets. -/
structure PairText (T : Tables) (o : Options) (t : List Char) (d : Nat → Option Class) : Prop where
  known : PairClasses (classes T o t)
  numbers : NumbersLTR (outer o) (classes T o t)
  first : (classes T o t).head? ≠ some cNSM
  short : (utf8 t).length < 65536
  depth : NeverFull [] (bracketsOf T o 0 t)
  angle : NoAngle t
  rule : RuleN0 T o t d
  decided : BracketsDecided T o t
  marks : NoMarksAfter (classes T o t)
  separators : SeparatorsSettled (outer o) (setBrackets (perChar d 0 t) (w5 cON (w4 cON (w3 (w2 (outer o) (w1 (outer o) (classes T o t)))))))
    (resolvedPairs (outer o) (perChar d 0 t) (classes T o t))
  neutrals : NeutralsBefore (outer o) (w3 (w2 (outer o) (w1 (outer o) (classes T o t)))) (resolvedPairs (outer o) (perChar d 0 t) (classes T o t))

/-- The levels of the characters of a paragraph with brackets, to which N0 gives the directions `d`. -/
def levelsPairs (T : Tables) (o : Options) (d : Nat → Option Class) (t : List Char) : List Nat :=
  (resolvedPairs (outer o) (perChar d 0 t) (classes T o t)).map (Spec.level (outer o))

/-- For the texts of C52_brackets_partial: resolution and reordering return whatever the schedule is,
and displaying the runs shows all characters of the first paragraph in the order of rule L2. The runs
are maximal, each consists of one segment in the direction which DirectionAt gives for every byte of it, and
the segments cover the first paragraph in logical order, without gaps.
Missing: other texts, see `C63_violated`. -/
theorem C63_brackets_partial (T : Tables) (o : Options) (sched : Nat → Nat) (t : List Char) (hT : KnownClasses T) (hB : BracketTable T) (ho : o.markup = none)
    (d : Nat → Option Class) (h : PairText T o (firstParagraph T o t) d) :
    ∃ rl runs, Resolves T o sched (utf8 t) rl ∧ rl.reorder = some runs ∧
      shown (starts 0 (firstParagraph T o t)) (outerDir o) runs =
        visualOrder ((starts 0 (firstParagraph T o t)).zip (levelsPairs T o d (firstParagraph T o t))) ∧
      Linked (fun a b : VRun => a.dir ≠ b.dir) runs ∧
      Tiles 0 (utf8 (firstParagraph T o t)).length (runs.flatMap (·.scraps)) ∧
      ∀ r ∈ runs, ∃ s, r.scraps = [s] ∧ r.length = s.r - s.l ∧ 0 < r.length ∧ ∀ pos, s.l ≤ pos → pos < s.r → rl.directionAt pos = r.dir := by
  obtain ⟨N, p, ys, e1, e2, e3, e4, e5, e6⟩ := resolve_pairs hT hB ho sched t h.known h.numbers h.first h.short h.depth h.angle d h.rule h.decided h.marks h.separators h.neutrals
  have he : outer o = cL ∨ outer o = cR := by unfold outer; split <;> simp
  obtain ⟨runs, r1, r2⟩ := runs_facts o p.stack ys e2 e3 e4 e5
  refine ⟨_, runs, resolves_of e1, r1, ?_, r2⟩
  have : runs = ys.map fun y => vrun y (outerDir o) := by
    rw [e2, reorder_apart o ys e4 e5, Option.some.injEq] at r1
    exact r1.symm
  rw [this]
  exact shown_scraps (pairs_length he h.known h.numbers (d := d)) e3 e4 e5 e6

/-- For the texts of C52_brackets_partial and every division of the first paragraph into lines, also between
the brackets of a pair: splitting does not panic and gives one result for each line. For each line, the
direction of a position is that of the position in the paragraph. Reorder does not panic, and displaying the
runs shows the characters of the line in the order of rule L2, with the levels which they have in the paragraph.
Missing: other texts, see `C72_embedding_violated`. -/
theorem C72_brackets_partial (T : Tables) (o : Options) (sched : Nat → Nat) (t : List Char) (hT : KnownClasses T) (hB : BracketTable T) (ho : o.markup = none)
    (d : Nat → Option Class) (h : PairText T o (firstParagraph T o t) d)
    (lines : List (List Char)) (h5 : firstParagraph T o t = lines.flatten) (h6 : ∀ l ∈ lines, l ≠ []) (h7 : lines ≠ []) :
    ∃ rl rls, Resolves T o sched (utf8 t) rl ∧ splitLines rl (lines.dropLast.map fun l => (utf8 l).length) = some rls ∧ rls.length = lines.length ∧
      ∀ before line after, lines = before ++ line :: after → ∃ lv, rls[before.length]? = some lv ∧
        (∀ pos, pos < (utf8 line).length → lv.directionAt pos = rl.directionAt ((utf8 before.flatten).length + pos)) ∧
        ∃ runs, lv.reorder = some runs ∧ shown (starts 0 line) (outerDir o) runs =
          visualOrder ((starts 0 line).zip (((levelsPairs T o d (firstParagraph T o t)).drop before.flatten.length).take line.length)) := by
  obtain ⟨N, p, ys, e1, e2, e3, e4, e5, e6⟩ := resolve_pairs hT hB ho sched t h.known h.numbers h.first h.short h.depth h.angle d h.rule h.decided h.marks h.separators h.neutrals
  have he : outer o = cL ∨ outer o = cR := by unfold outer; split <;> simp
  obtain ⟨rls, r⟩ := lines_facts o p.stack ys e2 e3 e4 e5 e6 (pairs_length he h.known h.numbers (d := d)) lines h5 h6 h7
  exact ⟨_, rls, resolves_of e1, r⟩

/-- The text `paired` meets the conditions. What is displayed, as offsets of characters: the right-to-left parts are reversed. -/
theorem paired_text : ∃ d, PairText bracketSample { testing := true } (firstParagraph bracketSample { testing := true } paired) d ∧
    visualOrder ((starts 0 paired).zip (levelsPairs bracketSample { testing := true } d paired)) =
      List.range 25 ++ [28, 27, 26, 25] ++ (List.range 7).map (· + 29) ++ [42, 41, 40, 39, 38, 37, 36] ++ [43] := by
  have hp : firstParagraph bracketSample { testing := true } paired = paired := by decide +kernel
  rw [hp]
  refine ⟨_, ⟨by show ∀ c ∈ _, _; decide +kernel, numbersLTR_of (by decide +kernel), by decide +kernel, by decide +kernel, ?_, by show ∀ c ∈ _, _; decide +kernel, ruleN0_dirs _ _ _,
      bracketsDecided_of [(1, 12), (3, 5), (16, 21), (26, 28), (37, 42)] (by decide +kernel) (by decide +kernel), noMarksAfter_of (by decide +kernel),
      separatorsSettled_of (by decide +kernel), neutralsBefore_of (by decide +kernel)⟩, by decide +kernel⟩
  · rw [show bracketsOf bracketSample { testing := true } 0 paired = [.opening 0x29 1, .opening 0x5D 3, .closing 0x5D 5, .closing 0x29 12, .opening 0x29 16,
      .closing 0x29 21, .opening 0x29 26, .closing 0x29 28, .opening 0x29 37, .closing 0x29 42] from by decide +kernel]
    simp [NeverFull]

/-- Lines of this text, the first one of which ends inside of a pair. -/
example : firstParagraph bracketSample { testing := true } paired = [paired.take 8, (paired.drop 8).take 19, paired.drop 27].flatten ∧
    (∀ l ∈ [paired.take 8, (paired.drop 8).take 19, paired.drop 27], l ≠ []) := by decide +kernel

end Uax
