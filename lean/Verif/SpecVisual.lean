import Verif.SpecBidiText
import Verif.SpecBlocks
import Verif.BidiReorder

/-
Specification: the order in which characters are displayed, UAX#9 rule L2, and
what is displayed for runs.
-/
namespace Uax.Bidi.Spec

/-- Where the characters of a text begin, when its first byte is at `pos`. -/
def starts : Nat → List Char → List Nat
  | _, [] => []
  | pos, c :: t => pos :: starts (pos + (utf8 [c]).length) t

/-- Every maximal block of elements at a level or higher is reversed. -/
def reverseAbove {α : Type} (k : Nat) (l : List (α × Nat)) : List (α × Nat) := flipBlocks (fun x => decide (k ≤ x.2)) [] l

/-- From level `k` down to level 1. -/
def reverseFrom {α : Type} : Nat → List (α × Nat) → List (α × Nat)
  | 0, l => l
  | k + 1, l => reverseFrom k (reverseAbove (k + 1) l)

/-- L2: from the highest level down to 1, blocks of elements at that level or higher are reversed. The elements,
each with its level, are given in logical order; the result is from left to right. -/
def visualOrder {α : Type} (l : List (α × Nat)) : List α := (reverseFrom ((l.map (·.2)).foldr max 0) l).map (·.1)

/-- The characters of a text which begin in an interval. -/
def within (l r : Nat) (st : List Nat) : List Nat := st.filter fun p => decide (l ≤ p ∧ p < r)

/-- What is displayed for the segment of a run, from left to right: its characters, in the direction of the run. -/
def shownSegment (st : List Nat) (d : Dir) (s : Scrap) : List Nat :=
  if d = .ltr then within s.l s.r st else (within s.l s.r st).reverse

/-- What is displayed for runs, from left to right. The runs, and the segments of a run, are listed from left to right
in a left-to-right paragraph and from right to left in a right-to-left paragraph. -/
def shown (st : List Nat) (paragraph : Dir) (runs : List VRun) : List Nat :=
  if paragraph = .ltr then runs.flatMap fun r => r.scraps.flatMap (shownSegment st r.dir)
  else runs.reverse.flatMap fun r => r.scraps.reverse.flatMap (shownSegment st r.dir)

end Uax.Bidi.Spec
