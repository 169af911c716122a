import Verif.SpecSegment

/-! Specification: texts that are cut into lines. -/

namespace Uax

/-- The runes of all segments, if `Next()` returns false within `n` calls. -/
def Seg.all {β : Type} (B : Breaker β) (n : Nat) (s : Seg β) : Option (List (List Int)) :=
  match s.collect B n with
  | some (segs, true) => some (segs.map (·.runes))
  | _ => none

/-- Every line but the last one ends with a rune of which `ends` is true, and CR LF is not cut into two. -/
def Lines (ends cr lf : Int → Prop) : List (List Int) → Prop
  | [] => True
  | [_] => True
  | l :: l' :: ls => (∃ front x, l = front ++ [x] ∧ ends x ∧ ¬ (cr x ∧ ∃ y rest, l' = y :: rest ∧ lf y)) ∧ Lines ends cr lf (l' :: ls)

end Uax
