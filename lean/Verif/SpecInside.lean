import Verif.SpecGrapheme
import Verif.SpecWord

/-! Specification: segments made of smaller segments. -/

namespace Uax

/-- Every segment of `coarse` is a sequence of segments of `fine`, and together these are all of them. -/
def MadeOf (coarse fine : List (List Int)) : Prop := ∃ groups : List (List (List Int)), coarse = groups.map List.flatten ∧ fine = groups.flatten

/-- Two regional indicators with nothing but ignorable characters (Extend, Format, ZWJ) between them are neighbours. -/
def FlagsTight (ch : Int → WChar) (text : List Int) : Prop :=
  ∀ pre x mid y post, text = pre ++ x :: (mid ++ y :: post) → (ch x).wb = .RI → (ch y).wb = .RI → (∀ z ∈ mid, SpecWord.ignorable (ch z) = true) → mid = []

end Uax
