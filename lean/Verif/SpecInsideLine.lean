import Verif.SpecInside
import Verif.SpecLine

/-! Specification: texts of which the classes for graphemes and those for lines go together. -/

namespace Uax
open SpecLine

/-- What is said about a character by its grapheme break property goes together with its line break property. -/
structure AgreeL (g : GClass) (c : LClass) : Prop where
  cr : g = .CR → c = .CR
  lf : g = .LF → c = .LF
  ctl : c ∈ [LClass.BK, .CR, .LF, .NL, .ZW] → g.isCtl = true
  l : g = .L → c = .JL
  v : g = .V → c = .JV
  t : g = .T → c = .JT
  lv : g = .LV → c = .H2
  lvt : g = .LVT → c = .H3
  ri : g = .RI ↔ c = .RI

/-- `b` may follow `a` as a part of the same grapheme: it is a mark, and not after a space; or an emoji modifier after an emoji; or a sign that
does not begin a line, after a letter; or a letter after a letter. -/
def Attached (a b : LClass) : Prop :=
  (mark b = true ∧ a ≠ .SP) ∨ (b = .EM ∧ a = .EB) ∨ (b = .NS ∧ a ∉ [LClass.SP, .CB, .CM, .ZWJ]) ∨ (b = .AL ∧ a = .AL)

/-- A text of which lines and graphemes go together. -/
structure Wrapped (g : Int → GClass) (c : Int → LClass) (text : List Int) : Prop where
  classes : ∀ r ∈ text, AgreeL (g r) (c r)
  attached : ∀ pre a b post, text = pre ++ a :: b :: post → g b ∈ [GClass.Extend, .ZWJ, .SpacingMark] → (g a).isCtl = false → Attached (c a) (c b)
  joined : ∀ pre a b post, text = pre ++ a :: b :: post → ¬ (g a = .ZWJ ∧ g b = .Pict)
  flags : ∀ pre x mid y post, text = pre ++ x :: (mid ++ y :: post) → c x = .RI → c y = .RI → (∀ z ∈ mid, mark (c z) = true) → mid = []

end Uax
