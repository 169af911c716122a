import Verif.Props.BidiDirections

/-! Property C52: rule W4 and more than one separator. -/

namespace Uax
open Bidi Spec

/-- Rule W4 is for a single separator between two numbers. The scanner puts neighbouring separators together, and W4 is applied to all of them: in "A1,,2" (with a
right-to-left "A") both commas become part of one number. By the standard they are neutrals between numbers in right-to-left context, that is, right-to-left. -/
theorem C52_separators_violated : ∃ (T : Tables) (o : Options) (t : List Char) (sched : Nat → Nat) (rl : Levels), KnownClasses T ∧ o.markup = none ∧
    Resolves T o sched (utf8 t) rl ∧ (utf8 t).length = 5 ∧ firstParagraph T o t = t ∧ classes T o t = [cR, cEN, cCS, cCS, cEN] ∧
    directions (outer o) (classes T o t) = [.rtl, .ltr, .rtl, .rtl, .ltr] ∧
    [rl.directionAt 0, rl.directionAt 1, rl.directionAt 2, rl.directionAt 3, rl.directionAt 4] = [.rtl, .ltr, .ltr, .ltr, .ltr] := by
  obtain ⟨rl, a1, a2⟩ := resolvedWith_iff (T := sample) (o := { testing := true }) (sched := fun _ => 0) (b := utf8 "A1,,2".toList) (n := 99)
    (f := fun rl => decide ([rl.directionAt 0, rl.directionAt 1, rl.directionAt 2, rl.directionAt 3, rl.directionAt 4] = [.rtl, .ltr, .ltr, .ltr, .ltr])) (by decide +kernel)
  exact ⟨sample, { testing := true }, "A1,,2".toList, _, rl, sample_known, rfl, a1, by decide +kernel, by decide +kernel, by decide +kernel, by decide +kernel, by simpa using a2⟩

end Uax
