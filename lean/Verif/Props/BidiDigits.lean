import Verif.BidiDigits
import Verif.Props.BidiLetters

/-! Property C82: European numbers are read from left to right. -/

namespace Uax
open Bidi Spec

/-- For every text without isolates and Arabic numbers which does not begin with a mark and whose European numbers stand in left-to-right context, in a paragraph of either direction:
resolution comes to an end, and DirectionAt of every byte of every European digit is left-to-right. Missing: isolates, texts with Arabic numbers, texts which begin with a mark, and texts with
European numbers in other context, for which resolution need not end (`C41_violated`). -/
theorem C82_digits_partial (T : Tables) (o : Options) (sched : Nat → Nat) (t : List Char) (hT : KnownClasses T) (ho : o.markup = none)
    (h1 : NoIsolates (classes T o (firstParagraph T o t))) (h2 : NumbersLTR cL (classes T o (firstParagraph T o t)))
    (h3 : cAN ∉ classes T o (firstParagraph T o t)) (h4 : (classes T o (firstParagraph T o t)).head? ≠ some cNSM) :
    ∃ rl, Resolves T o sched (utf8 t) rl ∧ ∀ pre x post k, firstParagraph T o t = pre ++ x :: post → k < (utf8 [x]).length → charClass T o x = cEN →
      rl.directionAt ((utf8 pre).length + k) = .ltr := by
  obtain ⟨rl, hr⟩ := C41_ends_partial T o sched t hT ho h1 h2
  refine ⟨rl, hr, ?_⟩
  intro pre x post k he hk hx
  obtain ⟨N, p, e1, e2⟩ := resolve_number hT ho sched t h1 h2 h3 h4 he hk hx
  rw [hr.unique (resolves_of e1), e2]

/-- A right-to-left paragraph with a number with a separator and a currency sign between letters of both directions. -/
example : NoIsolates (classes sample { outerR2L := true } (firstParagraph sample { outerR2L := true } "a $1.5 א".toList)) ∧
    NumbersLTR cL (classes sample { outerR2L := true } (firstParagraph sample { outerR2L := true } "a $1.5 א".toList)) ∧
    cAN ∉ classes sample { outerR2L := true } (firstParagraph sample { outerR2L := true } "a $1.5 א".toList) ∧
    (classes sample { outerR2L := true } (firstParagraph sample { outerR2L := true } "a $1.5 א".toList)).head? ≠ some cNSM ∧
    firstParagraph sample { outerR2L := true } "a $1.5 א".toList = "a $1.".toList ++ '5' :: " א".toList ∧ charClass sample { outerR2L := true } '5' = cEN :=
  ⟨by show ∀ c ∈ _, _; decide +kernel, numbersLTR_of (by decide +kernel), by decide +kernel, by decide +kernel, by decide +kernel, by decide +kernel⟩

/-- The property does not hold for numbers in isolates: in "B>a1=C" in a right-to-left paragraph (upper case letters are from right to left, ">" is LRI, "=" is PDI) DirectionAt gives
right-to-left for the digit at byte 3. -/
theorem C82_isolate_violated : ∃ (T : Tables) (o : Options) (t pre post : List Char) (x : Char) (sched : Nat → Nat) (rl : Levels), KnownClasses T ∧ o.markup = none ∧
    firstParagraph T o t = pre ++ x :: post ∧ charClass T o x = cEN ∧ Resolves T o sched (utf8 t) rl ∧ rl.directionAt (utf8 pre).length = .rtl := by
  obtain ⟨rl, a1, a2⟩ := resolvedWith_iff (T := sample) (o := { testing := true, outerR2L := true }) (sched := fun _ => 0) (b := utf8 "B>a1=C".toList) (n := 99)
    (f := fun rl => decide (rl.directionAt 3 = .rtl)) (by decide +kernel)
  exact ⟨sample, { testing := true, outerR2L := true }, "B>a1=C".toList, ['B', '>', 'a'], ['=', 'C'], '1', _, rl, sample_known, rfl, by decide +kernel, by decide +kernel, a1, by
    rw [show (utf8 ['B', '>', 'a']).length = 3 by decide +kernel]; simpa using a2⟩

end Uax
