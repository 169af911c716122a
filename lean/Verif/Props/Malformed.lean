import Verif.Malformed
import Verif.Props.BidiDirections

/-! Property C78: texts which are not UTF-8.

`ReadsAs b t k` (SpecMalformed.lean) says that the bytes `b` are read as the text `t`, with `k` malformed bytes, each of which is read as U+FFFD. -/

namespace Uax
open Bidi Spec

/-- Any bytes are read as a text, and as one only. -/
theorem C78_reads (b : List Nat) : ∃ t k, ReadsAs b t k ∧ ∀ t' k', ReadsAs b t' k' → t' = t ∧ k' = k := by
  obtain ⟨t, k, h⟩ := reads_exists _ b (Nat.le_refl _)
  refine ⟨t, k, h, fun t' k' h' => ?_⟩
  obtain ⟨rfl, rfl⟩ := reads_unique h h'
  exact ⟨rfl, rfl⟩

/-- For all bytes and all schedules, a paragraph is resolved as the text with U+FFFD for each malformed byte: with the same levels, a panic, or without an end. So what the
other properties say about texts holds for all readers. (Positions are those in the text with U+FFFD, see `C78_positions_violated`.) -/
theorem C78_replaced (T : Tables) (o : Options) (sched : Nat → Nat) {b : List Nat} {t : List Char} {k : Nat} (h : ReadsAs b t k) (n : Nat) :
    resolveParagraph T o sched b n = resolveParagraph T o sched (utf8 t) n := by
  unfold resolveParagraph newScanner
  rw [runesOf_reads h]

/-- What comes before a character and what comes after it, malformed or not: the result is that for a text in which the character is found at its position in the bytes, plus
2 for each malformed byte before it. So positions are right up to the first malformed byte. Missing: right positions after it, see `C78_positions_violated`. -/
theorem C78_positions_partial {b1 b2 : List Nat} {t1 t2 : List Char} {k1 k2 : Nat} (c : Char) (h1 : ReadsAs b1 t1 k1) (h2 : ReadsAs b2 t2 k2)
    (T : Tables) (o : Options) (sched : Nat → Nat) (rl : Levels) :
    (Resolves T o sched (b1 ++ (utf8 [c] ++ b2)) rl ↔ Resolves T o sched (utf8 (t1 ++ c :: t2)) rl) ∧ (utf8 t1).length = b1.length + 2 * k1 := by
  refine ⟨?_, reads_length h1⟩
  unfold Resolves
  simp only [C78_replaced T o sched (reads_around c h1 h2)]

/-- A text in UTF-8 is read as it is. -/
theorem C78_wellformed (t : List Char) : ReadsAs (utf8 t) t 0 := reads_text t

/-- "a", a byte that is not UTF-8, a space and "B" (from right to left). -/
def malformedSample : List Nat := [0x61, 0xff, 0x20, 0x42]

theorem malformedSample_reads : ReadsAs malformedSample ['a', '�', ' ', 'B'] 1 := by
  have h0 : ReadsAs (utf8 [' ', 'B']) [' ', 'B'] 0 := reads_text _
  have h : ReadsAs (0xff :: utf8 [' ', 'B']) ('�' :: [' ', 'B']) 1 := .malformed 0xff (fun c rest e => by
    have := decode_char c rest
    rw [← e, show Utf8.decode (0xff :: utf8 [' ', 'B']) = (Utf8.runeError, 1) by decide] at this
    exact decode_not_error c ⟨(congrArg Prod.fst this).symm, (congrArg Prod.snd this).symm⟩) h0
  exact reads_append h ['a']

/-- Positions are not those of the bytes of the input: in the sample the letter "B", from right to left, is the byte 3, but DirectionAt says left-to-right there. It finds "B" at position 5, behind the end of the input. -/
theorem C78_positions_violated : ∃ (T : Tables) (o : Options) (sched : Nat → Nat) (rl : Levels), KnownClasses T ∧ o.markup = none ∧
    ReadsAs malformedSample ['a', '�', ' ', 'B'] 1 ∧ malformedSample.length = 4 ∧ malformedSample[3]? = some 'B'.toNat ∧
    Resolves T o sched malformedSample rl ∧ directions (outer o) (classes T o ['a', '�', ' ', 'B']) = [.ltr, .ltr, .ltr, .rtl] ∧
    rl.directionAt 3 = .ltr ∧ rl.directionAt 5 = .rtl := by
  obtain ⟨rl, a1, a2⟩ := resolvedWith_iff (T := sample) (o := { testing := true }) (sched := fun _ => 0) (b := malformedSample) (n := 99)
    (f := fun rl => decide (rl.directionAt 3 = .ltr ∧ rl.directionAt 5 = .rtl)) (by decide +kernel)
  exact ⟨sample, { testing := true }, _, rl, sample_known, rfl, malformedSample_reads, rfl, rfl, a1, by decide +kernel, by simpa using a2⟩

/-- A malformed byte within an encoding: the byte 0xe2 before "B" is one, and so is each byte of a surrogate. -/
example : runesOf [0xe2, 0x42] = [(0xfffd, 3), (0x42, 1)] ∧ runesOf [0xed, 0xa0, 0x80] = [(0xfffd, 3), (0xfffd, 3), (0xfffd, 3)] := by decide +kernel

end Uax
