import Verif.BidiLetters
import Verif.Props.BidiOneDirection
import Verif.Props.BidiResolve
import Verif.Props.Invisible

/-! Property C81: letters keep their direction.

Brackets, numbers, separators, invisible characters and marks may be anywhere in the text: the restrictions of C52 and C64 are not needed. -/

namespace Uax
open Bidi Spec

/-- For every text without isolates whose European numbers stand in left-to-right context, in a paragraph of either direction: resolution comes to an end, and DirectionAt of
every byte of a left-to-right letter and of the marks after it is left-to-right, of every byte of a right-to-left or Arabic letter and of its marks right-to-left. Missing: letters in isolates (see
`C81_isolate_violated`), and texts with other numbers, for which resolution need not end (`C41_violated`). -/
theorem C81_letters_partial (T : Tables) (o : Options) (sched : Nat → Nat) (t : List Char) (hT : KnownClasses T) (ho : o.markup = none)
    (h1 : NoIsolates (classes T o (firstParagraph T o t))) (h2 : NumbersLTR cL (classes T o (firstParagraph T o t))) :
    ∃ rl, Resolves T o sched (utf8 t) rl ∧ ∀ pre x marks post k, firstParagraph T o t = pre ++ x :: (marks ++ post) → (∀ m ∈ marks, charClass T o m = cNSM) →
      k < (utf8 (x :: marks)).length →
      (charClass T o x = cL → rl.directionAt ((utf8 pre).length + k) = .ltr) ∧
      (charClass T o x = cR ∨ charClass T o x = cAL → rl.directionAt ((utf8 pre).length + k) = .rtl) := by
  obtain ⟨rl, hr⟩ := C41_ends_partial T o sched t hT ho h1 h2
  refine ⟨rl, hr, ?_⟩
  intro pre x marks post k he hm hk
  refine ⟨fun hx => ?_, fun hx => ?_⟩
  · obtain ⟨N, p, e1, e2⟩ := resolve_letter hT ho sched t h1 h2 he hk hm (Or.inl rfl) (Or.inl hx)
    rw [hr.unique (resolves_of e1), e2]; rfl
  · obtain ⟨N, p, e1, e2⟩ := resolve_letter hT ho sched t h1 h2 he hk hm (Or.inr rfl) (hx.imp id fun h => ⟨rfl, h⟩)
    rw [hr.unique (resolves_of e1), e2]; rfl

/-- A text which begins with a mark, with numbers of both kinds, brackets and letters of all three kinds. The letter at byte 13 has a mark after it. -/
example : NoIsolates (classes sample {} (firstParagraph sample {} (Char.ofNat 0x301 :: mixedSample))) ∧
    NumbersLTR cL (classes sample {} (firstParagraph sample {} (Char.ofNat 0x301 :: mixedSample))) ∧
    firstParagraph sample {} (Char.ofNat 0x301 :: mixedSample) = (Char.ofNat 0x301 :: mixedSample).take 12 ++ 'א' :: ([Char.ofNat 0x301] ++ " [١] ا!".toList) ∧
    charClass sample {} 'א' = cR ∧ charClass sample {} (Char.ofNat 0x301) = cNSM ∧ (utf8 ((Char.ofNat 0x301 :: mixedSample).take 12)).length = 13 ∧
    (utf8 ['א', Char.ofNat 0x301]).length = 4 :=
  ⟨by show ∀ c ∈ _, _; decide +kernel, numbersLTR_of (by decide +kernel), by decide +kernel, by decide +kernel, by decide +kernel, by decide +kernel, by decide +kernel⟩

/-- The property does not hold for letters in isolates: in "a<B=c" (upper case letters are from right to left, "<" is RLI, "=" is PDI) DirectionAt gives left-to-right for
the letter B at byte 2. -/
theorem C81_isolate_violated : ∃ (T : Tables) (o : Options) (t pre post : List Char) (x : Char) (sched : Nat → Nat) (rl : Levels), KnownClasses T ∧ o.markup = none ∧
    firstParagraph T o t = pre ++ x :: post ∧ charClass T o x = cR ∧ Resolves T o sched (utf8 t) rl ∧ rl.directionAt (utf8 pre).length = .ltr := by
  obtain ⟨rl, a1, a2⟩ := resolvedWith_iff (T := sample) (o := { testing := true }) (sched := fun _ => 0) (b := utf8 "a<B=c".toList) (n := 99)
    (f := fun rl => decide (rl.directionAt 2 = .ltr)) (by decide +kernel)
  exact ⟨sample, { testing := true }, "a<B=c".toList, ['a', '<'], ['=', 'c'], 'B', _, rl, sample_known, rfl, by decide +kernel, by decide +kernel, a1, by
    rw [show (utf8 ['a', '<']).length = 2 by decide +kernel]; simpa using a2⟩

/-- Of a right-to-left text all letters and their marks are right-to-left for DirectionAt, in a paragraph of either direction, with brackets and invisible characters and also if the text begins
with a mark. Missing: characters which are not letters (see `C64_rtl_violated` and `C64_joiner_violated`). -/
theorem C64_rtl_letters_partial (T : Tables) (o : Options) (sched : Nat → Nat) (t : List Char) (hT : KnownClasses T) (ho : o.markup = none)
    (h : Rightward (classes T o (firstParagraph T o t))) :
    ∃ rl, Resolves T o sched (utf8 t) rl ∧ ∀ pre x marks post k, firstParagraph T o t = pre ++ x :: (marks ++ post) → (∀ m ∈ marks, charClass T o m = cNSM) →
      k < (utf8 (x :: marks)).length → charClass T o x = cR ∨ charClass T o x = cAL → rl.directionAt ((utf8 pre).length + k) = .rtl := by
  obtain ⟨rl, r1, r2⟩ := C81_letters_partial T o sched t hT ho (by
    intro c hc hm
    have := h c hc
    simp only [List.mem_cons, List.not_mem_nil, or_false] at this
    rcases this with rfl | rfl | rfl | rfl | rfl | rfl | rfl | rfl | rfl | rfl | rfl | rfl | rfl <;> exact absurd hm (by decide)) (by
    intro pre post he
    exact absurd (h cEN (by rw [he]; simp)) (by decide))
  exact ⟨rl, r1, fun pre x marks post k he hm hk hx => (r2 pre x marks post k he hm hk).2 hx⟩

/-- A right-to-left text with brackets which begins with a mark. -/
example : Rightward (classes sample {} (firstParagraph sample {} (Char.ofNat 0x301 :: "(א + ب".toList))) ∧
    firstParagraph sample {} (Char.ofNat 0x301 :: "(א + ب".toList) = [Char.ofNat 0x301, '('] ++ 'א' :: " + ب".toList ∧ charClass sample {} 'א' = cR :=
  ⟨by show ∀ c ∈ _, _; decide +kernel, by decide +kernel, by decide +kernel⟩

theorem visible_filter (T : Tables) (o : Options) (t : List Char) : classes T o (withoutBN T o t) = (classes T o t).filter (fun c => c ≠ cBN) := by
  unfold classes withoutBN
  rw [List.filter_map]
  rfl

theorem lastStrong_visible : ∀ (cs : List Class) (e : Class), lastStrong e (cs.filter (fun c => c ≠ cBN)) = lastStrong e cs := by
  intro cs
  induction cs with
  | nil => intro e; rfl
  | cons c cs ih =>
    intro e
    by_cases h : c = cBN
    · subst h
      rw [List.filter_cons_of_neg (by simp)]
      exact ih e
    · rw [List.filter_cons_of_pos (by simpa using h)]
      exact ih _

theorem numbers_visible {e : Class} {cs : List Class} (h : NumbersLTR e cs) : NumbersLTR e (cs.filter (fun c => c ≠ cBN)) := by
  intro pre post he
  rw [List.filter_eq_append_iff] at he
  obtain ⟨a, b, rfl, rfl, hb⟩ := he
  rw [List.filter_eq_cons_iff] at hb
  obtain ⟨m, z, rfl, hm, -, -⟩ := hb
  have := h (a ++ m) z (by simp)
  have hm' : m.filter (fun c => c ≠ cBN) = [] := by
    rw [List.filter_eq_nil_iff]
    exact hm
  refine ⟨?_, fun hx => this.2 (List.mem_append_left _ (List.mem_filter.mp hx).1)⟩
  rw [← this.1, ← lastStrong_visible (a ++ m), List.filter_append, hm', List.append_nil]

/-- Letters have the same direction with and without the invisible characters of the text, in a paragraph of either direction: the letter after `pre` is after `pre` without
its invisible characters. Missing: characters which are not letters, and the order (see `C79_violated`), isolates, other numbers. -/
theorem C79_letters_partial (T : Tables) (o : Options) (s1 s2 : Nat → Nat) (t : List Char) (hT : KnownClasses T) (ho : o.markup = none)
    (h1 : NoIsolates (classes T o (firstParagraph T o t))) (h2 : NumbersLTR cL (classes T o (firstParagraph T o t))) :
    ∃ rl1 rl2, Resolves T o s1 (utf8 t) rl1 ∧ Resolves T o s2 (utf8 (withoutBN T o t)) rl2 ∧
      ∀ pre x post k, firstParagraph T o t = pre ++ x :: post → k < (utf8 [x]).length → charClass T o x = cL ∨ charClass T o x = cR ∨ charClass T o x = cAL →
        rl1.directionAt ((utf8 pre).length + k) = rl2.directionAt ((utf8 (withoutBN T o pre)).length + k) := by
  have hv := visible_paragraph T o t
  obtain ⟨rl1, a1, a2⟩ := C81_letters_partial T o s1 t hT ho h1 h2
  obtain ⟨rl2, b1, b2⟩ := C81_letters_partial T o s2 (withoutBN T o t) hT ho (fun c hc => h1 c (visible_classes (by rw [← hv]; exact hc)))
    (by rw [hv, visible_filter]; exact numbers_visible h2)
  refine ⟨rl1, rl2, a1, b1, ?_⟩
  intro pre x post k he hk hx
  have hn : charClass T o x ≠ cBN := by rcases hx with h | h | h <;> rw [h] <;> decide
  have he' : firstParagraph T o (withoutBN T o t) = withoutBN T o pre ++ x :: ([] ++ withoutBN T o post) := by
    rw [hv, he]
    unfold withoutBN
    rw [List.filter_append, List.filter_cons_of_pos (by simpa using hn)]
    rfl
  have c1 := a2 pre x [] post k he (by simp) hk
  have c2 := b2 _ x [] _ k he' (by simp) hk
  rcases hx with h | h
  · rw [c1.1 h, c2.1 h]
  · rw [c1.2 h, c2.2 h]

/-- The word which is torn apart in `C79_violated` has its letters from right to left. -/
example : NoIsolates (classes joinerTables {} (firstParagraph joinerTables {} ['a', 'א', '\u200c', 'ב'])) ∧
    NumbersLTR cL (classes joinerTables {} (firstParagraph joinerTables {} ['a', 'א', '\u200c', 'ב'])) ∧
    firstParagraph joinerTables {} ['a', 'א', '\u200c', 'ב'] = ['a', 'א', '\u200c'] ++ 'ב' :: [] ∧ charClass joinerTables {} 'ב' = cR ∧
    (utf8 ['a', 'א', '\u200c']).length = 6 ∧ (utf8 (withoutBN joinerTables {} ['a', 'א', '\u200c'])).length = 3 :=
  ⟨by show ∀ c ∈ _, _; decide +kernel, numbersLTR_of (by decide +kernel), by decide +kernel, by decide +kernel, by decide +kernel, by decide +kernel⟩

end Uax
