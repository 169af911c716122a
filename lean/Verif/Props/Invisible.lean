import Verif.Invisible

/-! Property C79: invisible characters do not change the order of a text.

`withoutBN T o t` is the text without boundary neutrals (rule X9 of UAX#9), `displayed t d runs` are the characters of a text in the order in which they are displayed
(SpecInvisible.lean). -/

namespace Uax
open Bidi Spec

/-- A left-to-right text in a left-to-right paragraph: the visible characters are displayed as if there were no others, and all characters have the same direction.
Missing: texts with letters of both directions (see `C79_violated`), and leading marks (C64). -/
theorem C79_ltr_partial (T : Tables) (o : Options) (s1 s2 : Nat → Nat) (t : List Char) (hT : KnownClasses T) (ho : o.markup = none) (hd : o.outerR2L = false)
    (h : Leftward (classes T o (firstParagraph T o t))) (h2 : (classes T o (firstParagraph T o (withoutBN T o t))).head? ≠ some cNSM)
    (hne : firstParagraph T o (withoutBN T o t) ≠ []) :
    ∃ rl1 runs1 rl2 runs2, Resolves T o s1 (utf8 t) rl1 ∧ rl1.reorder = some runs1 ∧ Resolves T o s2 (utf8 (withoutBN T o t)) rl2 ∧ rl2.reorder = some runs2 ∧
      withoutBN T o (displayed (firstParagraph T o t) .ltr runs1) = displayed (firstParagraph T o (withoutBN T o t)) .ltr runs2 ∧
      ∀ p1 p2, rl1.directionAt p1 = rl2.directionAt p2 := by
  have hv := visible_paragraph T o t
  have h' : Leftward (classes T o (firstParagraph T o (withoutBN T o t))) := fun c hc => h c (visible_classes (by rw [← hv]; exact hc))
  obtain ⟨rl1, r1, a1, a2, a3, -, a4⟩ := C64_ltr_run_partial T o s1 t hT ho hd h (visible_head (by rw [← hv]; exact h2)) (fun e => hne (by rw [hv, e]; rfl))
  obtain ⟨rl2, r2, b1, b2, b3, -, b4⟩ := C64_ltr_run_partial T o s2 (withoutBN T o t) hT ho hd h' h2 hne
  obtain ⟨rl3, c1, c2⟩ := C64_ltr T o s1 t hT ho hd h
  obtain ⟨rl4, d1, d2⟩ := C64_ltr T o s2 (withoutBN T o t) hT ho hd h'
  have := a1.unique c1
  subst this
  have := b1.unique d1
  subst this
  refine ⟨rl1, [r1], rl2, [r2], a1, a2, b1, b2, ?_, fun p1 p2 => by rw [c2, d2]⟩
  rw [displayed_ltr a3 a4, displayed_ltr b3 b4, hv]

/-- A right-to-left text in a right-to-left paragraph: the visible characters are displayed as if there were no others. Missing: as above, and numbers. -/
theorem C79_rtl_partial (T : Tables) (o : Options) (s1 s2 : Nat → Nat) (t : List Char) (hT : KnownClasses T) (ho : o.markup = none) (hd : o.outerR2L = true)
    (h : Rightward (classes T o (firstParagraph T o t))) (h2 : (classes T o (firstParagraph T o (withoutBN T o t))).head? ≠ some cNSM)
    (hne : firstParagraph T o (withoutBN T o t) ≠ []) :
    ∃ rl1 runs1 rl2 runs2, Resolves T o s1 (utf8 t) rl1 ∧ rl1.reorder = some runs1 ∧ Resolves T o s2 (utf8 (withoutBN T o t)) rl2 ∧ rl2.reorder = some runs2 ∧
      withoutBN T o (displayed (firstParagraph T o t) .rtl runs1) = displayed (firstParagraph T o (withoutBN T o t)) .rtl runs2 := by
  have hv := visible_paragraph T o t
  have h' : Rightward (classes T o (firstParagraph T o (withoutBN T o t))) := fun c hc => h c (visible_classes (by rw [← hv]; exact hc))
  obtain ⟨rl1, r1, a1, a2, a3, -, a4⟩ := C64_rtl_run_partial T o s1 t hT ho hd h (visible_head (by rw [← hv]; exact h2)) (fun e => hne (by rw [hv, e]; rfl))
  obtain ⟨rl2, r2, b1, b2, b3, -, b4⟩ := C64_rtl_run_partial T o s2 (withoutBN T o t) hT ho hd h' h2 hne
  refine ⟨rl1, [r1], rl2, [r2], a1, a2, b1, b2, ?_⟩
  rw [displayed_rtl a3 a4, displayed_rtl b3 b4, hv]
  unfold withoutBN
  rw [List.filter_reverse]

/-- The tables of the examples, with the zero width non-joiner as a boundary neutral. -/
def joinerTables : Tables := { sample with cls := fun r => if r = 0x200c then cBN else sampleClass r }

theorem joinerTables_known : KnownClasses joinerTables := by
  intro r
  show (if r = 0x200c then cBN else sampleClass r) ≤ cPDI
  split
  · decide
  · exact sample_known r

/-- Two left-to-right words, one with a non-joiner. -/
example : Leftward (classes joinerTables {} (firstParagraph joinerTables {} ['a', '\u200c', 'b', ' ', 'c'])) ∧
    withoutBN joinerTables {} ['a', '\u200c', 'b', ' ', 'c'] = ['a', 'b', ' ', 'c'] ∧
    (classes joinerTables {} (firstParagraph joinerTables {} ['a', 'b', ' ', 'c'])).head? ≠ some cNSM ∧ firstParagraph joinerTables {} ['a', 'b', ' ', 'c'] ≠ [] :=
  ⟨by show ∀ c ∈ _, _; decide +kernel, by decide +kernel, by decide +kernel, by decide +kernel⟩

/-- The same with letters from right to left. -/
example : Rightward (classes joinerTables { outerR2L := true } (firstParagraph joinerTables { outerR2L := true } ['א', '\u200c', 'ב', ' ', 'ג'])) ∧
    withoutBN joinerTables { outerR2L := true } ['א', '\u200c', 'ב', ' ', 'ג'] = ['א', 'ב', ' ', 'ג'] ∧
    firstParagraph joinerTables { outerR2L := true } ['א', 'ב', ' ', 'ג'] ≠ [] :=
  ⟨by show ∀ c ∈ _, _; decide +kernel, by decide +kernel, by decide +kernel⟩

/-- The property does not hold: a right-to-left word with a zero width non-joiner is torn apart in a left-to-right paragraph. The word "AB" (upper case letters are from right to
left) is displayed as "BA", but with the non-joiner between its letters as "AB". -/
theorem C79_violated : ∃ (T : Tables) (o : Options) (t : List Char) (s1 s2 : Nat → Nat) (rl1 rl2 : Levels) (runs1 runs2 : List VRun), KnownClasses T ∧ o.markup = none ∧
    classes T o t = [cR, cBN, cR] ∧ withoutBN T o t = ['A', 'B'] ∧ Resolves T o s1 (utf8 t) rl1 ∧ rl1.reorder = some runs1 ∧ Resolves T o s2 (utf8 (withoutBN T o t)) rl2 ∧ rl2.reorder = some runs2 ∧
    withoutBN T o (displayed t (outerDir o) runs1) = ['A', 'B'] ∧ displayed (withoutBN T o t) (outerDir o) runs2 = ['B', 'A'] := by
  obtain ⟨rl1, a1, a2⟩ := resolvedWith_iff (T := joinerTables) (o := { testing := true }) (sched := fun _ => 0) (b := utf8 ['A', '\u200c', 'B']) (n := 99)
    (f := fun rl => decide (rl.reorder.map (displayed ['A', '\u200c', 'B'] .ltr) = some ['A', '\u200c', 'B'])) (by decide +kernel)
  obtain ⟨rl2, b1, b2⟩ := resolvedWith_iff (T := joinerTables) (o := { testing := true }) (sched := fun _ => 0) (b := utf8 ['A', 'B']) (n := 99)
    (f := fun rl => decide (rl.reorder.map (displayed ['A', 'B'] .ltr) = some ['B', 'A'])) (by decide +kernel)
  have a2 : rl1.reorder.map (displayed ['A', '\u200c', 'B'] .ltr) = some ['A', '\u200c', 'B'] := by simpa using a2
  have b2 : rl2.reorder.map (displayed ['A', 'B'] .ltr) = some ['B', 'A'] := by simpa using b2
  rw [Option.map_eq_some_iff] at a2 b2
  obtain ⟨runs1, r1, r2⟩ := a2
  obtain ⟨runs2, q1, q2⟩ := b2
  refine ⟨joinerTables, { testing := true }, ['A', '\u200c', 'B'], _, fun _ => 0, rl1, rl2, runs1, runs2, joinerTables_known, rfl, by decide +kernel, by decide +kernel, a1, r1, ?_, q1, ?_, ?_⟩
  · rw [show withoutBN joinerTables { testing := true } ['A', '\u200c', 'B'] = ['A', 'B'] by decide +kernel]
    exact b1
  · show withoutBN joinerTables { testing := true } (displayed ['A', '\u200c', 'B'] .ltr runs1) = _
    rw [r2]
    decide +kernel
  · rw [show withoutBN joinerTables { testing := true } ['A', '\u200c', 'B'] = ['A', 'B'] by decide +kernel]
    exact q2

/-- Nor for directions: the spaces in "A B" are right-to-left between right-to-left letters, but not if there is a non-joiner between them. -/
theorem C79_space_violated : ∃ (T : Tables) (o : Options) (t : List Char) (sched : Nat → Nat) (rl : Levels), KnownClasses T ∧ o.markup = none ∧
    classes T o t = [cR, cWS, cBN, cWS, cR] ∧ Resolves T o sched (utf8 t) rl ∧ directions (outer o) (classes T o (withoutBN T o t)) = [.rtl, .rtl, .rtl, .rtl] ∧
    [rl.directionAt 0, rl.directionAt 1, rl.directionAt 5, rl.directionAt 6] = [.rtl, .ltr, .ltr, .rtl] := by
  obtain ⟨rl, a1, a2⟩ := resolvedWith_iff (T := joinerTables) (o := { testing := true }) (sched := fun _ => 0) (b := utf8 ['A', ' ', '\u200c', ' ', 'B']) (n := 99)
    (f := fun rl => decide ([rl.directionAt 0, rl.directionAt 1, rl.directionAt 5, rl.directionAt 6] = [.rtl, .ltr, .ltr, .rtl])) (by decide +kernel)
  exact ⟨joinerTables, { testing := true }, ['A', ' ', '\u200c', ' ', 'B'], _, rl, joinerTables_known, rfl, by decide +kernel, a1, by decide +kernel, by simpa using a2⟩

/-- C64 does not hold for DirectionAt of boundary neutrals, either: a non-joiner within a right-to-left word, in a right-to-left paragraph, is left-to-right. -/
theorem C64_joiner_violated : ∃ (T : Tables) (o : Options) (t : List Char) (sched : Nat → Nat) (rl : Levels), KnownClasses T ∧ o.markup = none ∧
    o.outerR2L = true ∧ Rightward (classes T o (firstParagraph T o t)) ∧ firstParagraph T o t = t ∧ (utf8 t).length = 5 ∧
    Resolves T o sched (utf8 t) rl ∧ [rl.directionAt 0, rl.directionAt 1, rl.directionAt 4] = [.rtl, .ltr, .rtl] := by
  obtain ⟨rl, a1, a2⟩ := resolvedWith_iff (T := joinerTables) (o := { testing := true, outerR2L := true }) (sched := fun _ => 0) (b := utf8 ['A', '\u200c', 'B']) (n := 99)
    (f := fun rl => decide ([rl.directionAt 0, rl.directionAt 1, rl.directionAt 4] = [.rtl, .ltr, .rtl])) (by decide +kernel)
  exact ⟨joinerTables, { testing := true, outerR2L := true }, ['A', '\u200c', 'B'], _, rl, joinerTables_known, rfl, rfl, by show ∀ c ∈ _, _; decide +kernel, by decide +kernel,
    by decide +kernel, a1, by simpa using a2⟩

end Uax
