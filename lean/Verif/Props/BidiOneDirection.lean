import Verif.BidiRtl
import Verif.Props.BidiVisual

/-! Property C64: a text all of one direction, in a paragraph of that direction, keeps it.

Here texts may have paired brackets, and separators and terminators at any place: the restrictions of
C52 and C63 are not needed. -/

namespace Uax
open Bidi Spec

/-- Characters of the classes which appear in left-to-right text: letters, numbers and everything that has
no direction of its own. -/
def Leftward (cs : List Class) : Prop := ∀ c ∈ cs, c ∈ [cL, cEN, cES, cET, cCS, cB, cS, cWS, cON, cBN, cNSM, cBRACKO, cBRACKC]

/-- Characters of the classes which appear in right-to-left text without numbers. -/
def Rightward (cs : List Class) : Prop := ∀ c ∈ cs, c ∈ [cR, cAL, cES, cET, cCS, cB, cS, cWS, cON, cBN, cNSM, cBRACKO, cBRACKC]

/-- A left-to-right text in a left-to-right paragraph: resolution comes to an end whatever the schedule is, and
DirectionAt gives left-to-right everywhere. -/
theorem C64_ltr (T : Tables) (o : Options) (sched : Nat → Nat) (t : List Char) (hT : KnownClasses T) (ho : o.markup = none) (hd : o.outerR2L = false)
    (h : Leftward (classes T o (firstParagraph T o t))) :
    ∃ rl, Resolves T o sched (utf8 t) rl ∧ ∀ pos, rl.directionAt pos = .ltr := by
  obtain ⟨N, p, e1, -, e3⟩ := resolve_ltr hT ho hd sched t (by
    intro c hc hm
    have := h c hc
    simp only [List.mem_cons, List.not_mem_nil, or_false] at this
    rcases this with rfl | rfl | rfl | rfl | rfl | rfl | rfl | rfl | rfl | rfl | rfl | rfl | rfl <;> exact absurd hm (by decide))
    False False.elim (known_notNull hT)
  refine ⟨_, resolves_of e1, ?_⟩
  intro pos
  unfold Levels.directionAt
  split
  · rename_i s hs
    have hm := List.mem_of_find?_eq_some hs
    unfold levelsOf at hm
    dsimp only at hm
    rw [List.mem_append, List.mem_singleton] at hm
    rcases hm with hm | rfl
    · have c1 := (e3 s hm).cls.1
      have c2 := (e3 s hm).cls.2.2.2
      unfold directionOf
      repeat' split
      all_goals simp_all
    · rfl
  · rfl

/-- A left-to-right text in a left-to-right paragraph is one left-to-right run, with all bytes in logical order.
Missing: texts which begin with a nonspacing mark, see `C64_mark_violated`. -/
theorem C64_ltr_run_partial (T : Tables) (o : Options) (sched : Nat → Nat) (t : List Char) (hT : KnownClasses T) (ho : o.markup = none)
    (hd : o.outerR2L = false) (h : Leftward (classes T o (firstParagraph T o t))) (h2 : (classes T o (firstParagraph T o t)).head? ≠ some cNSM)
    (hne : firstParagraph T o t ≠ []) :
    ∃ rl r, Resolves T o sched (utf8 t) rl ∧ rl.reorder = some [r] ∧ r.dir = .ltr ∧ r.length = (utf8 (firstParagraph T o t)).length ∧
      r.scraps.flatMap (fun s => List.range' s.l (s.r - s.l)) = List.range (utf8 (firstParagraph T o t)).length := by
  obtain ⟨N, p, e1, e2, e3⟩ := resolve_ltr hT ho hd sched t (by
    intro c hc hm
    have := h c hc
    simp only [List.mem_cons, List.not_mem_nil, or_false] at this
    rcases this with rfl | rfl | rfl | rfl | rfl | rfl | rfl | rfl | rfl | rfl | rfl | rfl | rfl <;> exact absurd hm (by decide))
    True (fun _ => h2) (known_notNull hT)
  obtain ⟨r, r1, r2, r3, r4⟩ := reorder_ltr_run (e := directionOf (initialOuterScrap o true) .ltr) (by unfold initialOuterScrap; rw [hd]; rfl) e3 e2 (by
    cases hp : firstParagraph T o t with
    | nil => exact absurd hp hne
    | cons c l => rw [utf8_len]; have := utf8_pos c; omega)
  exact ⟨_, r, resolves_of e1, r1, r2, r3, r4⟩

/-- A right-to-left text in a right-to-left paragraph is one right-to-left run, with all bytes in logical order.
Missing: texts which begin with a nonspacing mark, and texts with numbers. -/
theorem C64_rtl_run_partial (T : Tables) (o : Options) (sched : Nat → Nat) (t : List Char) (hT : KnownClasses T) (ho : o.markup = none)
    (hd : o.outerR2L = true) (h : Rightward (classes T o (firstParagraph T o t))) (h2 : (classes T o (firstParagraph T o t)).head? ≠ some cNSM)
    (hne : firstParagraph T o t ≠ []) :
    ∃ rl r, Resolves T o sched (utf8 t) rl ∧ rl.reorder = some [r] ∧ r.dir = .rtl ∧ r.length = (utf8 (firstParagraph T o t)).length ∧
      r.scraps.flatMap (fun s => List.range' s.l (s.r - s.l)) = List.range (utf8 (firstParagraph T o t)).length := by
  obtain ⟨N, p, e1, e2, e3⟩ := resolve_rtl hT ho hd sched t (by
    intro c hc hm
    have := h c hc
    simp only [List.mem_cons, List.not_mem_nil, or_false] at this
    rcases this with rfl | rfl | rfl | rfl | rfl | rfl | rfl | rfl | rfl | rfl | rfl | rfl | rfl <;> exact absurd hm (by decide))
    True (fun _ => h2) (known_notNull hT)
  obtain ⟨r, r1, r2, r3, r4⟩ := reorder_rtl_run (e := directionOf (initialOuterScrap o true) .ltr) (by unfold initialOuterScrap; rw [hd]; rfl) e3 e2 (by
    cases hp : firstParagraph T o t with
    | nil => exact absurd hp hne
    | cons c l => rw [utf8_len]; have := utf8_pos c; omega)
  exact ⟨_, r, resolves_of e1, r1, r2, r3, r4⟩

/-- A right-to-left text of letters, marks, separators, terminators, white space and other neutrals in a right-to-left
paragraph: DirectionAt gives right-to-left for every byte of the first paragraph.
Missing: brackets, see `C64_rtl_violated`, boundary neutrals, and paragraphs which begin with a mark, see `C64_mark_violated`. -/
theorem C64_rtl_partial (T : Tables) (o : Options) (sched : Nat → Nat) (t : List Char) (hT : KnownClasses T) (ho : o.markup = none)
    (hd : o.outerR2L = true) (h : ∀ c ∈ classes T o (firstParagraph T o t), c ∈ [cR, cAL, cNSM, cES, cET, cCS, cS, cWS, cON])
    (h2 : (classes T o (firstParagraph T o t)).head? ≠ some cNSM) :
    ∃ rl, Resolves T o sched (utf8 t) rl ∧ ∀ pos, pos < (utf8 (firstParagraph T o t)).length → rl.directionAt pos = .rtl := by
  have ho' : outer o = cR := by unfold outer; rw [hd]; rfl
  obtain ⟨q1, q2⟩ := resolved_rtl _ h
  obtain ⟨N, p, ys, e1, e2, e3, e4, -, e5⟩ := resolve_bytes hT ho sched t (by
    intro c hc
    have := h c hc
    simp only [List.mem_cons, List.not_mem_nil, or_false] at this
    rcases this with rfl | rfl | rfl | rfl | rfl | rfl | rfl | rfl | rfl <;> decide) h2 (by
    intro pre post he
    exact absurd (h cEN (by rw [he]; simp)) (by decide)) (by
    rw [ho', q1, q2]
    intro i x y hx hy _
    obtain ⟨hi, -⟩ := List.getElem?_eq_some_iff.mp hy
    unfold w3 at hi
    rw [List.length_map] at hi
    exact Or.inr (Or.inr (Or.inl (by rw [List.getElem?_replicate, if_pos hi])))) (known_notNull hT)
  refine ⟨_, resolves_of e1, ?_⟩
  intro pos hpos
  obtain ⟨s, s1, s2⟩ := find_bytes ys 0 _ pos e3 (fun s hs => (e4 s hs).2.1) (Nat.zero_le _) hpos
  have hs : s.clz = cR := by
    have hm := List.mem_of_getElem? s2
    rw [e5, ho', q1] at hm
    unfold Spec.spread at hm
    rw [List.mem_flatMap] at hm
    obtain ⟨x, x1, x2⟩ := hm
    rw [(List.mem_replicate.mp x2).2]
    exact (List.mem_replicate.mp (List.of_mem_zip x1).2).2
  unfold Levels.directionAt levelsOf
  dsimp only
  rw [e2, List.cons_append, List.find?_cons_of_neg, List.find?_append, s1]
  · show directionOf s .ltr = .rtl
    unfold directionOf
    rw [hs]; rfl
  · have : (initialOuterScrap o true).r = 0 := rfl
    rw [this]
    simp

/-- Texts with brackets, numbers, separators and terminators. -/
example : Leftward (classes sample {} (firstParagraph sample {} "(a + 12%) [b,]".toList)) ∧ (classes sample {} "(a + 12%) [b,]".toList).head? ≠ some cNSM ∧
    firstParagraph sample {} "(a + 12%) [b,]".toList = "(a + 12%) [b,]".toList := by
  refine ⟨by show ∀ c ∈ _, _; decide +kernel, by decide +kernel, by decide +kernel⟩

example : Rightward (classes sample {} (firstParagraph sample {} "(א + ب%) [ג,]".toList)) ∧ (classes sample {} "(א + ب%) [ג,]".toList).head? ≠ some cNSM ∧
    firstParagraph sample {} "(א + ب%) [ג,]".toList = "(א + ب%) [ג,]".toList := by
  refine ⟨by show ∀ c ∈ _, _; decide +kernel, by decide +kernel, by decide +kernel⟩

example : ∀ c ∈ classes sample {} (firstParagraph sample {} "א - ب! +% ג".toList), c ∈ [cR, cAL, cNSM, cES, cET, cCS, cS, cWS, cON] := by decide +kernel

/-- A nonspacing mark at the beginning of a text is in no run: the single run has the bytes 2 and 3 of four. -/
theorem C64_mark_violated : ∃ (T : Tables) (o : Options) (t : List Char) (sched : Nat → Nat) (rl : Levels) (runs : List VRun), KnownClasses T ∧ o.markup = none ∧
    o.outerR2L = false ∧ Leftward (classes T o (firstParagraph T o t)) ∧ firstParagraph T o t = t ∧ (utf8 t).length = 4 ∧
    Resolves T o sched (utf8 t) rl ∧ rl.reorder = some runs ∧ runs.map (fun r => (r.length, r.scraps.flatMap fun s => List.range' s.l (s.r - s.l))) = [(2, [2, 3])] := by
  obtain ⟨rl, a1, a2⟩ := resolvedWith_iff (T := sample) (o := {}) (sched := fun _ => 0) (b := utf8 [Char.ofNat 0x301, 'a', 'b']) (n := 99)
    (f := fun rl => decide (rl.reorder.map (List.map (fun r => (r.length, r.scraps.flatMap fun s => List.range' s.l (s.r - s.l)))) = some [(2, [2, 3])])) (by decide +kernel)
  have a2 : rl.reorder.map (List.map (fun r => (r.length, r.scraps.flatMap fun s => List.range' s.l (s.r - s.l)))) = some [(2, [2, 3])] := by simpa using a2
  rw [Option.map_eq_some_iff] at a2
  obtain ⟨runs, r1, r2⟩ := a2
  exact ⟨sample, {}, [Char.ofNat 0x301, 'a', 'b'], _, rl, runs, sample_known, rfl, rfl, by show ∀ c ∈ _, _; decide +kernel, by decide +kernel, by decide +kernel, a1, r1, r2⟩

/-- In a right-to-left paragraph DirectionAt gives left-to-right for an opening bracket that is not closed, between two
right-to-left letters. (Upper case letters are R.) -/
theorem C64_rtl_violated : ∃ (T : Tables) (o : Options) (t : List Char) (sched : Nat → Nat) (rl : Levels), KnownClasses T ∧ o.markup = none ∧
    o.outerR2L = true ∧ Rightward (classes T o (firstParagraph T o t)) ∧ firstParagraph T o t = t ∧ (utf8 t).length = 3 ∧
    Resolves T o sched (utf8 t) rl ∧ [rl.directionAt 0, rl.directionAt 1, rl.directionAt 2] = [.rtl, .ltr, .rtl] := by
  obtain ⟨rl, a1, a2⟩ := resolvedWith_iff (T := sample) (o := { testing := true, outerR2L := true }) (sched := fun _ => 0) (b := utf8 "A(B".toList) (n := 99)
    (f := fun rl => decide ([rl.directionAt 0, rl.directionAt 1, rl.directionAt 2] = [.rtl, .ltr, .rtl])) (by decide +kernel)
  exact ⟨sample, { testing := true, outerR2L := true }, "A(B".toList, _, rl, sample_known, rfl, rfl, by show ∀ c ∈ _, _; decide +kernel, by decide +kernel,
    by decide +kernel, a1, by simpa using a2⟩

end Uax
