import Verif.BidiEndless
import Verif.BidiGoroutine

/-! Properties C41, C42, C50 and C51: resolving a paragraph ends, its result covers the text and
does not depend on the order in which the scanner's and the parser's goroutine run, which have
both ended then.

`Resolves T o sched b rl` says that ResolveParagraph returns `rl` for the bytes `b`; `sched`
is how far the scanner's goroutine runs before each of the parser's looks at the bracket
pairs. The tables `T` and the options `o` (without markup) are arbitrary. Texts are lists of
characters; their classes, the first paragraph and the conditions are in SpecBidiText.lean
and SpecBidi.lean. -/

namespace Uax
open Bidi Spec

/-! ### C41 Resolution ends -/

/-- The property does not hold: after a letter from right to left two numbers, separated by
white space, keep the parser busy for ever, and its stack grows. (Letters in upper case are
from right to left here.) -/
theorem C41_violated : ∃ (T : Tables) (o : Options) (t : List Char), KnownClasses T ∧ o.markup = none ∧
    ∀ sched n, resolveParagraph T o sched (utf8 t) n = .running :=
  ⟨sample, { testing := true }, ['A', ' ', '1', ' ', '2'], sample_known, rfl, endless_numbers⟩

/-- Resolution ends, without a panic, for every text without isolates whose European numbers
are in left-to-right context, and for every schedule.
Missing: texts with isolates (which may end or not), other numbers (see `C41_violated`),
texts that are not UTF-8. -/
theorem C41_ends_partial (T : Tables) (o : Options) (sched : Nat → Nat) (t : List Char) (hT : KnownClasses T) (ho : o.markup = none)
    (h1 : NoIsolates (classes T o (firstParagraph T o t))) (h2 : NumbersLTR cL (classes T o (firstParagraph T o t))) :
    ∃ rl, Resolves T o sched (utf8 t) rl := by
  obtain ⟨N, p, h, -⟩ := resolve_text ho (known_notNull hT) sched (utf8 t) (good_text hT t False h1 h2 (fun h => h.elim))
  exact ⟨_, resolves_of h⟩

/-- A text with numbers in brackets, an Arabic number and words in both directions. -/
def mixedSample : List Char := "a (12,5%) bא́ [١] ا!".toList

example : NoIsolates (classes sample {} (firstParagraph sample {} mixedSample)) ∧ NumbersLTR cL (classes sample {} (firstParagraph sample {} mixedSample)) ∧
    classes sample {} mixedSample = [cL, cWS, cBRACKO, cEN, cEN, cCS, cEN, cET, cBRACKC, cWS, cL, cR, cNSM, cWS, cBRACKO, cAN, cBRACKC, cWS, cAL, cON] := by
  refine ⟨?_, numbersLTR_of (by decide +kernel), by decide +kernel⟩
  show ∀ c ∈ _, _
  decide +kernel

example : NoIsolates (classes sample { outerR2L := true } mixedSample) ∧ ∃ rl, Resolves sample { outerR2L := true } (fun i => i) (utf8 mixedSample) rl ∧
    brief rl.scraps = [(cRLI, 0, 0), (cL, 0, 1), (cR, 1, 3), (cL, 3, 8), (cR, 8, 10), (cL, 10, 11), (cR, 11, 17), (cAN, 17, 19), (cR, 19, 24), (cPDI, 24, 24)] := by
  refine ⟨by show ∀ c ∈ _, _; decide +kernel, ?_⟩
  obtain ⟨rl, h1, h2⟩ := resolvedWith_iff (T := sample) (o := { outerR2L := true }) (sched := fun i => i) (b := utf8 mixedSample) (n := 99)
    (f := fun rl => brief rl.scraps == [(cRLI, 0, 0), (cL, 0, 1), (cR, 1, 3), (cL, 3, 8), (cR, 8, 10), (cL, 10, 11), (cR, 11, 17), (cAN, 17, 19), (cR, 19, 24), (cPDI, 24, 24)]) (by decide +kernel)
  exact ⟨rl, h1, by simpa using h2⟩

/-! ### C50 The result does not depend on the schedule -/

/-- The bytes of a text in which an isolate with brackets is followed by another isolate. -/
def isolatesSample : List Char := ['a', '>', '(', 'B', ')', '=', ' ', 'B', '>', 'c', '=']

/-- The classes of the scraps which are nested in the resolved ones. -/
def nestedClasses (rl : Levels) : List (List (List Class)) := rl.scraps.map fun s => s.children.map fun c => c.map (·.clz)

/-- The property does not hold: if the scanner's goroutine is ahead, the brackets of the first
isolate are paired, otherwise they are not. (The pairs are looked for in the isolates which
have been begun so far, except the last one.) -/
theorem C50_violated : ∃ (T : Tables) (o : Options) (t : List Char) (s1 s2 : Nat → Nat) (rl1 rl2 : Levels), KnownClasses T ∧ o.markup = none ∧
    Resolves T o s1 (utf8 t) rl1 ∧ Resolves T o s2 (utf8 t) rl2 ∧ nestedClasses rl1 ≠ nestedClasses rl2 := by
  obtain ⟨rl1, a1, a2⟩ := resolvedWith_iff (T := sample) (o := { testing := true }) (sched := fun _ => 0) (b := utf8 isolatesSample) (n := 99)
    (f := fun rl => nestedClasses rl == [[], [[cLRI, cBRACKO, cR, cNI, cPDI]], [], [[cLRI, cL, cPDI]], []]) (by decide +kernel)
  obtain ⟨rl2, b1, b2⟩ := resolvedWith_iff (T := sample) (o := { testing := true }) (sched := fun _ => 99) (b := utf8 isolatesSample) (n := 99)
    (f := fun rl => nestedClasses rl == [[], [[cLRI, cL, cR, cL, cPDI]], [], [[cLRI, cL, cPDI]], []]) (by decide +kernel)
  refine ⟨sample, { testing := true }, isolatesSample, _, _, rl1, rl2, sample_known, rfl, a1, b1, ?_⟩
  rw [eq_of_beq a2, eq_of_beq b2]
  decide

/-- For every text without isolates all schedules lead to the same result: the same levels, a
panic, or no end. Missing: texts with isolates (see `C50_violated`). -/
theorem C50_same_partial (T : Tables) (o : Options) (s1 s2 : Nat → Nat) (t : List Char) (hT : KnownClasses T) (ho : o.markup = none)
    (h : NoIsolates (classes T o (firstParagraph T o t))) :
    (∀ rl, Resolves T o s1 (utf8 t) rl ↔ Resolves T o s2 (utf8 t) rl) ∧
    ((∃ n, resolveParagraph T o s1 (utf8 t) n = .panics) ↔ ∃ n, resolveParagraph T o s2 (utf8 t) n = .panics) := by
  have e := resolve_same ho (known_notNull hT) (utf8 t) (noIsolates_text t h) s1 s2
  refine ⟨fun rl => ?_, ?_⟩
  · unfold Resolves
    simp only [e]
  · simp only [e]

example : NoIsolates (classes sample {} (firstParagraph sample {} mixedSample)) ∧ cBRACKO ∈ classes sample {} mixedSample :=
  ⟨by show ∀ c ∈ _, _; decide +kernel, by decide +kernel⟩

/-! ### C42 Resolved scraps tile the paragraph -/

/-- The property does not hold: in "A 1" the last byte belongs to no scrap. -/
theorem C42_violated : ∃ (T : Tables) (o : Options) (t : List Char), KnownClasses T ∧ o.markup = none ∧
    ∀ sched, ∃ rl, Resolves T o sched (utf8 t) rl ∧ rl.scraps ≠ [] ∧ ∀ s ∈ rl.scraps, ¬ (s.l ≤ 2 ∧ 2 < s.r) := by
  refine ⟨sample, { testing := true }, ['A', ' ', '1'], sample_known, rfl, fun sched => ?_⟩
  obtain ⟨rl, a1, a2⟩ := resolvedWith_iff (T := sample) (o := { testing := true }) (sched := fun _ => 0) (b := utf8 ['A', ' ', '1']) (n := 99)
    (f := fun rl => brief rl.scraps == [(cLRI, 0, 0), (cR, 0, 1), (cEN, 1, 2), (cPDI, 2, 2)]) (by decide +kernel)
  have hb : brief rl.scraps = [(cLRI, 0, 0), (cR, 0, 1), (cEN, 1, 2), (cPDI, 2, 2)] := eq_of_beq a2
  refine ⟨rl, ((C50_same_partial sample { testing := true } _ sched ['A', ' ', '1'] sample_known rfl (by show ∀ c ∈ _, _; decide +kernel)).1 rl).mp a1, ?_, ?_⟩
  · intro he
    rw [he] at hb
    cases hb
  · intro s hs h
    have hm : (s.clz, s.l, s.r) ∈ brief rl.scraps := List.mem_map_of_mem hs
    rw [hb] at hm
    simp only [List.mem_cons, Prod.mk.injEq, List.not_mem_nil, or_false] at hm
    omega

/-- The property does not hold: text after an unmatched PDI is lost. In "a=b c def" (where `=`
is PDI) the result ends with the byte 4. -/
theorem C42_pdi_violated : ∃ (T : Tables) (o : Options) (t : List Char) (sched : Nat → Nat) (rl : Levels), KnownClasses T ∧ o.markup = none ∧
    Resolves T o sched (utf8 t) rl ∧ (utf8 (firstParagraph T o t)).length = 9 ∧ ∀ s ∈ rl.scraps, s.r ≤ 4 := by
  obtain ⟨rl, a1, a2⟩ := resolvedWith_iff (T := sample) (o := { testing := true }) (sched := fun _ => 0) (b := utf8 "a=b c def".toList) (n := 99)
    (f := fun rl => decide (∀ s ∈ rl.scraps, s.r ≤ 4)) (by decide +kernel)
  exact ⟨sample, { testing := true }, "a=b c def".toList, _, rl, sample_known, rfl, a1, by decide +kernel, by simpa using a2⟩

/-- For every text without isolates, without Arabic numbers, with European numbers in
left-to-right context only, and not beginning with a nonspacing mark, the scraps of the result
follow each other without gaps from the beginning of the text to the end of the (first)
paragraph, and all but the marks of the run's beginning and end contain text.
Missing: other texts (see `C42_violated`). -/
theorem C42_tiles_partial (T : Tables) (o : Options) (sched : Nat → Nat) (t : List Char) (rl : Levels) (hT : KnownClasses T) (ho : o.markup = none)
    (h1 : NoIsolates (classes T o (firstParagraph T o t))) (h2 : NumbersLTR cL (classes T o (firstParagraph T o t)))
    (h3 : cAN ∉ classes T o (firstParagraph T o t)) (h4 : (classes T o (firstParagraph T o t)).head? ≠ some cNSM)
    (h : Resolves T o sched (utf8 t) rl) :
    Tiles 0 (utf8 (firstParagraph T o t)).length rl.scraps ∧
    ∀ s ∈ rl.scraps, s.l < s.r ∨ s.clz ∈ [cLRI, cRLI, cFSI, cPDI] := by
  obtain ⟨N, p, hr, g1, g2, g3⟩ := resolve_text ho (known_notNull hT) sched (utf8 t) (good_text hT t True h1 h2 (fun _ => ⟨h3, h4⟩))
  have := (resolves_of hr).unique h
  subst this
  have ht := g2 trivial
  rw [List.append_nil] at g1 g3 ht
  obtain ⟨ys, last, hp⟩ : ∃ ys last, p.stack = ys ++ [last] := ⟨_, _, (List.dropLast_concat_getLast g3).symm⟩
  rw [hp] at g1 ht
  obtain ⟨m, t1, t2, t3⟩ := tiles_append.mp ht
  unfold levelsOf
  dsimp only
  rw [hp]
  simp only [List.getLast?_append, List.getLast?_singleton, Option.some_or, Option.getD_some]
  refine ⟨tiles_append.mpr ⟨_, tiles_append.mpr ⟨m, t1, t2, rfl⟩, rfl, t3⟩, ?_⟩
  intro s hs
  rw [List.mem_append, List.mem_singleton] at hs
  rcases hs with hs | rfl
  · rcases (g1 s hs).1.2.2.2 trivial with ⟨-, ⟨hi, -⟩ | hi⟩
    · right
      simpa [isIsolate, or_assoc] using hi
    · exact Or.inl hi
  · right
    simp

/-- A text with numbers and brackets, without Arabic numbers. -/
def plainSample : List Char := "a (12,5%) bא́ [x] ا!".toList

example : cAN ∉ classes sample {} (firstParagraph sample {} plainSample) ∧ (classes sample {} (firstParagraph sample {} plainSample)).head? ≠ some cNSM ∧
    NoIsolates (classes sample {} (firstParagraph sample {} plainSample)) ∧ NumbersLTR cL (classes sample {} (firstParagraph sample {} plainSample)) :=
  ⟨by decide +kernel, by decide +kernel, by show ∀ c ∈ _, _; decide +kernel, numbersLTR_of (by decide +kernel)⟩

/-! ### C51 No goroutine is left behind -/

/-- The property does not hold: after an empty text has been resolved, the scanner's goroutine
still waits for a second receiver of the end. -/
theorem C51_violated (T : Tables) (o : Options) (sched : Nat → Nat) (hT : KnownClasses T) (ho : o.markup = none) :
    ∃ n rl p, resolveParagraph T o sched [] n = .returns (rl, p) ∧ p.env.1.pc = .sendStop := by
  obtain ⟨N, p, h, he⟩ := resolve_ends ho (known_notNull hT) sched (utf8 [])
    (good_text hT [] False (by intro c hc; cases hc) (by intro pre post he; cases pre <;> cases he) (fun h => h.elim))
  refine ⟨N, _, p, h, ?_⟩
  unfold Ended at he
  rw [if_pos ((scraps_empty hT []).mpr (by intro c hc; cases hc))] at he
  exact he

/-- Likewise, if there is a PDI without an initiator: nobody receives the rest of the text. -/
theorem C51_pdi_violated : ∃ (T : Tables) (o : Options) (t : List Char) (sched : Nat → Nat), KnownClasses T ∧ o.markup = none ∧
    ∃ n rl p, resolveParagraph T o sched (utf8 t) n = .returns (rl, p) ∧ p.env.1.pc ≠ .closed := by
  have h : (match resolveParagraph sample { testing := true } (fun _ => 0) (utf8 "a=b c def".toList) 99 with
    | .returns (_, p) => (match p.env.1.pc with | .closed => false | _ => true)
    | _ => false) = true := by decide +kernel
  cases hr : resolveParagraph sample { testing := true } (fun _ => 0) (utf8 "a=b c def".toList) 99 with
  | returns x =>
    obtain ⟨rl, p⟩ := x
    refine ⟨sample, { testing := true }, "a=b c def".toList, fun _ => 0, sample_known, rfl, 99, rl, p, hr, ?_⟩
    rw [hr] at h
    intro hp
    simp [hp] at h
  | panics => rw [hr] at h; cases h
  | running => rw [hr] at h; cases h

/-- For every text without isolates whose European numbers are in left-to-right context the
scanner's goroutine has ended when the paragraph has been resolved, unless the paragraph
consists of nonspacing marks only.
Missing: texts with isolates, other numbers. -/
theorem C51_ended_partial (T : Tables) (o : Options) (sched : Nat → Nat) (t : List Char) (hT : KnownClasses T) (ho : o.markup = none)
    (h1 : NoIsolates (classes T o (firstParagraph T o t))) (h2 : NumbersLTR cL (classes T o (firstParagraph T o t))) :
    ∃ n rl p, resolveParagraph T o sched (utf8 t) n = .returns (rl, p) ∧
      (p.env.1.pc = .closed ↔ ∃ c ∈ classes T o (firstParagraph T o t), c ≠ cNSM) := by
  obtain ⟨N, p, h, he⟩ := resolve_ends ho (known_notNull hT) sched (utf8 t) (good_text hT t False h1 h2 (fun h => h.elim))
  refine ⟨N, _, p, h, ?_⟩
  unfold Ended at he
  rw [he]
  by_cases hs : scrapsOf T o (utf8 t) = []
  · rw [if_pos hs]
    have := (scraps_empty hT t).mp hs
    refine ⟨fun h => (by cases h), fun ⟨c, hc, hn⟩ => absurd (this c hc) hn⟩
  · rw [if_neg hs]
    refine ⟨fun _ => ?_, fun _ => rfl⟩
    rw [scraps_empty hT] at hs
    simpa using hs

example : NoIsolates (classes sample {} (firstParagraph sample {} mixedSample)) ∧ NumbersLTR cL (classes sample {} (firstParagraph sample {} mixedSample)) ∧
    ∃ c ∈ classes sample {} (firstParagraph sample {} mixedSample), c ≠ cNSM :=
  ⟨by show ∀ c ∈ _, _; decide +kernel, numbersLTR_of (by decide +kernel), by decide +kernel⟩

end Uax
