import Verif.BidiIsoResolve
import Verif.BidiIsoEndless
import Verif.Props.BidiResolve

/-! Properties C41, C42, C51 and C52 for texts with isolates.

A text with isolates is given by the text `lead` before the first one and the isolates `is`,
each with the text after it; `withIsolates lead is` is the whole text (SpecIsolates.lean).
`FlatIsolates` are the conditions: isolates are matched, not nested, not empty, without
brackets inside, and with text between them; European numbers stand in left-to-right
context. Tables and options (without markup), the text outside of the isolates (which may have
brackets), and the schedule are arbitrary. -/

namespace Uax
open Bidi Spec

/-- The conditions can be computed. -/
theorem flatIsolates_of {T : Tables} {o : Options} {lead : List Char} {is : List Isolate}
    (h1 : ∀ i ∈ is, (charClass T o i.opening = cLRI ∨ charClass T o i.opening = cRLI) ∧ charClass T o i.closing = cPDI ∧ i.text ≠ [] ∧
      (∀ c ∈ classes T o i.text, c ∉ [cLRI, cRLI, cFSI, cPDI]) ∧ cBRACKO ∉ classes T o i.text ∧ cBRACKC ∉ classes T o i.text ∧
      ∀ k, k < i.text.length → (classes T o i.text)[k]? = some cEN →
        lastStrong (if charClass T o i.opening = cLRI then cL else cR) ((classes T o i.text).take k) = cL ∧ cAL ∉ (classes T o i.text).take k)
    (h2 : ∀ c ∈ classes T o (outside lead is), c ∉ [cLRI, cRLI, cFSI, cPDI]) (h3 : ∀ i ∈ is.dropLast, i.after ≠ [])
    (h4 : ∀ k, k < (outside lead is).length → (classes T o (outside lead is))[k]? = some cEN →
      cR ∉ (classes T o (outside lead is)).take k ∧ cAL ∉ (classes T o (outside lead is)).take k)
    (h5 : ∀ k, k < (withIsolates lead is).length → (classes T o (withIsolates lead is))[k]? = some cEN →
      cAL ∉ (classes T o (withIsolates lead is)).take k) : FlatIsolates T o lead is where
  opening i hi := (h1 i hi).1
  closing i hi := (h1 i hi).2.1
  filled i hi := (h1 i hi).2.2.1
  inside i hi := (h1 i hi).2.2.2.1
  brackets i hi := ⟨(h1 i hi).2.2.2.2.1, (h1 i hi).2.2.2.2.2.1⟩
  outer := h2
  apart := h3
  numbersInside i hi := numbersLTR_of fun k hk => (h1 i hi).2.2.2.2.2.2 k (by simpa [classes] using hk)
  numbersOutside pre post e := by
    have := h4 pre.length (by
      have := congrArg List.length e
      rw [classes, List.length_map] at this
      rw [this]; simp) (by rw [e]; simp)
    rwa [e, List.take_left] at this
  numbers pre post e := by
    have := h5 pre.length (by
      have := congrArg List.length e
      rw [classes, List.length_map] at this
      rw [this]; simp) (by rw [e]; simp)
    rwa [e, List.take_left] at this

/-- A text with brackets, numbers and two isolates; upper case letters are from right to left,
`>`, `<` and `=` are LRI, RLI and PDI. -/
def isolatesLead : List Char := "a (12) ".toList
def isolatesList : List Isolate := [⟨'<', "Bב́ c 3".toList, '=', ", [D] ".toList⟩, ⟨'>', "e 4,5 F".toList, '=', "!".toList⟩]

theorem isolates_flat : FlatIsolates sample { testing := true } isolatesLead isolatesList :=
  flatIsolates_of (by unfold isolatesList; decide +kernel) (by decide +kernel) (by unfold isolatesList; decide +kernel) (by decide +kernel) (by decide +kernel)

theorem isolates_paragraph : firstParagraph sample { testing := true } (withIsolates isolatesLead isolatesList) = withIsolates isolatesLead isolatesList := by
  decide +kernel

/-! ### C41 Resolution ends -/

/-- The property does not hold for isolates either: a text of two initiators is never resolved,
the parser's stack grows. -/
theorem C41_isolate_violated : ∃ (T : Tables) (o : Options) (t : List Char), KnownClasses T ∧ o.markup = none ∧
    classes T o (firstParagraph T o t) = [cLRI, cLRI] ∧ ∀ sched n, resolveParagraph T o sched (utf8 t) n = .running :=
  ⟨sample, { testing := true }, ['>', '>'], sample_known, rfl, by decide +kernel, endless_initiators⟩

/-- Resolution ends, without a panic, for every text with such isolates, and for every schedule.
Missing: other isolates, other numbers (see `C41_violated`). -/
theorem C41_isolates_partial (T : Tables) (o : Options) (sched : Nat → Nat) (t lead : List Char) (is : List Isolate) (hT : KnownClasses T)
    (ho : o.markup = none) (ht : firstParagraph T o t = withIsolates lead is) (h : FlatIsolates T o lead is) :
    ∃ rl, Resolves T o sched (utf8 t) rl := by
  obtain ⟨N, p, e, -⟩ := resolve_isolates hT ho sched False ht h (fun h => h.elim)
  exact ⟨_, resolves_of e⟩

example : ∃ t, firstParagraph sample { testing := true } t = withIsolates isolatesLead isolatesList ∧ FlatIsolates sample { testing := true } isolatesLead isolatesList ∧
    cBRACKO ∈ classes sample { testing := true } t ∧ cEN ∈ classes sample { testing := true } t :=
  ⟨_, isolates_paragraph, isolates_flat, by decide +kernel, by decide +kernel⟩

/-! ### C42 Resolved scraps tile the paragraph -/

/-- The property does not hold: the PDI of an empty isolate at the end belongs to two scraps. -/
theorem C42_isolate_violated : ∃ (T : Tables) (o : Options) (t : List Char) (sched : Nat → Nat) (rl : Levels), KnownClasses T ∧ o.markup = none ∧
    Resolves T o sched (utf8 t) rl ∧ brief rl.scraps = [(cLRI, 0, 0), (cL, 0, 1), (cR, 1, 2), (cPDI, 2, 3), (cPDI, 2, 3), (cPDI, 3, 3)] ∧
    classes T o t = [cL, cRLI, cPDI] := by
  obtain ⟨rl, a1, a2⟩ := resolvedWith_iff (T := sample) (o := { testing := true }) (sched := fun _ => 0) (b := utf8 "a<=".toList) (n := 99)
    (f := fun rl => brief rl.scraps == [(cLRI, 0, 0), (cL, 0, 1), (cR, 1, 2), (cPDI, 2, 3), (cPDI, 2, 3), (cPDI, 3, 3)]) (by decide +kernel)
  exact ⟨sample, { testing := true }, "a<=".toList, _, rl, sample_known, rfl, a1, eq_of_beq a2, by decide +kernel⟩

/-- For every text with such isolates, without Arabic numbers and not beginning with a nonspacing
mark, the scraps of the result follow each other without gaps from the beginning of the text to
the end of the (first) paragraph. There is one nested run for each isolate, in their order; it
covers the isolate from its initiator to its PDI without gaps, and lies within its scrap.
Missing: other texts (see `C42_violated`, `C42_isolate_violated`). -/
theorem C42_isolates_partial (T : Tables) (o : Options) (sched : Nat → Nat) (t lead : List Char) (is : List Isolate) (rl : Levels)
    (hT : KnownClasses T) (ho : o.markup = none) (ht : firstParagraph T o t = withIsolates lead is) (h : FlatIsolates T o lead is)
    (h3 : cAN ∉ classes T o (firstParagraph T o t)) (h4 : (classes T o (firstParagraph T o t)).head? ≠ some cNSM)
    (hr : Resolves T o sched (utf8 t) rl) :
    Tiles 0 (utf8 (firstParagraph T o t)).length rl.scraps ∧
    (∀ s ∈ rl.scraps, s.l < s.r ∨ s.clz ∈ [cLRI, cRLI, cFSI, cPDI]) ∧
    RunsTile (isolateSpans (utf8 lead).length is) (nestedRuns rl.scraps) ∧
    ∀ s ∈ rl.scraps, Within s := by
  obtain ⟨N, p, e1, -, e3, g3, -⟩ := resolve_isolates hT ho sched True ht h (fun _ => ⟨h3, h4⟩)
  obtain ⟨ht, hn, hw⟩ := e3 trivial
  have := (resolves_of e1).unique hr
  subst this
  obtain ⟨ys, last, hp⟩ : ∃ ys last, p.stack = ys ++ [last] := ⟨_, _, (List.dropLast_concat_getLast g3).symm⟩
  rw [hp] at ht hn hw
  obtain ⟨m, t1, t2, t3⟩ := tiles_append.mp ht
  unfold levelsOf
  dsimp only
  rw [hp]
  simp only [List.getLast?_append, List.getLast?_singleton, Option.some_or, Option.getD_some]
  refine ⟨tiles_append.mpr ⟨_, tiles_append.mpr ⟨m, t1, t2, rfl⟩, rfl, t3⟩, ?_, ?_, ?_⟩
  · intro s hs
    rw [List.mem_append, List.mem_singleton] at hs
    rcases hs with hs | rfl
    · rcases (hw s hs).2.2.2.2 trivial with ⟨-, ⟨hi, -⟩ | hi⟩
      · right
        simpa [isIsolate, or_assoc] using hi
      · exact Or.inl hi
    · right
      simp
  · have : nestedRuns (ys ++ [last] ++ [{ clz := cPDI, l := last.r, r := last.r }]) = nestedRuns (ys ++ [last]) := by simp [nestedRuns]
    rw [this]
    exact hn
  · intro s hs
    rw [List.mem_append, List.mem_singleton] at hs
    rcases hs with hs | rfl
    · exact (hw s hs).1
    · intro run hr
      cases hr

example : cAN ∉ classes sample { testing := true } (withIsolates isolatesLead isolatesList) ∧
    (classes sample { testing := true } (withIsolates isolatesLead isolatesList)).head? ≠ some cNSM ∧
    isolateSpans (utf8 isolatesLead).length isolatesList = [(7, 18), (24, 33)] := by
  refine ⟨by decide +kernel, by decide +kernel, by decide +kernel⟩

/-! ### C51 No goroutine is left behind -/

/-- For every text with such isolates the scanner's goroutine has ended when the paragraph has
been resolved, unless the paragraph consists of nonspacing marks only.
Missing: other isolates, other numbers. -/
theorem C51_isolates_partial (T : Tables) (o : Options) (sched : Nat → Nat) (t lead : List Char) (is : List Isolate) (hT : KnownClasses T)
    (ho : o.markup = none) (ht : firstParagraph T o t = withIsolates lead is) (h : FlatIsolates T o lead is) :
    ∃ n rl p, resolveParagraph T o sched (utf8 t) n = .returns (rl, p) ∧
      (p.env.1.pc = .closed ↔ ∃ c ∈ classes T o (firstParagraph T o t), c ≠ cNSM) := by
  obtain ⟨N, p, e, he, -⟩ := resolve_isolates hT ho sched False ht h (fun h => h.elim)
  refine ⟨N, _, p, e, ?_⟩
  unfold Ended at he
  rw [he]
  by_cases hs : scrapsOf T o (utf8 t) = []
  · rw [if_pos hs]
    have := (scraps_empty hT t).mp hs
    refine ⟨fun h => (by cases h), fun ⟨c, hc, hn⟩ => absurd (this c hc) hn⟩
  · rw [if_neg hs]
    refine ⟨fun _ => ?_, fun _ => rfl⟩
    rw [scraps_empty hT] at hs
    simpa using hs

/-! ### C52 Directions of UAX#9 -/

/-- The property does not hold: white space before an isolate is not resolved together with it.
In "A >b=C" the white space and the isolate are between letters from right to left, but count
as from left to right. -/
theorem C52_isolate_violated : ∃ (T : Tables) (o : Options) (lead : List Char) (is : List Isolate) (sched : Nat → Nat) (rl : Levels),
    KnownClasses T ∧ o.markup = none ∧ FlatIsolates T o lead is ∧ Resolves T o sched (utf8 (withIsolates lead is)) rl ∧
    directions (outer o) (classes T o (runSequence lead is)) = [.rtl, .rtl, .rtl, .rtl, .rtl] ∧ lead.length = 2 ∧ rl.directionAt 1 = .ltr := by
  obtain ⟨rl, a1, a2⟩ := resolvedWith_iff (T := sample) (o := { testing := true }) (sched := fun _ => 0) (b := utf8 "A >b=C".toList) (n := 99)
    (f := fun rl => decide (rl.directionAt 1 = .ltr)) (by decide +kernel)
  exact ⟨sample, { testing := true }, ['A', ' '], [⟨'>', ['b'], '=', ['C']⟩], _, rl, sample_known, rfl,
    flatIsolates_of (by decide +kernel) (by decide +kernel) (by decide +kernel) (by decide +kernel) (by decide +kernel), a1, by decide +kernel, rfl, by simpa using a2⟩

/-- The property does not hold: DirectionAt does not look into isolates. In "a<B=c" the letter B
is from right to left by itself, and within an isolate of that direction. -/
theorem C52_nested_violated : ∃ (T : Tables) (o : Options) (lead : List Char) (is : List Isolate) (sched : Nat → Nat) (rl : Levels),
    KnownClasses T ∧ o.markup = none ∧ FlatIsolates T o lead is ∧ Resolves T o sched (utf8 (withIsolates lead is)) rl ∧
    is.map (fun i => directions cR (classes T o i.text)) = [[.rtl]] ∧ lead.length = 1 ∧ rl.directionAt 2 = .ltr := by
  obtain ⟨rl, a1, a2⟩ := resolvedWith_iff (T := sample) (o := { testing := true }) (sched := fun _ => 0) (b := utf8 "a<B=c".toList) (n := 99)
    (f := fun rl => decide (rl.directionAt 2 = .ltr)) (by decide +kernel)
  exact ⟨sample, { testing := true }, ['a'], [⟨'<', ['B'], '=', ['c']⟩], _, rl, sample_known, rfl,
    flatIsolates_of (by decide +kernel) (by decide +kernel) (by decide +kernel) (by decide +kernel) (by decide +kernel), a1, by decide +kernel, rfl, by simpa using a2⟩

end Uax
