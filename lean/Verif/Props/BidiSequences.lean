import Verif.BidiSequences
import Verif.Props.BidiBrackets

/-! Property C37 for texts with isolates.

`sequenceOf T o t k` are the brackets of the `k`-th isolating run sequence of `t`
(SpecBrackets.lean): number 0 is what is outside of all isolates, and isolates, which may be
nested, are numbered in the order of their initiators. Rule BD16 looks for pairs in each of
these sequences on its own. -/

namespace Uax
open Bidi Spec

/-- For every text with isolates, nested to any depth, closed or not, the pairs are those which
BD16 finds within the isolating run sequences, except for the sequence of the isolate which
begins last: asking for the opening bracket at `p` gives the closing bracket at `q`, and vice
versa, just if BD16 makes them a pair in one of the other sequences. The text does not begin
with an isolate, each PDI belongs to an initiator, there are no FSIs, never more than 63 open
brackets in a sequence, and U+2329 and U+232A do not occur.
Missing: brackets in the last isolate (see `C37_last_violated`), isolates at the start (see
`C37_first_violated`), PDIs without initiator (see `C37_pdi_violated`), first-strong isolates,
and what is missing in `C37_pairs_partial`. -/
theorem C37_isolates_partial (T : Tables) (o : Options) (sched : Nat → Nat) (t : List Char) (hT : KnownClasses T) (hB : BracketTable T) (ho : o.markup = none)
    (h1 : cFSI ∉ classes T o (firstParagraph T o t)) (h2 : PdiMatched 0 (marksOf T o 0 (firstParagraph T o t)))
    (h3 : Mark.initiator 0 ∉ marksOf T o 0 (firstParagraph T o t))
    (h4 : ∀ k, NeverFull [] (sequenceOf T o (firstParagraph T o t) k)) (h5 : NoAngle (firstParagraph T o t)) :
    ∃ ss fin, Feeds (scannerEnv T o sched) (newScanner o (utf8 t), 0) ss (fin, 0) ∧ ∀ i p q,
      ((∃ pr, ((scannerEnv T o sched).pairing (fin, i) { clz := cBRACKO, l := p }).1 = some pr ∧ pr.closing.l = q) ↔
        ∃ k, (k = 0 ∨ k < initiators (marksOf T o 0 (firstParagraph T o t))) ∧ (p, q) ∈ bd16 true [] (sequenceOf T o (firstParagraph T o t) k)) ∧
      ((∃ pr, ((scannerEnv T o sched).pairing (fin, i) { clz := cBRACKC, l := q }).1 = some pr ∧ pr.opening.l = p) ↔
        ∃ k, (k = 0 ∨ k < initiators (marksOf T o 0 (firstParagraph T o t))) ∧ (p, q) ∈ bd16 true [] (sequenceOf T o (firstParagraph T o t) k)) := by
  have e : ∀ k, bd16 true [] (sequenceOf T o (firstParagraph T o t) k) = bd16 false [] (sequenceOf T o (firstParagraph T o t) k) :=
    fun k => bd16_std _ [] (h4 k) (by simp) (fun b hb => marks_noAngle _ 0 h5 b (mem_numbered _ _ _ (mem_sequence.mp hb)))
  simp only [e]
  exact lookup_sequences hT hB ho sched t h1 h2 h3

/-- The same without a condition on the brackets, as in `C37_pairs_exactly`. -/
theorem C37_isolates_exactly (T : Tables) (o : Options) (sched : Nat → Nat) (t : List Char) (hT : KnownClasses T) (hB : BracketTable T) (ho : o.markup = none)
    (h1 : cFSI ∉ classes T o (firstParagraph T o t)) (h2 : PdiMatched 0 (marksOf T o 0 (firstParagraph T o t)))
    (h3 : Mark.initiator 0 ∉ marksOf T o 0 (firstParagraph T o t)) :
    ∃ ss fin, Feeds (scannerEnv T o sched) (newScanner o (utf8 t), 0) ss (fin, 0) ∧ ∀ i p q,
      ((∃ pr, ((scannerEnv T o sched).pairing (fin, i) { clz := cBRACKO, l := p }).1 = some pr ∧ pr.closing.l = q) ↔
        ∃ k, (k = 0 ∨ k < initiators (marksOf T o 0 (firstParagraph T o t))) ∧ (p, q) ∈ bd16 false [] (sequenceOf T o (firstParagraph T o t) k)) ∧
      ((∃ pr, ((scannerEnv T o sched).pairing (fin, i) { clz := cBRACKC, l := q }).1 = some pr ∧ pr.opening.l = p) ↔
        ∃ k, (k = 0 ∨ k < initiators (marksOf T o 0 (firstParagraph T o t))) ∧ (p, q) ∈ bd16 false [] (sequenceOf T o (firstParagraph T o t) k)) :=
  lookup_sequences hT hB ho sched t h1 h2 h3

/-- Brackets around and within nested isolates, which would cross if they were in one sequence. -/
def nestedBrackets : List Char := "(a>[b<{c)=]d}=e)>f=".toList

example : cFSI ∉ classes bracketSample { testing := true } (firstParagraph bracketSample { testing := true } nestedBrackets) ∧
    PdiMatched 0 (marksOf bracketSample { testing := true } 0 (firstParagraph bracketSample { testing := true } nestedBrackets)) ∧
    Mark.initiator 0 ∉ marksOf bracketSample { testing := true } 0 (firstParagraph bracketSample { testing := true } nestedBrackets) ∧
    NoAngle (firstParagraph bracketSample { testing := true } nestedBrackets) ∧
    initiators (marksOf bracketSample { testing := true } 0 (firstParagraph bracketSample { testing := true } nestedBrackets)) = 3 ∧
    [0, 1, 2, 3].map (fun k => bd16 true [] (sequenceOf bracketSample { testing := true } (firstParagraph bracketSample { testing := true } nestedBrackets) k)) =
      [[(0, 15)], [(3, 10)], [], []] := by
  have e : marksOf bracketSample { testing := true } 0 (firstParagraph bracketSample { testing := true } nestedBrackets) =
      [.bracket (.opening 0x29 0), .initiator 2, .bracket (.opening 0x5D 3), .initiator 5, .bracket (.opening 0x7D 6), .bracket (.closing 0x29 8), .pdi 9,
        .bracket (.closing 0x5D 10), .bracket (.closing 0x7D 12), .pdi 13, .bracket (.closing 0x29 15), .initiator 16, .pdi 18] := by
    decide +kernel
  rw [e]
  refine ⟨by decide +kernel, by simp [PdiMatched], by decide, by show ∀ c ∈ _, _; decide +kernel, rfl, by decide +kernel⟩

/-- A sequence has few brackets in it. -/
example : ∀ k, NeverFull [] (sequenceOf bracketSample { testing := true } (firstParagraph bracketSample { testing := true } nestedBrackets) k) := by
  have e : numbered 1 [0] (marksOf bracketSample { testing := true } 0 (firstParagraph bracketSample { testing := true } nestedBrackets)) =
      [(0, .opening 0x29 0), (1, .opening 0x5D 3), (2, .opening 0x7D 6), (2, .closing 0x29 8), (1, .closing 0x5D 10), (1, .closing 0x7D 12),
        (0, .closing 0x29 15)] := by
    decide +kernel
  intro k
  unfold sequenceOf
  rw [e]
  rcases k with _ | _ | _ | k
  · simp [sequence, NeverFull]
  · simp [sequence, NeverFull]
  · simp [sequence, NeverFull]
  · simp [sequence, NeverFull]

/-- The property does not hold for the last isolate: the pair in it is not found. -/
theorem C37_last_violated : ∃ (T : Tables) (o : Options) (t : List Char), KnownClasses T ∧ BracketTable T ∧ o.markup = none ∧
    (2, 4) ∈ bd16 true [] (sequenceOf T o (firstParagraph T o t) 1) ∧
    ∀ sched, ∃ ss fin, Feeds (scannerEnv T o sched) (newScanner o (utf8 t), 0) ss (fin, 0) ∧
      ∀ i, ((scannerEnv T o sched).pairing (fin, i) { clz := cBRACKO, l := 2 }).1 = none := by
  refine ⟨bracketSample, { testing := true }, "a>(b)=c".toList, bracketSample_known, bracketSample_table, rfl, by decide +kernel, fun sched => ?_⟩
  have e : marksOf bracketSample { testing := true } 0 (firstParagraph bracketSample { testing := true } "a>(b)=c".toList) =
      [.initiator 1, .bracket (.opening 0x29 2), .bracket (.closing 0x29 4), .pdi 5] := by
    decide +kernel
  obtain ⟨ss, fin, h1, h2⟩ := C37_isolates_exactly bracketSample { testing := true } sched "a>(b)=c".toList bracketSample_known bracketSample_table rfl
    (by decide +kernel) (by rw [e]; simp [PdiMatched]) (by rw [e]; decide)
  refine ⟨ss, fin, h1, fun i => ?_⟩
  cases h : ((scannerEnv bracketSample { testing := true } sched).pairing (fin, i) { clz := cBRACKO, l := 2 }).1 with
  | none => rfl
  | some pr =>
    obtain ⟨k, hk, hm⟩ := (h2 i 2 pr.closing.l).1.mp ⟨pr, h, rfl⟩
    rw [e] at hk
    have : k = 0 := by
      rcases hk with hk | hk
      · exact hk
      · have : k < 1 := hk
        omega
    subst this
    rw [show bd16 false [] (sequenceOf bracketSample { testing := true } (firstParagraph bracketSample { testing := true } "a>(b)=c".toList) 0) = [] from by
      decide +kernel] at hm
    cases hm

/-- The property does not hold for an isolate at the start of the text: a bracket within it and
one after it are made a pair. -/
theorem C37_first_violated : ∃ (T : Tables) (o : Options) (t : List Char), KnownClasses T ∧ BracketTable T ∧ o.markup = none ∧
    (∀ k, (1, 4) ∉ bd16 true [] (sequenceOf T o (firstParagraph T o t) k)) ∧
    ∀ sched, ∃ ss fin, Feeds (scannerEnv T o sched) (newScanner o (utf8 t), 0) ss (fin, 0) ∧
      ∀ i, ∃ pr, ((scannerEnv T o sched).pairing (fin, i) { clz := cBRACKO, l := 1 }).1 = some pr ∧ pr.closing.l = 4 := by
  refine ⟨bracketSample, { testing := true }, ">(a=)".toList, bracketSample_known, bracketSample_table, rfl, ?_, fun sched => ?_⟩
  · have e : numbered 1 [0] (marksOf bracketSample { testing := true } 0 (firstParagraph bracketSample { testing := true } ">(a=)".toList)) =
        [(1, .opening 0x29 1), (0, .closing 0x29 4)] := by
      decide +kernel
    intro k
    unfold sequenceOf
    rw [e]
    rcases k with _ | _ | k
    · decide
    · decide
    · simp [sequence, bd16]
  · obtain ⟨fin, h1, h2⟩ := house_lookup (T := bracketSample) (o := { testing := true }) bracketSample_known rfl sched ">(a=)".toList
    refine ⟨_, fin, h1, fun i => ?_⟩
    rw [h2]
    exact (show ∃ pr, _ = some pr ∧ (pr : Pairing).closing.l = 4 from ⟨_, rfl, by decide +kernel⟩)

/-- The property does not hold after a PDI without initiator: a pair after a later isolate is
not found. -/
theorem C37_pdi_violated : ∃ (T : Tables) (o : Options) (t : List Char), KnownClasses T ∧ BracketTable T ∧ o.markup = none ∧
    (5, 7) ∈ bd16 true [] (sequenceOf T o (firstParagraph T o t) 0) ∧
    ∀ sched, ∃ ss fin, Feeds (scannerEnv T o sched) (newScanner o (utf8 t), 0) ss (fin, 0) ∧
      ∀ i, ((scannerEnv T o sched).pairing (fin, i) { clz := cBRACKO, l := 5 }).1 = none := by
  refine ⟨bracketSample, { testing := true }, "a=>b=(c)".toList, bracketSample_known, bracketSample_table, rfl, by decide +kernel, fun sched => ?_⟩
  obtain ⟨fin, h1, h2⟩ := house_lookup (T := bracketSample) (o := { testing := true }) bracketSample_known rfl sched "a=>b=(c)".toList
  refine ⟨_, fin, h1, fun i => ?_⟩
  rw [h2]
  decide +kernel

end Uax
