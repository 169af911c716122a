import Verif.BidiLookup
import Verif.BidiEndless

/-! Property C37: which brackets are pairs.

`Feeds E env ss fin` says that the scanner `env` delivers the scraps `ss` and then the end,
and is `fin` afterwards. `E.pairing` is how the parser asks for the partner of a bracket; an
opening bracket is looked for at the position of its own, a closing one likewise. The pairs of
rule BD16 are in SpecBrackets.lean. -/

namespace Uax
open Bidi Spec

/-- For every text without isolates the pairs are those of BD16, if there are never more than
63 open brackets and U+2329 and U+232A do not occur: asking for the opening bracket at `p`
gives the closing bracket at `q`, and vice versa, just if BD16 makes them a pair.
Missing: deeper nesting and the two brackets (see `C37_overflow_violated`,
`C37_canonical_violated`, `C37_pairs_exactly`), texts with isolates. -/
theorem C37_pairs_partial (T : Tables) (o : Options) (sched : Nat → Nat) (t : List Char) (hT : KnownClasses T) (hB : BracketTable T) (ho : o.markup = none)
    (h1 : NoIsolates (classes T o (firstParagraph T o t))) (h2 : NeverFull [] (bracketsOf T o 0 (firstParagraph T o t)))
    (h3 : NoAngle (firstParagraph T o t)) :
    ∃ ss fin, Feeds (scannerEnv T o sched) (newScanner o (utf8 t), 0) ss (fin, 0) ∧ ∀ i p q,
      ((∃ pr, ((scannerEnv T o sched).pairing (fin, i) { clz := cBRACKO, l := p }).1 = some pr ∧ pr.closing.l = q) ↔
        (p, q) ∈ bd16 true [] (bracketsOf T o 0 (firstParagraph T o t))) ∧
      ((∃ pr, ((scannerEnv T o sched).pairing (fin, i) { clz := cBRACKC, l := q }).1 = some pr ∧ pr.opening.l = p) ↔
        (p, q) ∈ bd16 true [] (bracketsOf T o 0 (firstParagraph T o t))) := by
  rw [bd16_std _ [] h2 (by simp) (brackets_noAngle _ 0 h3)]
  exact lookup_pairs hT hB ho sched t h1

/-- The same without a condition on the brackets: the pairs are those of BD16 with two
changes, namely that opening brackets are skipped while 63 are open, and that canonical
equivalents do not match. -/
theorem C37_pairs_exactly (T : Tables) (o : Options) (sched : Nat → Nat) (t : List Char) (hT : KnownClasses T) (hB : BracketTable T) (ho : o.markup = none)
    (h1 : NoIsolates (classes T o (firstParagraph T o t))) :
    ∃ ss fin, Feeds (scannerEnv T o sched) (newScanner o (utf8 t), 0) ss (fin, 0) ∧ ∀ i p q,
      ((∃ pr, ((scannerEnv T o sched).pairing (fin, i) { clz := cBRACKO, l := p }).1 = some pr ∧ pr.closing.l = q) ↔
        (p, q) ∈ bd16 false [] (bracketsOf T o 0 (firstParagraph T o t))) ∧
      ((∃ pr, ((scannerEnv T o sched).pairing (fin, i) { clz := cBRACKC, l := q }).1 = some pr ∧ pr.opening.l = p) ↔
        (p, q) ∈ bd16 false [] (bracketsOf T o 0 (firstParagraph T o t))) :=
  lookup_pairs hT hB ho sched t h1

/-- The sample table with all brackets. -/
def bracketSample : Tables := { sample with
  bracket := fun r => if pairedBrackets.any (fun p => p.1 == r) then some true
    else if pairedBrackets.any (fun p => p.2 == r) then some false else none }

theorem bracketSample_table : BracketTable bracketSample := by
  have hd : ∀ p ∈ pairedBrackets, ∀ q ∈ pairedBrackets, p.1 ≠ q.2 := by decide +kernel
  have e1 : ∀ r, (pairedBrackets.any (fun p => p.1 == r) = true) ↔ ∃ c, (r, c) ∈ pairedBrackets := by
    intro r
    simp only [List.any_eq_true, beq_iff_eq]
    exact ⟨fun ⟨p, hp, he⟩ => ⟨p.2, by rw [← he]; exact hp⟩, fun ⟨c, hc⟩ => ⟨_, hc, rfl⟩⟩
  have e2 : ∀ r, (pairedBrackets.any (fun p => p.2 == r) = true) ↔ ∃ c, (c, r) ∈ pairedBrackets := by
    intro r
    simp only [List.any_eq_true, beq_iff_eq]
    exact ⟨fun ⟨p, hp, he⟩ => ⟨p.1, by rw [← he]; exact hp⟩, fun ⟨c, hc⟩ => ⟨_, hc, rfl⟩⟩
  intro r
  rw [← e1, ← e2]
  unfold bracketSample
  dsimp only
  split
  · rename_i h
    refine ⟨by simp [h], ⟨by simp, fun h2 => ?_⟩⟩
    obtain ⟨c, hc⟩ := (e1 r).mp h
    obtain ⟨c', hc'⟩ := (e2 r).mp h2
    exact absurd rfl (hd _ hc _ hc')
  · rename_i h
    split
    · rename_i h2
      exact ⟨by simp [h], by simp [h2]⟩
    · rename_i h2
      exact ⟨by simp [h], by simp [h2]⟩

theorem bracketSample_known : KnownClasses bracketSample := sample_known

/-- Crossing brackets, an unmatched one and a mark after a bracket. -/
def crossingSample : List Char := "a(b[c)́d]e「f」)".toList

example : NoIsolates (classes bracketSample {} (firstParagraph bracketSample {} crossingSample)) ∧
    NeverFull [] (bracketsOf bracketSample {} 0 (firstParagraph bracketSample {} crossingSample)) ∧
    NoAngle (firstParagraph bracketSample {} crossingSample) ∧
    bd16 true [] (bracketsOf bracketSample {} 0 (firstParagraph bracketSample {} crossingSample)) = [(1, 5), (11, 15)] := by
  have e : bracketsOf bracketSample {} 0 (firstParagraph bracketSample {} crossingSample) =
      [.opening 0x29 1, .opening 0x5D 3, .closing 0x29 5, .closing 0x5D 9, .opening 0x300D 11, .closing 0x300D 15, .closing 0x29 18] := by
    decide +kernel
  rw [e]
  refine ⟨by show ∀ c ∈ _, _; decide +kernel, ?_, by show ∀ c ∈ _, _; decide +kernel, by decide +kernel⟩
  simp [NeverFull]

/-- The property does not hold for deep nesting: with 64 opening brackets and a closing one
BD16 makes no pair, but there is one. -/
theorem C37_overflow_violated : ∃ (T : Tables) (o : Options) (t : List Char), KnownClasses T ∧ BracketTable T ∧ o.markup = none ∧
    NoIsolates (classes T o (firstParagraph T o t)) ∧ bd16 true [] (bracketsOf T o 0 (firstParagraph T o t)) = [] ∧
    ∀ sched, ∃ ss fin, Feeds (scannerEnv T o sched) (newScanner o (utf8 t), 0) ss (fin, 0) ∧
      ∀ i, ∃ pr, ((scannerEnv T o sched).pairing (fin, i) { clz := cBRACKO, l := 62 }).1 = some pr ∧ pr.closing.l = 64 := by
  have hn : NoIsolates (classes bracketSample {} (firstParagraph bracketSample {} (List.replicate 64 '(' ++ [')']))) := by
    show ∀ c ∈ _, _
    decide +kernel
  refine ⟨bracketSample, {}, List.replicate 64 '(' ++ [')'], bracketSample_known, bracketSample_table, rfl, hn, by decide +kernel, fun sched => ?_⟩
  obtain ⟨ss, fin, h1, h2⟩ := C37_pairs_exactly bracketSample {} sched _ bracketSample_known bracketSample_table rfl hn
  exact ⟨ss, fin, h1, fun i => (h2 i 62 64).1.mpr (by decide +kernel)⟩

/-- The property does not hold for canonical equivalents: U+3008 and U+232A are a pair in BD16,
but not here. -/
theorem C37_canonical_violated : ∃ (T : Tables) (o : Options) (t : List Char), KnownClasses T ∧ BracketTable T ∧ o.markup = none ∧
    NoIsolates (classes T o (firstParagraph T o t)) ∧ bd16 true [] (bracketsOf T o 0 (firstParagraph T o t)) = [(1, 5)] ∧
    ∀ sched, ∃ ss fin, Feeds (scannerEnv T o sched) (newScanner o (utf8 t), 0) ss (fin, 0) ∧
      ∀ i, ((scannerEnv T o sched).pairing (fin, i) { clz := cBRACKO, l := 1 }).1 = none := by
  have hn : NoIsolates (classes bracketSample {} (firstParagraph bracketSample {} ['a', '\u3008', 'b', '\u232a'])) := by
    show ∀ c ∈ _, _
    decide +kernel
  refine ⟨bracketSample, {}, ['a', '\u3008', 'b', '\u232a'], bracketSample_known, bracketSample_table, rfl, hn, by decide +kernel, fun sched => ?_⟩
  obtain ⟨ss, fin, h1, h2⟩ := C37_pairs_exactly bracketSample {} sched _ bracketSample_known bracketSample_table rfl hn
  refine ⟨ss, fin, h1, fun i => ?_⟩
  cases h : ((scannerEnv bracketSample {} sched).pairing (fin, i) { clz := cBRACKO, l := 1 }).1 with
  | none => rfl
  | some pr =>
    have := (h2 i 1 pr.closing.l).1.mp ⟨pr, h, rfl⟩
    rw [show bd16 false [] (bracketsOf bracketSample {} 0 (firstParagraph bracketSample {} ['a', '\u3008', 'b', '\u232a'])) = [] from by decide +kernel] at this
    cases this

end Uax
