import Verif.BidiScan
import Verif.BidiEndless

/-! Property C43: rules W1 to W3 are applied when the text is scanned.

`Feeds E env ss fin` says that the scanner `env` delivers the scraps `ss`, then the end.
`byteClasses ss` lists the classes of the bytes the scraps consist of, `spread t cs` those of
the bytes of the text `t`, if its characters have the classes `cs`. The rules are `w1`, `w2`
and `w3` in SpecBidi.lean. -/

namespace Uax
open Bidi Spec

/-- For every text without isolates, which does not begin with a nonspacing mark and has no
Arabic letter before a European number, the scraps follow each other from the beginning to the
end of the paragraph and their classes are those after W1 to W3 (with one class for neutrals).
Missing: other texts, see `C43_violated`, `C43_number_violated`, `C43_mark_violated`. -/
theorem C43_scanned_partial (T : Tables) (o : Options) (sched : Nat → Nat) (t : List Char) (hT : KnownClasses T) (ho : o.markup = none)
    (h1 : NoIsolates (classes T o (firstParagraph T o t))) (h2 : (classes T o (firstParagraph T o t)).head? ≠ some cNSM)
    (h3 : NoALBeforeEN (classes T o (firstParagraph T o t))) :
    ∃ ss fin, Feeds (scannerEnv T o sched) (newScanner o (utf8 t), 0) ss fin ∧ Tiles 0 (utf8 (firstParagraph T o t)).length ss ∧
      byteClasses ss = spread (firstParagraph T o t)
        ((w3 (w2 (outer o) (w1 (outer o) (classes T o (firstParagraph T o t))))).map oneNeutral) := by
  obtain ⟨fin, f1, -⟩ := scanner_feeds ho (known_notNull hT) sched (utf8 t)
  obtain ⟨g1, g2⟩ := scraps_bytes hT t h1 h2 h3 (outer o) (by unfold outer; split <;> simp)
  exact ⟨_, _, f1, g2, g1⟩

/-- A text with marks after a letter, a number, white space and a bracket, and with an Arabic
letter. -/
def markSample : List Char := ['a', '\u0301', ' ', '1', '\u0301', ' ', '\u0300', '(', '\u0300', 'ا', '\u0301', ' ', 'א']

example : NoIsolates (classes sample {} (firstParagraph sample {} markSample)) ∧ (classes sample {} (firstParagraph sample {} markSample)).head? ≠ some cNSM ∧
    NoALBeforeEN (classes sample {} (firstParagraph sample {} markSample)) ∧
    spread (firstParagraph sample {} markSample) ((w3 (w2 cL (w1 cL (classes sample {} (firstParagraph sample {} markSample))))).map oneNeutral) =
      [cL, cL, cL, cNI, cEN, cEN, cEN, cNI, cNI, cNI, cBRACKO, cBRACKO, cBRACKO, cR, cR, cR, cR, cNI, cR, cR] := by
  refine ⟨by show ∀ c ∈ _, _; decide +kernel, by decide +kernel, ?_, by decide +kernel⟩
  have e : classes sample {} (firstParagraph sample {} markSample) =
      [cL, cNSM, cWS, cEN, cNSM, cWS, cNSM, cBRACKO, cNSM, cAL, cNSM, cWS, cR] := by decide +kernel
  rw [e]
  intro pre post he hm
  have hp : pre = [cL, cNSM, cWS] ∧ post = [cNSM, cWS, cNSM, cBRACKO, cNSM, cAL, cNSM, cWS, cR] := by
    rcases pre with _ | ⟨_, _ | ⟨_, _ | ⟨_, _ | ⟨_, pre⟩⟩⟩⟩
    · simp [cL, cEN] at he
    · simp [cNSM, cEN] at he
    · simp [cWS, cEN] at he
    · simp only [List.cons_append, List.nil_append, List.cons.injEq] at he
      obtain ⟨rfl, rfl, rfl, -, rfl⟩ := he
      exact ⟨rfl, rfl⟩
    · exfalso
      simp only [List.cons_append, List.cons.injEq] at he
      have : cEN ∈ [cNSM, cWS, cNSM, cBRACKO, cNSM, cAL, cNSM, cWS, cR] := by rw [he.2.2.2.2]; simp
      exact absurd this (by decide)
  rw [hp.1] at hm
  exact absurd hm (by decide)

/-- The property does not hold: a European number after an Arabic letter stays one. -/
theorem C43_violated : ∃ (T : Tables) (o : Options) (t : List Char), KnownClasses T ∧ o.markup = none ∧
    w3 (w2 (outer o) (w1 (outer o) (classes T o t))) = [cR, cAN] ∧
    ∀ sched, ∃ ss fin, Feeds (scannerEnv T o sched) (newScanner o (utf8 t), 0) ss fin ∧ ss.map (·.clz) = [cR, cEN] := by
  refine ⟨sample, {}, ['ا', '1'], sample_known, rfl, by decide +kernel, fun sched => ?_⟩
  obtain ⟨fin, f1, -⟩ := scanner_feeds (T := sample) (o := {}) rfl (known_notNull sample_known) sched (utf8 ['ا', '1'])
  exact ⟨_, _, f1, by decide +kernel⟩

/-- A European number becomes an Arabic one, although there is a Latin letter between the last
Arabic letter and the number. -/
theorem C43_number_violated : ∃ (T : Tables) (o : Options) (t : List Char), KnownClasses T ∧ o.markup = none ∧
    w3 (w2 (outer o) (w1 (outer o) (classes T o t))) = [cR, cL, cWS, cES, cEN] ∧
    ∀ sched, ∃ ss fin, Feeds (scannerEnv T o sched) (newScanner o (utf8 t), 0) ss fin ∧ ss.map (·.clz) = [cR, cL, cNI, cES, cAN] := by
  refine ⟨sample, {}, ['ا', 'a', ' ', '+', '1'], sample_known, rfl, by decide +kernel, fun sched => ?_⟩
  obtain ⟨fin, f1, -⟩ := scanner_feeds (T := sample) (o := {}) rfl (known_notNull sample_known) sched (utf8 ['ا', 'a', ' ', '+', '1'])
  exact ⟨_, _, f1, by decide +kernel⟩

/-- A mark at the beginning of a text is in no scrap. -/
theorem C43_mark_violated : ∃ (T : Tables) (o : Options) (t : List Char), KnownClasses T ∧ o.markup = none ∧
    w3 (w2 (outer o) (w1 (outer o) (classes T o t))) = [cL, cL] ∧
    ∀ sched, ∃ ss fin, Feeds (scannerEnv T o sched) (newScanner o (utf8 t), 0) ss fin ∧ ss.map (fun s => (s.clz, s.l, s.r)) = [(cL, 2, 3)] := by
  refine ⟨sample, {}, ['\u0301', 'a'], sample_known, rfl, by decide +kernel, fun sched => ?_⟩
  obtain ⟨fin, f1, -⟩ := scanner_feeds (T := sample) (o := {}) rfl (known_notNull sample_known) sched (utf8 ['\u0301', 'a'])
  exact ⟨_, _, f1, by decide +kernel⟩

end Uax
