import Verif.BidiN0
import Verif.Props.BidiBrackets

/-! Property C71: which direction bracket pairs get.

The rule is `RuleN0` of SpecN0.lean: `d` has the directions of the brackets, by their byte
positions. For each text there is just one such `d` (`C71_rule`). -/

namespace Uax
open Bidi Spec

/-- Rule N0 determines the directions of the brackets. -/
theorem C71_rule (T : Tables) (o : Options) (t : List Char) : ∃ d, RuleN0 T o t d ∧ ∀ d', RuleN0 T o t d' → d' = d :=
  ⟨dirsOf T o t, ruleN0_dirs T o t, fun _ h => ruleN0_unique h (ruleN0_dirs T o t)⟩

/-- For every text without isolates, Arabic letters and Arabic numbers, whose European numbers
stand in left-to-right context, with the conditions of
`C37_pairs_partial`, the following holds for every pair of brackets with a letter inside:
both brackets get the direction of rule N0, if there is a strong type inside which matches the
embedding direction, or the last strong type before the opening bracket is not that of a bracket.
Missing: pairs without strong types inside (see `C71_empty_violated`), pairs with numbers, but
no letters inside (see `C71_number_violated`), pairs which get their
direction from another bracket (see `C71_bracket_violated`, `C71_nested_violated`), or from the
beginning of the text from right to left (see `C71_beginning_violated`), Arabic letters (see
`C71_arabic_violated`), marks after brackets (see `C71_mark_violated`), Arabic numbers, isolates. -/
theorem C71_pairs_partial (T : Tables) (o : Options) (sched : Nat → Nat) (t : List Char) (hT : KnownClasses T) (hB : BracketTable T) (ho : o.markup = none)
    (h1 : NoIsolates (classes T o (firstParagraph T o t))) (h2 : ∀ c ∈ classes T o (firstParagraph T o t), c ∉ [cAN, cAL])
    (h2' : NumbersLTR (outer o) (classes T o (firstParagraph T o t))) (h3 : (classes T o (firstParagraph T o t)).head? ≠ some cNSM) (h4 : (utf8 (firstParagraph T o t)).length < 65536)
    (h5 : NeverFull [] (bracketsOf T o 0 (firstParagraph T o t))) (h6 : NoAngle (firstParagraph T o t))
    (d : Nat → Option Class) (hd : RuleN0 T o (firstParagraph T o t) d) :
    ∃ rl, Resolves T o sched (utf8 t) rl ∧ ∀ before a inside b after, firstParagraph T o t = before ++ a :: (inside ++ b :: after) →
      ((utf8 before).length, (utf8 (before ++ a :: inside)).length) ∈ bd16 true [] (bracketsOf T o 0 (firstParagraph T o t)) →
      (∃ x ∈ inside, charClass T o x = cL ∨ charClass T o x = cR) →
      (outer o ∈ strongTypes T o (fun _ => none) (lastLetter T o before) 0 inside ∨ LetterLast T o before) →
      ∀ c, d (utf8 before).length = some c →
        (∀ k, k < (utf8 [a]).length → rl.directionAt ((utf8 before).length + k) = dirOfStrong c) ∧
        (∀ k, k < (utf8 [b]).length → rl.directionAt ((utf8 (before ++ a :: inside)).length + k) = dirOfStrong c) := by
  have hAL : cAL ∉ classes T o (firstParagraph T o t) := fun h => h2 _ h (by decide)
  have hAN : cAN ∉ classes T o (firstParagraph T o t) := fun h => h2 _ h (by decide)
  obtain ⟨N, p, e1, -⟩ := resolve_text ho (known_notNull hT) sched (utf8 t)
    (good_text hT t True h1 (numbersLTR_left h2') (fun _ => ⟨hAN, h3⟩))
  refine ⟨_, resolves_of e1, ?_⟩
  intro before a inside b after ht hm hx hl c hc
  have hne : letters T o inside ≠ [] := by
    obtain ⟨x, hx, hk⟩ := hx
    refine List.ne_nil_of_mem (a := charClass T o x) ?_
    rw [letters, List.mem_filter]
    exact ⟨List.mem_map_of_mem hx, by simpa using hk⟩
  have hcc := rule_letters hAL hAN h2' hd ht hm hc hne hl
  rw [bd16_std _ [] h5 (by simp) (brackets_noAngle _ 0 h6)] at hm
  obtain ⟨N', p', os, cs, g1, g2, g3, g4, g5, g6⟩ := resolve_pair hT hB ho sched t h1 h2 h2' h3 h4 ht hm hne
  rw [← hcc] at g6
  rw [(resolves_of e1).unique (resolves_of g1)]
  have hk : c = cL ∨ c = cR := by
    rw [hcc]
    split
    · rcases outer_cases o with ⟨q, -⟩ | ⟨q, -⟩
      · exact Or.inl q
      · exact Or.inr q
    · cases hg : (letters T o before).getLast? with
      | none => exact Or.inl rfl
      | some x => exact letters_mem (List.mem_of_getLast? hg)
  have hcov : Covered os c p'.stack ∧ Covered cs c p'.stack := by
    rcases g6.2 with ⟨h, -⟩ | ⟨-, h, -⟩ | h
    · cases h
    · cases h
    · simpa using h
  have ht := joint_tiles g6
  rw [List.append_nil] at ht
  exact ⟨fun k hk' => direction_covered hk ht.1 ht.2 hcov.1 (by omega) (by omega), fun k hk' => direction_covered hk ht.1 ht.2 hcov.2 (by omega) (by omega)⟩

/-- Pairs in pairs, pairs of either direction, letters before them, and numbers. -/
def pairSample : List Char := "A(b[C]d 1,2)E (F)g(3H)".toList

theorem pairSample_brackets : bracketsOf bracketSample { testing := true } 0 (firstParagraph bracketSample { testing := true } pairSample) =
    [.opening 0x29 1, .opening 0x5D 3, .closing 0x5D 5, .closing 0x29 11, .opening 0x29 14, .closing 0x29 16, .opening 0x29 18, .closing 0x29 21] := by decide +kernel

example : NoIsolates (classes bracketSample { testing := true } (firstParagraph bracketSample { testing := true } pairSample)) ∧
    (∀ c ∈ classes bracketSample { testing := true } (firstParagraph bracketSample { testing := true } pairSample), c ∉ [cAN, cAL]) ∧
    NumbersLTR cL (classes bracketSample { testing := true } (firstParagraph bracketSample { testing := true } pairSample)) ∧
    (classes bracketSample { testing := true } (firstParagraph bracketSample { testing := true } pairSample)).head? ≠ some cNSM ∧
    (utf8 (firstParagraph bracketSample { testing := true } pairSample)).length < 65536 ∧
    NeverFull [] (bracketsOf bracketSample { testing := true } 0 (firstParagraph bracketSample { testing := true } pairSample)) ∧
    NoAngle (firstParagraph bracketSample { testing := true } pairSample) := by
  rw [pairSample_brackets]
  refine ⟨by show ∀ c ∈ _, _; decide +kernel, by decide +kernel, numbersLTR_of (by decide +kernel), by decide +kernel, by decide +kernel, ?_,
    by show ∀ c ∈ _, _; decide +kernel⟩
  simp [NeverFull]

/-- Its pairs: the third one is right to left, the other ones are left to right. -/
example : ∃ d, RuleN0 bracketSample { testing := true } (firstParagraph bracketSample { testing := true } pairSample) d ∧
    [1, 3, 5, 11, 14, 16, 18, 21].map d = [some cL, some cL, some cL, some cL, some cR, some cR, some cL, some cL] ∧
    ∀ x < 22, x ∉ [1, 3, 5, 11, 14, 16, 18, 21] → d x = none :=
  ⟨_, ruleN0_dirs _ _ _, by decide +kernel, by decide +kernel⟩

/-- The condition on the strong types holds for the first pair, inside which there is `b`, for
the third one, before which there is `E`, and for the last one, inside which there is a number after `g`. -/
example : outer { testing := true } ∈ strongTypes bracketSample { testing := true } (fun _ => none) (lastLetter bracketSample { testing := true } ['A']) 0 "b[C]d 1,2".toList ∧
    LetterLast bracketSample { testing := true } "A(b[C]d 1,2)E ".toList ∧
    strongTypes bracketSample { testing := true } (fun _ => none) (lastLetter bracketSample { testing := true } "A(b[C]d 1,2)E (F)g".toList) 0 "3H".toList = [cL, cR] :=
  ⟨by decide +kernel, ⟨"A(b[C]d 1,2)E".toList, [' '], by decide +kernel, by decide +kernel, Or.inr ⟨"A(b[C]d 1,2)".toList, 'E', by decide +kernel, by decide +kernel⟩⟩,
    by decide +kernel⟩

/-- A bracket of a text which gets another direction than that of rule N0. -/
def OtherThanN0 (T : Tables) (o : Options) (t : List Char) (p : Nat) : Prop :=
  ∃ sched rl d c, Resolves T o sched (utf8 t) rl ∧ RuleN0 T o (firstParagraph T o t) d ∧ d p = some c ∧ rl.directionAt p ≠ dirOfStrong c

theorem otherThanN0 {T : Tables} {o : Options} {t : List Char} {p : Nat} {c : Class} (h1 : dirsOf T o (firstParagraph T o t) p = some c)
    (h2 : resolvedWith T o (fun _ => 0) (utf8 t) 199 (fun rl => decide (rl.directionAt p ≠ dirOfStrong c)) = true) : OtherThanN0 T o t p := by
  obtain ⟨rl, a1, a2⟩ := resolvedWith_iff h2
  exact ⟨_, rl, _, c, a1, ruleN0_dirs _ _ _, h1, of_decide_eq_true a2⟩

/-- The property does not hold for a pair after another pair: after "a(B)" the pair of "(C)" is
left to right, like the pair before. But it gets the direction of `B`. -/
theorem C71_bracket_violated : ∃ (T : Tables) (o : Options) (t : List Char), KnownClasses T ∧ BracketTable T ∧ o.markup = none ∧ o.outerR2L = false ∧
    classes T o t = [cL, cBRACKO, cR, cBRACKC, cBRACKO, cR, cBRACKC, cL] ∧ OtherThanN0 T o t 4 :=
  ⟨bracketSample, { testing := true }, "a(B)(C)d".toList, bracketSample_known, bracketSample_table, rfl, rfl, by decide +kernel,
    otherThanN0 (c := cL) (by decide +kernel) (by decide +kernel)⟩

/-- It does not hold for a pair directly inside another pair: in "A[(B)c]d" the outer pair is
left to right because of `c`, and the inner one is left to right like the bracket before it.
But it gets the direction of `A`. -/
theorem C71_nested_violated : ∃ (T : Tables) (o : Options) (t : List Char), KnownClasses T ∧ BracketTable T ∧ o.markup = none ∧ o.outerR2L = false ∧
    classes T o t = [cR, cBRACKO, cBRACKO, cR, cBRACKC, cL, cBRACKC, cL] ∧ OtherThanN0 T o t 2 :=
  ⟨bracketSample, { testing := true }, "A[(B)c]d".toList, bracketSample_known, bracketSample_table, rfl, rfl, by decide +kernel,
    otherThanN0 (c := cL) (by decide +kernel) (by decide +kernel)⟩

/-- It does not hold in a text from right to left for a pair before which there are neutral
characters only: in " (a)B" the pair is right to left, like the beginning of the text. But it
is left to right. -/
theorem C71_beginning_violated : ∃ (T : Tables) (o : Options) (t : List Char), KnownClasses T ∧ BracketTable T ∧ o.markup = none ∧ o.outerR2L = true ∧
    classes T o t = [cWS, cBRACKO, cL, cBRACKC, cR] ∧ OtherThanN0 T o t 1 :=
  ⟨bracketSample, { testing := true, outerR2L := true }, " (a)B".toList, bracketSample_known, bracketSample_table, rfl, rfl, by decide +kernel,
    otherThanN0 (c := cR) (by decide +kernel) (by decide +kernel)⟩

/-- It does not hold for texts with Arabic letters: an Arabic letter counts as the last strong
type, although a letter from left to right follows. -/
theorem C71_arabic_violated : ∃ (T : Tables) (o : Options) (t : List Char), KnownClasses T ∧ BracketTable T ∧ o.markup = none ∧ o.outerR2L = false ∧
    classes T o t = [cAL, cL, cWS, cBRACKO, cR, cBRACKC, cL] ∧ OtherThanN0 T o t 4 :=
  ⟨bracketSample, { testing := true }, [Char.ofNat 0x627, 'b', ' ', '(', 'C', ')', 'd'], bracketSample_known, bracketSample_table, rfl, rfl, by decide +kernel,
    otherThanN0 (c := cL) (by decide +kernel) (by decide +kernel)⟩

/-- It does not hold in a text from right to left for a pair with a number inside, but no letter:
in "a (1) b" the pair is left to right like the number and `a`. But it is right to left. -/
theorem C71_number_violated : ∃ (T : Tables) (o : Options) (t : List Char), KnownClasses T ∧ BracketTable T ∧ o.markup = none ∧ o.outerR2L = true ∧
    classes T o t = [cL, cWS, cBRACKO, cEN, cBRACKC, cWS, cL] ∧ OtherThanN0 T o t 2 :=
  ⟨bracketSample, { testing := true, outerR2L := true }, "a (1) b".toList, bracketSample_known, bracketSample_table, rfl, rfl, by decide +kernel,
    otherThanN0 (c := cL) (by decide +kernel) (by decide +kernel)⟩

/-- A pair without strong types inside gets no direction from rule N0. Its brackets are neutral
characters then, and get the direction of the letters around them if these agree (rule N1). But
in "A(!)C" they are left to right. -/
theorem C71_empty_violated : ∃ (T : Tables) (o : Options) (t : List Char) (sched : Nat → Nat) (rl : Levels) (d : Nat → Option Class), KnownClasses T ∧ BracketTable T ∧
    o.markup = none ∧ o.outerR2L = false ∧ classes T o t = [cR, cBRACKO, cON, cBRACKC, cR] ∧ RuleN0 T o (firstParagraph T o t) d ∧ d 1 = none ∧ d 3 = none ∧
    Resolves T o sched (utf8 t) rl ∧ (List.range 5).map rl.directionAt = [.rtl, .ltr, .ltr, .ltr, .rtl] := by
  obtain ⟨rl, a1, a2⟩ := resolvedWith_iff (T := bracketSample) (o := { testing := true }) (sched := fun _ => 0) (b := utf8 "A(!)C".toList) (n := 199)
    (f := fun rl => decide ((List.range 5).map rl.directionAt = [.rtl, .ltr, .ltr, .ltr, .rtl])) (by decide +kernel)
  exact ⟨bracketSample, { testing := true }, "A(!)C".toList, _, rl, _, bracketSample_known, bracketSample_table, rfl, rfl, by decide +kernel, ruleN0_dirs _ _ _,
    by decide +kernel, by decide +kernel, a1, of_decide_eq_true a2⟩

/-- A nonspacing mark gets the direction of the bracket before it. But in "A(B)c" with a mark
after the closing bracket, which is right to left, the mark is left to right. -/
theorem C71_mark_violated : ∃ (T : Tables) (o : Options) (t : List Char) (sched : Nat → Nat) (rl : Levels), KnownClasses T ∧ BracketTable T ∧
    o.markup = none ∧ o.outerR2L = false ∧ classes T o t = [cR, cBRACKO, cR, cBRACKC, cNSM, cL] ∧
    Resolves T o sched (utf8 t) rl ∧ (List.range 7).map rl.directionAt = [.rtl, .rtl, .rtl, .rtl, .ltr, .ltr, .ltr] := by
  obtain ⟨rl, a1, a2⟩ := resolvedWith_iff (T := bracketSample) (o := { testing := true }) (sched := fun _ => 0)
    (b := utf8 ['A', '(', 'B', ')', Char.ofNat 0x301, 'c']) (n := 199)
    (f := fun rl => decide ((List.range 7).map rl.directionAt = [.rtl, .rtl, .rtl, .rtl, .ltr, .ltr, .ltr])) (by decide +kernel)
  exact ⟨bracketSample, { testing := true }, ['A', '(', 'B', ')', Char.ofNat 0x301, 'c'], _, rl, bracketSample_known, bracketSample_table, rfl, rfl, by decide +kernel,
    a1, of_decide_eq_true a2⟩

end Uax
