import Verif.BidiNestSeq
import Verif.Props.BidiNested

/-! Property C52 for the text outside of isolates.

`outerSequence lead is` (SpecNested.lean) are the characters of the paragraph which are in no
isolate, together with the isolate initiators and their PDIs, each with its position: this is the
isolating run sequence at the paragraph level. `directions` (SpecBidi.lean) gives the directions
of the standard for such a sequence. -/

namespace Uax
open Bidi Spec

/-- For every text with isolates, nested to any depth, in a left-to-right paragraph, where outside
of the isolates there are letters, European numbers (not after letters from right to left), marks
and neutrals, and where a neutral stands directly before an isolate only if the direction there is
the one of the paragraph: after resolution, which comes to an end whatever the schedule is,
DirectionAt gives the direction of the standard for every byte of every character outside of the
isolates, and of the isolate initiators and PDIs themselves.
Missing: text in isolates (see `C52_nested_violated`), neutrals before isolates in other places
(see `C52_isolate_violated`), right-to-left paragraphs (see `C52_embedding_violated`), brackets and
separators outside of isolates. -/
theorem C52_outside_partial (T : Tables) (o : Options) (sched : Nat → Nat) (t lead : List Char) (is : Isolates) (hT : KnownClasses T) (ho : o.markup = none)
    (hL : o.outerR2L = false) (ht : firstParagraph T o t = lead ++ is.chars) (h : NestedIsolates T o lead is)
    (h1 : SimpleClasses (classes T o (lead ++ is.outer))) (h2 : cAN ∉ classes T o (firstParagraph T o t))
    (h3 : (classes T o (firstParagraph T o t)).head? ≠ some cNSM)
    (h4 : InitiatorsSettled cL (classes T o ((outerSequence lead is).map (·.1)))) :
    ∃ rl, Resolves T o sched (utf8 t) rl ∧ ∀ (i : Nat) (c : Char) (pos : Nat), (outerSequence lead is)[i]? = some (c, pos) → ∀ k, k < (utf8 [c]).length →
      (directions cL (classes T o ((outerSequence lead is).map (·.1))))[i]? = some (rl.directionAt (pos + k)) := by
  rw [outerSequence_classes] at h4
  obtain ⟨N, p, ys, e1, e2, e3, e4, e5⟩ := resolve_outside hT ho hL sched ht h h1 h2 h3 h4
  refine ⟨_, resolves_of e1, ?_⟩
  intro i c pos hi k hk
  obtain ⟨⟨w, hw, hcw⟩, hpos⟩ := outerSequence_get hi
  have hlen : (widthsOf lead ++ seqWidths is).length = (resolved cL (classes T o lead ++ seqClasses T o is)).length := by
    have hlh : (classes T o lead).head? ≠ some cNSM := by
      rw [ht, classes_append] at h3
      cases hlead : classes T o lead with
      | nil => simp
      | cons c cs => rw [hlead] at h3; exact h3
    rw [(seq_resolved h.good h1 h.numbersOutside hlh).2.1, n12_length, List.length_map, seq_lengths T o]
  have hget := widen_get _ _ i w k hlen hw (by omega)
  rw [← hpos, ← e5] at hget
  obtain ⟨hil, -⟩ := List.getElem?_eq_some_iff.mp hw
  have hlt : pos + k < (utf8 (firstParagraph T o t)).length := by
    have hb := bytes_tiles ys _ _ e3 (fun s hs => Nat.le_of_lt (e4 s hs).2)
    rw [List.getElem?_eq_getElem (i := i) (by omega)] at hget
    obtain ⟨hh, -⟩ := List.getElem?_eq_some_iff.mp hget
    omega
  obtain ⟨s, s1, s2⟩ := find_bytes ys 0 _ _ e3 (fun s hs => (e4 s hs).2) (Nat.zero_le _) hlt
  have hd : (levelsOf o p.stack).directionAt (pos + k) = directionOf s .ltr := by
    unfold Levels.directionAt levelsOf
    dsimp only
    rw [e2, List.cons_append, List.find?_cons_of_neg, List.find?_append, s1]
    · rfl
    · have : (initialOuterScrap o true).r = 0 := rfl
      rw [this]
      simp
  rw [hd, outerSequence_classes]
  rw [Nat.sub_zero, hget] at s2
  unfold directions
  rw [List.getElem?_map, s2, Option.map_some, Option.some.injEq]
  rcases (e4 s (List.mem_of_find?_eq_some s1)).1 with h | h <;> unfold directionOf Spec.level <;> rw [h] <;> rfl

/-- "ab 1 C! d <Bc>d=e= D>y=E! f >x= é" with RLI, LRI and PDI for `<`, `>` and `=`. -/
def outsideLead : List Char := "ab 1 C! d ".toList
def outsideList : Isolates :=
  .more '<' "Bc".toList (.more '>' "d".toList .none '=' "e".toList .none) '=' " D".toList
    (.more '>' "y".toList .none '=' "E! f ".toList (.more '>' "x".toList .none '=' " é".toList .none))

theorem outside_good : NestedIsolates sample { testing := true } outsideLead outsideList where
  good := good_more (by decide +kernel) (by decide) (Or.inl (by decide)) (by decide +kernel) (by decide +kernel)
    (good_more (by decide +kernel) (by decide) (Or.inl (by decide)) (by decide +kernel) (by decide +kernel) trivial trivial)
    (good_more (by decide +kernel) (by decide) (Or.inl (by decide)) (by decide +kernel) (by decide +kernel) trivial
      (good_more (by decide +kernel) (by decide) (Or.inl (by decide)) (by decide +kernel) (by decide +kernel) trivial trivial))
  outer := by
    have : ∀ c ∈ classes sample { testing := true } (outsideLead ++ outsideList.outer), c ∉ [cLRI, cRLI, cFSI, cPDI] := by decide +kernel
    exact this
  numbersOutside pre post e := by
    have h : ∀ k, k < (outsideLead ++ outsideList.outer).length → (classes sample { testing := true } (outsideLead ++ outsideList.outer))[k]? = some cEN →
      cR ∉ (classes sample { testing := true } (outsideLead ++ outsideList.outer)).take k ∧
      cAL ∉ (classes sample { testing := true } (outsideLead ++ outsideList.outer)).take k := by decide +kernel
    have := h pre.length (by
      have := congrArg List.length e
      rw [classes, List.length_map] at this
      rw [this]; simp) (by rw [e]; simp)
    rwa [e, List.take_left] at this
  numbers pre post e := by
    have h : cAL ∉ classes sample { testing := true } (outsideLead ++ outsideList.chars) := by decide +kernel
    rw [e] at h
    exact fun hm => h (List.mem_append_left _ hm)

/-- A form of the condition on isolates that can be computed. -/
theorem initiatorsSettled_of {e : Class} {cs : List Class} (h : ∀ i, i < (w1 e cs).length - 1 → (w1 e cs)[i + 1]? ∈ [some cLRI, some cRLI, some cFSI] →
    (w1 e cs)[i]? ∈ [some cS, some cWS, some cON] → (resolved e cs)[i + 1]? = some e) : InitiatorsSettled e cs := by
  intro i x y hx hy h1 h2
  obtain ⟨hl, -⟩ := List.getElem?_eq_some_iff.mp hy
  refine h i (by omega) ?_ ?_
  · rw [hy]; simpa using h1
  · rw [hx]; simpa using h2

example : firstParagraph sample { testing := true } (outsideLead ++ outsideList.chars) = outsideLead ++ outsideList.chars ∧
    SimpleClasses (classes sample { testing := true } (outsideLead ++ outsideList.outer)) ∧
    cAN ∉ classes sample { testing := true } (outsideLead ++ outsideList.chars) ∧
    (classes sample { testing := true } (outsideLead ++ outsideList.chars)).head? ≠ some cNSM ∧
    InitiatorsSettled cL (classes sample { testing := true } ((outerSequence outsideLead outsideList).map (·.1))) ∧
    directions cL (classes sample { testing := true } ((outerSequence outsideLead outsideList).map (·.1))) =
      List.replicate 5 .ltr ++ [.rtl] ++ List.replicate 7 .ltr ++ List.replicate 4 .rtl ++ List.replicate 8 .ltr := by
  refine ⟨by decide +kernel, ?_, by decide +kernel, by decide +kernel, initiatorsSettled_of (by decide +kernel), by decide +kernel⟩
  have : ∀ c ∈ classes sample { testing := true } (outsideLead ++ outsideList.outer), c ∈ [cL, cR, cAL, cEN, cNSM, cS, cWS, cON] := by decide +kernel
  exact this

/-- The property does not hold in right-to-left paragraphs: an isolate between letters of different
directions does not get the direction of the paragraph. In "a>b=C" the initiator is from left to
right. -/
theorem C52_embedding_violated : ∃ (T : Tables) (o : Options) (lead : List Char) (is : Isolates) (sched : Nat → Nat) (rl : Levels),
    KnownClasses T ∧ o.markup = none ∧ o.outerR2L = true ∧ SimpleClasses (classes T o (lead ++ is.outer)) ∧
    InitiatorsSettled cR (classes T o ((outerSequence lead is).map (·.1))) ∧ Resolves T o sched (utf8 (lead ++ is.chars)) rl ∧
    directions cR (classes T o ((outerSequence lead is).map (·.1))) = [.ltr, .rtl, .rtl, .rtl] ∧ (outerSequence lead is)[1]? = some ('>', 1) ∧
    rl.directionAt 1 = .ltr := by
  obtain ⟨rl, a1, a2⟩ := resolvedWith_iff (T := sample) (o := { testing := true, outerR2L := true }) (sched := fun _ => 0) (b := utf8 "a>b=C".toList) (n := 99)
    (f := fun rl => decide (rl.directionAt 1 = .ltr)) (by decide +kernel)
  refine ⟨sample, { testing := true, outerR2L := true }, ['a'], .more '>' ['b'] .none '=' ['C'] .none, _, rl, sample_known, rfl, rfl, ?_, initiatorsSettled_of (by decide +kernel),
    a1, by decide +kernel, by decide +kernel, by simpa using a2⟩
  have : ∀ c ∈ classes sample { testing := true, outerR2L := true } (['a'] ++ (Isolates.more '>' ['b'] .none '=' ['C'] .none).outer), c ∈ [cL, cR, cAL, cEN, cNSM, cS, cWS, cON] := by
    decide +kernel
  exact this

end Uax
