import Verif.BidiIsoOrder
import Verif.Props.BidiOutside
import Verif.Props.BidiVisual

/-! Property C63 for texts with isolates.

`textLevels` (SpecIsoVisual.lean) are the levels of all characters of a left-to-right paragraph with isolates, by
the rules X5a, X5b, W1 to W7, N1, N2, I1 and I2, where every isolate is an isolating run sequence of its own. `visualOrder` is
rule L2. Initiators and terminators of isolates have no glyphs: it is the order of the other characters which can
be seen (`visible`). -/

namespace Uax
open Bidi Spec

/-- For every left-to-right text with isolates which do not contain isolates, with letters, European numbers (not
after letters from right to left), marks and neutrals in the isolates and outside of them, where
the isolates are in text from left to right: resolution and reordering return whatever the schedule is, and
displaying the runs shows all visible characters of the first paragraph in the order of rule L2.
Missing: isolates next to text from right to left (see `C63_isolate_violated`), isolates in isolates
(see `C63_nested_violated`), right-to-left paragraphs, brackets and separators. -/
theorem C63_isolates_partial (T : Tables) (o : Options) (sched : Nat → Nat) (t lead : List Char) (is : Isolates) (hT : KnownClasses T) (ho : o.markup = none)
    (hL : o.outerR2L = false) (ht : firstParagraph T o t = lead ++ is.chars) (h : NestedIsolates T o lead is) (hd : is.depth ≤ 1)
    (h1 : SimpleClasses (classes T o (lead ++ is.outer))) (h2 : is.Simple T o) (h3 : cAN ∉ classes T o (firstParagraph T o t))
    (h4 : (classes T o (firstParagraph T o t)).head? ≠ some cNSM) (h5 : AmongL (classes T o ((outerSequence lead is).map (·.1)))) :
    ∃ rl runs, Resolves T o sched (utf8 t) rl ∧ rl.reorder = some runs ∧
      (shown (starts 0 (firstParagraph T o t)) .ltr runs).filter (visible T o (firstParagraph T o t)) =
        (visualOrder ((starts 0 (firstParagraph T o t)).zip (textLevels T o lead is))).filter (visible T o (firstParagraph T o t)) :=
  isolates_order hT ho hL sched ht h hd h1 h2 h3 h4 h5

/-- A form of the condition on isolates that can be computed. -/
theorem amongL_of {cs : List Class} (h0 : cs[0]? ∈ [some cLRI, some cRLI, some cFSI] → cs[0]? = some cRLI)
    (h : ∀ i, i < cs.length → cs[i]? ∈ [some cLRI, some cRLI, some cFSI] → ∀ j, j < cs.length → (i ≤ j + 1 ∧ j ≤ i + 2) → (resolved cL cs)[j]? = some cL) : AmongL cs := by
  intro i x hx h1
  obtain ⟨hl, -⟩ := List.getElem?_eq_some_iff.mp hx
  refine ⟨fun hi => ?_, fun j a b c => h i hl (by rw [hx]; simpa using h1) j c ⟨a, b⟩⟩
  subst hi
  have := h0 (by rw [hx]; simpa using h1)
  rw [hx, Option.some.injEq] at this
  exact this

/-- "ab 1 CD! é <Ghi JK=k L m>p1N oQ=rs" with RLI, LRI and PDI for `<`, `>` and `=`. -/
def amongLead : List Char := "ab 1 CD! é ".toList
def amongList : Isolates := .more '<' "Ghi JK".toList .none '=' "k L m".toList (.more '>' "p1N oQ".toList .none '=' "rs".toList .none)

theorem among_good : NestedIsolates sample { testing := true } amongLead amongList where
  good := good_more (by decide +kernel) (by decide) (Or.inl (by decide)) (by decide +kernel) (by decide +kernel) trivial
    (good_more (by decide +kernel) (by decide) (Or.inl (by decide)) (by decide +kernel) (by decide +kernel) trivial trivial)
  outer := by
    have : ∀ c ∈ classes sample { testing := true } (amongLead ++ amongList.outer), c ∉ [cLRI, cRLI, cFSI, cPDI] := by decide +kernel
    exact this
  numbersOutside pre post e := by
    have h : ∀ k, k < (amongLead ++ amongList.outer).length → (classes sample { testing := true } (amongLead ++ amongList.outer))[k]? = some cEN →
      cR ∉ (classes sample { testing := true } (amongLead ++ amongList.outer)).take k ∧
      cAL ∉ (classes sample { testing := true } (amongLead ++ amongList.outer)).take k := by decide +kernel
    have := h pre.length (by
      have := congrArg List.length e
      rw [classes, List.length_map] at this
      rw [this]; simp) (by rw [e]; simp)
    rwa [e, List.take_left] at this
  numbers pre post e := by
    have h : cAL ∉ classes sample { testing := true } (amongLead ++ amongList.chars) := by decide +kernel
    rw [e] at h
    exact fun hm => h (List.mem_append_left _ hm)

example : firstParagraph sample { testing := true } (amongLead ++ amongList.chars) = amongLead ++ amongList.chars ∧ amongList.depth ≤ 1 ∧
    SimpleClasses (classes sample { testing := true } (amongLead ++ amongList.outer)) ∧ amongList.Simple sample { testing := true } ∧
    cAN ∉ classes sample { testing := true } (amongLead ++ amongList.chars) ∧
    (classes sample { testing := true } (amongLead ++ amongList.chars)).head? ≠ some cNSM ∧
    AmongL (classes sample { testing := true } ((outerSequence amongLead amongList).map (·.1))) ∧
    textLevels sample { testing := true } amongLead amongList =
      [0, 0, 0, 0, 0, 1, 1, 0, 0, 0, 0, 0, 1, 2, 2, 1, 1, 1, 0, 0, 0, 1, 0, 0, 0, 2, 2, 3, 2, 2, 3, 0, 0, 0] := by
  refine ⟨by decide +kernel, by decide +kernel, ?_, ⟨?_, by decide +kernel, ?_, by decide +kernel, trivial⟩, by decide +kernel, by decide +kernel, amongL_of (by decide +kernel) (by decide +kernel), by decide +kernel⟩
  · have : ∀ c ∈ classes sample { testing := true } (amongLead ++ amongList.outer), c ∈ [cL, cR, cAL, cEN, cNSM, cS, cWS, cON] := by decide +kernel
    exact this
  · have : ∀ c ∈ classes sample { testing := true } "Ghi JK".toList, c ∈ [cL, cR, cAL, cEN, cNSM, cS, cWS, cON] := by decide +kernel
    exact this
  · have : ∀ c ∈ classes sample { testing := true } "p1N oQ".toList, c ∈ [cL, cR, cAL, cEN, cNSM, cS, cWS, cON] := by decide +kernel
    exact this

/-- The visible characters are in other places than in logical order. -/
example : (visualOrder ((starts 0 (amongLead ++ amongList.chars)).zip (textLevels sample { testing := true } amongLead amongList))).filter
      (visible sample { testing := true } (amongLead ++ amongList.chars)) =
    [0, 1, 2, 3, 4, 6, 5, 7, 8, 9, 11, 18, 17, 16, 14, 15, 13, 20, 21, 22, 23, 24, 26, 27, 28, 29, 30, 31, 33, 34] := by
  decide +kernel

/-- The order is another one if an isolate is next to text from right to left: in "A>b=C" the text goes from
right to left, and C has to be shown first. -/
theorem C63_isolate_violated : ∃ (T : Tables) (o : Options) (lead : List Char) (is : Isolates) (sched : Nat → Nat) (rl : Levels) (runs : List VRun),
    KnownClasses T ∧ o.markup = none ∧ o.outerR2L = false ∧ firstParagraph T o (lead ++ is.chars) = lead ++ is.chars ∧ is.depth ≤ 1 ∧
    Resolves T o sched (utf8 (lead ++ is.chars)) rl ∧ rl.reorder = some runs ∧
    (shown (starts 0 (lead ++ is.chars)) .ltr runs).filter (visible T o (lead ++ is.chars)) = [0, 2, 4] ∧
    (visualOrder ((starts 0 (lead ++ is.chars)).zip (textLevels T o lead is))).filter (visible T o (lead ++ is.chars)) = [4, 2, 0] := by
  obtain ⟨rl, a1, a2⟩ := resolvedWith_iff (T := sample) (o := { testing := true }) (sched := fun _ => 0) (b := utf8 "A>b=C".toList) (n := 99)
    (f := fun rl => decide (rl.reorder.map (fun runs => (shown (starts 0 "A>b=C".toList) .ltr runs).filter (visible sample { testing := true } "A>b=C".toList)) = some [0, 2, 4]))
    (by decide +kernel)
  rw [decide_eq_true_eq, Option.map_eq_some_iff] at a2
  obtain ⟨runs, a3, a4⟩ := a2
  exact ⟨sample, { testing := true }, ['A'], .more '>' ['b'] .none '=' ['C'] .none, _, rl, runs, sample_known, rfl, rfl, by decide +kernel, by decide +kernel, a1, a3, a4, by decide +kernel⟩

/-- The order is another one with isolates in isolates: in "a>D<E== f" the text of the inner isolate is
to the right of D, but shown to the left of it. -/
theorem C63_nested_violated : ∃ (T : Tables) (o : Options) (lead : List Char) (is : Isolates) (sched : Nat → Nat) (rl : Levels) (runs : List VRun),
    KnownClasses T ∧ o.markup = none ∧ o.outerR2L = false ∧ firstParagraph T o (lead ++ is.chars) = lead ++ is.chars ∧ is.depth = 2 ∧
    AmongL (classes T o ((outerSequence lead is).map (·.1))) ∧ Resolves T o sched (utf8 (lead ++ is.chars)) rl ∧ rl.reorder = some runs ∧
    (shown (starts 0 (lead ++ is.chars)) .ltr runs).filter (visible T o (lead ++ is.chars)) = [0, 4, 2, 7, 8] ∧
    (visualOrder ((starts 0 (lead ++ is.chars)).zip (textLevels T o lead is))).filter (visible T o (lead ++ is.chars)) = [0, 2, 4, 7, 8] := by
  obtain ⟨rl, a1, a2⟩ := resolvedWith_iff (T := sample) (o := { testing := true }) (sched := fun _ => 0) (b := utf8 "a>D<E== f".toList) (n := 99)
    (f := fun rl => decide (rl.reorder.map (fun runs => (shown (starts 0 "a>D<E== f".toList) .ltr runs).filter (visible sample { testing := true } "a>D<E== f".toList)) = some [0, 4, 2, 7, 8]))
    (by decide +kernel)
  rw [decide_eq_true_eq, Option.map_eq_some_iff] at a2
  obtain ⟨runs, a3, a4⟩ := a2
  exact ⟨sample, { testing := true }, ['a'], .more '>' ['D'] (.more '<' ['E'] .none '=' [] .none) '=' [' ', 'f'] .none, _, rl, runs, sample_known, rfl, rfl, by decide +kernel,
    by decide +kernel, amongL_of (by decide +kernel) (by decide +kernel), a1, a3, a4, by decide +kernel⟩

end Uax
