import Verif.BidiNestDirections
import Verif.Props.BidiOutside

/-! Property C69 for isolates which are nested.

`ownSequence pos op lead inner` (SpecNested.lean) are the characters of an isolate which are in none
of the isolates inside it, together with the initiators and PDIs of those, each with its position:
this is the isolating run sequence of the isolate. `Isolates.DirectionsFor` (SpecNested.lean) says
of the runs nested for isolates, at every depth, that they give the directions of the standard for
these sequences, where the conditions named there are met. -/

namespace Uax
open Bidi Spec

/-- For every text with isolates, nested to any depth, whatever stands around them, and every
resolution of it: the run nested for an isolate gives the directions of the standard for the text of
this isolate, and the same holds for the isolates inside it, and so on. This is said of the
isolates with letters, European numbers, marks and neutrals (see `Isolates.DirectionsFor`).
Missing: isolates in others from right to left (see `C69_embedding_violated`), brackets and
separators (for the latter, if the isolates are not nested, see `C69_directions_partial`). -/
theorem C69_nested_partial (T : Tables) (o : Options) (sched : Nat → Nat) (t lead : List Char) (is : Isolates) (rl : Levels) (hT : KnownClasses T) (ho : o.markup = none)
    (ht : firstParagraph T o t = lead ++ is.chars) (h : NestedIsolates T o lead is) (h1 : cAN ∉ classes T o (firstParagraph T o t))
    (h2 : (classes T o (firstParagraph T o t)).head? ≠ some cNSM) (hr : Resolves T o sched (utf8 t) rl) :
    is.DirectionsFor T o rl (utf8 lead).length (nestedRuns rl.scraps) := by
  obtain ⟨N, p, e1, e2⟩ := resolve_inside hT ho sched ht h h1 h2
  have := (resolves_of e1).unique hr
  subst this
  have h3 : nestedRuns (levelsOf o p.stack).scraps = nestedRuns p.stack := by simp [nestedRuns, levelsOf]
  rw [h3]
  exact e2 _

/-- "ab >1b C! d <x Y! z= E>F g=h= k" with RLI, LRI and PDI for `<`, `>` and `=`. -/
def ownInner : Isolates := .more '<' "x Y! z".toList .none '=' " E".toList (.more '>' "F g".toList .none '=' "h".toList .none)
def ownList : Isolates := .more '>' "1b C! d ".toList ownInner '=' " k".toList .none

theorem own_good : NestedIsolates sample { testing := true } "ab ".toList ownList where
  good := good_more (by decide +kernel) (by decide) (Or.inl (by decide)) (by decide +kernel) (by decide +kernel)
    (good_more (by decide +kernel) (by decide) (Or.inl (by decide)) (by decide +kernel) (by decide +kernel) trivial
      (good_more (by decide +kernel) (by decide) (Or.inl (by decide)) (by decide +kernel) (by decide +kernel) trivial trivial))
    trivial
  outer := by
    have : ∀ c ∈ classes sample { testing := true } ("ab ".toList ++ ownList.outer), c ∉ [cLRI, cRLI, cFSI, cPDI] := by decide +kernel
    exact this
  numbersOutside pre post e := by
    have h : cR ∉ classes sample { testing := true } ("ab ".toList ++ ownList.outer) ∧ cAL ∉ classes sample { testing := true } ("ab ".toList ++ ownList.outer) := by decide +kernel
    rw [e] at h
    exact ⟨fun hm => h.1 (List.mem_append_left _ hm), fun hm => h.2 (List.mem_append_left _ hm)⟩
  numbers pre post e := by
    have h : cAL ∉ classes sample { testing := true } ("ab ".toList ++ ownList.chars) := by decide +kernel
    rw [e] at h
    exact fun hm => h (List.mem_append_left _ hm)

/-- The conditions are met by all isolates of this text. -/
example : firstParagraph sample { testing := true } ("ab ".toList ++ ownList.chars) = "ab ".toList ++ ownList.chars ∧
    cAN ∉ classes sample { testing := true } ("ab ".toList ++ ownList.chars) ∧
    (classes sample { testing := true } ("ab ".toList ++ ownList.chars)).head? ≠ some cNSM ∧
    SimpleClasses (classes sample { testing := true } ("1b C! d ".toList ++ ownInner.outer)) ∧
    InitiatorsSettled cL (classes sample { testing := true } ((ownSequence 3 '>' "1b C! d ".toList ownInner).map (·.1))) ∧
    (ownSequence 3 '>' "1b C! d ".toList ownInner).map (·.1) = "1b C! d <= E>=h".toList ∧
    directions cL (classes sample { testing := true } ((ownSequence 3 '>' "1b C! d ".toList ownInner).map (·.1))) =
      [.ltr, .ltr, .ltr, .rtl, .ltr, .ltr, .ltr, .ltr, .ltr, .ltr, .ltr, .rtl, .ltr, .ltr, .ltr] ∧
    InitiatorsSettled cR (classes sample { testing := true } ((ownSequence 12 '<' "x Y! z".toList .none).map (·.1))) ∧
    directions cR (classes sample { testing := true } ((ownSequence 12 '<' "x Y! z".toList .none).map (·.1))) = [.ltr, .rtl, .rtl, .rtl, .rtl, .ltr] := by
  refine ⟨by decide +kernel, by decide +kernel, by decide +kernel, ?_, initiatorsSettled_of (by decide +kernel), by decide +kernel, by decide +kernel,
    initiatorsSettled_of (by decide +kernel), by decide +kernel⟩
  have : ∀ c ∈ classes sample { testing := true } ("1b C! d ".toList ++ ownInner.outer), c ∈ [cL, cR, cAL, cEN, cNSM, cS, cWS, cON] := by decide +kernel
  exact this

/-- The property does not hold for isolates in others from right to left: in "a<b>x=C=d", the
initiator `>` between letters of different directions does not get the direction of the isolate in
which it stands. -/
theorem C69_embedding_violated : ∃ (T : Tables) (o : Options) (lead text after : List Char) (inner : Isolates) (sched : Nat → Nat) (rl : Levels) (run : List Scrap),
    KnownClasses T ∧ o.markup = none ∧ lead = "a".toList ∧ text = "b".toList ∧ inner = .more '>' "x".toList .none '=' "C".toList .none ∧
    NestedIsolates T o lead (.more '<' text inner '=' after .none) ∧
    Resolves T o sched (utf8 (lead ++ (Isolates.more '<' text inner '=' after .none).chars)) rl ∧ nestedRuns rl.scraps = [run] ∧
    SimpleClasses (classes T o (text ++ inner.outer)) ∧ InitiatorsSettled cR (classes T o ((ownSequence 1 '<' text inner).map (·.1))) ∧
    charClass T o '<' = cRLI ∧
    directions cR (classes T o ((ownSequence 1 '<' text inner).map (·.1))) = [.ltr, .rtl, .rtl, .rtl] ∧ (ownSequence 1 '<' text inner)[1]? = some ('>', 3) ∧
    ({ rl with scraps := run } : Levels).directionAt 3 = .ltr := by
  obtain ⟨rl, a1, a2⟩ := resolvedWith_iff (T := sample) (o := { testing := true }) (sched := fun _ => 0) (b := utf8 "a<b>x=C=d".toList) (n := 99)
    (f := fun rl => match nestedRuns rl.scraps with | [run] => decide (({ rl with scraps := run } : Levels).directionAt 3 = .ltr) | _ => false) (by decide +kernel)
  obtain ⟨run, hrun, hd⟩ : ∃ run, nestedRuns rl.scraps = [run] ∧ ({ rl with scraps := run } : Levels).directionAt 3 = .ltr := by
    match hk : nestedRuns rl.scraps with
    | [run] => rw [hk] at a2; exact ⟨run, rfl, by simpa using a2⟩
    | [] => rw [hk] at a2; exact absurd a2 (by simp)
    | _ :: _ :: _ => rw [hk] at a2; exact absurd a2 (by simp)
  refine ⟨sample, { testing := true }, _, _, "d".toList, _, _, rl, run, sample_known, rfl, rfl, rfl, rfl, ?_, a1, hrun, ?_, initiatorsSettled_of (by decide +kernel), by decide +kernel,
    by decide +kernel, by decide +kernel, hd⟩
  · exact {
      good := good_more (by decide +kernel) (by decide) (Or.inl (by decide)) (by decide +kernel) (by decide +kernel)
        (good_more (by decide +kernel) (by decide) (Or.inl (by decide)) (by decide +kernel) (by decide +kernel) trivial trivial) trivial
      outer := by
        have : ∀ c ∈ classes sample { testing := true } ("a".toList ++ (Isolates.more '<' "b".toList (.more '>' "x".toList .none '=' "C".toList .none) '=' "d".toList .none).outer),
          c ∉ [cLRI, cRLI, cFSI, cPDI] := by decide +kernel
        exact this
      numbersOutside := fun pre post e => by
        have h : cEN ∉ classes sample { testing := true } ("a".toList ++ (Isolates.more '<' "b".toList (.more '>' "x".toList .none '=' "C".toList .none) '=' "d".toList .none).outer) := by decide +kernel
        rw [e] at h
        exact absurd (by simp) h
      numbers := fun pre post e => by
        have h : cEN ∉ classes sample { testing := true } ("a".toList ++ (Isolates.more '<' "b".toList (.more '>' "x".toList .none '=' "C".toList .none) '=' "d".toList .none).chars) := by decide +kernel
        rw [e] at h
        exact absurd (by simp) h }
  · have : ∀ c ∈ classes sample { testing := true } ("b".toList ++ (Isolates.more '>' "x".toList .none '=' "C".toList .none).outer), c ∈ [cL, cR, cAL, cEN, cNSM, cS, cWS, cON] := by
      decide +kernel
    exact this

end Uax
